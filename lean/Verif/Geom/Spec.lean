import Verif.InSphere.Model
/-!
# Geometric meaning of the predicates
-/
namespace Verif.Geom
open InSphere (Pt)

variable {K : Type} [Field K] [LinearOrder K]

/-- The point `o + t d`. -/
def onLine (o d : Pt K) (t : K) : Pt K := ⟨o.x + t * d.x, o.y + t * d.y, o.z + t * d.z⟩

/-- The three points lie on a common line. -/
def Collinear (p q r : Pt K) : Prop := ∃ o d : Pt K, ∃ a b c : K, p = onLine o d a ∧ q = onLine o d b ∧ r = onLine o d c

/-- The point dividing the segment `a b` in the ratio `t : 1 - t`. -/
def lerp (a b : Pt K) (t : K) : Pt K :=
  ⟨(1 - t) * a.x + t * b.x, (1 - t) * a.y + t * b.y, (1 - t) * a.z + t * b.z⟩

/-- The weighted sum of three points. -/
def comb (w1 w2 w3 : K) (a b c : Pt K) : Pt K :=
  ⟨w1 * a.x + w2 * b.x + w3 * c.x, w1 * a.y + w2 * b.y + w3 * c.y, w1 * a.z + w2 * b.z + w3 * c.z⟩

/-- `p` lies in the open segment between two different points. -/
def InOpenSegment (p a b : Pt K) : Prop := a ≠ b ∧ ∃ t, 0 < t ∧ t < 1 ∧ p = lerp a b t

/-- `p` lies in the closed segment. -/
def InClosedSegment (p a b : Pt K) : Prop := ∃ t, 0 ≤ t ∧ t ≤ 1 ∧ p = lerp a b t

/-- `p` lies in the interior of the triangle. -/
def InOpenTriangle (p a b c : Pt K) : Prop :=
  ∃ w1 w2 w3, 0 < w1 ∧ 0 < w2 ∧ 0 < w3 ∧ w1 + w2 + w3 = 1 ∧ p = comb w1 w2 w3 a b c

/-- `p` lies in the closed triangle. -/
def InClosedTriangle (p a b c : Pt K) : Prop :=
  ∃ w1 w2 w3, 0 ≤ w1 ∧ 0 ≤ w2 ∧ 0 ≤ w3 ∧ w1 + w2 + w3 = 1 ∧ p = comb w1 w2 w3 a b c

/-- `p` lies in the plane through the three points. -/
def Coplanar (p a b c : Pt K) : Prop := ∃ w1 w2 w3, w1 + w2 + w3 = 1 ∧ p = comb w1 w2 w3 a b c

/-- The open segments `u1 u2` and `v1 v2` have a common point and lie on different lines. -/
def SegmentsCross (u1 u2 v1 v2 : Pt K) : Prop :=
  (∃ s t, 0 < s ∧ s < 1 ∧ 0 < t ∧ t < 1 ∧ lerp u1 u2 s = lerp v1 v2 t) ∧
    ¬ (Collinear u1 u2 v1 ∧ Collinear u1 u2 v2 ∧ Collinear v1 v2 u1 ∧ Collinear v1 v2 u2)

end Verif.Geom
