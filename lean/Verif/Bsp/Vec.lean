import Verif.Geom.Spec
import Mathlib.Algebra.Order.Field.Basic
import Mathlib.Tactic.Linarith
import Mathlib.Tactic.LinearCombination
import Mathlib.Tactic.FieldSimp
import Mathlib.Tactic.Positivity
import Mathlib.Tactic.Ring
/-!
# Vectors and planes for the geometry of the BSP complex
-/
namespace Verif.Bsp
open InSphere (Pt)
open Geom (lerp)

section
variable {K : Type} [Field K]

def vsub (p q : Pt K) : Pt K := ⟨p.x - q.x, p.y - q.y, p.z - q.z⟩
def vdot (p q : Pt K) : K := p.x * q.x + p.y * q.y + p.z * q.z
def vdet (u v w : Pt K) : K := u.x * (v.y * w.z - v.z * w.y) + u.y * (v.z * w.x - v.x * w.z) + u.z * (v.x * w.y - v.y * w.x)

/-- An affine function: `n · p + d`. Its zero set is a plane. -/
structure Aff (K : Type) where
  n : Pt K
  d : K

/-- Its value at a point. -/
def Aff.ev (A : Aff K) (p : Pt K) : K := vdot A.n p + A.d

def Aff.neg (A : Aff K) : Aff K := ⟨⟨-A.n.x, -A.n.y, -A.n.z⟩, -A.d⟩

/-- Seen along `n`, the point `p` is to the left of the directed line from `a` to `b` if this is positive. -/
def area (n a b p : Pt K) : K := vdet n (vsub b a) (vsub p a)

theorem Aff.neg_ev (A : Aff K) (p : Pt K) : A.neg.ev p = - A.ev p := by
  simp only [Aff.neg, Aff.ev, vdot]; ring

theorem turn_neg (A : Aff K) (a b p : Pt K) : area A.neg.n a b p = - area A.n a b p := by
  simp only [Aff.neg, area, vdet, vsub]; ring

theorem turn_rot (n a b p : Pt K) : area n b p a = area n a b p := by simp only [area, vdet, vsub]; ring
theorem turn_swap (n a b p : Pt K) : area n b a p = - area n a b p := by simp only [area, vdet, vsub]; ring
theorem turn_self (n a p : Pt K) : area n a a p = 0 := by simp only [area, vdet, vsub]; ring
theorem turn_left (n a b : Pt K) : area n a b a = 0 := by simp only [area, vdet, vsub]; ring
theorem turn_right (n a b : Pt K) : area n a b b = 0 := by simp only [area, vdet, vsub]; ring

theorem turn_lerp (n a b p q : Pt K) (t : K) : area n a b (lerp p q t) = (1 - t) * area n a b p + t * area n a b q := by
  simp only [area, vdet, vsub, lerp]; ring

theorem ev_lerp (A : Aff K) (p q : Pt K) (t : K) : A.ev (lerp p q t) = (1 - t) * A.ev p + t * A.ev q := by
  simp only [Aff.ev, vdot, lerp]; ring

theorem turn_from (n a b q : Pt K) (t : K) : area n (lerp a b t) b q = (1 - t) * area n a b q := by
  simp only [area, vdet, vsub, lerp]; ring

theorem turn_to (n a b q : Pt K) (t : K) : area n a (lerp a b t) q = t * area n a b q := by
  simp only [area, vdet, vsub, lerp]; ring

theorem lerp_zero (a b : Pt K) : lerp a b 0 = a := by simp [lerp]
theorem lerp_one (a b : Pt K) : lerp a b 1 = b := by simp [lerp]
theorem lerp_self (a : Pt K) (t : K) : lerp a a t = a := by
  obtain ⟨x, y, z⟩ := a
  simp only [lerp, Pt.mk.injEq]; refine ⟨?_, ?_, ?_⟩ <;> ring

theorem lerp_symm (a b : Pt K) (t : K) : lerp a b t = lerp b a (1 - t) := by
  simp only [lerp, Pt.mk.injEq]; refine ⟨?_, ?_, ?_⟩ <;> ring

/-- The distance to a plane through a triangle. -/
theorem ev_det {A : Aff K} {a b p : Pt K} (ha : A.ev a = 0) (hb : A.ev b = 0) (hp : A.ev p = 0) (q : Pt K) :
    vdot A.n A.n * vdet (vsub q a) (vsub b a) (vsub p a) = A.ev q * area A.n a b p := by
  simp only [Aff.ev, vdot, area, vdet, vsub] at *
  linear_combination (exp := 1) ((A.n.x * ((b.y - a.y) * (p.z - a.z) - (b.z - a.z) * (p.y - a.y)) + A.n.y * ((b.z - a.z) * (p.x - a.x) - (b.x - a.x) * (p.z - a.z)) + A.n.z * ((b.x - a.x) * (p.y - a.y) - (b.y - a.y) * (p.x - a.x)))) * (-ha)
    + ((q.x - a.x) * (A.n.y * (p.z - a.z) - A.n.z * (p.y - a.y)) + (q.y - a.y) * (A.n.z * (p.x - a.x) - A.n.x * (p.z - a.z)) + (q.z - a.z) * (A.n.x * (p.y - a.y) - A.n.y * (p.x - a.x))) * (hb - ha)
    - ((q.x - a.x) * (A.n.y * (b.z - a.z) - A.n.z * (b.y - a.y)) + (q.y - a.y) * (A.n.z * (b.x - a.x) - A.n.x * (b.z - a.z)) + (q.z - a.z) * (A.n.x * (b.y - a.y) - A.n.y * (b.x - a.x))) * (hp - ha)

/-- Three vectors in a plane are dependent. -/
theorem vdet_plane {n u v w : Pt K} (hn : vdot n n ≠ 0) (hu : vdot n u = 0) (hv : vdot n v = 0) (hw : vdot n w = 0) : vdet u v w = 0 := by
  have h : vdot n n * vdet u v w = 0 := by
    simp only [vdot, vdet] at *
    linear_combination (v.x * (w.y * n.z - w.z * n.y) + v.y * (w.z * n.x - w.x * n.z) + v.z * (w.x * n.y - w.y * n.x)) * hu
      - (u.x * (w.y * n.z - w.z * n.y) + u.y * (w.z * n.x - w.x * n.z) + u.z * (w.x * n.y - w.y * n.x)) * hv
      + (u.x * (v.y * n.z - v.z * n.y) + u.y * (v.z * n.x - v.x * n.z) + u.z * (v.x * n.y - v.y * n.x)) * hw
  exact (mul_eq_zero.1 h).resolve_left hn

/-- A linear function that vanishes on `w`, in a plane that contains `w`. -/
theorem vdet_ratio {n m u v w : Pt K} (hn : vdot n n ≠ 0) (hu : vdot n u = 0) (hv : vdot n v = 0) (hw : vdot n w = 0) (hm : vdot m w = 0) :
    vdot m u * vdet n v w = vdot m v * vdet n u w := by
  have h := vdet_plane hn hu hv hw
  simp only [vdot, vdet] at *
  linear_combination (m.x * n.x + m.y * n.y + m.z * n.z) * h - (u.x * (v.y * n.z - v.z * n.y) + u.y * (v.z * n.x - v.x * n.z) + u.z * (v.x * n.y - v.y * n.x)) * hm

theorem vdot_vsub (A : Aff K) (p q : Pt K) : vdot A.n (vsub p q) = A.ev p - A.ev q := by
  simp only [Aff.ev, vdot, vsub]; ring

/-- Two functions on a plane, the second one vanishes at `a` and `b`. -/
theorem ev_ratio {A G : Aff K} (hn : vdot A.n A.n ≠ 0) {a b p q : Pt K} (ha : A.ev a = 0) (hb : A.ev b = 0) (hp : A.ev p = 0) (hq : A.ev q = 0) (ga : G.ev a = 0) (gb : G.ev b = 0) :
    G.ev p * area A.n a b q = G.ev q * area A.n a b p := by
  have h := vdet_ratio (n := A.n) (m := G.n) (u := vsub p a) (v := vsub q a) (w := vsub b a) hn (by rw [vdot_vsub, hp, ha, sub_zero]) (by rw [vdot_vsub, hq, ha, sub_zero])
    (by rw [vdot_vsub, hb, ha, sub_zero]) (by rw [vdot_vsub, gb, ga, sub_zero])
  rw [vdot_vsub, vdot_vsub, ga, sub_zero, sub_zero] at h
  simp only [area]
  have e : ∀ r : Pt K, vdet A.n (vsub r a) (vsub b a) = - vdet A.n (vsub b a) (vsub r a) := fun r => by simp only [vdet, vsub]; ring
  rw [e, e] at h
  linear_combination -h

/-- Two directed segments that cross the line `G = 0` upwards: the point where the one crosses, seen from the other. -/
theorem two_up {A G : Aff K} (hn : vdot A.n A.n ≠ 0) {a b a' b' : Pt K} (ha : A.ev a = 0) (hb : A.ev b = 0) (ha' : A.ev a' = 0) (hb' : A.ev b' = 0) :
    (G.ev b' * area A.n a b a' - G.ev a' * area A.n a b b') + (G.ev b * area A.n a' b' a - G.ev a * area A.n a' b' b) = 0 := by
  have e : ∀ p q r : Pt K, A.ev p = 0 → A.ev q = 0 → A.ev r = 0 → vdet (vsub p a) (vsub q a) (vsub r a) = 0 := fun p q r hp hq hr =>
    vdet_plane hn (by rw [vdot_vsub, hp, ha, sub_zero]) (by rw [vdot_vsub, hq, ha, sub_zero]) (by rw [vdot_vsub, hr, ha, sub_zero])
  have h := e b a' b' hb ha' hb'
  simp only [vdet, vsub] at h
  simp only [Aff.ev, area, vdet, vsub, vdot] at *
  linear_combination (G.n.x * A.n.x + G.n.y * A.n.y + G.n.z * A.n.z) * h

end

section
variable {K : Type} [Field K] [LinearOrder K] [IsStrictOrderedRing K]

theorem vdot_pos {u : Pt K} (h : u ≠ ⟨0, 0, 0⟩) : 0 < vdot u u := by
  obtain ⟨x, y, z⟩ := u
  simp only [vdot]
  rcases eq_or_ne x 0 with rfl | hx
  · rcases eq_or_ne y 0 with rfl | hy
    · rcases eq_or_ne z 0 with rfl | hz
      · exact absurd rfl h
      · have := mul_self_pos.2 hz; linarith
    · have := mul_self_pos.2 hy; have := mul_self_nonneg z; linarith
  · have := mul_self_pos.2 hx; have := mul_self_nonneg z; have := mul_self_nonneg y; linarith

theorem vsub_ne {p q : Pt K} (h : p ≠ q) : vsub p q ≠ ⟨0, 0, 0⟩ := by
  intro e
  apply h
  simp only [vsub, Pt.mk.injEq] at e
  obtain ⟨e1, e2, e3⟩ := e
  obtain ⟨x, y, z⟩ := p
  obtain ⟨x', y', z'⟩ := q
  simp only [Pt.mk.injEq] at *
  exact ⟨by linarith, by linarith, by linarith⟩

/-- A plane has a normal as soon as something turns in it. -/
theorem normal_of_turn {n a b p : Pt K} (h : area n a b p ≠ 0) : vdot n n ≠ 0 := by
  apply ne_of_gt
  apply vdot_pos
  rintro rfl
  apply h
  simp [area, vdet]

/-- A point of the plane that is neither left nor right of a line lies on the line. -/
theorem on_line {A : Aff K} (hn : vdot A.n A.n ≠ 0) {a b p : Pt K} (ha : A.ev a = 0) (hb : A.ev b = 0) (hp : A.ev p = 0) (hab : a ≠ b) (h : area A.n a b p = 0) :
    ∃ t, p = lerp a b t := by
  have hu := vdot_pos (vsub_ne hab.symm)
  have hc : ∀ q : Pt K, vdet (vsub q a) (vsub b a) (vsub p a) = 0 := by
    intro q
    have := ev_det ha hb hp q
    rw [h, mul_zero] at this
    exact (mul_eq_zero.1 this).resolve_left hn
  refine ⟨vdot (vsub b a) (vsub p a) / vdot (vsub b a) (vsub b a), ?_⟩
  have h1 := hc ⟨a.x + 1, a.y, a.z⟩
  have h2 := hc ⟨a.x, a.y + 1, a.z⟩
  have h3 := hc ⟨a.x, a.y, a.z + 1⟩
  obtain ⟨px, py, pz⟩ := p
  simp only [lerp, Pt.mk.injEq]
  generalize hD : vdot (vsub b a) (vsub b a) = D at *
  have hD0 : D ≠ 0 := hu.ne'
  simp only [vdet, vsub, vdot] at *
  refine ⟨?_, ?_, ?_⟩ <;> field_simp
  · linear_combination (b.z - a.z) * h2 - (b.y - a.y) * h3 + (px - a.x) * (-hD)
  · linear_combination -(b.z - a.z) * h1 + (b.x - a.x) * h3 + (py - a.y) * (-hD)
  · linear_combination (b.y - a.y) * h1 - (b.x - a.x) * h2 + (pz - a.z) * (-hD)

end
end Verif.Bsp
