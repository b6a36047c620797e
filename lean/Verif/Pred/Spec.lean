import Verif.Pred.Dispatch
import Verif.Geom.Spec
/-!
# The point represented by an implicit point
-/
namespace Verif.Pred
open InSphere (Pt Ori doubleToSign)
open Geom (lerp Coplanar Collinear)

variable {K : Type} [Field K] [LinearOrder K]

/-- `X` is the only common point of the line `p q` and the plane `r s t` (a proper line and a proper plane). -/
structure LineMeetsPlane (l : LPI K) (X : Pt K) : Prop where
  line : l.p ≠ l.q
  plane : ¬ Collinear l.r l.s l.t
  on_line : ∃ u, X = lerp l.p l.q u
  on_plane : Coplanar X l.r l.s l.t
  unique : ∀ Y, (∃ u, Y = lerp l.p l.q u) → Coplanar Y l.r l.s l.t → Y = X

/-- `X` is the only common point of three proper planes. -/
structure PlanesMeet (t : TPI K) (X : Pt K) : Prop where
  plane1 : ¬ Collinear t.v1 t.v2 t.v3
  plane2 : ¬ Collinear t.w1 t.w2 t.w3
  plane3 : ¬ Collinear t.u1 t.u2 t.u3
  on1 : Coplanar X t.v1 t.v2 t.v3
  on2 : Coplanar X t.w1 t.w2 t.w3
  on3 : Coplanar X t.u1 t.u2 t.u3
  unique : ∀ Y, Coplanar Y t.v1 t.v2 t.v3 → Coplanar Y t.w1 t.w2 t.w3 → Coplanar Y t.u1 t.u2 t.u3 → Y = X

/-- The implicit point represents the point `X`. -/
def RepI : Imp K → Pt K → Prop
  | .lpi l, X => LineMeetsPlane l X
  | .tpi t, X => PlanesMeet t X

/-- The generic point represents the point `X`. -/
def Rep : Point K → Pt K → Prop
  | .explicit p, X => X = p
  | .lpi l, X => RepI (.lpi l) X
  | .tpi t, X => RepI (.tpi t) X

/-- The side of the plane through three points: positive if the fourth one lies above (in the convention of the crate). -/
def side (a b c d : Pt K) : Ori := doubleToSign (-(InSphere.orient3d a b c d))

/-- The projection on a coordinate plane: (y,z), (z,x) or (x,y). -/
def proj (axis : Nat) (p : Pt K) : K × K :=
  match axis with
  | 0 => (p.y, p.z)
  | 1 => (p.z, p.x)
  | _ => (p.x, p.y)

/-- The orientation of three points after projection. -/
def turn (axis : Nat) (a b c : Pt K) : Ori := doubleToSign (Geom.orient2d (proj axis a) (proj axis b) (proj axis c))

/-- A coordinate of a point. -/
def coord (axis : Nat) (p : Pt K) : K :=
  match axis with
  | 0 => p.x
  | 1 => p.y
  | _ => p.z

/-- The comparison of two numbers. -/
def cmp (a b : K) : Ori := if a < b then .negative else if b < a then .positive else .zero

/-- The scaling is positive and the filters, if they answer at all, answer correctly. -/
structure Env.Sound (E : Env K) : Prop where
  scale : ∀ h, 0 < E.scale h
  early3 : ∀ P Q R S o, E.early3 P Q R S = some o → ∀ W X Y Z, Rep P W → Rep Q X → Rep R Y → Rep S Z → o = side W X Y Z
  early2 : ∀ axis P Q R o, E.early2 axis P Q R = some o → ∀ X Y Z, Rep P X → Rep Q Y → Rep R Z → o = turn axis X Y Z
  early1 : ∀ axis P Q o, E.early1 axis P Q = some o → ∀ X Y, Rep P X → Rep Q Y → o = cmp (coord axis X) (coord axis Y)

/-- No filters, no scaling: only the exact stage. -/
def plain : Env K := { scale := fun _ => 1, early3 := fun _ _ _ _ => none, early2 := fun _ _ _ _ => none, early1 := fun _ _ _ => none }

end Verif.Pred
