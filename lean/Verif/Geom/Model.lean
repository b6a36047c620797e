import Verif.InSphere.Model
/-!
# Model of the predicates on explicit points of `src/predicates/mod.rs`

Coordinates live in a linearly ordered commutative ring; `predicates::orient2d`, `predicates::orient3d` are the exact
determinants (`src/predicates/predicates.rs` lines 499-502, 759-778). `&p[1..]` is the projection on (y,z).
-/
namespace Verif.Geom
open InSphere (Pt Ori orient3d doubleToSign)

variable {K : Type} [CommRing K] [LinearOrder K]

/-- `predicates::orient2d` (`predicates.rs` lines 498-528), exact. -/
def orient2d (a b c : K × K) : K := (a.1 - c.1) * (b.2 - c.2) - (a.2 - c.2) * (b.1 - c.1)

/-- The projections of a point. -/
def xy (p : Pt K) : K × K := (p.x, p.y)
@[inherit_doc xy] def yz (p : Pt K) : K × K := (p.y, p.z)
@[inherit_doc xy] def xz (p : Pt K) : K × K := (p.x, p.z)

/-- Signs of the three projected orientations, in the order in which the code looks at them. -/
def oXY (a b c : Pt K) : Ori := doubleToSign (orient2d (xy a) (xy b) (xy c))
@[inherit_doc oXY] def oYZ (a b c : Pt K) : Ori := doubleToSign (orient2d (yz a) (yz b) (yz c))
@[inherit_doc oXY] def oXZ (a b c : Pt K) : Ori := doubleToSign (orient2d (xz a) (xz b) (xz c))

/-- `point_in_inner_triangle` (lines 213-296). -/
def pointInInnerTriangle (p v1 v2 v3 : Pt K) : Bool :=
  if oXY p v2 v3 ≠ oXY v1 v2 v3 then false
  else if oYZ p v2 v3 ≠ oYZ v1 v2 v3 then false
  else if oXZ p v2 v3 ≠ oXZ v1 v2 v3 then false
  else if oXY p v3 v1 ≠ oXY v1 v2 v3 then false
  else if oYZ p v3 v1 ≠ oYZ v1 v2 v3 then false
  else if oXZ p v3 v1 ≠ oXZ v1 v2 v3 then false
  else if oXY p v1 v2 ≠ oXY v1 v2 v3 then false
  else if oYZ p v1 v2 ≠ oYZ v1 v2 v3 then false
  else if oXZ p v1 v2 ≠ oXZ v1 v2 v3 then false
  else true

/-- `orient3d` followed by `double_to_sign`. -/
def o3 (a b c d : Pt K) : Ori := doubleToSign (orient3d a b c d)

/-- `inner_segment_cross_inner_triangle` (lines 299-372). -/
def innerSegmentCrossInnerTriangle (u1 u2 v1 v2 v3 : Pt K) : Bool :=
  if v1.x ≤ min u1.x u2.x ∧ v2.x ≤ min u1.x u2.x ∧ v3.x ≤ min u1.x u2.x then false
  else if v1.x ≥ max u1.x u2.x ∧ v2.x ≥ max u1.x u2.x ∧ v3.x ≥ max u1.x u2.x then false
  else if v1.y ≤ min u1.y u2.y ∧ v2.y ≤ min u1.y u2.y ∧ v3.y ≤ min u1.y u2.y then false
  else if v1.y ≥ max u1.y u2.y ∧ v2.y ≥ max u1.y u2.y ∧ v3.y ≥ max u1.y u2.y then false
  else if v1.z ≤ min u1.z u2.z ∧ v2.z ≤ min u1.z u2.z ∧ v3.z ≤ min u1.z u2.z then false
  else if v1.z ≥ max u1.z u2.z ∧ v2.z ≥ max u1.z u2.z ∧ v3.z ≥ max u1.z u2.z then false
  else if o3 u1 v1 v2 v3 = .zero ∨ o3 u2 v1 v2 v3 = .zero then false
  else if o3 u1 v1 v2 v3 = o3 u2 v1 v2 v3 then false
  else if o3 u1 u2 v1 v2 = .zero ∨ o3 u1 u2 v2 v3 = .zero then false
  else if o3 u1 u2 v1 v2 ≠ o3 u1 u2 v2 v3 then false
  else if o3 u1 u2 v3 v1 = .zero then false
  else if o3 u1 u2 v3 v1 ≠ o3 u1 u2 v2 v3 then false
  else true

/-- `same_point` (lines 375-377). -/
def samePoint (p q : Pt K) : Bool := p.x == q.x && p.y == q.y && p.z == q.z

/-- `same_half_plane` (lines 379-407). -/
def sameHalfPlane (p q v1 v2 : Pt K) : Bool :=
  if oXY p v1 v2 ≠ oXY q v1 v2 then false
  else if oYZ p v1 v2 ≠ oYZ q v1 v2 then false
  else oXZ p v1 v2 == oXZ q v1 v2

/-- `mis_alignment` (lines 410-426). -/
def misAlignment (p q r : Pt K) : Bool :=
  if orient2d (xy p) (xy q) (xy r) ≠ 0 then true
  else if orient2d (yz p) (yz q) (yz r) ≠ 0 then true
  else orient2d (xz p) (xz q) (xz r) != 0

/-- `inner_segments_cross` (lines 429-488). -/
def innerSegmentsCross (u1 u2 v1 v2 : Pt K) : Bool :=
  if orient3d u1 u2 v1 v2 ≠ 0 then false
  else if sameHalfPlane u1 u2 v1 v2 || sameHalfPlane v1 v2 u1 u2 then false
  else if !misAlignment u1 v1 v2 then false
  else if !misAlignment u2 v1 v2 then false
  else if !misAlignment v1 u1 u2 then false
  else if !misAlignment v2 u1 u2 then false
  else if orient2d (xy u1) (xy u2) (xy v1) ≠ 0 then true
  else if orient2d (xy v1) (xy v2) (xy u2) ≠ 0 then true
  else if orient2d (yz u1) (yz u2) (yz v1) ≠ 0 then true
  else if orient2d (yz v1) (yz v2) (yz u2) ≠ 0 then true
  else if orient2d (xz u1) (xz u2) (xz v1) ≠ 0 then true
  else if orient2d (xz v1) (xz v2) (xz u2) ≠ 0 then true
  else false

/-- `point_in_inner_segment` (lines 491-504). -/
def pointInInnerSegment (p v1 v2 : Pt K) : Bool :=
  !misAlignment p v1 v2 &&
    (decide (v1.x < v2.x ∧ v1.x < p.x ∧ p.x < v2.x) || decide (v1.x > v2.x ∧ v1.x > p.x ∧ p.x > v2.x) ||
     decide (v1.y < v2.y ∧ v1.y < p.y ∧ p.y < v2.y) || decide (v1.y > v2.y ∧ v1.y > p.y ∧ p.y > v2.y) ||
     decide (v1.z < v2.z ∧ v1.z < p.z ∧ p.z < v2.z) || decide (v1.z > v2.z ∧ v1.z > p.z ∧ p.z > v2.z))

/-- `point_in_segment` (lines 507-514). -/
def pointInSegment (p v1 v2 : Pt K) : Bool := samePoint p v1 || samePoint p v2 || pointInInnerSegment p v1 v2

/-- `inner_segment_cross_triangle` (lines 565-580). -/
def innerSegmentCrossTriangle (u1 u2 v1 v2 v3 : Pt K) : Bool :=
  pointInInnerSegment v1 u1 u2 || pointInInnerSegment v2 u1 u2 || pointInInnerSegment v3 u1 u2 ||
  innerSegmentsCross v2 v3 u1 u2 || innerSegmentsCross v3 v1 u1 u2 || innerSegmentsCross v1 v2 u1 u2 ||
  innerSegmentCrossInnerTriangle u1 u2 v1 v2 v3

/-- `point_in_triangle` (lines 582-593). -/
def pointInTriangle (p v1 v2 v3 : Pt K) : Bool :=
  pointInSegment p v1 v2 || pointInSegment p v2 v3 || pointInSegment p v3 v1 || pointInInnerTriangle p v1 v2 v3

/-- `less_than_on_x/y/z` on exactly known coordinates: the sign of `a - b` (`src/predicates/less_than.rs` lines 51-61). -/
def lessThan (a b : K) : Ori := if a < b then .negative else if a > b then .positive else .zero

/-- `point_in_segment_general` (lines 519-562), on the exact coordinates of the represented points. -/
def pointInSegmentGeneral (p v1 v2 : Pt K) : Bool :=
  if lessThan v1.x p.x ≠ lessThan p.x v2.x then
    if lessThan v1.x p.x = .zero ∨ lessThan p.x v2.x = .zero then true else false
  else if lessThan v1.x p.x ≠ .zero then true
  else if lessThan v1.y p.y ≠ lessThan p.y v2.y then
    if lessThan v1.y p.y = .zero ∨ lessThan p.y v2.y = .zero then true else false
  else if lessThan v1.y p.y ≠ .zero then true
  else if lessThan v1.z p.z ≠ lessThan p.z v2.z then
    if lessThan v1.z p.z = .zero ∨ lessThan p.z v2.z = .zero then true else false
  else true

end Verif.Geom
