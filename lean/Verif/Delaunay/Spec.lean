import Verif.Tet.Finish
import Verif.Tet.Locate
import Mathlib.Algebra.BigOperators.Fin
/-!
# Specification: Delaunay tetrahedralizations

Nothing here refers to how the complex is built.
-/
namespace Verif.Delaunay
open Tet
open InSphere (Pt orient3d)
open scoped BigOperators

variable {K : Type} [Field K] [LinearOrder K]

/-- Square of the distance. -/
def dist2 (a b : Pt K) : K := (a.x - b.x) ^ 2 + (a.y - b.y) ^ 2 + (a.z - b.z) ^ 2

/-- `p` is the combination of the points `c i` with the weights `w i`, which add up to one. -/
structure Comb {ι : Type} [Fintype ι] (c : ι → Pt K) (w : ι → K) (p : Pt K) : Prop where
  sum : ∑ i, w i = 1
  x : p.x = ∑ i, w i * (c i).x
  y : p.y = ∑ i, w i * (c i).y
  z : p.z = ∑ i, w i * (c i).z

/-- The tetrahedron `t` of the mesh is solid and its corners have the coordinates `c`. -/
def SolidTet (pts : List (Pt K)) (m : Mesh) (t : Nat) (c : Fin 4 → Pt K) : Prop :=
  ∃ x : Tet.Tet, m.tets[t]? = some x ∧ x.data 3 ≠ pts.length ∧ ∀ i, pts[x.data i]? = some (c i)

/-- Tetrahedra connected to `t0` through faces that contain both `a` and `b`. -/
inductive Ring (m : Mesh) (a b t0 : Nat) : Nat → Prop
  | base : Ring m a b t0 t0
  | step {t x i h} : Ring m a b t0 t → m.tets[t]? = some x → x.data i ≠ a → x.data i ≠ b → x.nei i = some h → Ring m a b t0 h.tet

/-- The mesh is a Delaunay tetrahedralization of the points; the tetrahedra whose last corner is `pts.length` are the ghosts that
represent the outside. -/
structure IsDelaunay (pts : List (Pt K)) (m : Mesh) : Prop where
  /-- number of points -/
  num : m.nPoints = pts.length
  /-- every face is glued to exactly one other face with the same corners in opposite order -/
  whole : Consistent m (· < m.tets.length)
  /-- the corners of a tetrahedron are points, except that the last one may be the ghost vertex -/
  point : ∀ (t : Nat) (x : Tet.Tet), m.tets[t]? = some x → x.data 0 < pts.length ∧ x.data 1 < pts.length ∧ x.data 2 < pts.length ∧ x.data 3 ≤ pts.length
  /-- solid tetrahedra have negative orientation and an empty circumsphere -/
  sphere : ∀ t c, SolidTet pts m t c → orient3d (c 0) (c 1) (c 2) (c 3) < 0 ∧ ∃ o r, (∀ i, dist2 o (c i) = r) ∧ ∀ e ∈ pts, r ≤ dist2 o e
  /-- all points lie on the inner side of the base of every ghost, and the ghost sits on a solid tetrahedron -/
  hull : ∀ (t : Nat) (x : Tet.Tet) (a b c : Pt K), m.tets[t]? = some x → x.data 3 = pts.length → pts[x.data 0]? = some a → pts[x.data 1]? = some b → pts[x.data 2]? = some c →
    (∀ e ∈ pts, 0 ≤ orient3d a b c e) ∧ ∃ h, x.nei 3 = some h ∧ Solid m h.tet
  /-- different solid tetrahedra have disjoint interiors -/
  apart : ∀ s t c c' w w' p, SolidTet pts m s c → SolidTet pts m t c' → (∀ i, 0 < w i) → (∀ i, 0 < w' i) → Comb c w p → Comb c' w' p → s = t
  /-- the solid tetrahedra cover the convex hull of the points -/
  cover : ∀ p (w : Fin pts.length → K), (∀ i, 0 ≤ w i) → Comb (fun i => pts[i]) w p → ∃ t c w', SolidTet pts m t c ∧ (∀ i, 0 ≤ w' i) ∧ Comb c w' p
  /-- every point is a corner of the solid tetrahedron its link names -/
  vertex : ∀ v < pts.length, GoodLink m v
  /-- a point common to two solid tetrahedra lies in a common face: its carriers in the one are corners of the other -/
  meet : ∀ s t (x y : Tet.Tet) c c' w w' p, m.tets[s]? = some x → m.tets[t]? = some y → SolidTet pts m s c → SolidTet pts m t c' → (∀ i, 0 ≤ w i) → (∀ i, 0 ≤ w' i) →
    Comb c w p → Comb c' w' p → ∀ i, 0 < w i → ∃ j, y.data j = x.data i
  /-- no face with an orientation occurs twice -/
  side : ∀ h g : TriFace, h.tet < m.tets.length → g.tet < m.tets.length → m.org h = m.org g → m.dest h = m.dest g → m.apex h = m.apex g → h = g
  /-- the solid tetrahedra at a vertex hang together by faces at the vertex -/
  star : ∀ v s t (x y : Tet.Tet), m.tets[s]? = some x → m.tets[t]? = some y → x.data 3 ≠ pts.length → y.data 3 ≠ pts.length → (∃ i, x.data i = v) → (∃ i, y.data i = v) → Star m v s t
  /-- the tetrahedra at an edge hang together by faces at the edge -/
  ring : ∀ a b s t (x y : Tet.Tet), m.tets[s]? = some x → m.tets[t]? = some y → (∃ i, x.data i = a) → (∃ i, x.data i = b) → (∃ i, y.data i = a) → (∃ i, y.data i = b) → Ring m a b s t
  /-- no mark of a search is left -/
  clean : ∀ (t : Nat) (x : Tet.Tet), m.tets[t]? = some x → x.marked = false

end Verif.Delaunay
