import Mathlib.Algebra.Order.Field.Basic
import Mathlib.Data.List.Rotate
import Mathlib.Data.List.Nodup
import Mathlib.Tactic.Ring
import Mathlib.Tactic.Linarith
/-!
# The output of `complex_partition` (`src/polygonlization/bsp_complex.rs` lines 757-839)

Coordinates are elements of an ordered field, so the areas of the loops are exact. `triangulate` is an input (see `Verif.Tri`).
-/
namespace Verif.Bsp.Output

variable {K : Type} [Field K] [LinearOrder K]

/-- `project_point` (lines 757-765). -/
def project (axis : Nat) (p : K × K × K) : K × K :=
  if axis = 0 then (p.2.1, p.2.2) else if axis = 1 then (p.2.2, p.1) else (p.1, p.2.1)

/-- The variables of the loop over the vertices of a face: `v_old_to_new`, `out_points`, `loop_vert_indices`, `points_2d`, `face_new_verts`. The two index
vectors are lists of their valid entries. -/
structure Vars (K : Type) where
  vmap : List (Nat × Nat)
  pts : List (K × K × K)
  lmap : List (Nat × Nat)
  p2 : List (K × K)
  fnew : List Nat

/-- Lines 781-786. -/
def newIndex (pos : Nat → K × K × K) (s : Vars K) (v : Nat) : Vars K × Nat :=
  match s.vmap.lookup v with
  | some i => (s, i)
  | none => ({ s with vmap := (v, s.pts.length) :: s.vmap, pts := s.pts ++ [pos v] }, s.pts.length)

/-- Lines 780-794 for one vertex; the result is the local index. `point(&out_points, new_vid)` is `none` when the index is out of range. -/
def visit (pos : Nat → K × K × K) (axis : Nat) (s : Vars K) (v : Nat) : Option (Vars K × Nat) :=
  let (s, i) := newIndex pos s v
  match s.lmap.lookup v with
  | some j => some (s, j)
  | none => do
    let p ← s.pts[i]?
    some ({ s with lmap := (v, s.p2.length) :: s.lmap, p2 := s.p2 ++ [project axis p], fnew := s.fnew ++ [i] }, s.p2.length)

/-- The vertices of a loop (lines 780-794). -/
def visitAll (pos : Nat → K × K × K) (axis : Nat) : Vars K → List Nat → Option (Vars K × List Nat)
  | s, [] => some (s, [])
  | s, v :: l => do
    let (s, j) ← visit pos axis s v
    let (s, js) ← visitAll pos axis s l
    some (s, j :: js)

/-- `circular_tuple_windows`. -/
def circular (l : List Nat) : List (Nat × Nat) := l.zip (l.rotate 1)

/-- The loops of a face (lines 777-807): `loop_vert_indices` is reset after each loop. The result has `segments`. -/
def visitLoops (pos : Nat → K × K × K) (axis : Nat) : Vars K → List (List Nat) → Option (Vars K × List (Nat × Nat))
  | s, [] => some (s, [])
  | s, l :: ls => do
    let (s, js) ← visitAll pos axis s l
    let (s, r) ← visitLoops pos axis { s with lmap := [] } ls
    some (s, circular js ++ r)

/-- `poly_area` (lines 1979-1987). -/
def polyArea (p : List (K × K)) (segs : List (Nat × Nat)) : Option K :=
  (segs.mapM fun ab : Nat × Nat => p[ab.1]?.bind fun a => p[ab.2]?.map fun b => a.1 * b.2 - a.2 * b.1).map List.sum

/-- `loop_areas` (lines 814-822). -/
def loopAreas (p : List (K × K)) (segs : List (Nat × Nat)) : Nat → List (List Nat) → Option (List K)
  | _, [] => some []
  | start, l :: ls => do
    let a ← polyArea p ((segs.drop start).take l.length)
    let r ← loopAreas p segs (start + l.length) ls
    some (a :: r)

/-- `loop_areas[max_loop_idx]` (lines 824-828): the last one of greatest absolute value. -/
def largest : List K → Option K
  | [] => none
  | a :: l => match largest l with
    | none => some a
    | some b => if |b| < |a| then some a else some b

/-- `p.swap(0, 1)`. -/
def swap (p : K × K) : K × K := (p.2, p.1)

/-- One face (lines 771-838). -/
def face (tri : List (K × K) → List (Nat × Nat) → List Nat) (pos : Nat → K × K × K) (s : Vars K) (f : List (List Nat) × Nat) : Option (Vars K × List Nat) := do
  let (s, segs) ← visitLoops pos f.2 { s with lmap := [], p2 := [], fnew := [] } f.1
  if f.1.length = 1 ∧ (f.1.map List.length).headD 0 = 3 then some (s, s.fnew)
  else do
    let areas ← loopAreas s.p2 segs 0 f.1
    let a ← largest areas
    let p := if a < 0 then s.p2.map swap else s.p2
    let out ← (tri p segs).mapM fun i => s.fnew[i]?
    some (s, out)

/-- The loop over the faces (lines 766-839). -/
def faces (tri : List (K × K) → List (Nat × Nat) → List Nat) (pos : Nat → K × K × K) : Vars K → List (List (List Nat) × Nat) → Option (Vars K × List Nat)
  | s, [] => some (s, [])
  | s, f :: fs => do
    let (s, a) ← face tri pos s f
    let (s, b) ← faces tri pos s fs
    some (s, a ++ b)

/-- `out_points` and `triangles`. -/
def output (tri : List (K × K) → List (Nat × Nat) → List Nat) (pos : Nat → K × K × K) (fs : List (List (List Nat) × Nat)) : Option (List (K × K × K) × List Nat) := do
  let (s, t) ← faces tri pos ⟨[], [], [], [], []⟩ fs
  some (s.pts, t)

/-! ### Specification -/

/-- Twice the signed area of a closed polygon. -/
def area2 : List (K × K) → K
  | l => ((l.zip (l.rotate 1)).map fun q => q.1.1 * q.2.2 - q.1.2 * q.2.1).sum

/-- The greatest area in absolute value. -/
def IsLargest (l : List K) (a : K) : Prop := a ∈ l ∧ ∀ b ∈ l, |b| ≤ |a|

/-- The triangles of a face in terms of vertices: `corners` are the vertices of the plane points that are triangulated. -/
structure FaceOut (tri : List (K × K) → List (Nat × Nat) → List Nat) (pos : Nat → K × K × K) (f : List (List Nat) × Nat) (b : List Nat) : Prop where
  /-- A single loop of three vertices is itself the triangle. -/
  single : ∀ l, f.1 = [l] → l.length = 3 → l.Nodup → b = l
  /-- Otherwise the loops are triangulated, so that the loop of greatest area runs counterclockwise. -/
  other : (∀ l, f.1 = [l] → l.length ≠ 3) → ∃ (corners : List Nat) (segs : List (Nat × Nat)) (a : K),
    (∀ v, v ∈ corners ↔ ∃ l ∈ f.1, v ∈ l) ∧ ((∀ l ∈ f.1, l.Nodup) → corners = f.1.flatten) ∧
    (segs.map fun q => (corners[q.1]?, corners[q.2]?)) = (f.1.flatMap circular).map (fun q => (some q.1, some q.2)) ∧
    IsLargest (f.1.map fun l => area2 (l.map fun v => project f.2 (pos v))) a ∧
    b.map some = (tri (corners.map fun v => if a < 0 then swap (project f.2 (pos v)) else project f.2 (pos v)) segs).map fun i => corners[i]?

end Verif.Bsp.Output
