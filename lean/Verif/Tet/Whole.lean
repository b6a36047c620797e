import Verif.Tet.LocateModel
import Verif.Hilbert.Model
import Mathlib.Algebra.Order.Field.Basic
/-!
# Model of `tetrahedralize` (`src/triangle/tetrahedron.rs`, lines 1104-1252)

The random shuffle is an arbitrary list of indices given by the caller.  Coordinates live in an ordered field, so there is no rounding;
the lengths `norm(v)` are compared by their squares.
-/
namespace Verif.Tet
open InSphere (Pt orient3d)
open Hilbert (scanUp swap)

variable {K : Type} [Field K] [LinearOrder K]

/-- `iter().min_by(cmp).unwrap()`; the comparison cannot fail without NaN. -/
def minOf : List K → Option K
  | [] => none
  | a :: l => some (l.foldl min a)

/-- `iter().max_by(cmp).unwrap()`. -/
def maxOf : List K → Option K
  | [] => none
  | a :: l => some (l.foldl max a)

/-- `bbox` (lines 1106-1115). -/
def boxOf (pts : List (Pt K)) : Option (List K) := do
  let x0 ← minOf (pts.map (·.x))
  let y0 ← minOf (pts.map (·.y))
  let z0 ← minOf (pts.map (·.z))
  let x1 ← maxOf (pts.map (·.x))
  let y1 ← maxOf (pts.map (·.y))
  let z1 ← maxOf (pts.map (·.z))
  return [x0, y0, z0, x1, y1, z1]

/-- The square of `bbox_size1` (lines 1135-1138). -/
def boxSize (box : List K) : Option K := do
  let x0 ← box[0]?
  let y0 ← box[1]?
  let z0 ← box[2]?
  let x1 ← box[3]?
  let y1 ← box[4]?
  let z1 ← box[5]?
  return (x1 - x0) * (x1 - x0) + (y1 - y0) * (y1 - y0) + (z1 - z0) * (z1 - z0)

/-- The square of `EPS` (line 1124). -/
def eps2 : K := 1 / 1000000000000

/-- `sub(p, q, &mut v)`. -/
def diff (p q : Pt K) : Pt K := ⟨p.x - q.x, p.y - q.y, p.z - q.z⟩

/-- `cross(&u, &v, &mut n)`. -/
def crossP (u v : Pt K) : Pt K := ⟨u.y * v.z - u.z * v.y, u.z * v.x - u.x * v.z, u.x * v.y - u.y * v.x⟩

/-- The square of `norm(&v)`. -/
def norm2 (v : Pt K) : K := v.x * v.x + v.y * v.y + v.z * v.z

/-- `norm(p0 - p) / bbox_size1 < EPS` (lines 1146-1147), squared; `s` is the square of `bbox_size1`.  For `bbox_size1 = 0` the quotient is NaN
and the comparison false, as here. -/
def nearPoint (s : K) (p0 p : Pt K) : Bool := decide (norm2 (diff p0 p) < eps2 * s)

/-- `norm((p1 - p0) x (p - p0)) / bbox_size2 < EPS` (lines 1162-1169), squared. -/
def nearLine (s : K) (p0 p1 p : Pt K) : Bool := decide (norm2 (crossP (diff p1 p0) (diff p p0)) < eps2 * (s * s))

/-- `orient3d_fast(p0, p1, p2, p).abs() / bbox_size3 < EPS` (lines 1185-1191), squared. -/
def nearPlane (s : K) (p0 p1 p2 p : Pt K) : Bool := decide (orient3d p0 p1 p2 p * orient3d p0 p1 p2 p < eps2 * (s * s * s))

/-- `point(points, sorted_pt_inds[i])`. -/
def pointAt (pts : List (Pt K)) (l : List Nat) (i : Nat) : Option (Pt K) := do
  let j ← l[i]?
  pts[j]?

/-- `if i > k { if i == n_points { return mesh; } sorted_pt_inds.swap(k, i); }` (lines 1153-1158, 1174-1179, 1196-1201); `some none` is the
return. -/
def bring (l : List Nat) (k i : Nat) : Option (Option (List Nat)) :=
  if k < i then if i = l.length then some none else (swap l k i).map some else some (some l)

/-- Choice of the first four points (lines 1140-1206), with the tests for "still too close" as parameters: each `while` loop is a scan for the
first index that does not satisfy the test.  `ori`, computed by the last loop for the point it stops at, is the orientation of the point that has been
moved to position 3; without such a point the access of position 3 in the call of `initial_delaunay` panics. -/
def firstFour (pts : List (Pt K)) (s : K) (l : List Nat) : Option (Option (List Nat)) := do
  let p0 ← pointAt pts l 0
  let i ← scanUp (fun j => do return !nearPoint s p0 (← pts[j]?)) l (l.length + 1) 1
  match ← bring l 1 i with
  | none => return none
  | some l =>
    let p1 ← pointAt pts l 1
    let i ← scanUp (fun j => do return !nearLine s p0 p1 (← pts[j]?)) l (l.length + 1) 2
    match ← bring l 2 i with
    | none => return none
    | some l =>
      let p2 ← pointAt pts l 2
      let i ← scanUp (fun j => do return !nearPlane s p0 p1 p2 (← pts[j]?)) l (l.length + 1) 3
      match ← bring l 3 i with
      | none => return none
      | some l =>
        let p3 ← pointAt pts l 3
        if orient3d p0 p1 p2 p3 > 0 then (swap l 0 1).map some else return some l

/-- The coordinate array. -/
def flat (pts : List (Pt K)) : List K := pts.flatMap fun p => [p.x, p.y, p.z]

/-- `tetrahedralize` (lines 1104-1252); `shuffled` is the result of the random shuffle of the indices. -/
def tetrahedralize (pts : List (Pt K)) (fuel : Nat) (shuffled : List Nat) : Option Mesh := do
  let box ← boxOf pts
  let (l, _) ← Hilbert.brioSort (fun a b => (a + b) / 2) (flat pts) Hilbert.sortOption Hilbert.sortOption.hilbertOrder (pts.length + 1) shuffled box 1
  let s ← boxSize box
  match ← firstFour pts s l with
  | none => return Mesh.new pts.length
  | some l => tetrahedralizeFrom pts fuel l

end Verif.Tet
