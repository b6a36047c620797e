import Verif.Bsp.Kept
import Verif.Flow.Props
import Mathlib.Algebra.Order.Field.Basic
import Mathlib.Algebra.Order.Field.Rat
import Mathlib.Data.Rat.Defs
/-!
# Which cells are kept: `complex_partition` (`src/polygonlization/bsp_complex.rs` lines 577-740)

The areas of the faces and the outcomes of the geometric tests are inputs. `f64` is an ordered field.
-/
namespace Verif.Bsp

/-- What `complex_partition` computes from the geometry before line 617. -/
structure Shells (T : Type) where
  /-- `face_areas`, divided by their sum (lines 596-611). -/
  area : Nat → T
  /-- `tri_in_shell`. -/
  shell : Nat → Nat
  /-- `n_shells` (line 613). -/
  nShells : Nat
  /-- `face_intersects_tri` for a face and one of its triangles (lines 657-667). -/
  hits : Nat → Nat → Bool
  /-- `ori == Orientation::Positive` (line 682). -/
  pos : Nat → Nat → Bool

variable {T : Type} [Field T] [LinearOrder T]

/-- `cell_costs_external`, `cell_costs_internal`, `is_black` (lines 614-616), with the shell as first index. -/
structure Costs (T : Type) where
  ext : Nat → Nat → T
  int : Nat → Nat → T
  black : Nat → Nat → Bool

/-- `a[i][j] += w`. -/
def addAt (a : Nat → Nat → T) (i j : Nat) (w : T) : Nat → Nat → T := fun x y => if x = i ∧ y = j then a x y + w else a x y

/-- `if second_cid != INVALID_IND { a[i][second_cid] += w }`. -/
def addSecond (a : Nat → Nat → T) (i : Nat) (c : Option Nat) (w : T) : Nat → Nat → T :=
  match c with
  | some j => addAt a i j w
  | none => a

/-- The body of the loop over the triangles of a face (lines 645-702). -/
def paint (I : Shells T) (f : Nat) (F : Poly.Face) (s : Costs T) (t : Nat) : Costs T :=
  let sh := I.shell t
  if s.black sh f then s
  else if I.hits f t then
    let w := 1 / 2 * I.area f
    let black := fun x y => if x = sh ∧ y = f then true else s.black x y
    if I.pos f t then { int := addAt s.int sh F.cells.1 w, ext := addSecond s.ext sh F.cells.2 w, black }
    else { ext := addAt s.ext sh F.cells.1 w, int := addSecond s.int sh F.cells.2 w, black }
  else s

/-- The loop over the faces (lines 617-703); `i` is the number of the first face. -/
def costs (I : Shells T) : Nat → List Poly.Face → Costs T → Costs T
  | _, [], s => s
  | i, F :: l, s => costs I (i + 1) l (F.tris.foldl (paint I i F) s)

/-- The costs of all faces. -/
def allCosts (I : Shells T) (cx : Poly.Complex) : Costs T := costs I 0 cx.faces { ext := fun _ _ => 0, int := fun _ _ => 0, black := fun _ _ => false }

/-- The calls of `add_arc` for a shell (lines 715-728); the outer cell has the number of cells as its number. -/
def arcOps (I : Shells T) (n : Nat) (black : Nat → Bool) : Nat → List Poly.Face → List (Nat × Nat × T × Bool)
  | _, [] => []
  | i, F :: l => (if black i then [] else [(F.cells.1, F.cells.2.getD n, I.area i, true)]) ++ arcOps I n black (i + 1) l

/-- The arcs of a shell (lines 705-728). -/
def shellArcs (I : Shells T) (cx : Poly.Complex) (sh : Nat) : List (Nat × Nat × T) :=
  let s := allCosts I cx
  let n := cx.cells.length
  Flow.built ((List.range (n + 1)).map (s.ext sh)) ((List.range n).map (s.int sh) ++ [1]) (arcOps I n (s.black sh) 0 cx.faces)

/-- The maximum flow of a shell (lines 732-734). -/
def shellFlow (fuel : Nat) (I : Shells T) (cx : Poly.Complex) (sh : Nat) : Option (Flow.PR T) := do
  Flow.findMaxFlow fuel (← Flow.fromArcs (shellArcs I cx sh) (cx.cells.length + 3))

/-- `cell_kept` without the entry of the outer cell (lines 730-740). -/
def cellKept (fuel : Nat) (I : Shells T) (cx : Poly.Complex) : Option (List Bool) :=
  (List.range I.nShells).foldlM (fun kept sh => do
    let g ← shellFlow fuel I cx sh
    let sides ← (List.range cx.cells.length).mapM fun c => Flow.isSink g (c + 1)
    some (List.zipWith (fun k s => k || !s) kept sides)) (List.replicate cx.cells.length false)

/-! ### Specification -/

/-- The triangle of shell `sh` that lies on the face, if any. -/
def onFace (I : Shells T) (sh f : Nat) (F : Poly.Face) : Option Nat := F.tris.find? fun t => decide (I.shell t = sh) && I.hits f t

/-- The price of a face when the cells in `K` are inside and all others outside. A face on which no triangle lies costs its area if it separates inside from
outside. A face on which a triangle lies costs half of its area for each of its two cells that is not on the side that the triangle tells; the outside of
the complex costs nothing. -/
def facePrice (K : Nat → Bool) (p : Nat × Option Nat) (a : T) : Option Bool → T
  | none => if K p.1 = sideKept K p.2 then 0 else a
  | some ori => (if K p.1 = ori then 1 / 2 * a else 0) + p.2.elim 0 fun c => if K c = ori then 0 else 1 / 2 * a

/-- The price of a set of cells: the sum over the faces from number `i` on. -/
def price (I : Shells T) (sh : Nat) (K : Nat → Bool) : Nat → List Poly.Face → T
  | _, [] => 0
  | i, F :: l => facePrice K F.cells (I.area i) ((onFace I sh i F).map (I.pos i)) + price I sh K (i + 1) l

/-- No set of cells has a lower price. -/
def Cheapest (I : Shells T) (cx : Poly.Complex) (sh : Nat) (K : Nat → Bool) : Prop := ∀ K', price I sh K 0 cx.faces ≤ price I sh K' 0 cx.faces

end Verif.Bsp
