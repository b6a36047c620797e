/-!
# Model of the spatial sorting of `src/triangle/tetrahedron.rs`

Coordinates live in any type `K` whose comparisons `<`, `<=` are decidable, and the midpoint `(a + b) * 0.5` is an arbitrary
function `mid` of its two arguments, so that rounding is covered (NaN is not: the theorems ask for a linear order).
An index out of range is `none`.
-/
namespace Verif.Hilbert

/-- `gc[i]` (line 363). -/
def gc (i : Nat) : Nat := i ^^^ (i >>> 1)

/-- `TRANS_GC[e][d][i]` (lines 354-385, 420). -/
def transGc (e d i : Nat) : Nat :=
  let f := e ^^^ (1 <<< d)
  let travelBit := e ^^^ f
  let k := gc i * (travelBit <<< 1)
  let g := (k ||| (k / 8)) &&& 7
  g ^^^ e

/-- `while v != 0 { v >>= 1; c += 1; }` (lines 397-400) for 64-bit values. -/
def countBits : Nat → Nat → Nat
  | 0, _ => 0
  | fuel + 1, v => if v = 0 then 0 else countBits fuel (v >>> 1) + 1

/-- `TSB1_MOD3[i]` (lines 387-405, 421); `!i` is `2 ^ 64 - 1 - i`. -/
def tsb1Mod3 (i : Nat) : Nat :=
  if i = 0 then 0
  else
    let v := 2 ^ 64 - 1 - i
    countBits 64 ((v ^^^ (v - 1)) >>> 1) % 3

section
variable {K : Type} [LT K] [LE K] [DecidableLT K] [DecidableLE K]

/-- `point(points, idx)[axis]` (lines 459-463): the slice `points[3 idx .. 3 idx + 3]` must be in range. -/
def coord (points : List K) (idx axis : Nat) : Option K :=
  if idx * 3 + 3 ≤ points.length then ((points.drop (idx * 3)).take 3)[axis]? else none

/-- `while i < n_points { if stop(indices[i]) { break; } i += 1; }` (lines 484-489, 503-508), on fuel. -/
def scanUp (stop : Nat → Option Bool) (l : List Nat) : Nat → Nat → Option Nat
  | 0, _ => none
  | fuel + 1, i =>
    if i < l.length then do
      let x ← l[i]?
      if ← stop x then some i else scanUp stop l fuel (i + 1)
    else some i

/-- `while j < n_points { if stop(indices[n_points - 1 - j]) { break; } j += 1; }` (lines 490-495, 509-514), on fuel. -/
def scanDown (stop : Nat → Option Bool) (l : List Nat) : Nat → Nat → Option Nat
  | 0, _ => none
  | fuel + 1, j =>
    if j < l.length then do
      let x ← l[l.length - 1 - j]?
      if ← stop x then some j else scanDown stop l fuel (j + 1)
    else some j

/-- `indices.swap(a, b)`. -/
def swap (l : List Nat) (a b : Nat) : Option (List Nat) := do
  let x ← l[a]?
  let y ← l[b]?
  return (l.set a y).set b x

/-- The `loop` of `hilbert_split` (lines 483-500, 502-519), on fuel. -/
def splitLoop (stopUp stopDown : Nat → Option Bool) : Nat → Nat → Nat → List Nat → Option (List Nat × Nat)
  | 0, _, _, _ => none
  | fuel + 1, i, j, l => do
    let i ← scanUp stopUp l (l.length + 1) i
    let j ← scanDown stopDown l (l.length + 1) j
    if i + j = l.length then some (l, i)
    else if j < l.length then splitLoop stopUp stopDown fuel i j (← swap l i (l.length - 1 - j))
    else none

/-- `hilbert_split` (lines 465-522). Returns the rearranged slice and the split position. -/
def hilbertSplit (mid : K → K → K) (points : List K) (indices : List Nat) (gc0 gc1 : Nat) (bbox : List K) :
    Option (List Nat × Nat) :=
  if indices.length = 1 then some (indices, 0)
  else do
    let axis := (gc0 ^^^ gc1) >>> 1
    let split := mid (← bbox[axis]?) (← bbox[axis + 3]?)
    if gc0 &&& (1 <<< axis) = 0 then
      splitLoop (fun x => do return decide (split ≤ (← coord points x axis)))
        (fun x => do return decide ((← coord points x axis) < split)) (indices.length + 2) 0 0 indices
    else
      splitLoop (fun x => do return decide ((← coord points x axis) ≤ split))
        (fun x => do return decide (split < (← coord points x axis))) (indices.length + 2) 0 0 indices

/-- `struct SortOption` (lines 524-529). `ratio` is kept as the function `n ↦ (n as f64 * ratio) as usize`. -/
structure SortOption where
  threshold : Nat
  hilbertOrder : Nat
  hilbertLimit : Nat
  scaled : Nat → Nat

/-- The sub-box of octant `w` (lines 591-614). -/
def subBox (mid : K → K → K) (bbox : List K) (code : Nat) : Option (List K) := do
  let b0 ← bbox[0]?
  let b1 ← bbox[1]?
  let b2 ← bbox[2]?
  let b3 ← bbox[3]?
  let b4 ← bbox[4]?
  let b5 ← bbox[5]?
  let (s0, s3) := if code &&& 1 ≠ 0 then (mid b0 b3, b3) else (b0, mid b0 b3)
  let (s1, s4) := if code &&& 2 ≠ 0 then (mid b1 b4, b4) else (b1, mid b1 b4)
  let (s2, s5) := if code &&& 4 ≠ 0 then (mid b2 b5, b5) else (b2, mid b2 b5)
  return [s0, s1, s2, s3, s4, s5]

/-- `ei` (lines 571-581): `N - d - 1` is `2 - d`. -/
def nextE (e d w : Nat) : Nat :=
  let k := if w = 0 then 0 else (let k := 2 * ((w - 1) / 2); k ^^^ (k >>> 1))
  e ^^^ (((k <<< (d + 1)) &&& 7) ||| ((k >>> (2 - d)) &&& 7))

/-- `di` (lines 582-592). -/
def nextD (d w : Nat) : Nat :=
  let dw := if w = 0 then 0 else if w % 2 = 0 then tsb1Mod3 (w - 1) else tsb1Mod3 w
  (d + dw + 1) % 3

/-- The first part of `hilbert_sort` (lines 543-557): the three levels of splits, giving the eight parts (`arr`, lines
564-570). -/
def octants (mid : K → K → K) (points : List K) (indices : List Nat) (bbox : List K) (e d : Nat) :
    Option (List (List Nat)) := do
  let (l, m) ← hilbertSplit mid points indices (transGc e d 3) (transGc e d 4) bbox
  let (left, lm) ← hilbertSplit mid points (l.take m) (transGc e d 1) (transGc e d 2) bbox
  let (ll, llm) ← hilbertSplit mid points (left.take lm) (transGc e d 0) (transGc e d 1) bbox
  let (lr, rlm) ← hilbertSplit mid points (left.drop lm) (transGc e d 2) (transGc e d 3) bbox
  let (right, rm) ← hilbertSplit mid points (l.drop m) (transGc e d 5) (transGc e d 6) bbox
  let (rl, lrm) ← hilbertSplit mid points (right.take rm) (transGc e d 4) (transGc e d 5) bbox
  let (rr, rrm) ← hilbertSplit mid points (right.drop rm) (transGc e d 6) (transGc e d 7) bbox
  return [ll.take llm, ll.drop llm, lr.take rlm, lr.drop rlm, rl.take lrm, rl.drop lrm, rr.take rrm, rr.drop rrm]

/-- `hilbert_sort` (lines 531-621), on fuel; the slices of the Rust code tile the index array, so the new contents are the
concatenation of the sorted parts. -/
def hilbertSort (mid : K → K → K) (points : List K) (opt : SortOption) :
    Nat → List Nat → List K → Nat → Nat → Nat → Option (List Nat)
  | 0, _, _, _, _, _ => none
  | fuel + 1, indices, bbox, e, d, depth => do
    let parts ← octants mid points indices bbox e d
    if opt.hilbertOrder > 0 ∧ depth + 1 = opt.hilbertOrder then return parts.flatten
    else
      let sorted ← parts.zipIdx.mapM fun pw =>
        if pw.1.length > opt.hilbertLimit then do
          let sbox ← subBox mid bbox (transGc e d pw.2)
          hilbertSort mid points opt fuel pw.1 sbox (nextE e d pw.2) (nextD d pw.2) (depth + 1)
        else some pw.1
      return sorted.flatten

/-- `brio_multiscale_sort` (lines 623-640), on fuel; also returns the counter `depth`.  `split_at_mut` panics when the split
position exceeds the length. -/
def brioSort (mid : K → K → K) (points : List K) (opt : SortOption) (sortFuel : Nat) :
    Nat → List Nat → List K → Nat → Option (List Nat × Nat)
  | 0, _, _, _ => none
  | fuel + 1, indices, bbox, depth =>
    if indices.length ≥ opt.threshold then do
      let m := opt.scaled indices.length
      if m ≤ indices.length then
        let (left, depth) ← brioSort mid points opt sortFuel fuel (indices.take m) bbox (depth + 1)
        let right ← hilbertSort mid points opt sortFuel (indices.drop m) bbox 0 0 0
        return (left ++ right, depth)
      else none
    else do
      let sorted ← hilbertSort mid points opt sortFuel indices bbox 0 0 0
      return (sorted, depth)
end

/-- `SORT_OPTION` of `tetrahedralize` (lines 1118-1123); `n * 0.125` is exact. -/
def sortOption : SortOption := { threshold := 64, hilbertOrder := 52, hilbertLimit := 8, scaled := fun n => n / 8 }

end Verif.Hilbert
