import Mathlib.Data.Int.Log
import Mathlib.Algebra.Order.Floor.Ring
import Mathlib.Data.Rat.Floor
import Mathlib.Algebra.Order.Field.Rat
/-!
# Model of double-precision arithmetic and of the error-free transformations of `src/predicates/predicates.rs`

A finite double is the rational number it denotes. An operation is the exact rational operation followed by rounding to
nearest, ties to even, with 53 significant bits. The exponent range is unbounded: overflow is not modelled; underflow is not
modelled either (for sums and differences it does not matter, since a sum of doubles too small for the normal range is exact).
Signed zeros, infinities and NaN are not modelled.
-/
namespace Verif.Float

/-- Rounding to the nearest integer, ties to even. -/
def rne (q : ℚ) : ℤ :=
  let f := ⌊q⌋
  if q - f < 1 / 2 then f else if q - f > 1 / 2 then f + 1 else if f % 2 = 0 then f else f + 1

/-- The exponent of the last of 53 significant bits of `x`. -/
def lsb (x : ℚ) : ℤ := Int.log 2 |x| - 52

/-- IEEE 754 rounding of a real number to double precision (unbounded exponents). -/
def rn (x : ℚ) : ℚ := if x = 0 then 0 else rne (x / 2 ^ lsb x) * 2 ^ lsb x

/-- The operations `+`, `-`, `*` of `f64`. -/
def fadd (a b : ℚ) : ℚ := rn (a + b)
@[inherit_doc fadd] def fsub (a b : ℚ) : ℚ := rn (a - b)
@[inherit_doc fadd] def fmul (a b : ℚ) : ℚ := rn (a * b)

/-- The loop of `exact_init` (lines 26-45); state: `every_other`, `epsilon`, `splitter`, `check`. The fuel stands for the loop. -/
def initLoop : Nat → Bool → ℚ → ℚ → ℚ → Option (ℚ × ℚ)
  | 0, _, _, _, _ => none
  | fuel + 1, everyOther, epsilon, splitter, check =>
    let lastCheck := check
    let epsilon := fmul epsilon (1 / 2)
    let splitter := if everyOther then fmul splitter 2 else splitter
    let check := fadd 1 epsilon
    if check = 1 ∨ check = lastCheck then some (epsilon, splitter) else initLoop fuel (!everyOther) epsilon splitter check

/-- `exact_init` (lines 20-75): epsilon and the splitter. -/
def exactInit (fuel : Nat) : Option (ℚ × ℚ) := do
  let (e, s) ← initLoop fuel true 1 1 1
  pure (e, fadd s 1)

/-- `B.splitter`; `exactInit_eq` shows that it is what `exact_init` computes. -/
def splitter : ℚ := 134217729

/-- The error bounds `(a + b * epsilon) * epsilon` of lines 48-60. -/
def boundAB (eps a b : ℚ) : ℚ := fmul (fadd a (fmul b eps)) eps

/-- The error bounds `(a + b * epsilon) * epsilon * epsilon` of lines 48-60. -/
def boundC (eps a b : ℚ) : ℚ := fmul (fmul (fadd a (fmul b eps)) eps) eps

/-- `fast_two_sum` (lines 80-86). -/
def fastTwoSum (a b : ℚ) : ℚ × ℚ :=
  let x := fadd a b
  let bvirt := fsub x a
  let y := fsub b bvirt
  (x, y)

/-- `fast_two_diff` (lines 88-94). -/
def fastTwoDiff (a b : ℚ) : ℚ × ℚ :=
  let x := fsub a b
  let bvirt := fsub a x
  let y := fsub bvirt b
  (x, y)

/-- `two_sum` (lines 96-105). -/
def twoSum (a b : ℚ) : ℚ × ℚ :=
  let x := fadd a b
  let bvirt := fsub x a
  let avirt := fsub x bvirt
  let bround := fsub b bvirt
  let around := fsub a avirt
  let y := fadd around bround
  (x, y)

/-- `two_diff_tail` (lines 107-114). -/
def twoDiffTail (a b x : ℚ) : ℚ :=
  let bvirt := fsub a x
  let avirt := fadd x bvirt
  let bround := fsub bvirt b
  let around := fsub a avirt
  fadd around bround

/-- `two_diff` (lines 116-124). -/
def twoDiff (a b : ℚ) : ℚ × ℚ :=
  let x := fsub a b
  let bvirt := fsub a x
  let avirt := fadd x bvirt
  let bround := fsub bvirt b
  let around := fsub a avirt
  (x, fadd around bround)

/-- `split` (lines 126-133). -/
def split (a : ℚ) : ℚ × ℚ :=
  let c := fmul splitter a
  let abig := fsub c a
  let ahi := fsub c abig
  let alo := fsub a ahi
  (ahi, alo)

/-- `two_product_pre_split` (lines 167-176). -/
def twoProductPreSplit (a b bhi blo : ℚ) : ℚ × ℚ :=
  let x := fmul a b
  let ahi := (split a).1
  let alo := (split a).2
  let err1 := fsub x (fmul ahi bhi)
  let err2 := fsub err1 (fmul alo bhi)
  let err3 := fsub err2 (fmul ahi blo)
  let y := fsub (fmul alo blo) err3
  (x, y)

/-- `two_product` (lines 135-145). -/
def twoProduct (a b : ℚ) : ℚ × ℚ :=
  let ahi := (split a).1
  let alo := (split a).2
  let bhi := (split b).1
  let blo := (split b).2
  let x := fmul a b
  let err1 := fsub x (fmul ahi bhi)
  let err2 := fsub err1 (fmul alo bhi)
  let err3 := fsub err2 (fmul ahi blo)
  let y := fsub (fmul alo blo) err3
  (x, y)

/-- `square` (lines 147-155). -/
def square (a : ℚ) : ℚ × ℚ :=
  let x := fmul a a
  let ahi := (split a).1
  let alo := (split a).2
  let err1 := fsub x (fmul ahi ahi)
  let err3 := fsub err1 (fmul (fadd ahi ahi) alo)
  let y := fsub (fmul alo alo) err3
  (x, y)

/-- `two_one_product` (lines 158-165); components from the largest to the smallest, as in the code. -/
def twoOneProduct (a1 a0 b : ℚ) : ℚ × ℚ × ℚ × ℚ :=
  let bhi := (split b).1
  let blo := (split b).2
  let (i, x0) := twoProductPreSplit a0 b bhi blo
  let (j, o) := twoProductPreSplit a1 b bhi blo
  let (k, x1) := twoSum i o
  let (x3, x2) := fastTwoSum j k
  (x3, x2, x1, x0)

/-- `two_one_sum` (lines 178-183). -/
def twoOneSum (a1 a0 b : ℚ) : ℚ × ℚ × ℚ :=
  let (i, x0) := twoSum a0 b
  let (x2, x1) := twoSum a1 i
  (x2, x1, x0)

/-- `two_two_sum` (lines 185-190). -/
def twoTwoSum (a1 a0 b1 b0 : ℚ) : ℚ × ℚ × ℚ × ℚ :=
  let (j, o, x0) := twoOneSum a1 a0 b0
  let (x3, x2, x1) := twoOneSum j o b1
  (x3, x2, x1, x0)

/-- `two_one_diff` (lines 192-197). -/
def twoOneDiff (a1 a0 b : ℚ) : ℚ × ℚ × ℚ :=
  let (i, x0) := twoDiff a0 b
  let (x2, x1) := twoSum a1 i
  (x2, x1, x0)

/-- `two_two_diff` (lines 199-204). -/
def twoTwoDiff (a1 a0 b1 b0 : ℚ) : ℚ × ℚ × ℚ × ℚ :=
  let (j, o, x0) := twoOneDiff a1 a0 b0
  let (x3, x2, x1) := twoOneDiff j o b1
  (x3, x2, x1, x0)

/-- `grow_expansion` (lines 206-217); the closure's captured `q` is the first argument. -/
def growExpansion : ℚ → List ℚ → List ℚ
  | q, [] => [q]
  | q, enow :: earr =>
    let (qnew, h) := twoSum q enow
    h :: growExpansion qnew earr

/-- `grow_expansion_zeroelim` (lines 219-236). -/
def growExpansionZeroelim : ℚ → List ℚ → List ℚ
  | q, [] => if q ≠ 0 then [q] else []
  | q, enow :: earr =>
    let (qnew, r) := twoSum q enow
    if r ≠ 0 then r :: growExpansionZeroelim qnew earr else growExpansionZeroelim qnew earr

/-- The inner loop of `expansion_sum` (lines 250-254): a suffix of `h_arr` is overwritten and `q` is pushed. -/
def expansionSumInner : ℚ → List ℚ → List ℚ
  | q, [] => [q]
  | q, h :: hs =>
    let (qnew, enew) := twoSum q h
    enew :: expansionSumInner qnew hs

/-- The outer loop of `expansion_sum` (lines 248-256) over `earr.iter().enumerate().skip(1)`. -/
def expansionSumOuter : Nat → List ℚ → List ℚ → List ℚ
  | _, [], harr => harr
  | start, e :: es, harr => expansionSumOuter (start + 1) es (harr.take start ++ expansionSumInner e (harr.drop start))

/-- `expansion_sum` (lines 238-258); `farr[0]` panics on an empty slice. -/
def expansionSum (earr farr : List ℚ) : Option (List ℚ) := do
  let q ← farr.head?
  let harr := growExpansion q earr
  pure (expansionSumOuter 1 (earr.drop 1) harr)

/-- `TwoArr::next` repeated (lines 260-312): the merge of two slices by magnitude. -/
def twoArr : List ℚ → List ℚ → List ℚ
  | first :: arr1, second :: arr2 =>
    if decide (first > second) = decide (first > -second) then second :: twoArr (first :: arr1) arr2
    else first :: twoArr arr1 (second :: arr2)
  | arr1, [] => arr1
  | [], arr2 => arr2
termination_by arr1 arr2 => arr1.length + arr2.length

/-- The loop of `fast_expansion_sum_zeroelim` (lines 334-345); `harr` is what has been pushed so far. -/
def fastSumLoop : ℚ → List ℚ → List ℚ → List ℚ
  | q, harr, [] => if q ≠ 0 ∨ harr = [] then harr ++ [q] else harr
  | q, harr, now :: rest =>
    let (qnew, h) := twoSum q now
    fastSumLoop qnew (if h ≠ 0 then harr ++ [h] else harr) rest

/-- `fast_expansion_sum_zeroelim` (lines 314-349); `unwrap` panics when both inputs are empty. -/
def fastExpansionSumZeroelim (earr farr : List ℚ) : Option (List ℚ) :=
  match twoArr earr farr with
  | [] => none
  | [_] => some []
  | q :: now :: iter =>
    let (qnew, h) := fastTwoSum now q
    some (fastSumLoop qnew (if h ≠ 0 then [h] else []) iter)

/-- `fast_expansion_diff_zeroelim` (lines 351-360). -/
def fastExpansionDiffZeroelim (earr farr : List ℚ) : Option (List ℚ) :=
  fastExpansionSumZeroelim earr (farr.map (- ·))

/-- The closure of `scale_expansion_zeroelim` applied to each further component (lines 376-391), and the final push. -/
def scaleLoop (b bhi blo : ℚ) : ℚ → List ℚ → List ℚ → List ℚ
  | q, harr, [] => if q ≠ 0 ∨ harr = [] then harr ++ [q] else harr
  | q, harr, e :: earr =>
    let (p1, p0) := twoProductPreSplit e b bhi blo
    let (sum, h) := twoSum q p0
    let harr := if h ≠ 0 then harr ++ [h] else harr
    let (q, h) := fastTwoSum p1 sum
    scaleLoop b bhi blo q (if h ≠ 0 then harr ++ [h] else harr) earr

/-- `scale_expansion_zeroelim` (lines 362-397); `split_first().unwrap()` panics on an empty expansion. -/
def scaleExpansionZeroelim (earr : List ℚ) (b : ℚ) : Option (List ℚ) :=
  let bhi := (split b).1
  let blo := (split b).2
  match earr with
  | [] => none
  | efirst :: earr =>
    let (q, h) := twoProductPreSplit efirst b bhi blo
    some (scaleLoop b bhi blo q (if h ≠ 0 then [h] else []) earr)

/-- `mul_expansion_zeroelim_imp` (lines 399-409): map, then `reduce` from the left; panics when `earr` is empty. -/
def mulExpansionZeroelimImp (earr farr : List ℚ) : Option (List ℚ) :=
  match earr with
  | [] => none
  | s :: earr => do
    let first ← scaleExpansionZeroelim farr s
    earr.foldlM (fun a s => do
      let b ← scaleExpansionZeroelim farr s
      fastExpansionSumZeroelim a b) first

/-- `mul_expansion_zeroelim` (lines 411-428). -/
def mulExpansionZeroelim (earr farr : List ℚ) : Option (List ℚ) :=
  match earr, farr with
  | [e0], _ => scaleExpansionZeroelim farr e0
  | _, [f0] => scaleExpansionZeroelim earr f0
  | _, _ => if earr.length < farr.length then mulExpansionZeroelimImp earr farr else mulExpansionZeroelimImp farr earr

/-- `expansion_invert` (lines 430-435). -/
def expansionInvert (arr : List ℚ) : List ℚ := arr.map (- ·)

/-- `estimate` (lines 437-440): `Iterator::sum` folds from the left starting with zero. -/
def estimate (arr : List ℚ) : ℚ := arr.foldl fadd 0

end Verif.Float
