import Verif.Float.Model
import Verif.Pred.Model
/-!
# Model of `ExpansionNum` and of the exact stage of the predicates on implicit points

`src/predicates/expansion_number.rs`, `normalize_lambda3d` and `exact` of `src/predicates/generic_point.rs`, and the last stage
of the functions of `orient3d.rs`, `orient2d.rs` and `less_than.rs`, now with the expansions of doubles they compute with.
-/
namespace Verif.Float
open Verif.Pred InSphere

/-- `ExpansionNum` (`expansion_number.rs` lines 10-13); `none` stands for a panic in the computation of the number. -/
structure ENum where
  v : Option (List ℚ)

/-- `add`, `sub`, `mul` (lines 63-76). -/
instance : Add ENum := ⟨fun a b => ⟨do fastExpansionSumZeroelim (← a.v) (← b.v)⟩⟩
instance : Sub ENum := ⟨fun a b => ⟨do fastExpansionDiffZeroelim (← a.v) (← b.v)⟩⟩
instance : Mul ENum := ⟨fun a b => ⟨do mulExpansionZeroelim (← a.v) (← b.v)⟩⟩

/-- `vec![x].into()`. -/
def ENum.of (x : ℚ) : ENum := ⟨some [x]⟩

/-- `*self.last().unwrap()`. -/
def ENum.last (a : ENum) : Option ℚ := a.v.bind List.getLast?

/-- `not_zero` (lines 46-48). -/
def ENum.notZero (a : ENum) : Option Bool := a.last.map fun z => decide (z ≠ 0)

/-- `negative` (lines 50-52). -/
def ENum.negative (a : ENum) : Option Bool := a.last.map fun z => decide (z < 0)

/-- `neg` (lines 55-59). -/
def ENum.neg (a : ENum) : ENum := ⟨a.v.map fun l => l.map (- ·)⟩

/-- `get_exponent` (`src/predicates/mod.rs` lines 77-83), the exponent not being bounded. -/
def getExponent (x : ℚ) : ℤ := if x = 0 then 0 else Int.log 2 |x|

/-- `max_by` of the absolute values: the last one among equals (`generic_point.rs` lines 35-39). -/
def maxAbs : List ℚ → Option ℚ
  | [] => none
  | x :: xs => some (xs.foldl (fun m y => if |m| ≤ |y| then y else m) x)

/-- The exponent computed by `normalize_lambda3d` (lines 34-40). -/
def normExponent (h : Hom ENum) : Option ℤ := do
  let x ← h.x.v
  let y ← h.y.v
  let z ← h.z.v
  let d ← h.d.v
  let m ← maxAbs [estimate x, estimate y, estimate z, estimate d]
  pure (getExponent m)

/-- Lines 43-47: every component is multiplied by `2.0f64.powi(-e)`. -/
def ENum.scale (a : ENum) (e : ℤ) : ENum := ⟨a.v.map fun l => l.map fun x => fmul x (2 ^ (-e))⟩

/-- `normalize_lambda3d` (lines 33-49). -/
def normalizeLambda (h : Hom ENum) : Option (Hom ENum) := do
  let e ← normExponent h
  pure (if e ≠ 0 then { x := h.x.scale e, y := h.y.scale e, z := h.z.scale e, d := h.d.scale e } else h)

/-- The coordinates of a point as one-component expansions. -/
def toE (p : Pt ℚ) : Pt ENum := ⟨.of p.x, .of p.y, .of p.z⟩

/-- The coordinates of the defining points as one-component expansions. -/
def toEI : Imp ℚ → Imp ENum
  | .lpi l => .lpi ⟨toE l.p, toE l.q, toE l.r, toE l.s, toE l.t⟩
  | .tpi t => .tpi ⟨toE t.v1, toE t.v2, toE t.v3, toE t.w1, toE t.w2, toE t.w3, toE t.u1, toE t.u2, toE t.u3⟩

/-- `exact` up to the normalisation (lines 307-330, 685-720). -/
def exactSigned (i : Imp ℚ) : Option (Hom ENum) := do
  let h := (toEI i).lambda
  let neg ← h.d.negative
  pure (if neg then { x := h.x.neg, y := h.y.neg, z := h.z.neg, d := h.d.neg } else h)

/-- `exact` (lines 297-343, 675-733); the outer `none` is a panic, the inner one the returned `None`. -/
def exactE (i : Imp ℚ) : Option (Option (Hom ENum)) := do
  let h ← exactSigned i
  let h ← normalizeLambda h
  let nz ← h.d.notZero
  pure (if nz then some h else none)

/-- `double_to_sign(*det.last().unwrap())`. -/
def lastSign (det : ENum) : Option (Option Ori) := do
  let z ← det.last
  pure (some (doubleToSign z))

/-- The exact stage of `orient3d_ieee` (`orient3d.rs` lines 787-807). -/
def ieeeE (pa : Imp ℚ) (pb pc pd : Pt ℚ) : Option (Option Ori) := do
  match ← exactE pa with
  | some a => lastSign (ieeeImpl a (toE pb) (toE pc) (toE pd))
  | none => pure none

/-- The exact stage of `orient3d_iiee` (lines 932-953). -/
def iieeE (pa pb : Imp ℚ) (pc pd : Pt ℚ) : Option (Option Ori) := do
  match ← exactE pa, ← exactE pb with
  | some a, some b => lastSign (iieeImpl a b (toE pc) (toE pd))
  | _, _ => pure none

/-- The exact stage of `orient3d_iiie` (lines 1096-1120). -/
def iiieE (pa pb pc : Imp ℚ) (pd : Pt ℚ) : Option (Option Ori) := do
  match ← exactE pa, ← exactE pb, ← exactE pc with
  | some a, some b, some c => lastSign (iiieImpl a b c (toE pd))
  | _, _, _ => pure none

/-- The exact stage of `orient3d_iiii` (lines 1269-1296). -/
def iiiiE (pa pb pc pd : Imp ℚ) : Option (Option Ori) := do
  match ← exactE pa, ← exactE pb, ← exactE pc, ← exactE pd with
  | some a, some b, some c, some d => lastSign (iiiiImpl a b c d)
  | _, _, _, _ => pure none

/-- The exact stage of `orient2d_iee` (`orient2d.rs` lines 555-694). -/
def ieeE (axis : Nat) (p1 : Imp ℚ) (p2 p3 : Pt ℚ) : Option (Option Ori) := do
  match ← exactE p1 with
  | some a =>
    let l1 := ax2 axis a.x a.y a.z
    let b := ax2 axis p2.x p2.y p2.z
    let c := ax2 axis p3.x p3.y p3.z
    lastSign (ieeImpl l1.1 l1.2 a.d (.of b.1) (.of b.2) (.of c.1) (.of c.2))
  | none => pure none

/-- The exact stage of `orient2d_iie` (lines 770-918). -/
def iieE (axis : Nat) (p1 p2 : Imp ℚ) (p3 : Pt ℚ) : Option (Option Ori) := do
  match ← exactE p1, ← exactE p2 with
  | some a, some b =>
    let l1 := ax2 axis a.x a.y a.z
    let l2 := ax2 axis b.x b.y b.z
    let c := ax2 axis p3.x p3.y p3.z
    lastSign (iieImpl l1.1 l1.2 a.d l2.1 l2.2 b.d (.of c.1) (.of c.2))
  | _, _ => pure none

/-- The exact stage of `orient2d_iii` (lines 1029-1188). -/
def iiiE (axis : Nat) (p1 p2 p3 : Imp ℚ) : Option (Option Ori) := do
  match ← exactE p1, ← exactE p2, ← exactE p3 with
  | some a, some b, some c =>
    let l1 := ax2 axis a.x a.y a.z
    let l2 := ax2 axis b.x b.y b.z
    let l3 := ax2 axis c.x c.y c.z
    lastSign (iiiImpl l1.1 l1.2 a.d l2.1 l2.2 b.d l3.1 l3.2 c.d)
  | _, _, _ => pure none

/-- The exact stage of `less_than_ie` (`less_than.rs` lines 313-391). -/
def ltIeE (axis : Nat) (pa : Imp ℚ) (pb : Pt ℚ) : Option (Option Ori) := do
  match ← exactE pa with
  | some a => lastSign (ltIeImpl (ax1 axis a.x a.y a.z) a.d (.of (ax1 axis pb.x pb.y pb.z)))
  | none => pure none

/-- The exact stage of `less_than_ii` (lines 400-479). -/
def ltIiE (axis : Nat) (pa pb : Imp ℚ) : Option (Option Ori) := do
  match ← exactE pa, ← exactE pb with
  | some a, some b => lastSign (ltIiImpl (ax1 axis a.x a.y a.z) a.d (ax1 axis b.x b.y b.z) b.d)
  | _, _ => pure none

end Verif.Float
