import Verif.Float.Model
import Verif.Pred.Model
/-!
# Model of `src/predicates/interval_number.rs` and of the interval stage of the predicates on implicit points

A lane of the vectors is a finite double: a rational number with a sign bit (which matters for zeros). The rounding of the
lane operations and `next_up` are parameters; `f64` below is double precision with gradual underflow. Overflow, infinities
and NaN are not modelled.
-/
namespace Verif.Interval
open Verif.Pred InSphere

/-- A lane: value and sign bit. -/
structure Lane where
  v : ℚ
  s : Bool
deriving DecidableEq

/-- The rounding of `+` and `*`, and `f64::next_up`. -/
structure Arith where
  rnd : ℚ → ℚ
  next : ℚ → ℚ

/-- `a + b`: a zero sum is positive unless both terms are negative zeros. -/
def Lane.add (A : Arith) (a b : Lane) : Lane :=
  let v := A.rnd (a.v + b.v)
  { v := v, s := if v = 0 then a.s && b.s else decide (v < 0) }

/-- `a * b`. -/
def Lane.mul (A : Arith) (a b : Lane) : Lane := { v := A.rnd (a.v * b.v), s := xor a.s b.s }

/-- Flipping the sign bit: `-a`, or `^= SIGN_..._MASK`. -/
def Lane.neg (a : Lane) : Lane := { v := -a.v, s := !a.s }

/-- `f64::next_up`: positive on zeros; the negative number of least magnitude becomes a negative zero. -/
def Lane.nextUp (A : Arith) (a : Lane) : Lane := { v := A.next a.v, s := decide (a.v < 0) }

/-- The larger one of two lanes (`reduce_max`). -/
def Lane.max (a b : Lane) : Lane := if a.v < b.v then b else a

/-- `IntervalNumber` (lines 9-13): lane 0 is the upper bound, lane 1 the negated lower bound (see `From<f64>`). -/
structure Itv where
  d0 : Lane
  d1 : Lane
deriving DecidableEq

/-- A double with a sign bit, not a negative zero. -/
def lane (x : ℚ) : Lane := { v := x, s := decide (x < 0) }

/-- `From<f64>` (lines 33-40). -/
def Itv.of (x : ℚ) : Itv := { d0 := lane x, d1 := (lane x).neg }

/-- `not_zero`, `positive`, `negative` (lines 44-56). -/
def Itv.notZero (a : Itv) : Bool := decide (a.d0.v < 0) || decide (a.d1.v < 0)
@[inherit_doc Itv.notZero] def Itv.positive (a : Itv) : Bool := decide (a.d0.v < 0)
@[inherit_doc Itv.notZero] def Itv.negative (a : Itv) : Bool := decide (a.d1.v < 0)

/-- `neg` (lines 59-61). -/
def Itv.neg (a : Itv) : Itv := { d0 := a.d1, d1 := a.d0 }

/-- `next_up` (lines 76-79). -/
def Itv.nextUp (A : Arith) (a : Itv) : Itv := { d0 := a.d0.nextUp A, d1 := a.d1.nextUp A }

/-- `add` (lines 82-86). -/
def Itv.add (A : Arith) (a b : Itv) : Itv := Itv.nextUp A { d0 := a.d0.add A b.d0, d1 := a.d1.add A b.d1 }

/-- `sub` (lines 89-93): `b.data.reverse() + a.data`. -/
def Itv.sub (A : Arith) (a b : Itv) : Itv := Itv.nextUp A { d0 := b.d1.add A a.d0, d1 := b.d0.add A a.d1 }

/-- The sign bits of a pair of lanes (`to_bitmask`: lane 0 is bit 0). -/
def Itv.mask (a : Itv) : Nat := (if a.d0.s then 1 else 0) + (if a.d1.s then 2 else 0)

/-- `mul` (lines 95-149); `none` is the panic of the last arm. -/
def Itv.mul (A : Arith) (a b : Itv) : Option Itv :=
  let m := 4 * a.mask + b.mask
  let data : Option Itv :=
    if m = 0 then
      some { d0 := Lane.max (a.d0.mul A b.d1) (a.d1.mul A b.d0), d1 := Lane.max (a.d0.mul A b.d0) (a.d1.mul A b.d1) }
    else if m = 1 then some { d0 := a.d1.mul A b.d1, d1 := a.d0.mul A b.d1 }
    else if m = 2 then some { d0 := a.d0.mul A b.d0, d1 := a.d1.mul A b.d0 }
    else if m = 4 then some { d0 := a.d1.mul A b.d1, d1 := a.d1.mul A b.d0 }
    else if m = 5 then some { d0 := a.d1.mul A b.d1, d1 := a.d0.neg.mul A b.d0 }
    else if m = 6 then some { d0 := a.d0.mul A b.d1.neg, d1 := a.d1.mul A b.d0 }
    else if m = 8 then some { d0 := a.d0.mul A b.d1, d1 := a.d0.mul A b.d0 }
    else if m = 9 then some { d0 := a.d1.neg.mul A b.d0, d1 := a.d0.mul A b.d1 }
    else if m = 10 then some { d0 := a.d0.mul A b.d0, d1 := a.d1.mul A b.d1.neg }
    else none
  data.map (Itv.nextUp A)

/-! ### Double precision -/

/-- The exponent of the last place, at least that of the least subnormal number. -/
def lsb64 (x : ℚ) : ℤ := if x = 0 then -1074 else max (Float.lsb x) (-1074)

/-- Rounding to nearest, ties to even, with gradual underflow. -/
def rnd64 (x : ℚ) : ℚ := Float.rne (x / 2 ^ lsb64 x) * 2 ^ lsb64 x

/-- `f64::next_up`. -/
def next64 (x : ℚ) : ℚ :=
  if x < 0 ∧ -x = 2 ^ (lsb64 x + 52) ∧ -1074 < lsb64 x then x + 2 ^ (lsb64 x - 1) else x + 2 ^ lsb64 x

/-- Double precision (without overflow). -/
def f64 : Arith := { rnd := rnd64, next := next64 }

/-! ### Intervals as numbers of the generic functions -/

/-- An interval number inside a computation; `itv = none` is a panic. `clean` is not in the code: it records that no product
went through one of the arms 0 and 8 of `mul`. -/
structure INum (A : Arith) where
  itv : Option Itv
  clean : Bool

variable {A : Arith}

/-- Both operands of an operation. -/
def both (f : Itv → Itv → Option Itv) (a b : INum A) : Option Itv := a.itv.bind fun x => b.itv.bind fun y => f x y

/-- The arm of `mul` is neither 0 nor 8. -/
def goodArm (a b : INum A) : Bool :=
  match a.itv, b.itv with
  | some x, some y => decide (4 * x.mask + y.mask ≠ 0 ∧ 4 * x.mask + y.mask ≠ 8)
  | _, _ => false

instance : Add (INum A) := ⟨fun a b => ⟨both (fun x y => some (Itv.add A x y)) a b, a.clean && b.clean⟩⟩
instance : Sub (INum A) := ⟨fun a b => ⟨both (fun x y => some (Itv.sub A x y)) a b, a.clean && b.clean⟩⟩
instance : Mul (INum A) := ⟨fun a b => ⟨both (Itv.mul A) a b, a.clean && b.clean && goodArm a b⟩⟩

/-- `x.into()`. -/
def INum.of (A : Arith) (x : ℚ) : INum A := { itv := some (Itv.of x), clean := true }

/-- `neg`. -/
def INum.neg (a : INum A) : INum A := { itv := a.itv.map Itv.neg, clean := a.clean }

/-- The coordinates of a point as intervals. -/
def toI (A : Arith) (p : Pt ℚ) : Pt (INum A) := ⟨.of A p.x, .of A p.y, .of A p.z⟩

/-- The coordinates of the defining points as intervals. -/
def toII (A : Arith) : Imp ℚ → Imp (INum A)
  | .lpi l => .lpi ⟨toI A l.p, toI A l.q, toI A l.r, toI A l.s, toI A l.t⟩
  | .tpi t => .tpi ⟨toI A t.v1, toI A t.v2, toI A t.v3, toI A t.w1, toI A t.w2, toI A t.w3, toI A t.u1, toI A t.u2, toI A t.u3⟩

/-- `dynamic_filter` (`generic_point.rs` lines 250-295, 619-673); the outer `none` is a panic. -/
def dynamicFilter (A : Arith) (i : Imp ℚ) : Option (Option (Hom (INum A))) := do
  let h := (toII A i).lambda
  let d ← h.d.itv
  let h : Hom (INum A) := if d.negative then { x := h.x.neg, y := h.y.neg, z := h.z.neg, d := h.d.neg } else h
  let d ← h.d.itv
  pure (if d.notZero then some h else none)

/-- What the interval stage makes of the determinant, e.g. `orient3d.rs` lines 778-785: the inner `none` means that the stage
does not answer. -/
def decideI (det : INum A) : Option (Option Ori) := do
  let d ← det.itv
  pure (if d.notZero then (if d.positive then some .positive else if d.negative then some .negative else none) else none)

/-- The interval stage of `orient3d_ieee` (`orient3d.rs` lines 761-785). -/
def ieeeD (A : Arith) (pa : Imp ℚ) (pb pc pd : Pt ℚ) : Option (Option Ori) := do
  match ← dynamicFilter A pa with
  | some a => decideI (ieeeImpl a (toI A pb) (toI A pc) (toI A pd))
  | none => pure none

/-- The interval stage of `orient3d_iiee` (lines 905-931). -/
def iieeD (A : Arith) (pa pb : Imp ℚ) (pc pd : Pt ℚ) : Option (Option Ori) := do
  match ← dynamicFilter A pa, ← dynamicFilter A pb with
  | some a, some b => decideI (iieeImpl a b (toI A pc) (toI A pd))
  | _, _ => pure none

/-- The interval stage of `orient3d_iiie` (lines 1060-1095). -/
def iiieD (A : Arith) (pa pb pc : Imp ℚ) (pd : Pt ℚ) : Option (Option Ori) := do
  match ← dynamicFilter A pa, ← dynamicFilter A pb, ← dynamicFilter A pc with
  | some a, some b, some c => decideI (iiieImpl a b c (toI A pd))
  | _, _, _ => pure none

/-- The interval stage of `orient3d_iiii` (lines 1232-1268). -/
def iiiiD (A : Arith) (pa pb pc pd : Imp ℚ) : Option (Option Ori) := do
  match ← dynamicFilter A pa, ← dynamicFilter A pb, ← dynamicFilter A pc, ← dynamicFilter A pd with
  | some a, some b, some c, some d => decideI (iiiiImpl a b c d)
  | _, _, _, _ => pure none

/-- The interval stage of `orient2d_iee` (`orient2d.rs` lines 611-653). -/
def ieeD (A : Arith) (axis : Nat) (p1 : Imp ℚ) (p2 p3 : Pt ℚ) : Option (Option Ori) := do
  match ← dynamicFilter A p1 with
  | some a =>
    let l1 := ax2 axis a.x a.y a.z
    let b := ax2 axis p2.x p2.y p2.z
    let c := ax2 axis p3.x p3.y p3.z
    decideI (ieeImpl l1.1 l1.2 a.d (.of A b.1) (.of A b.2) (.of A c.1) (.of A c.2))
  | none => pure none

/-- The interval stage of `orient2d_iie`. -/
def iieD (A : Arith) (axis : Nat) (p1 p2 : Imp ℚ) (p3 : Pt ℚ) : Option (Option Ori) := do
  match ← dynamicFilter A p1, ← dynamicFilter A p2 with
  | some a, some b =>
    let l1 := ax2 axis a.x a.y a.z
    let l2 := ax2 axis b.x b.y b.z
    let c := ax2 axis p3.x p3.y p3.z
    decideI (iieImpl l1.1 l1.2 a.d l2.1 l2.2 b.d (.of A c.1) (.of A c.2))
  | _, _ => pure none

/-- The interval stage of `orient2d_iii`. -/
def iiiD (A : Arith) (axis : Nat) (p1 p2 p3 : Imp ℚ) : Option (Option Ori) := do
  match ← dynamicFilter A p1, ← dynamicFilter A p2, ← dynamicFilter A p3 with
  | some a, some b, some c =>
    let l1 := ax2 axis a.x a.y a.z
    let l2 := ax2 axis b.x b.y b.z
    let l3 := ax2 axis c.x c.y c.z
    decideI (iiiImpl l1.1 l1.2 a.d l2.1 l2.2 b.d l3.1 l3.2 c.d)
  | _, _, _ => pure none

/-- The interval stage of `less_than_ie` (`less_than.rs` lines 350-366). -/
def ltIeD (A : Arith) (axis : Nat) (pa : Imp ℚ) (pb : Pt ℚ) : Option (Option Ori) := do
  match ← dynamicFilter A pa with
  | some a => decideI (ltIeImpl (ax1 axis a.x a.y a.z) a.d (.of A (ax1 axis pb.x pb.y pb.z)))
  | none => pure none

/-- The interval stage of `less_than_ii` (lines 443-463): for every axis the x coordinate of the second point is taken. -/
def ltIiD (A : Arith) (axis : Nat) (pa pb : Imp ℚ) : Option (Option Ori) := do
  match ← dynamicFilter A pa, ← dynamicFilter A pb with
  | some a, some b => decideI (ltIiImpl (ax1 axis a.x a.y a.z) a.d b.x b.d)
  | _, _ => pure none

end Verif.Interval
