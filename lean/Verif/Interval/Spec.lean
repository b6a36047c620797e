import Mathlib.Algebra.Order.Field.Rat
import Verif.Interval.Model
/-!
# Specification of the interval arithmetic
-/
namespace Verif.Interval

/-- What is assumed about rounding and `next_up`. -/
structure Arith.Sound (A : Arith) : Prop where
  mono : ∀ {x y}, x ≤ y → A.rnd x ≤ A.rnd y
  odd : ∀ x, A.rnd (-x) = -A.rnd x
  above : ∀ x, x ≤ A.next (A.rnd x)
  neg : ∀ x, A.rnd x < 0 → A.next (A.rnd x) ≤ 0
  pos : ∀ x, 0 ≤ A.rnd x → 0 < A.next (A.rnd x)

/-- The sign bit of a lane agrees with its value. -/
structure Lane.Ok (a : Lane) : Prop where
  neg : a.v < 0 → a.s = true
  pos : 0 < a.v → a.s = false

/-- The interval `a` is well-formed and holds the number `x`. -/
structure Holds (a : Itv) (x : ℚ) : Prop where
  hi : x ≤ a.d0.v
  lo : -a.d1.v ≤ x
  ok0 : a.d0.Ok
  ok1 : a.d1.Ok
  one : ¬ (a.d0.s = true ∧ a.d1.s = true)

/-- The product of `a` and `b` is computed by one of the arms 0 (both operands contain numbers of both signs) or 8 (the first
operand is positive, the second contains numbers of both signs). -/
def badArm (a b : Itv) : Prop := 4 * a.mask + b.mask = 0 ∨ 4 * a.mask + b.mask = 8

end Verif.Interval
