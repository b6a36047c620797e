import Mathlib.Algebra.Order.Field.Rat
import Mathlib.Algebra.Order.Field.Power
/-!
# Doubles as rational numbers
-/
namespace Verif.Float

/-- `x` is a double: an integer of at most 53 bits times a power of two. -/
def IsF (x : ℚ) : Prop := ∃ m e : ℤ, |m| < 2 ^ 53 ∧ x = m * 2 ^ e

/-- `y` is the double nearest to `x`; in case of a tie, the one whose last bit is zero. -/
structure IsRounded (x y : ℚ) : Prop where
  double : IsF y
  nearest : ∀ f, IsF f → |x - y| ≤ |x - f|
  even : ∀ f, IsF f → f ≠ y → |x - y| = |x - f| → ∃ m e : ℤ, 2 ^ 52 ≤ |m| ∧ |m| ≤ 2 ^ 53 ∧ y = m * 2 ^ e ∧ m % 2 = 0

/-- `x` is an integer multiple of `2 ^ e`. -/
def Mult (e : ℤ) (x : ℚ) : Prop := ∃ k : ℤ, x = k * 2 ^ e

/-- A list of doubles, ordered from the smallest component to the largest (zeros may be interspersed), is nonoverlapping: every
component `x` is a multiple of a power of two that exceeds the previous nonzero component `t` in magnitude and of which the sum
`s` of all previous components is less than three quarters. -/
def Nonov : ℚ → ℚ → List ℚ → Prop
  | _, _, [] => True
  | s, t, x :: xs => IsF x ∧ (∃ w : ℤ, Mult w x ∧ |s| < 3 / 4 * 2 ^ w ∧ |t| < 2 ^ w) ∧ Nonov (s + x) (if x = 0 then t else x) xs

/-- A nonoverlapping expansion; its value is the sum of the list. -/
def Expansion (e : List ℚ) : Prop := Nonov 0 0 e

end Verif.Float
