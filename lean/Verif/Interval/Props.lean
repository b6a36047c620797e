import Verif.Interval.Stage
/-!
# Properties of the interval arithmetic (`src/predicates/interval_number.rs`) and of the interval stage of the predicates

`Holds a x` says that the interval `a` is well-formed and that `x` lies between its bounds. The theorems are about every
arithmetic `A` meeting `Arith.Sound`; double precision (without overflow) is one, `f64_sound`.
-/
namespace Verif.Interval
open Verif.Pred InSphere

variable {A : Arith}

/-! ### C19: addition and subtraction -/

/-- **C19.** The interval of a double holds it, and it holds nothing else. -/
theorem c19_of (x y : ℚ) : Holds (Itv.of x) x ∧ (Holds (Itv.of x) y → y = x) := by
  refine ⟨of_holds x, fun h => le_antisymm h.hi ?_⟩
  have := h.lo
  simpa [Itv.of, lane, Lane.neg] using this

/-- **C19.** Sums and differences of intervals hold the sums and differences of the numbers held, whatever the rounding. -/
theorem c19_add_sub (hA : A.Sound) {a b : Itv} {x y : ℚ} (ha : Holds a x) (hb : Holds b y) :
    Holds (Itv.add A a b) (x + y) ∧ Holds (Itv.sub A a b) (x - y) ∧ Holds a.neg (-x) :=
  ⟨add_holds hA ha hb, sub_holds hA ha hb, neg_holds ha⟩

/-- **C19** in double precision. -/
theorem c19_f64 {a b : Itv} {x y : ℚ} (ha : Holds a x) (hb : Holds b y) :
    Holds (Itv.add f64 a b) (x + y) ∧ Holds (Itv.sub f64 a b) (x - y) :=
  ⟨add_holds f64_sound ha hb, sub_holds f64_sound ha hb⟩

/-- A tenth plus two tenths, in doubles: the sum of the doubles is not a double, but is held. -/
example : Holds (Itv.add f64 (Itv.of (3602879701896397 / 2 ^ 55)) (Itv.of (3602879701896397 / 2 ^ 54))) (10808639105689191 / 2 ^ 55) ∧
    Itv.add f64 (Itv.of (3602879701896397 / 2 ^ 55)) (Itv.of (3602879701896397 / 2 ^ 54)) =
      ⟨⟨5404319552844597 / 2 ^ 54, false⟩, ⟨-(5404319552844595 / 2 ^ 54), true⟩⟩ := by
  refine ⟨?_, by decide +kernel⟩
  have := (c19_f64 (of_holds (3602879701896397 / 2 ^ 55)) (of_holds (3602879701896397 / 2 ^ 54))).1
  rwa [show (3602879701896397 / 2 ^ 55 : ℚ) + 3602879701896397 / 2 ^ 54 = 10808639105689191 / 2 ^ 55 by norm_num] at this

/-! ### C20: multiplication -/

/-- The statement of C20. -/
def C20 (A : Arith) : Prop := ∀ a b x y, Holds a x → Holds b y → ∃ r, Itv.mul A a b = some r ∧ Holds r (x * y)

/-- **C20**: the product does not panic on well-formed intervals, and it holds the product of the numbers held, except in the
arms 0 and 8. Missing: in these arms (`c20_negated`) the bounds are exchanged. -/
theorem c20_mul_partial (hA : A.Sound) {a b : Itv} {x y : ℚ} (ha : Holds a x) (hb : Holds b y) (hm : ¬ badArm a b) :
    ∃ r, Itv.mul A a b = some r ∧ Holds r (x * y) := by
  obtain ⟨r, h1, h2, -⟩ := mul_spec hA ha hb
  exact ⟨r, h1, h2 hm⟩

/-- The product holds the product of the numbers held if the second operand does not contain numbers of both signs, or if the
first one is negative. -/
theorem c20_mul_definite_partial (hA : A.Sound) {a b : Itv} {x y : ℚ} (ha : Holds a x) (hb : Holds b y)
    (hm : b.d0.s = true ∨ b.d1.s = true ∨ a.d0.s = true) : ∃ r, Itv.mul A a b = some r ∧ Holds r (x * y) := by
  refine c20_mul_partial hA ha hb ?_
  rintro (h | h) <;> rcases hm with hm | hm | hm <;> simp only [Itv.mask, hm] at h <;> split_ifs at h <;> omega

/-- In the arms 0 and 8 the product holds the *negated* product of the numbers held. -/
theorem c20_negated (hA : A.Sound) {a b : Itv} {x y : ℚ} (ha : Holds a x) (hb : Holds b y) (hm : badArm a b) :
    ∃ r, Itv.mul A a b = some r ∧ Holds r (-(x * y)) := by
  obtain ⟨r, h1, -, h2⟩ := mul_spec hA ha hb
  exact ⟨r, h1, h2 hm⟩

/-- The interval from -1 to 2, and the one from 1 to 2. -/
def mixed : Itv := ⟨⟨2, false⟩, ⟨1, false⟩⟩
@[inherit_doc mixed] def posItv : Itv := ⟨⟨2, false⟩, ⟨-1, true⟩⟩

theorem mixed_holds {x : ℚ} (h1 : -1 ≤ x) (h2 : x ≤ 2) : Holds mixed x :=
  ⟨h2, h1, ⟨by decide +kernel, by decide +kernel⟩, ⟨by decide +kernel, by decide +kernel⟩, by decide⟩

theorem posItv_holds {x : ℚ} (h1 : 1 ≤ x) (h2 : x ≤ 2) : Holds posItv x :=
  ⟨h2, by simpa [posItv] using h1, ⟨by decide +kernel, by decide +kernel⟩, ⟨by decide +kernel, by decide +kernel⟩, by decide⟩

/-- **C20** fails in both arms: 2 · 2 = 4 is not in [-1,2] · [-1,2], nor in [1,2] · [-1,2]. -/
theorem c20_refuted : ¬ C20 f64 := by
  intro h
  obtain ⟨r, h1, h2⟩ := h mixed mixed 2 2 (mixed_holds (by norm_num) le_rfl) (mixed_holds (by norm_num) le_rfl)
  have e : ∃ r, Itv.mul f64 mixed mixed = some r ∧ r.d0.v < 4 := by decide +kernel
  obtain ⟨r', h3, h4⟩ := e
  rw [h1] at h3
  cases h3
  have := h2.hi
  linarith

theorem c20_refuted_arm8 : Holds posItv 2 ∧ Holds mixed 2 ∧ ∃ r, Itv.mul f64 posItv mixed = some r ∧ ¬ Holds r (2 * 2) := by
  refine ⟨posItv_holds (by norm_num) le_rfl, mixed_holds (by norm_num) le_rfl, ?_⟩
  have e : ∃ r, Itv.mul f64 posItv mixed = some r ∧ r.d0.v < 4 := by decide +kernel
  obtain ⟨r, h1, h2⟩ := e
  refine ⟨r, h1, fun h => ?_⟩
  have := h.hi
  linarith

/-- It happens to intervals computed from doubles: `1 * ((2^53 + 1.5) - 2^53)` does not hold the result 1.5. -/
theorem c20_reachable : ∃ r, Itv.mul f64 (.of 1) (Itv.sub f64 (Itv.add f64 (.of (2 ^ 53)) (.of (3 / 2))) (.of (2 ^ 53))) = some r ∧
    ¬ Holds r (1 * ((2 ^ 53 + 3 / 2) - 2 ^ 53)) := by
  have e : ∃ r, Itv.mul f64 (.of 1) (Itv.sub f64 (Itv.add f64 (.of (2 ^ 53)) (.of (3 / 2))) (.of (2 ^ 53))) = some r ∧
    r.d0.v < 3 / 2 := by decide +kernel
  obtain ⟨r, h1, h2⟩ := e
  refine ⟨r, h1, fun h => ?_⟩
  have := h.hi
  linarith

example : ∃ r, Itv.mul f64 mixed posItv = some r ∧ Holds r (2 * 2) :=
  c20_mul_definite_partial f64_sound (mixed_holds (by norm_num) le_rfl) (posItv_holds (by norm_num) le_rfl) (by decide)

/-! ### C21: sign tests -/

/-- The statement of C21. -/
def C21 : Prop := ∀ a x, Holds a x → (a.positive = true → 0 < x) ∧ (a.negative = true → x < 0) ∧ (a.notZero = true → x ≠ 0)

/-- **C21** for `not_zero`, and the other two tests the other way round. Missing: `positive` and `negative` are exchanged,
`c21_refuted`. -/
theorem c21_signs_partial {a : Itv} {x : ℚ} (h : Holds a x) :
    (a.notZero = true → x ≠ 0) ∧ (a.positive = true → x < 0) ∧ (a.negative = true → 0 < x) := by
  have h1 := h.hi
  have h2 := h.lo
  simp only [Itv.notZero, Itv.positive, Itv.negative, Bool.or_eq_true, decide_eq_true_eq]
  refine ⟨?_, fun h => by linarith, fun h => by linarith⟩
  rintro (h | h) rfl <;> linarith

/-- `positive` is true exactly if all numbers of the interval are negative, `negative` exactly if all are positive. -/
theorem c21_exchanged {a : Itv} {x : ℚ} (h : Holds a x) : (a.positive = true ↔ ∀ y, Holds a y → y < 0) ∧
    (a.negative = true ↔ ∀ y, Holds a y → 0 < y) ∧ (a.notZero = true ↔ ∀ y, Holds a y → y ≠ 0) := by
  have hi : Holds a a.d0.v := ⟨le_rfl, h.lo.trans h.hi, h.ok0, h.ok1, h.one⟩
  have lo : Holds a (-a.d1.v) := ⟨h.lo.trans h.hi, le_rfl, h.ok0, h.ok1, h.one⟩
  refine ⟨⟨fun hp y hy => (c21_signs_partial hy).2.1 hp, fun hp => by simpa [Itv.positive] using hp _ hi⟩,
    ⟨fun hp y hy => (c21_signs_partial hy).2.2 hp, fun hp => by simpa [Itv.negative] using hp _ lo⟩,
    ⟨fun hp y hy => (c21_signs_partial hy).1 hp, fun hp => ?_⟩⟩
  by_contra hc
  simp only [Itv.notZero, Bool.or_eq_true, decide_eq_true_eq, not_or, not_lt] at hc
  exact hp 0 ⟨hc.1, by linarith, h.ok0, h.ok1, h.one⟩ rfl

/-- **C21** fails already for the interval of the number 1. -/
theorem c21_refuted : ¬ C21 := by
  intro h
  have := ((h (.of 1) 1 (of_holds 1)).2.1 (by decide +kernel))
  norm_num at this

example : (Itv.of 1).positive = false ∧ (Itv.of 1).negative = true ∧ (Itv.of (-1)).positive = true ∧ mixed.notZero = false := by
  decide +kernel

end Verif.Interval
