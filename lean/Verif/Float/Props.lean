import Verif.Float.Product
/-!
# Properties of the error-free transformations (`src/predicates/predicates.rs`)
-/
namespace Verif.Float

/-- `exact_init` computes epsilon `2 ^ -53` and the splitter `2 ^ 27 + 1`; the error bounds derived from epsilon are free of
rounding: they are the exact values of the formulas of lines 48-60. -/
theorem c23_exact_init : exactInit 100 = some (1 / 2 ^ 53, splitter) ∧
    (∀ ab ∈ [((3 : ℚ), (8 : ℚ)), (3, 16), (2, 12), (7, 56), (3, 28), (10, 96), (4, 48), (16, 224), (5, 72)],
      boundAB (1 / 2 ^ 53) ab.1 ab.2 = (ab.1 + ab.2 / 2 ^ 53) / 2 ^ 53) ∧
    (∀ ab ∈ [((9 : ℚ), (64 : ℚ)), (26, 288), (44, 576), (71, 1408)],
      boundC (1 / 2 ^ 53) ab.1 ab.2 = (ab.1 + ab.2 / 2 ^ 53) / 2 ^ 53 / 2 ^ 53) := by
  decide +kernel

/-- More rounds change nothing: the loop of `exact_init` has ended before. -/
theorem c23_exact_init_fuel (fuel : Nat) : exactInit (100 + fuel) = some (1 / 2 ^ 53, splitter) := by
  have mono : ∀ n b e s c r, initLoop n b e s c = some r → initLoop (n + fuel) b e s c = some r := by
    intro n
    induction n with
    | zero => intro b e s c r h; simp [initLoop] at h
    | succ n ih =>
      intro b e s c r h
      rw [Nat.succ_add]
      simp only [initLoop] at h ⊢
      split_ifs at h ⊢ with h1 h2
      all_goals first | exact h | exact ih _ _ _ _ _ h
  have h0 : initLoop 100 true 1 1 1 = some (1 / 2 ^ 53, 2 ^ 27) := by decide +kernel
  have := mono _ _ _ _ _ _ h0
  rw [exactInit, this]
  decide +kernel

/-- C22. `two_sum` returns the rounded sum and its exact error, whatever the magnitudes of the arguments. -/
theorem c22_two_sum {a b : ℚ} (ha : IsF a) (hb : IsF b) :
    IsRounded (a + b) (twoSum a b).1 ∧ IsF (twoSum a b).2 ∧ (twoSum a b).1 + (twoSum a b).2 = a + b := by
  rw [twoSum_spec ha hb]
  exact ⟨rn_isRounded _, sum_err_isF ha hb, by ring⟩

/-- C22. `two_diff` returns the rounded difference and its exact error; `two_diff_tail` is that error. -/
theorem c22_two_diff {a b : ℚ} (ha : IsF a) (hb : IsF b) :
    IsRounded (a - b) (twoDiff a b).1 ∧ IsF (twoDiff a b).2 ∧ (twoDiff a b).1 + (twoDiff a b).2 = a - b ∧
      fsub a b + twoDiffTail a b (fsub a b) = a - b := by
  have h := sum_err_isF ha hb.neg
  rw [← sub_eq_add_neg] at h
  have ht := twoDiffTail_spec ha hb
  rw [twoDiff_spec ha hb]
  refine ⟨rn_isRounded _, h, by ring, ?_⟩
  rw [show fsub a b = rn (a - b) from rfl, ht]; ring

/-- C22. `fast_two_sum` does the same with three operations if the first argument is not the smaller one (or is zero). -/
theorem c22_fast_two_sum {a b : ℚ} (ha : IsF a) (hb : IsF b) (h : |b| ≤ |a| ∨ a = 0) :
    IsRounded (a + b) (fastTwoSum a b).1 ∧ IsF (fastTwoSum a b).2 ∧ (fastTwoSum a b).1 + (fastTwoSum a b).2 = a + b := by
  rw [fastTwoSum_spec ha hb h]
  exact ⟨rn_isRounded _, sum_err_isF ha hb, by ring⟩

/-- C22. `fast_two_diff` likewise. -/
theorem c22_fast_two_diff {a b : ℚ} (ha : IsF a) (hb : IsF b) (h : |b| ≤ |a| ∨ a = 0) :
    IsRounded (a - b) (fastTwoDiff a b).1 ∧ IsF (fastTwoDiff a b).2 ∧ (fastTwoDiff a b).1 + (fastTwoDiff a b).2 = a - b := by
  have h' := sum_err_isF ha hb.neg
  rw [← sub_eq_add_neg] at h'
  rw [fastTwoDiff_spec ha hb h]
  exact ⟨rn_isRounded _, h', by ring⟩

/-- The condition of `fast_two_sum` cannot be dropped. -/
theorem c22_fast_two_sum_needs_order : ∃ a b, IsF a ∧ IsF b ∧ (fastTwoSum a b).1 + (fastTwoSum a b).2 ≠ a + b :=
  ⟨1 + 1 / 2 ^ 52, 2 ^ 53 + 2, ⟨2 ^ 52 + 1, -52, by norm_num, by norm_num⟩, ⟨2 ^ 52 + 1, 1, by norm_num, by norm_num⟩,
    by decide +kernel⟩

example : IsF 1 ∧ IsF (1 / 2 ^ 60) ∧ twoSum (1 / 2 ^ 60) 1 = (1, 1 / 2 ^ 60) ∧ twoDiff (1 / 2 ^ 60) 1 = (-1, 1 / 2 ^ 60) ∧
    fastTwoSum 1 (1 / 2 ^ 60) = (1, 1 / 2 ^ 60) :=
  ⟨⟨1, 0, by norm_num, by norm_num⟩, ⟨1, -60, by norm_num, by norm_num⟩, by decide +kernel, by decide +kernel, by decide +kernel⟩

/-- C23. `split` cuts a double into a leading part of 26 bits and a remainder of 26 bits, exactly: in units of the last
place of `a`, the leading part is a multiple of `2 ^ 27` up to `2 ^ 53` and the remainder an integer up to `2 ^ 26`. -/
theorem c23_split {a : ℚ} (ha : IsF a) : (split a).1 + (split a).2 = a ∧
    ∃ m n e : ℤ, (split a).1 = m * 2 ^ e * 2 ^ 27 ∧ |m| ≤ 2 ^ 26 ∧ (split a).2 = n * 2 ^ e ∧ |n| ≤ 2 ^ 26 := by
  obtain ⟨e, h⟩ := split_spec ha
  refine ⟨h.sum, ?_⟩
  obtain ⟨m, hm⟩ := h.mhi
  obtain ⟨n, hn⟩ := h.mlo
  have hu := pw_pos e
  refine ⟨m, n, e, ?_, ?_, hn, ?_⟩
  · rw [hm, pw_27]; ring
  · have := h.bhi
    rw [hm, pw_53, pw_27, abs_mul, abs_of_pos (a := (2 : ℚ) ^ e * 134217728) (by positivity)] at this
    have h2 : |(m : ℚ)| ≤ 67108864 := by
      by_contra hc
      have := mul_lt_mul_of_pos_right (not_le.1 hc) (show (0 : ℚ) < 2 ^ e * 134217728 by positivity)
      linarith
    norm_num; exact_mod_cast h2
  · have := h.blo
    rw [hn, pw_26, abs_mul, abs_of_pos hu, mul_comm] at this
    have h2 := le_of_mul_le_mul_left this hu
    norm_num; exact_mod_cast h2

/-- C23. `two_product` returns the rounded product and its exact error. -/
theorem c23_two_product {a b : ℚ} (ha : IsF a) (hb : IsF b) :
    IsRounded (a * b) (twoProduct a b).1 ∧ IsF (twoProduct a b).2 ∧ (twoProduct a b).1 + (twoProduct a b).2 = a * b := by
  rw [twoProduct_spec ha hb]
  exact ⟨rn_isRounded _, prod_err_isF ha hb, by ring⟩

/-- C23. `two_product_pre_split` with the split of `b` is `two_product`. -/
theorem c23_two_product_pre_split {a b : ℚ} (ha : IsF a) (hb : IsF b) :
    twoProductPreSplit a b (split b).1 (split b).2 = twoProduct a b := by
  rw [twoProductPreSplit_spec ha hb, twoProduct_spec ha hb]

/-- C23. `square` returns the rounded square and its exact error. -/
theorem c23_square {a : ℚ} (ha : IsF a) :
    IsRounded (a * a) (square a).1 ∧ IsF (square a).2 ∧ (square a).1 + (square a).2 = a * a := by
  rw [square_spec ha]
  exact ⟨rn_isRounded _, prod_err_isF ha ha, by ring⟩

example : IsF (1 + 1 / 2 ^ 52) ∧ split (1 + 1 / 2 ^ 52) = (1, 1 / 2 ^ 52) ∧
    twoProduct (1 + 1 / 2 ^ 52) (1 + 1 / 2 ^ 52) = (1 + 1 / 2 ^ 51, 1 / 2 ^ 104) ∧
    square (1 + 1 / 2 ^ 52) = (1 + 1 / 2 ^ 51, 1 / 2 ^ 104) :=
  ⟨⟨2 ^ 52 + 1, -52, by norm_num, by norm_num⟩, by decide +kernel, by decide +kernel, by decide +kernel⟩

end Verif.Float
