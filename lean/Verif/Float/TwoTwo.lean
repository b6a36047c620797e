import Verif.Float.Scale
/-!
# `two_two_sum`, `two_two_diff` and `two_one_product` give nonoverlapping expansions
-/
namespace Verif.Float

/-- A double that is not a multiple of `2 ^ k` is less than `2 ^ (k + 52)`. -/
theorem IsF.small {x : ℚ} (hx : IsF x) {k : ℤ} (h : ¬ Mult k x) : |x| ≤ 2 ^ (k + 52) - 2 ^ k / 2 := by
  obtain ⟨e, hm, hb⟩ := isF_iff.1 hx
  have he : e ≤ k - 1 := by
    by_contra hc
    exact h (hm.mono (by omega))
  have h1 : |x| + 2 ^ e ≤ 2 ^ (e + 53) := (Mult.lt_iff hm.abs ((Mult.pw (e + 53)).mono (by omega))).1 hb
  have h2 : (2 : ℚ) ^ e ≤ 2 ^ (k - 1) := pw_mono he
  have h3 : (2 : ℚ) ^ k = 2 ^ (k - 1) * 2 := by rw [← pw_1]; congr 1; ring
  rw [pw_53] at h1
  rw [pw_52, h3]
  linarith

theorem lsb_le_of_rn {x : ℚ} (hx : x ≠ 0) {k : ℤ} (h : |rn x| < 2 ^ (k + 52)) : lsb x ≤ k - 1 := by
  have := (rn_le_pw hx).1.trans_lt h
  rw [pw_lt] at this; omega

/-- The separation of the second from the third component. -/
theorem tt_sep {A B a1 a0 b1 b0 i x0 j o i2 x1 : ℚ} (ea1 : a1 = rn A) (ea0 : a0 = A - a1) (eb1 : b1 = rn B) (eb0 : b0 = B - b1)
    (ha0 : IsF a0) (hb0 : IsF b0) (ei : i = rn (a0 + b0)) (ex0 : x0 = a0 + b0 - i) (ej : j = rn (a1 + i)) (eo : o = a1 + i - j)
    (ei2 : i2 = rn (o + b1)) (ex1 : x1 = o + b1 - i2) :
    (∃ w, Mult w x1 ∧ |x0| < 3 / 4 * 2 ^ w) ∧ ∃ w, Mult w j ∧ Mult w i2 ∧ |x0 + x1| < 3 / 4 * 2 ^ w ∧ |x0| < 2 ^ w ∧ |x1| < 2 ^ w := by
  have hA : IsF a1 := ea1 ▸ rn_isF _
  have hB : IsF b1 := eb1 ▸ rn_isF _
  have hi : IsF i := ei ▸ rn_isF _
  have hj : IsF j := ej ▸ rn_isF _
  -- the unit of the second component
  have s1 : ∃ w, Mult w a1 ∧ Mult w b1 ∧ Mult w i ∧ |x0| ≤ 2 ^ w / 2 := by
    by_cases h0 : x0 = 0
    · obtain ⟨w, hw⟩ := exists_common_unit [a1, b1, i] (by simp [hA, hB, hi])
      refine ⟨w, hw _ (by simp), hw _ (by simp), hw _ (by simp), ?_⟩
      rw [h0, abs_zero]; have := pw_pos w; linarith
    · refine ⟨min (lsb (a0 + b0)) (min (lsb A) (lsb B)), ?_, ?_, ?_, ?_⟩
      · exact (ea1 ▸ rn_mult A).mono (by omega)
      · exact (eb1 ▸ rn_mult B).mono (by omega)
      · exact (ei ▸ rn_mult _).mono (by omega)
      · have e1 : |x0| ≤ 2 ^ lsb (a0 + b0) / 2 := by rw [ex0, ei]; exact rn_err _
        have e2 : |x0| ≤ |b0| := by
          have := rn_near (x := a0 + b0) ha0
          rw [ex0, ei]; simpa using this
        have e3 : |x0| ≤ |a0| := by
          have := rn_near (x := a0 + b0) hb0
          rw [ex0, ei]; simpa using this
        have e4 : |a0| ≤ 2 ^ lsb A / 2 := by rw [ea0, ea1]; exact rn_err _
        have e5 : |b0| ≤ 2 ^ lsb B / 2 := by rw [eb0, eb1]; exact rn_err _
        rcases min_choice (lsb (a0 + b0)) (min (lsb A) (lsb B)) with h | h <;> rw [h]
        · exact e1
        · rcases min_choice (lsb A) (lsb B) with h | h <;> rw [h] <;> linarith
  obtain ⟨w1, ma, mb, mi, hx0⟩ := s1
  have mj : Mult w1 j := ej ▸ rn_mult_of (ma.add mi)
  have mo : Mult w1 o := eo ▸ (ma.add mi).sub mj
  have mi2 : Mult w1 i2 := ei2 ▸ rn_mult_of (mo.add mb)
  have mx1 : Mult w1 x1 := ex1 ▸ (mo.add mb).sub mi2
  have hp1 := pw_pos w1
  refine ⟨⟨w1, mx1, by linarith⟩, ?_⟩
  by_cases h1 : x1 = 0
  · exact ⟨w1, mj, mi2, by rw [h1, add_zero]; linarith, by linarith, by rw [h1, abs_zero]; linarith⟩
  have hx01 : |x0| ≤ |x1| / 2 := by have := mx1.le_abs h1; linarith
  have hob : o + b1 ≠ 0 := by
    intro h; rw [h, rn_zero] at ei2; rw [ei2, h] at ex1; exact h1 (by rw [ex1]; ring)
  obtain ⟨l1, l2⟩ := log_bounds hob
  have hx1 : |x1| ≤ 2 ^ lsb (o + b1) / 2 := by rw [ex1, ei2]; exact rn_err _
  generalize hu : lsb (o + b1) = u at *
  have hpu := pw_pos u
  have hmi : Mult u i2 := by rw [ei2, ← hu]; exact rn_mult _
  have htri := abs_add_le x0 x1
  by_cases hA' : Mult u j
  · -- the head is a multiple of the unit of the sum
    by_cases hlt : |x0| + |x1| < 3 / 4 * 2 ^ u
    · exact ⟨u, hA', hmi, by linarith, by linarith, by linarith⟩
    have hx1e : |x1| = 2 ^ u / 2 := by linarith
    have hx0e : |x0| = 2 ^ u / 4 := by linarith
    have hev : Mult (u + 1) i2 := by
      rw [ei2, ← hu]
      apply tie_even
      rw [hu, ← hx1e, ex1, ei2]
    have hjm : Mult (u + 1) j := by
      by_contra hc
      have hjs := hj.small hc
      have p53 : (2 : ℚ) ^ (u + 1 + 52) = 2 ^ u * 9007199254740992 := by rw [← pw_53]; congr 1; ring
      rw [p53, pw_1] at hjs
      have hai : a1 + i ≠ 0 := by
        intro h; rw [h, rn_zero] at ej; rw [ej] at hc; exact hc (Mult.zero _)
      have ho : |o| ≤ 2 ^ u / 2 := by
        have e1 : |o| ≤ 2 ^ lsb (a1 + i) / 2 := by rw [eo, ej]; exact rn_err _
        have e2 : lsb (a1 + i) ≤ u := by
          have := lsb_le_of_rn (x := a1 + i) (k := u + 1) hai (by rw [← ej, p53]; linarith)
          omega
        have := pw_mono e2
        linarith
      have hb1 : |b1| < 2 ^ (u + 2 + 52) := by
        have e1 : |b1| ≤ |o + b1| + |o| := by
          have := abs_sub (o + b1) o
          rw [show o + b1 - o = b1 by ring] at this; exact this
        rw [show u + 2 + 52 = u + 53 + 1 by ring, pw_1, pw_53]
        rw [pw_53] at l2
        linarith
      have hb0' : |b0| ≤ 2 ^ u := by
        by_cases hB0 : B = 0
        · rw [eb0, eb1, hB0, rn_zero]; simp; linarith
        have e1 : |b0| ≤ 2 ^ lsb B / 2 := by rw [eb0, eb1]; exact rn_err _
        have e2 := lsb_le_of_rn hB0 (by rw [← eb1]; exact hb1)
        have e3 : (2 : ℚ) ^ lsb B ≤ 2 ^ (u + 1) := pw_mono (by omega)
        rw [pw_1] at e3
        linarith
      have hab0 : a0 + b0 ≠ 0 := by
        intro h
        rw [h, rn_zero] at ei
        rw [ei, h] at ex0
        rw [ex0] at hx0e; simp at hx0e; linarith
      have hl : u - 1 ≤ lsb (a0 + b0) := by
        have e1 : |x0| ≤ 2 ^ lsb (a0 + b0) / 2 := by rw [ex0, ei]; exact rn_err _
        have e2 : (2 : ℚ) ^ u = 2 ^ (u - 1) * 2 := by rw [← pw_1]; congr 1; ring
        rw [← pw_le]; linarith
      have hab : 2 ^ u * 2251799813685248 ≤ |a0 + b0| := by
        have e1 := (log_bounds hab0).1
        have e2 : (2 : ℚ) ^ (u - 1 + 52) ≤ 2 ^ (lsb (a0 + b0) + 52) := pw_mono (by omega)
        have e3 : (2 : ℚ) ^ u = 2 ^ (u - 1) * 2 := by rw [← pw_1]; congr 1; ring
        rw [pw_52] at e2
        rw [e3]; linarith
      have hA0 : A ≠ 0 := by
        intro h
        have : a0 = 0 := by rw [ea0, ea1, h, rn_zero]; ring
        rw [this, zero_add] at hab
        linarith
      have ea : |a0| ≤ 2 ^ lsb A / 2 := by rw [ea0, ea1]; exact rn_err _
      have et := abs_add_le a0 b0
      have ha1 : 2 ^ lsb A * 4503599627370496 ≤ |a1| := by rw [← pw_52, ea1]; exact (rn_le_pw hA0).1
      have hii : |i| ≤ 2 * |a0 + b0| := by
        have e1 := rn_rel (a0 + b0)
        rw [← ei] at e1
        have e2 := abs_sub (a0 + b0) (a0 + b0 - i)
        rw [show a0 + b0 - (a0 + b0 - i) = i by ring] at e2
        have e3 := abs_nonneg (a0 + b0)
        norm_num at e1
        linarith
      have hbig : 2 ^ lsb A * 4503599627370496 / 2 ≤ |a1 + i| := by
        have e1 := abs_sub (a1 + i) i
        rw [show a1 + i - i = a1 by ring] at e1
        linarith
      have hpj : |(2 : ℚ) ^ (u + 54)| ≤ |a1 + i| := by
        rw [abs_of_pos (pw_pos _), show u + 54 = u + 53 + 1 by ring, pw_1, pw_53]; linarith
      have := le_abs_rn (IsF.pw (u + 54)) hpj
      rw [← ej, abs_of_pos (pw_pos _), show u + 54 = u + 53 + 1 by ring, pw_1, pw_53] at this
      linarith
    exact ⟨u + 1, hjm, hev, by rw [pw_1]; linarith, by rw [pw_1]; linarith, by rw [pw_1]; linarith⟩
  · -- the head is small, so that the second step is exact
    have hjs := hj.small hA'
    have hai : a1 + i ≠ 0 := by
      intro h; rw [h, rn_zero] at ej; rw [ej] at hA'; exact hA' (Mult.zero _)
    have hlj : lsb (a1 + i) ≤ u - 1 := lsb_le_of_rn hai (by rw [← ej]; linarith)
    have ho : |o| ≤ 2 ^ lsb (a1 + i) / 2 := by rw [eo, ej]; exact rn_err _
    have ho' : |o| ≤ 2 ^ u / 4 := by
      have e2 : (2 : ℚ) ^ u = 2 ^ (u - 1) * 2 := by rw [← pw_1]; congr 1; ring
      have := pw_mono hlj
      linarith
    have hbm : Mult u b1 := by
      by_contra hc
      have e1 := hB.small hc
      have e2 := abs_add_le o b1
      linarith
    have heq : i2 = b1 := by
      have : i2 - b1 = 0 := by
        apply (hmi.sub hbm).eq_zero
        have e1 := abs_sub o x1
        rw [show o - x1 = i2 - b1 by rw [ex1]; ring] at e1
        linarith
      linarith
    have hx1o : x1 = o := by rw [ex1, heq]; ring
    rw [hx1o] at htri hx01 ⊢
    have hmj : Mult (lsb (a1 + i)) j := by rw [ej]; exact rn_mult _
    have hpj := pw_pos (lsb (a1 + i))
    by_cases hlt : |x0| + |o| < 3 / 4 * 2 ^ lsb (a1 + i)
    · exact ⟨lsb (a1 + i), hmj, heq ▸ hbm.mono (by omega), by linarith, by linarith, by linarith⟩
    have hoe : |o| = 2 ^ lsb (a1 + i) / 2 := by linarith
    have hev : Mult (lsb (a1 + i) + 1) j := by
      rw [ej]
      apply tie_even
      rw [← ej, ← eo, hoe]
    exact ⟨lsb (a1 + i) + 1, hev, heq ▸ hbm.mono (by omega), by rw [pw_1]; linarith, by rw [pw_1]; linarith, by rw [pw_1]; linarith⟩

/-- The components of `two_two_sum` on the results of two roundings. -/
theorem tt_nonov {A B a1 a0 b1 b0 i x0 j o i2 x1 x3 x2 : ℚ} (ea1 : a1 = rn A) (ea0 : a0 = A - a1) (eb1 : b1 = rn B) (eb0 : b0 = B - b1)
    (ha0 : IsF a0) (hb0 : IsF b0) (ei : i = rn (a0 + b0)) (ex0 : x0 = a0 + b0 - i) (ej : j = rn (a1 + i)) (eo : o = a1 + i - j)
    (ei2 : i2 = rn (o + b1)) (ex1 : x1 = o + b1 - i2) (ex3 : x3 = rn (j + i2)) (ex2 : x2 = j + i2 - x3) : Expansion [x0, x1, x2, x3] := by
  obtain ⟨⟨w1, m1, h1⟩, w, mj, mi, h2, h3, h4⟩ := tt_sep ea1 ea0 eb1 eb0 ha0 hb0 ei ex0 ej eo ei2 ex1
  have hA : IsF a1 := ea1 ▸ rn_isF _
  have hB : IsF b1 := eb1 ▸ rn_isF _
  have hi : IsF i := ei ▸ rn_isF _
  have hj : IsF j := ej ▸ rn_isF _
  have hi2 : IsF i2 := ei2 ▸ rn_isF _
  have hx0 : IsF x0 := by rw [ex0, ei]; exact sum_err_isF ha0 hb0
  have ho : IsF o := by rw [eo, ej]; exact sum_err_isF hA hi
  have hx1 : IsF x1 := by rw [ex1, ei2]; exact sum_err_isF ho hB
  have hx2 : IsF x2 := by rw [ex2, ex3]; exact sum_err_isF hj hi2
  have hx3 : IsF x3 := ex3 ▸ rn_isF _
  have m3 : Mult w x3 := ex3 ▸ rn_mult_of (mj.add mi)
  have m2 : Mult w x2 := ex2 ▸ (mj.add mi).sub m3
  have hpw := pw_pos w
  have hp1 := pw_pos w1
  obtain ⟨e0, he0⟩ := exists_common_unit [x0] (by simp [hx0])
  have pick : |if x1 = 0 then (if x0 = 0 then 0 else x0) else x1| < 2 ^ w := by
    split_ifs
    · simpa using hpw
    · exact h3
    · exact h4
  refine ⟨hx0, ⟨e0, he0 _ (by simp), by simpa using pw_pos e0, by simpa using pw_pos e0⟩, hx1, ⟨w1, m1, ?_, ?_⟩, hx2, ⟨w, m2, ?_, pick⟩, hx3, ?_, trivial⟩
  · rw [zero_add]; exact h1
  · split_ifs
    · simpa using hp1
    · linarith
  · rw [zero_add]; exact h2
  · rw [zero_add]
    by_cases hz : x2 = 0
    · rw [if_pos hz, hz, add_zero]; exact ⟨w, m3, h2, pick⟩
    rw [if_neg hz]
    have b2 : |x2| ≤ 2 ^ lsb (j + i2) / 2 := by rw [ex2, ex3]; exact rn_err _
    have mm : Mult (lsb (j + i2)) x3 := by rw [ex3]; exact rn_mult _
    have htie : |x2| = 2 ^ lsb (j + i2) / 2 → Mult (lsb (j + i2) + 1) x3 := by
      intro h
      rw [ex3]; apply tie_even; rw [← h, ex2, ex3]
    generalize lsb (j + i2) = u at *
    have hu : (2 : ℚ) ^ u = 2 ^ (u - 1) * 2 := by rw [← pw_1]; congr 1; ring
    have hpu := pw_pos u
    have hw := m2.le_abs hz
    have htri := abs_add_le (x0 + x1) x2
    have hwu : w ≤ u - 1 := by rw [← pw_le]; linarith
    rcases b2.eq_or_lt with h | h
    · exact ⟨u + 1, htie h, by rw [pw_1]; linarith, by rw [pw_1]; linarith⟩
    · refine ⟨u, mm, ?_, by linarith⟩
      have : |x2| + 2 ^ w ≤ 2 ^ (u - 1) := (Mult.lt_iff m2.abs ((Mult.pw (u - 1)).mono hwu)).1 (by linarith)
      linarith

/-- The four components of the results of `two_two_sum`, `two_two_diff` and `two_one_product`, stored from the smallest to the largest. -/
def arr4 (x : ℚ × ℚ × ℚ × ℚ) : List ℚ := [x.2.2.2, x.2.2.1, x.2.1, x.1]

/-- `two_two_sum` on two rounded numbers with their errors. -/
theorem twoTwoSum_spec {A B : ℚ} (ha : IsF (A - rn A)) (hb : IsF (B - rn B)) :
    Expansion (arr4 (twoTwoSum (rn A) (A - rn A) (rn B) (B - rn B))) ∧ (arr4 (twoTwoSum (rn A) (A - rn A) (rn B) (B - rn B))).sum = A + B := by
  have h1 := rn_isF A
  have h2 := rn_isF B
  simp only [twoTwoSum, twoOneSum, arr4]
  rw [twoSum_spec ha hb]
  have h3 := rn_isF (A - rn A + (B - rn B))
  simp only
  rw [twoSum_spec h1 h3]
  simp only
  have h4 := sum_err_isF h1 h3
  rw [twoSum_spec h4 h2]
  simp only
  rw [twoSum_spec (rn_isF _) (rn_isF _)]
  refine ⟨tt_nonov rfl rfl rfl rfl ha hb rfl rfl rfl rfl rfl rfl rfl rfl, ?_⟩
  simp only [List.sum_cons, List.sum_nil]; ring

theorem twoTwoDiff_eq (a1 a0 b1 b0 : ℚ) : twoTwoDiff a1 a0 b1 b0 = twoTwoSum a1 a0 (-b1) (-b0) := by
  simp only [twoTwoDiff, twoTwoSum, twoOneDiff, twoOneSum, twoDiff_eq]

/-- `two_two_diff` on two rounded numbers with their errors. -/
theorem twoTwoDiff_spec {A B : ℚ} (ha : IsF (A - rn A)) (hb : IsF (B - rn B)) :
    Expansion (arr4 (twoTwoDiff (rn A) (A - rn A) (rn B) (B - rn B))) ∧ (arr4 (twoTwoDiff (rn A) (A - rn A) (rn B) (B - rn B))).sum = A - B := by
  have e : -B - rn (-B) = -(B - rn B) := by rw [rn_neg]; ring
  have h := twoTwoSum_spec (B := -B) ha (by rw [e]; exact hb.neg)
  rw [e, rn_neg, ← sub_eq_add_neg A B] at h
  rw [twoTwoDiff_eq]
  exact h

theorem exists_pw_gt (x : ℚ) : ∃ w : ℤ, |x| < 2 ^ w := by
  by_cases h : x = 0
  · exact ⟨0, by rw [h]; norm_num⟩
  · exact ⟨_, (log_bounds h).2⟩

/-- A component that a zero elimination may have left out. -/
theorem Nonov.insert {s t x : ℚ} {l : List ℚ} (hx : IsF x) (h : Nonov s t ((if x ≠ 0 then [x] else []) ++ l)) : Nonov s t (x :: l) := by
  by_cases h0 : x = 0
  · subst h0
    obtain ⟨w, hw⟩ := exists_pw_gt s
    obtain ⟨v, hv⟩ := exists_pw_gt t
    refine ⟨hx, ⟨max w v + 1, Mult.zero _, ?_, ?_⟩, by simpa using h⟩
    · have := pw_mono (le_max_left w v)
      have := pw_pos (max w v)
      rw [pw_1]; linarith
    · have := pw_mono (le_max_right w v)
      have := pw_pos (max w v)
      rw [pw_1]; linarith
  · rwa [if_pos h0] at h

/-- A rounded number with its error. -/
theorem pair_nonov {A : ℚ} (ha : IsF (A - rn A)) : Expansion [A - rn A, rn A] := by
  refine ⟨ha, ?_, rn_isF _, ?_, trivial⟩
  · obtain ⟨w, hw⟩ := exists_common_unit [A - rn A] (by simp [ha])
    exact ⟨w, hw _ (by simp), by simpa using pw_pos w, by simpa using pw_pos w⟩
  · have h := rn_err A
    have := pw_pos (lsb A)
    refine ⟨lsb A, rn_mult A, by rw [zero_add]; linarith, ?_⟩
    split_ifs
    · simpa using this
    · linarith

/-- Zeros do not matter. -/
theorem nonov_filter {s t : ℚ} {l : List ℚ} (hl : ∀ y ∈ l, IsF y) : Nonov s t (l.filter (· ≠ 0)) ↔ Nonov s t l := by
  induction l generalizing s t with
  | nil => simp
  | cons x l ih =>
    have ih' := fun s t => ih (s := s) (t := t) fun y hy => hl y (List.mem_cons_of_mem _ hy)
    by_cases h0 : x = 0
    · subst h0
      rw [List.filter_cons_of_neg (by simp), ih']
      constructor
      · intro h; exact Nonov.insert (hl 0 List.mem_cons_self) (by simpa using h)
      · rintro ⟨-, -, h⟩; simpa using h
    · rw [List.filter_cons_of_pos (by simpa using h0)]
      simp only [Nonov, ih']

theorem sum_filter (l : List ℚ) : (l.filter (· ≠ 0)).sum = l.sum := by
  induction l with
  | nil => rfl
  | cons x l ih =>
    by_cases h0 : x = 0
    · rw [List.filter_cons_of_neg (by simpa using h0), ih, h0]; simp
    · rw [List.filter_cons_of_pos (by simpa using h0), List.sum_cons, List.sum_cons, ih]

/-- The loop of `scale_expansion_zeroelim` without the elimination of zeros. -/
def sca (b : ℚ) : ℚ → List ℚ → List ℚ
  | q, [] => [q]
  | q, y :: e =>
    (twoSum q (twoProductPreSplit y b (split b).1 (split b).2).2).2 ::
    (fastTwoSum (twoProductPreSplit y b (split b).1 (split b).2).1 (twoSum q (twoProductPreSplit y b (split b).1 (split b).2).2).1).2 ::
    sca b (fastTwoSum (twoProductPreSplit y b (split b).1 (split b).2).1 (twoSum q (twoProductPreSplit y b (split b).1 (split b).2).2).1).1 e

theorem filter_if (x : ℚ) (c : Prop) [Decidable c] (h : x ≠ 0 → c) : (if c then [x] else []).filter (· ≠ 0) = [x].filter (· ≠ 0) := by
  by_cases h0 : x = 0
  · subst h0; split_ifs <;> simp
  · rw [if_pos (h h0)]

theorem scl_filter (b : ℚ) (e : List ℚ) : ∀ q f, (scl b q f e).filter (· ≠ 0) = (sca b q e).filter (· ≠ 0) := by
  induction e with
  | nil => intro q f; exact filter_if q _ Or.inl
  | cons y e ih =>
    intro q f
    simp only [scl, sca, List.filter_append, ih]
    rw [filter_if _ _ id, filter_if _ _ id, ← List.filter_append, ← List.filter_append]
    rfl

/-- `two_one_product` on a rounded number with its error. -/
theorem twoOneProduct_spec {A b : ℚ} (ha : IsF (A - rn A)) (hb : IsF b) :
    Expansion (arr4 (twoOneProduct (rn A) (A - rn A) b)) ∧ (arr4 (twoOneProduct (rn A) (A - rn A) b)).sum = A * b := by
  have hA := rn_isF A
  obtain ⟨r, hr, he, hs, -⟩ := scaleExpansion_spec (pair_nonov ha) hb (by simp)
  rw [scaleExpansion_eq (by simp [ha, hA]) hb (by simp)] at hr
  cases hr
  have f1 := prod_err_isF ha hb
  have g1 := rn_isF ((A - rn A) * b)
  have key : sca b 0 [A - rn A, rn A] = 0 :: arr4 (twoOneProduct (rn A) (A - rn A) b) := by
    have e1 := twoProductPreSplit_spec ha hb
    have z1 : twoSum 0 ((A - rn A) * b - rn ((A - rn A) * b)) = ((A - rn A) * b - rn ((A - rn A) * b), 0) := by
      rw [twoSum_spec IsF.zero f1, zero_add, rn_of_isF f1, sub_self]
    have z3 : fastTwoSum (rn ((A - rn A) * b)) ((A - rn A) * b - rn ((A - rn A) * b)) = (rn ((A - rn A) * b), (A - rn A) * b - rn ((A - rn A) * b)) := by
      rw [fastTwoSum_spec g1 f1]
      · rw [show rn ((A - rn A) * b) + ((A - rn A) * b - rn ((A - rn A) * b)) = (A - rn A) * b by ring]
      · left
        have h1 := rn_rel' ((A - rn A) * b)
        have h2 := abs_nonneg (rn ((A - rn A) * b))
        refine h1.trans ?_
        rw [div_le_iff₀ (by norm_num)]
        nlinarith
    simp only [sca, e1, z1, z3, arr4, twoOneProduct]
  have hF : ∀ y ∈ arr4 (twoOneProduct (rn A) (A - rn A) b), IsF y := by
    intro y hy
    simp only [arr4, twoOneProduct, List.mem_cons, List.not_mem_nil, or_false] at hy
    rcases hy with rfl | rfl | rfl | rfl <;> exact rn_isF _
  have hsF := he.isF
  have hfil : (scl b 0 true [A - rn A, rn A]).filter (· ≠ 0) = (arr4 (twoOneProduct (rn A) (A - rn A) b)).filter (· ≠ 0) := by
    rw [scl_filter, key, List.filter_cons_of_neg (by simp)]
  refine ⟨?_, ?_⟩
  · unfold Expansion at he ⊢
    rw [← nonov_filter hF, ← hfil, nonov_filter hsF]; exact he
  · rw [← sum_filter, ← hfil, sum_filter, hs]
    simp only [List.sum_cons, List.sum_nil]; ring

end Verif.Float
