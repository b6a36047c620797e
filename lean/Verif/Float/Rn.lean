import Verif.Float.Model
import Verif.Float.Spec
import Mathlib.Tactic.Linarith
import Mathlib.Tactic.Ring
import Mathlib.Tactic.FieldSimp
import Mathlib.Tactic.Positivity
import Mathlib.Tactic.NormNum
/-!
# Properties of rounding
-/
namespace Verif.Float

/-! ### Powers of two and multiples -/

theorem pw_pos (e : ℤ) : (0 : ℚ) < 2 ^ e := zpow_pos (by norm_num) e
theorem pw_ne (e : ℤ) : (2 : ℚ) ^ e ≠ 0 := (pw_pos e).ne'
theorem pw_add (e f : ℤ) : (2 : ℚ) ^ (e + f) = 2 ^ e * 2 ^ f := zpow_add₀ (by norm_num) e f
theorem pw_mono {e f : ℤ} (h : e ≤ f) : (2 : ℚ) ^ e ≤ 2 ^ f := zpow_le_zpow_right₀ (by norm_num) h
theorem pw_lt {e f : ℤ} : (2 : ℚ) ^ e < 2 ^ f ↔ e < f := zpow_lt_zpow_iff_right₀ (by norm_num)
theorem pw_le {e f : ℤ} : (2 : ℚ) ^ e ≤ 2 ^ f ↔ e ≤ f := zpow_le_zpow_iff_right₀ (by norm_num)
theorem pw_nat (e : ℤ) (n : ℕ) : (2 : ℚ) ^ (e + n) = 2 ^ e * 2 ^ n := by rw [pw_add, zpow_natCast]
theorem pw_53 (e : ℤ) : (2 : ℚ) ^ (e + 53) = 2 ^ e * 9007199254740992 := by
  have := pw_nat e 53; norm_num at this; exact this
theorem pw_52 (e : ℤ) : (2 : ℚ) ^ (e + 52) = 2 ^ e * 4503599627370496 := by
  have := pw_nat e 52; norm_num at this; exact this
theorem pw_1 (e : ℤ) : (2 : ℚ) ^ (e + 1) = 2 ^ e * 2 := by
  have := pw_nat e 1; norm_num at this; exact this

theorem Mult.zero (e : ℤ) : Mult e 0 := ⟨0, by simp⟩
theorem Mult.add {e : ℤ} {x y : ℚ} (hx : Mult e x) (hy : Mult e y) : Mult e (x + y) := by
  obtain ⟨k, rfl⟩ := hx; obtain ⟨l, rfl⟩ := hy; exact ⟨k + l, by push_cast; ring⟩
theorem Mult.neg {e : ℤ} {x : ℚ} (hx : Mult e x) : Mult e (-x) := by
  obtain ⟨k, rfl⟩ := hx; exact ⟨-k, by push_cast; ring⟩
theorem Mult.sub {e : ℤ} {x y : ℚ} (hx : Mult e x) (hy : Mult e y) : Mult e (x - y) := by
  rw [sub_eq_add_neg]; exact hx.add hy.neg
theorem Mult.mono {e f : ℤ} (h : f ≤ e) {x : ℚ} (hx : Mult e x) : Mult f x := by
  obtain ⟨k, rfl⟩ := hx
  obtain ⟨n, hn⟩ := Int.le.dest h
  refine ⟨k * 2 ^ n, ?_⟩
  rw [← hn, pw_nat]; push_cast; ring
theorem Mult.mul {e f : ℤ} {x y : ℚ} (hx : Mult e x) (hy : Mult f y) : Mult (e + f) (x * y) := by
  obtain ⟨k, rfl⟩ := hx; obtain ⟨l, rfl⟩ := hy; exact ⟨k * l, by rw [pw_add]; push_cast; ring⟩
theorem Mult.scale {e : ℤ} (f : ℤ) {x : ℚ} (hx : Mult e x) : Mult (e + f) (x * 2 ^ f) := by
  obtain ⟨k, rfl⟩ := hx; exact ⟨k, by rw [pw_add]; ring⟩
theorem Mult.pw (e : ℤ) : Mult e (2 ^ e) := ⟨1, by simp⟩

/-- A multiple that is smaller than the unit is zero. -/
theorem Mult.eq_zero {e : ℤ} {x : ℚ} (hx : Mult e x) (h : |x| < 2 ^ e) : x = 0 := by
  obtain ⟨k, rfl⟩ := hx
  rw [abs_mul, abs_of_pos (pw_pos e)] at h
  have h1 : |(k : ℚ)| < 1 := by
    by_contra hc
    have := mul_le_mul_of_nonneg_right (not_lt.1 hc) (pw_pos e).le
    linarith
  have : |k| < 1 := by exact_mod_cast h1
  rw [Int.abs_lt_one_iff] at this
  simp [this]

/-- Strict bounds on multiples can be tightened. -/
theorem Mult.lt_iff {e : ℤ} {x y : ℚ} (hx : Mult e x) (hy : Mult e y) : x < y ↔ x + 2 ^ e ≤ y := by
  obtain ⟨k, rfl⟩ := hx; obtain ⟨l, rfl⟩ := hy
  have hp := pw_pos e
  constructor
  · intro h
    have : (k : ℚ) < l := lt_of_mul_lt_mul_right h hp.le
    have : k + 1 ≤ l := by exact_mod_cast this
    have : ((k + 1 : ℤ) : ℚ) * 2 ^ e ≤ l * 2 ^ e := mul_le_mul_of_nonneg_right (by exact_mod_cast this) hp.le
    push_cast at this; linarith
  · intro h; linarith

theorem Mult.abs {e : ℤ} {x : ℚ} (hx : Mult e x) : Mult e |x| := by
  rcases abs_cases x with ⟨h, -⟩ | ⟨h, -⟩ <;> rw [h]
  · exact hx
  · exact hx.neg

/-! ### Doubles -/

theorem isF_iff {x : ℚ} : IsF x ↔ ∃ e, Mult e x ∧ |x| < 2 ^ (e + 53) := by
  constructor
  · rintro ⟨m, e, hm, rfl⟩
    refine ⟨e, ⟨m, rfl⟩, ?_⟩
    rw [abs_mul, abs_of_pos (pw_pos e), pw_53, mul_comm]
    have : |(m : ℚ)| < 2 ^ 53 := by exact_mod_cast hm
    norm_num at this
    exact mul_lt_mul_of_pos_left this (pw_pos e)
  · rintro ⟨e, ⟨k, rfl⟩, h⟩
    refine ⟨k, e, ?_, rfl⟩
    rw [abs_mul, abs_of_pos (pw_pos e), pw_53, mul_comm] at h
    have : |(k : ℚ)| < 9007199254740992 := lt_of_mul_lt_mul_left h (pw_pos e).le
    have : |k| < 9007199254740992 := by exact_mod_cast this
    norm_num; exact this

/-- A multiple of `2 ^ e` bounded by `2 ^ (e + 53)` is a double. -/
theorem isF_of_le {e : ℤ} {x : ℚ} (hx : Mult e x) (h : |x| ≤ 2 ^ (e + 53)) : IsF x := by
  rcases lt_or_eq_of_le h with h | h
  · exact isF_iff.2 ⟨e, hx, h⟩
  · refine isF_iff.2 ⟨e + 53, ?_, ?_⟩
    · rcases abs_cases x with ⟨h', -⟩ | ⟨h', -⟩
      · exact ⟨1, by rw [← h', h]; simp⟩
      · exact ⟨-1, by rw [← h, h']; simp⟩
    · rw [h, pw_lt]; omega

theorem IsF.neg {x : ℚ} (h : IsF x) : IsF (-x) := by
  obtain ⟨m, e, hm, rfl⟩ := h; exact ⟨-m, e, by rwa [abs_neg], by push_cast; ring⟩
theorem IsF.zero : IsF 0 := ⟨0, 0, by norm_num, by simp⟩
theorem IsF.scale {x : ℚ} (h : IsF x) (k : ℤ) : IsF (x * 2 ^ k) := by
  obtain ⟨m, e, hm, rfl⟩ := h; exact ⟨m, e + k, hm, by rw [pw_add]; ring⟩
theorem IsF.pw (e : ℤ) : IsF (2 ^ e) := ⟨1, e, by norm_num, by simp⟩

/-! ### Rounding to an integer -/

theorem rne_err (q : ℚ) : |q - rne q| ≤ 1 / 2 := by
  have h1 := Int.floor_le q
  have h2 := Int.lt_floor_add_one q
  simp only [rne]
  split_ifs with a b c
  · rw [abs_of_nonneg (by linarith)]; linarith
  · push_cast; rw [abs_of_nonpos (by linarith)]; linarith
  · rw [abs_of_nonneg (by linarith)]; linarith
  · push_cast; rw [abs_of_nonpos (by linarith)]; linarith

theorem rne_int (k : ℤ) : rne k = k := by simp [rne]

theorem rne_near (q : ℚ) (n : ℤ) : |q - rne q| ≤ |q - n| := by
  have h := rne_err q
  by_cases hn : n = rne q
  · rw [hn]
  · have : (1 : ℚ) ≤ |((n - rne q : ℤ) : ℚ)| := by exact_mod_cast Int.one_le_abs (sub_ne_zero.2 hn)
    have h2 : |((n - rne q : ℤ) : ℚ)| ≤ |q - rne q| + |q - n| := by
      push_cast
      have : (n : ℚ) - rne q = (q - rne q) - (q - n) := by ring
      rw [this]; exact abs_sub _ _
    linarith

/-- Ties go to the even integer. -/
theorem rne_tie (q : ℚ) (n : ℤ) (hn : n ≠ rne q) (h : |q - rne q| = |q - n|) : rne q % 2 = 0 := by
  have herr := rne_err q
  have h1 := Int.floor_le q
  have h2 := Int.lt_floor_add_one q
  have hge : (1 : ℚ) ≤ |((n - rne q : ℤ) : ℚ)| := by exact_mod_cast Int.one_le_abs (sub_ne_zero.2 hn)
  have h3 : |((n - rne q : ℤ) : ℚ)| ≤ |q - rne q| + |q - n| := by
    push_cast
    have : (n : ℚ) - rne q = (q - rne q) - (q - n) := by ring
    rw [this]; exact abs_sub _ _
  have hhalf : |q - rne q| = 1 / 2 := by linarith
  revert hhalf
  simp only [rne]
  split_ifs with a b c
  · intro e; rw [abs_of_nonneg (by linarith)] at e; linarith
  · intro e; push_cast at e; rw [abs_of_nonpos (by linarith)] at e; linarith
  · intro _; exact c
  · intro _; omega

theorem rne_neg (q : ℚ) : rne (-q) = - rne q := by
  have e1 := rne_err q
  have e2 := rne_err (-q)
  by_contra hne
  have d : rne (-q) + rne q ≠ 0 := fun h => hne (by linarith)
  have hge : (1 : ℚ) ≤ |((rne (-q) + rne q : ℤ) : ℚ)| := by exact_mod_cast Int.one_le_abs d
  have a1 : |q - ((-rne (-q) : ℤ) : ℚ)| = |-q - rne (-q)| := by
    rw [← abs_neg]; congr 1; push_cast; ring
  have h3 : |((rne (-q) + rne q : ℤ) : ℚ)| ≤ |q - rne q| + |-q - rne (-q)| := by
    push_cast
    have : (rne (-q) : ℚ) + rne q = -(q - rne q) - (-q - rne (-q)) := by ring
    rw [this]
    exact (abs_sub _ _).trans (by rw [abs_neg])
  have t1 : rne q % 2 = 0 := rne_tie q (-rne (-q)) (by omega) (by rw [a1]; linarith)
  have a2 : |-q - ((-rne q : ℤ) : ℚ)| = |q - rne q| := by
    rw [← abs_neg]; congr 1; push_cast; ring
  have t2 : rne (-q) % 2 = 0 := rne_tie (-q) (-rne q) (by omega) (by rw [a2]; linarith)
  -- both even and at distance one: impossible
  have hle : |((rne (-q) + rne q : ℤ) : ℚ)| ≤ 1 := by linarith
  have : |rne (-q) + rne q| ≤ 1 := by exact_mod_cast hle
  rw [abs_le] at this
  omega

/-! ### Rounding to a double -/

theorem log_bounds {x : ℚ} (hx : x ≠ 0) : (2 : ℚ) ^ (lsb x + 52) ≤ |x| ∧ |x| < 2 ^ (lsb x + 53) := by
  have hp : 0 < |x| := abs_pos.2 hx
  constructor
  · have := Int.zpow_log_le_self (b := 2) (by norm_num) hp
    simpa [lsb] using this
  · have := Int.lt_zpow_succ_log_self (b := 2) (by norm_num) |x|
    have e : lsb x + 53 = Int.log 2 |x| + 1 := by simp only [lsb]; ring
    rw [e]; simpa using this

/-- The exponent is determined by the bounds. -/
theorem lsb_lt_of {x : ℚ} {e : ℤ} (hx : x ≠ 0) (h : |x| < 2 ^ (e + 53)) : lsb x ≤ e := by
  have := (log_bounds hx).1.trans_lt h
  rw [pw_lt] at this; omega

theorem le_lsb_of {x : ℚ} {e : ℤ} (h : 2 ^ (e + 52) ≤ |x|) : e ≤ lsb x := by
  have hx : x ≠ 0 := by
    rintro rfl
    have := pw_pos (e + 52)
    simp at h; linarith
  have := h.trans_lt (log_bounds hx).2
  rw [pw_lt] at this; omega

theorem lsb_eq_of {x : ℚ} {e : ℤ} (h1 : 2 ^ (e + 52) ≤ |x|) (h2 : |x| < 2 ^ (e + 53)) : lsb x = e := by
  have hx : x ≠ 0 := by
    rintro rfl
    have := pw_pos (e + 52)
    simp at h1; linarith
  exact le_antisymm (lsb_lt_of hx h2) (le_lsb_of h1)

@[simp] theorem rn_zero : rn 0 = 0 := by simp [rn]

theorem rn_mult (x : ℚ) : Mult (lsb x) (rn x) := by
  unfold rn
  split_ifs
  · exact Mult.zero _
  · exact ⟨_, rfl⟩

theorem rn_err (x : ℚ) : |x - rn x| ≤ 2 ^ lsb x / 2 := by
  unfold rn
  split_ifs with h
  · rw [h]; simp; positivity
  · have := rne_err (x / 2 ^ lsb x)
    have e : x - rne (x / 2 ^ lsb x) * 2 ^ lsb x = (x / 2 ^ lsb x - rne (x / 2 ^ lsb x)) * 2 ^ lsb x := by
      rw [sub_mul, div_mul_cancel₀ _ (pw_ne _)]
    rw [e, abs_mul, abs_of_pos (pw_pos _)]
    have := mul_le_mul_of_nonneg_right this (pw_pos (lsb x)).le
    linarith

theorem rn_le_pw {x : ℚ} (hx : x ≠ 0) : 2 ^ (lsb x + 52) ≤ |rn x| ∧ |rn x| ≤ 2 ^ (lsb x + 53) := by
  obtain ⟨h1, h2⟩ := log_bounds hx
  have he := rn_err x
  have hm := (rn_mult x).abs
  have hp := pw_pos (lsb x)
  have hd := abs_abs_sub_abs_le x (rn x)
  rw [abs_le] at hd
  constructor
  · by_contra hc
    have := (hm.lt_iff (Mult.mono (e := lsb x + 52) (by omega) (Mult.pw _))).1 (not_le.1 hc)
    linarith
  · by_contra hc
    have := ((Mult.mono (e := lsb x + 53) (by omega) (Mult.pw _)).lt_iff hm).1 (not_le.1 hc)
    linarith

theorem rn_isF (x : ℚ) : IsF (rn x) := by
  by_cases hx : x = 0
  · rw [hx, rn_zero]; exact IsF.zero
  · exact isF_of_le (rn_mult x) (rn_le_pw hx).2

/-- A multiple of the unit of `x` is rounded to itself. -/
theorem rn_of_mult {x : ℚ} (h : Mult (lsb x) x) : rn x = x := by
  obtain ⟨k, hk⟩ := h
  unfold rn
  split_ifs with h0
  · exact h0.symm
  · have : x / 2 ^ lsb x = (k : ℚ) := by rw [div_eq_iff (pw_ne _)]; exact hk
    rw [this, rne_int, ← hk]

theorem rn_of_isF {x : ℚ} (h : IsF x) : rn x = x := by
  by_cases hx : x = 0
  · rw [hx, rn_zero]
  obtain ⟨e, hm, hb⟩ := isF_iff.1 h
  exact rn_of_mult (hm.mono (lsb_lt_of hx hb))

/-- Rounding keeps multiples of a power of two. -/
theorem rn_mult_of {e : ℤ} {x : ℚ} (h : Mult e x) : Mult e (rn x) := by
  rcases le_or_gt e (lsb x) with hl | hl
  · exact (rn_mult x).mono hl
  · rw [rn_of_mult (h.mono hl.le)]; exact h

theorem rn_grid {x : ℚ} (hx : x ≠ 0) {g : ℚ} (hg : Mult (lsb x) g) : |x - rn x| ≤ |x - g| := by
  obtain ⟨k, rfl⟩ := hg
  have := rne_near (x / 2 ^ lsb x) k
  have e1 : x - rn x = (x / 2 ^ lsb x - rne (x / 2 ^ lsb x)) * 2 ^ lsb x := by
    rw [sub_mul, div_mul_cancel₀ _ (pw_ne _), rn, if_neg hx]
  have e2 : x - k * 2 ^ lsb x = (x / 2 ^ lsb x - k) * 2 ^ lsb x := by
    rw [sub_mul, div_mul_cancel₀ _ (pw_ne _)]
  rw [e1, e2, abs_mul, abs_mul]
  exact mul_le_mul_of_nonneg_right this (abs_nonneg _)

/-- A double is on the grid of `x` or farther from `x` than the rounded value. -/
theorem rn_off_grid {x f : ℚ} (hx : x ≠ 0) (hf : IsF f) : Mult (lsb x) f ∨ |x - rn x| < |x - f| := by
  obtain ⟨e, hm, hb⟩ := isF_iff.1 hf
  rcases le_or_gt (lsb x) e with hl | hl
  · exact Or.inl (hm.mono hl)
  · right
    obtain ⟨h1, h2⟩ := log_bounds hx
    have hfs : |f| < 2 ^ (lsb x + 52) := hb.trans_le (pw_mono (by omega))
    have hd := abs_abs_sub_abs_le x f
    have hsub : |x| - |f| ≤ |x - f| := (le_abs_self _).trans hd
    rcases abs_cases x with ⟨ha, -⟩ | ⟨ha, -⟩
    · have := rn_grid hx (g := 2 ^ (lsb x + 52)) (Mult.mono (by omega) (Mult.pw _))
      refine this.trans_lt ?_
      rw [abs_of_nonneg (by rw [ha] at h1; linarith)]
      rw [ha] at hsub; linarith
    · have := rn_grid hx (g := -2 ^ (lsb x + 52)) (Mult.mono (by omega) (Mult.pw _)).neg
      refine this.trans_lt ?_
      rw [abs_of_nonpos (by rw [ha] at h1; linarith)]
      rw [ha] at hsub; linarith

theorem rn_near {x f : ℚ} (hf : IsF f) : |x - rn x| ≤ |x - f| := by
  by_cases hx : x = 0
  · rw [hx, rn_zero]; simp
  rcases rn_off_grid hx hf with h | h
  · exact rn_grid hx h
  · exact h.le

theorem rn_mono {x y : ℚ} (h : x ≤ y) : rn x ≤ rn y := by
  rcases h.eq_or_lt with rfl | h
  · exact le_rfl
  by_contra hc
  have hc := not_le.1 hc
  have h1 := rn_near (x := x) (rn_isF y)
  have h2 := rn_near (x := y) (rn_isF x)
  have hx : rn x + rn y ≤ 2 * x := by
    by_contra hh
    have hh := not_le.1 hh
    have := rn_near (x := x) (rn_isF y)
    have a : |x - rn x| = rn x - x := by
      rw [abs_sub_comm]; exact abs_of_pos (by linarith)
    rw [a] at this
    rcases abs_cases (x - rn y) with ⟨b, -⟩ | ⟨b, -⟩ <;> rw [b] at this <;> linarith
  have hy : 2 * y ≤ rn x + rn y := by
    by_contra hh
    have hh := not_le.1 hh
    have a : |y - rn y| = y - rn y := abs_of_pos (by linarith)
    rw [a] at h2
    rcases abs_cases (y - rn x) with ⟨b, -⟩ | ⟨b, -⟩ <;> rw [b] at h2 <;> linarith
  linarith

theorem lsb_neg (x : ℚ) : lsb (-x) = lsb x := by simp [lsb]

theorem rn_neg (x : ℚ) : rn (-x) = - rn x := by
  unfold rn
  by_cases hx : x = 0
  · simp [hx]
  · rw [if_neg (neg_ne_zero.2 hx), if_neg hx, lsb_neg, neg_div, rne_neg]; push_cast; ring

theorem lsb_scale {x : ℚ} (hx : x ≠ 0) (k : ℤ) : lsb (x * 2 ^ k) = lsb x + k := by
  obtain ⟨h1, h2⟩ := log_bounds hx
  apply lsb_eq_of
  · rw [abs_mul, abs_of_pos (pw_pos k), show lsb x + k + 52 = (lsb x + 52) + k by ring, pw_add]
    exact mul_le_mul_of_nonneg_right h1 (pw_pos k).le
  · rw [abs_mul, abs_of_pos (pw_pos k), show lsb x + k + 53 = (lsb x + 53) + k by ring, pw_add]
    exact mul_lt_mul_of_pos_right h2 (pw_pos k)

theorem rn_scale (x : ℚ) (k : ℤ) : rn (x * 2 ^ k) = rn x * 2 ^ k := by
  by_cases hx : x = 0
  · simp [hx]
  unfold rn
  rw [if_neg hx, if_neg (mul_ne_zero hx (pw_ne k)), lsb_scale hx, pw_add, mul_div_mul_right _ _ (pw_ne k)]
  ring

theorem rn_nonneg {x : ℚ} (h : 0 ≤ x) : 0 ≤ rn x := by simpa using rn_mono h
theorem rn_nonpos {x : ℚ} (h : x ≤ 0) : rn x ≤ 0 := by simpa using rn_mono h
theorem rn_eq_zero {x : ℚ} : rn x = 0 ↔ x = 0 := by
  constructor
  · intro h
    by_contra hx
    have := (rn_le_pw hx).1
    rw [h, abs_zero] at this
    linarith [pw_pos (lsb x + 52)]
  · rintro rfl; exact rn_zero
theorem rn_pos {x : ℚ} : 0 < rn x ↔ 0 < x := by
  constructor
  · intro h; by_contra hx; linarith [rn_nonpos (not_lt.1 hx)]
  · intro h; exact lt_of_le_of_ne (rn_nonneg h.le) (fun e => h.ne' (rn_eq_zero.1 e.symm))
theorem rn_neg_iff {x : ℚ} : rn x < 0 ↔ x < 0 := by
  constructor
  · intro h; by_contra hx; linarith [rn_nonneg (not_lt.1 hx)]
  · intro h; exact lt_of_le_of_ne (rn_nonpos h.le) (fun e => h.ne (rn_eq_zero.1 e))

theorem abs_rn (x : ℚ) : |rn x| = rn |x| := by
  rcases le_total 0 x with h | h
  · rw [abs_of_nonneg h, abs_of_nonneg (rn_nonneg h)]
  · rw [abs_of_nonpos h, abs_of_nonpos (rn_nonpos h), rn_neg]

/-- A double not exceeding `x` in absolute value does not exceed the rounded value either. -/
theorem le_abs_rn {f x : ℚ} (hf : IsF f) (h : |f| ≤ |x|) : |f| ≤ |rn x| := by
  rw [abs_rn, ← rn_of_isF (x := |f|)]
  · exact rn_mono h
  · rcases abs_cases f with ⟨e, -⟩ | ⟨e, -⟩ <;> rw [e]
    · exact hf
    · exact hf.neg
theorem abs_rn_le {f x : ℚ} (hf : IsF f) (h : |x| ≤ |f|) : |rn x| ≤ |f| := by
  rw [abs_rn, ← rn_of_isF (x := |f|)]
  · exact rn_mono h
  · rcases abs_cases f with ⟨e, -⟩ | ⟨e, -⟩ <;> rw [e]
    · exact hf
    · exact hf.neg

/-- Half a unit in the last place, relative form. -/
theorem rn_rel (x : ℚ) : |x - rn x| ≤ |x| / 2 ^ 53 := by
  by_cases hx : x = 0
  · simp [hx]
  have h1 := (log_bounds hx).1
  have h2 := rn_err x
  rw [pw_52] at h1
  rw [le_div_iff₀ (by norm_num)]
  norm_num
  linarith

theorem rn_rel' (x : ℚ) : |x - rn x| ≤ |rn x| / 2 ^ 53 := by
  by_cases hx : x = 0
  · simp [hx]
  have h1 := (rn_le_pw hx).1
  have h2 := rn_err x
  rw [pw_52] at h1
  rw [le_div_iff₀ (by norm_num)]
  norm_num
  linarith

/-- The model of rounding is IEEE rounding to nearest, ties to even. -/
theorem rn_isRounded (x : ℚ) : IsRounded x (rn x) := by
  refine ⟨rn_isF x, fun f hf => rn_near hf, fun f hf hne htie => ?_⟩
  by_cases hx : x = 0
  · rw [hx, rn_zero] at htie hne
    simp at htie
    exact absurd (abs_eq_zero.1 htie.symm) hne
  rcases rn_off_grid hx hf with h | h
  · obtain ⟨k, rfl⟩ := h
    have hr : rn x = rne (x / 2 ^ lsb x) * 2 ^ lsb x := by rw [rn, if_neg hx]
    obtain ⟨b1, b2⟩ := rn_le_pw hx
    rw [hr, abs_mul, abs_of_pos (pw_pos _)] at b1 b2
    rw [pw_52, mul_comm] at b1
    rw [pw_53, mul_comm (2 ^ lsb x)] at b2
    have c1 := le_of_mul_le_mul_right b1 (pw_pos _)
    have c2 := le_of_mul_le_mul_right b2 (pw_pos _)
    refine ⟨rne (x / 2 ^ lsb x), lsb x, ?_, ?_, hr, ?_⟩
    · norm_num; exact_mod_cast c1
    · norm_num; exact_mod_cast c2
    · refine rne_tie _ k ?_ ?_
      · rintro rfl; exact hne hr.symm
      · have e1 : x - rn x = (x / 2 ^ lsb x - rne (x / 2 ^ lsb x)) * 2 ^ lsb x := by
          rw [sub_mul, div_mul_cancel₀ _ (pw_ne _), hr]
        have e2 : x - k * 2 ^ lsb x = (x / 2 ^ lsb x - k) * 2 ^ lsb x := by
          rw [sub_mul, div_mul_cancel₀ _ (pw_ne _)]
        rw [e1, e2, abs_mul, abs_mul, abs_of_pos (pw_pos _)] at htie
        exact mul_right_cancel₀ (pw_ne _) htie
  · linarith

end Verif.Float
