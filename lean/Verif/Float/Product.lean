import Verif.Float.Eft
/-!
# Splitting and the exact product
-/
namespace Verif.Float

theorem pw_26 (e : ℤ) : (2 : ℚ) ^ (e + 26) = 2 ^ e * 67108864 := by
  have := pw_nat e 26; norm_num at this; exact this
theorem pw_27 (e : ℤ) : (2 : ℚ) ^ (e + 27) = 2 ^ e * 134217728 := by
  have := pw_nat e 27; norm_num at this; exact this
theorem pw_79 (e : ℤ) : (2 : ℚ) ^ (e + 79) = 2 ^ e * 2 ^ 79 := by
  have := pw_nat e 79; norm_num at this ⊢; exact this
theorem pw_80 (e : ℤ) : (2 : ℚ) ^ (e + 80) = 2 ^ e * 2 ^ 80 := by
  have := pw_nat e 80; norm_num at this ⊢; exact this
theorem pw_81 (e : ℤ) : (2 : ℚ) ^ (e + 81) = 2 ^ e * 2 ^ 81 := by
  have := pw_nat e 81; norm_num at this ⊢; exact this
theorem pw_105 (e : ℤ) : (2 : ℚ) ^ (e + 105) = 2 ^ e * 2 ^ 105 := by
  have := pw_nat e 105; norm_num at this ⊢; exact this

/-- `hi` and `lo` are the two halves of the double `a`, whose unit in the last place is `2 ^ e`. -/
structure IsSplit (e : ℤ) (a hi lo : ℚ) : Prop where
  sum : hi + lo = a
  mhi : Mult (e + 27) hi
  ma : Mult e a
  bhi : |hi| ≤ 2 ^ (e + 53)
  blo : |lo| ≤ 2 ^ (e + 26)
  upper : |a| < 2 ^ (e + 53)
  lower : a = 0 ∨ 2 ^ (e + 52) ≤ |a|

theorem IsSplit.neg {e : ℤ} {a hi lo : ℚ} (h : IsSplit e a hi lo) : IsSplit e (-a) (-hi) (-lo) :=
  ⟨by rw [← h.sum]; ring, h.mhi.neg, h.ma.neg, by rw [abs_neg]; exact h.bhi, by rw [abs_neg]; exact h.blo,
    by rw [abs_neg]; exact h.upper, by rw [abs_neg, neg_eq_zero]; exact h.lower⟩

theorem fmul_neg (a b : ℚ) : fmul a (-b) = - fmul a b := by rw [fmul, fmul, ← rn_neg]; congr 1; ring
theorem fsub_neg_neg (a b : ℚ) : fsub (-a) (-b) = - fsub a b := by rw [fsub, fsub, ← rn_neg]; congr 1; ring

theorem split_neg (a : ℚ) : split (-a) = (-(split a).1, -(split a).2) := by
  simp only [split, fmul_neg, fsub_neg_neg]

theorem split_zero : split 0 = (0, 0) := by simp [split, fmul, fsub]

theorem split_pos {e : ℤ} {a : ℚ} (ha : Mult e a) (h1 : 2 ^ (e + 52) ≤ a) (h2 : a < 2 ^ (e + 53)) :
    IsSplit e a (split a).1 (split a).2 := by
  have hu := pw_pos e
  have h52 := pw_52 e
  have h53 := pw_53 e
  have h79 := pw_79 e
  have h80 := pw_80 e
  have h81 := pw_81 e
  have h26 := pw_26 e
  have h27 := pw_27 e
  have h28 : (2 : ℚ) ^ (e + 28) = 2 ^ e * 268435456 := by have := pw_nat e 28; norm_num at this; exact this
  have ha2 := (ha.lt_iff (Mult.mono (e := e + 53) (by omega) (Mult.pw _))).1 h2
  have ha0 : 0 < a := lt_of_lt_of_le (pw_pos _) h1
  -- the scaled value
  set c := fmul splitter a with hc
  have hc' : c = rn (splitter * a) := rfl
  have hsp : splitter * a = 134217729 * a := rfl
  have hp0 : splitter * a ≠ 0 := by rw [hsp]; positivity
  have hpa : |splitter * a| = 134217729 * a := by rw [hsp, abs_of_nonneg (by positivity)]
  have l1 : e + 27 ≤ lsb (splitter * a) := le_lsb_of (by
    rw [hpa, show e + 27 + 52 = e + 79 by ring, h79]; linarith)
  have l2 : lsb (splitter * a) ≤ e + 28 := lsb_lt_of hp0 (by
    rw [hpa, show e + 28 + 53 = e + 81 by ring, h81]; linarith)
  have hcm : Mult (e + 27) c := (rn_mult _).mono l1
  have herr := rn_err (splitter * a)
  rw [← hc', hsp] at herr
  have he1 : |134217729 * a - c| ≤ 2 ^ e * 134217728 := by
    have := pw_mono l2; rw [h28] at this; rw [hsp] at this; linarith
  have hrange : 2 ^ (e + 79) ≤ c - a ∧ c - a ≤ 2 ^ (e + 80) := by
    constructor
    · rcases eq_or_lt_of_le h1 with h | h
      · have hF : IsF (splitter * a) := by
          rw [← h]
          have : IsF (134217729 : ℚ) := ⟨134217729, 0, by norm_num, by norm_num⟩
          exact this.scale _
        have : c = 134217729 * a := rn_of_isF hF
        rw [this, ← h, h79, h52]; linarith
      · have h3 := ((Mult.mono (e := e + 52) (f := e) (by omega) (Mult.pw _)).lt_iff ha).1 h
        by_cases hbig : 134217729 * a < 2 ^ (e + 80)
        · have l3 : lsb (splitter * a) ≤ e + 27 := lsb_lt_of hp0 (by
            rw [hpa, show e + 27 + 53 = e + 80 by ring]; exact hbig)
          have := pw_mono l3
          rw [h27] at this; rw [hsp] at this
          have h4 := (abs_le.1 herr).2
          rw [h79]; linarith
        · have h4 := (abs_le.1 he1).2
          rw [h79]; linarith
    · have h4 := (abs_le.1 he1).1
      rw [h80]; linarith
  -- the large part
  set big := fsub c a with hb
  have hb' : big = rn (c - a) := rfl
  have hca0 : 0 < c - a := lt_of_lt_of_le (pw_pos _) hrange.1
  have hbm : Mult (e + 27) big := (rn_mult _).mono (le_lsb_of (by
    rw [abs_of_pos hca0, show e + 27 + 52 = e + 79 by ring]; exact hrange.1))
  have hberr : |c - a - big| ≤ 2 ^ (e + 26) := by
    rcases eq_or_lt_of_le hrange.2 with h | h
    · have : big = c - a := by rw [hb', h]; exact rn_of_isF (IsF.pw _)
      rw [this, sub_self, abs_zero]; exact (pw_pos _).le
    · have l3 : lsb (c - a) ≤ e + 27 := lsb_lt_of hca0.ne' (by
        rw [abs_of_pos hca0, show e + 27 + 53 = e + 80 by ring]; exact h)
      have := pw_mono l3
      have h5 := rn_err (c - a)
      rw [← hb'] at h5
      rw [h27] at this; rw [h26]; linarith
  have hb1 := abs_le.1 hberr
  rw [h26] at hb1
  have hhm : Mult (e + 27) (c - big) := hcm.sub hbm
  have hh0 : 0 ≤ c - big := by linarith [hb1.1, hb1.2]
  have hhle : c - big ≤ 2 ^ (e + 53) := by
    by_contra hcon
    have := ((Mult.mono (e := e + 53) (f := e + 27) (by omega) (Mult.pw _)).lt_iff hhm).1 (not_le.1 hcon)
    rw [h27] at this
    linarith [hb1.1, hb1.2]
  have hhi : fsub c big = c - big := fsub_eq (isF_of_le hhm (by
    rw [abs_of_nonneg hh0]; exact hhle.trans (pw_mono (by omega))))
  have hle : |a - (c - big)| ≤ 2 ^ (e + 26) := by
    rw [show a - (c - big) = -(c - a - big) by ring, abs_neg]; exact hberr
  have hlo : fsub a (c - big) = a - (c - big) := fsub_eq (isF_of_le (ha.sub (hhm.mono (by omega)))
    (hle.trans (pw_mono (by omega))))
  have hs : split a = (c - big, a - (c - big)) := by
    simp only [split, ← hc, ← hb, hhi, hlo]
  rw [hs]
  refine ⟨by ring, hhm, ha, ?_, hle, ?_, Or.inr ?_⟩
  · rw [abs_of_nonneg hh0]; exact hhle
  · rwa [abs_of_pos ha0]
  · rwa [abs_of_pos ha0]

theorem split_spec {a : ℚ} (ha : IsF a) : ∃ e, IsSplit e a (split a).1 (split a).2 := by
  rcases lt_trichotomy a 0 with h | h | h
  · obtain ⟨l1, l2⟩ := log_bounds h.ne
    have hm : Mult (lsb a) (-a) := by
      have := rn_mult a; rw [rn_of_isF ha] at this; exact this.neg
    rw [abs_of_neg h] at l1 l2
    have := (split_pos hm l1 l2).neg
    rw [split_neg] at this
    simp only [neg_neg] at this
    exact ⟨_, this⟩
  · rw [h, split_zero]
    exact ⟨0, by norm_num, Mult.zero _, Mult.zero _, by simp, by simp, by simp, Or.inl rfl⟩
  · obtain ⟨l1, l2⟩ := log_bounds h.ne'
    have hm : Mult (lsb a) a := by
      have := rn_mult a; rwa [rn_of_isF ha] at this
    rw [abs_of_pos h] at l1 l2
    exact ⟨_, split_pos hm l1 l2⟩

/-- What is needed of a rounded product. -/
theorem prod_bounds {e f : ℤ} {a ahi alo b bhi blo : ℚ} (ha : IsSplit e a ahi alo) (hb : IsSplit f b bhi blo) :
    Mult (e + f + 52) (rn (a * b)) ∧ |a * b - rn (a * b)| ≤ 2 ^ (e + f + 52) := by
  by_cases h0 : a * b = 0
  · rw [h0, rn_zero, sub_zero, abs_zero]; exact ⟨Mult.zero _, (pw_pos _).le⟩
  have ha0 : a ≠ 0 := left_ne_zero_of_mul h0
  have hb0 : b ≠ 0 := right_ne_zero_of_mul h0
  have h1 := ha.lower.resolve_left ha0
  have h2 := hb.lower.resolve_left hb0
  constructor
  · refine (rn_mult _).mono (le_lsb_of ?_)
    rw [abs_mul, show e + f + 52 + 52 = (e + 52) + (f + 52) by ring, pw_add]
    exact mul_le_mul h1 h2 (pw_pos _).le (abs_nonneg _)
  · have hl : lsb (a * b) ≤ e + f + 53 := lsb_lt_of h0 (by
      rw [abs_mul, show e + f + 53 + 53 = (e + 53) + (f + 53) by ring, pw_add]
      exact mul_lt_mul'' ha.upper hb.upper (abs_nonneg _) (abs_nonneg _))
    have := pw_mono hl
    rw [show e + f + 53 = e + f + 52 + 1 by ring, pw_1] at this
    linarith [rn_err (a * b)]

theorem abs_mul_le_pw {x y : ℚ} {i j k : ℤ} (hx : |x| ≤ 2 ^ i) (hy : |y| ≤ 2 ^ j) (h : i + j = k) : |x * y| ≤ 2 ^ k := by
  rw [abs_mul, ← h, pw_add]
  exact mul_le_mul hx hy (abs_nonneg _) (pw_pos _).le

theorem IsSplit.mlo {e : ℤ} {a hi lo : ℚ} (h : IsSplit e a hi lo) : Mult e lo := by
  have : lo = a - hi := by rw [← h.sum]; ring
  rw [this]; exact h.ma.sub (h.mhi.mono (by omega))

theorem prod_err_isF {a b : ℚ} (ha : IsF a) (hb : IsF b) : IsF (a * b - rn (a * b)) := by
  obtain ⟨e, ha⟩ := split_spec ha
  obtain ⟨f, hb⟩ := split_spec hb
  obtain ⟨h1, h2⟩ := prod_bounds ha hb
  exact isF_of_le ((ha.ma.mul hb.ma).sub (h1.mono (by omega))) (h2.trans (pw_mono (by omega)))

theorem twoProductPreSplit_split {e f : ℤ} {a b bhi blo : ℚ} (ha : IsSplit e a (split a).1 (split a).2)
    (hb : IsSplit f b bhi blo) : twoProductPreSplit a b bhi blo = (rn (a * b), a * b - rn (a * b)) := by
  simp only [twoProductPreSplit]
  set ahi := (split a).1
  set alo := (split a).2
  obtain ⟨hx1, hx2⟩ := prod_bounds ha hb
  rw [show fmul a b = rn (a * b) from rfl]
  set x := rn (a * b)
  set u : ℚ := 2 ^ (e + f) with hu
  have hu0 : 0 < u := pw_pos _
  have q52 := pw_52 (e + f)
  have q53 := pw_53 (e + f)
  have q79 := pw_79 (e + f)
  have q80 := pw_80 (e + f)
  have q105 := pw_105 (e + f)
  have b1 : |ahi * bhi| ≤ 2 ^ (e + f + 106) := abs_mul_le_pw ha.bhi hb.bhi (by ring)
  have b2 : |alo * bhi| ≤ 2 ^ (e + f + 79) := abs_mul_le_pw ha.blo hb.bhi (by ring)
  have b3 : |ahi * blo| ≤ 2 ^ (e + f + 79) := abs_mul_le_pw ha.bhi hb.blo (by ring)
  have b4 : |alo * blo| ≤ 2 ^ (e + f + 52) := abs_mul_le_pw ha.blo hb.blo (by ring)
  have m1 : Mult (e + f + 54) (ahi * bhi) := by
    have := ha.mhi.mul hb.mhi; rwa [show e + 27 + (f + 27) = e + f + 54 by ring] at this
  have m2 : Mult (e + f + 27) (alo * bhi) := by
    have := ha.mlo.mul hb.mhi; rwa [show e + (f + 27) = e + f + 27 by ring] at this
  have m3 : Mult (e + f + 27) (ahi * blo) := by
    have := ha.mhi.mul hb.mlo; rwa [show e + 27 + f = e + f + 27 by ring] at this
  have m4 : Mult (e + f) (alo * blo) := ha.mlo.mul hb.mlo
  have p1 : fmul ahi bhi = ahi * bhi := fmul_eq (isF_of_le m1 (b1.trans (pw_mono (by omega))))
  have p2 : fmul alo bhi = alo * bhi := fmul_eq (isF_of_le m2 (b2.trans (pw_mono (by omega))))
  have p3 : fmul ahi blo = ahi * blo := fmul_eq (isF_of_le m3 (b3.trans (pw_mono (by omega))))
  have p4 : fmul alo blo = alo * blo := fmul_eq (isF_of_le m4 (b4.trans (pw_mono (by omega))))
  have hab : a * b = ahi * bhi + alo * bhi + ahi * blo + alo * blo := by rw [← ha.sum, ← hb.sum]; ring
  rw [q52] at hx2 b4; rw [q79] at b2 b3
  obtain ⟨x1, x2⟩ := abs_le.1 hx2
  obtain ⟨c1, c2⟩ := abs_le.1 b2
  obtain ⟨d1, d2⟩ := abs_le.1 b3
  obtain ⟨g1, g2⟩ := abs_le.1 b4
  have e1 : fsub x (ahi * bhi) = x - ahi * bhi := fsub_eq (isF_of_le (hx1.sub (m1.mono (by omega))) (by
    rw [show e + f + 52 + 53 = e + f + 105 by ring, q105, abs_le]; constructor <;> linarith))
  have m5 : Mult (e + f + 27) (x - ahi * bhi - alo * bhi) := ((hx1.mono (by omega)).sub (m1.mono (by omega))).sub m2
  have e2 : fsub (x - ahi * bhi) (alo * bhi) = x - ahi * bhi - alo * bhi := fsub_eq (isF_of_le m5 (by
    rw [show e + f + 27 + 53 = e + f + 80 by ring, q80, abs_le]; constructor <;> linarith))
  have e3 : fsub (x - ahi * bhi - alo * bhi) (ahi * blo) = x - ahi * bhi - alo * bhi - ahi * blo :=
    fsub_eq (isF_of_le ((m5.sub m3).mono (f := e + f) (by omega)) (by
      rw [q53, abs_le]; constructor <;> linarith))
  have e4 : alo * blo - (x - ahi * bhi - alo * bhi - ahi * blo) = a * b - x := by rw [hab]; ring
  have e5 : fsub (alo * blo) (x - ahi * bhi - alo * bhi - ahi * blo) = a * b - x := by
    rw [fsub_eq, e4]
    rw [e4]
    exact isF_of_le ((ha.ma.mul hb.ma).sub (hx1.mono (by omega))) (by rw [q53]; linarith)
  rw [p1, p2, p3, p4, e1, e2, e3, e5]

theorem twoProductPreSplit_spec {a b : ℚ} (ha : IsF a) (hb : IsF b) :
    twoProductPreSplit a b (split b).1 (split b).2 = (rn (a * b), a * b - rn (a * b)) := by
  obtain ⟨e, ha⟩ := split_spec ha
  obtain ⟨f, hb⟩ := split_spec hb
  exact twoProductPreSplit_split ha hb

theorem twoProduct_spec {a b : ℚ} (ha : IsF a) (hb : IsF b) : twoProduct a b = (rn (a * b), a * b - rn (a * b)) := by
  have : twoProduct a b = twoProductPreSplit a b (split b).1 (split b).2 := rfl
  rw [this, twoProductPreSplit_spec ha hb]

theorem square_spec {a : ℚ} (ha : IsF a) : square a = (rn (a * a), a * a - rn (a * a)) := by
  obtain ⟨e, ha⟩ := split_spec ha
  simp only [square]
  set ahi := (split a).1
  set alo := (split a).2
  obtain ⟨hx1, hx2⟩ := prod_bounds ha ha
  rw [show fmul a a = rn (a * a) from rfl]
  set x := rn (a * a)
  have hu0 := pw_pos (e + e)
  have q52 := pw_52 (e + e)
  have q53 := pw_53 (e + e)
  have q79 := pw_79 (e + e)
  have q80 := pw_80 (e + e)
  have q105 := pw_105 (e + e)
  have b1 : |ahi * ahi| ≤ 2 ^ (e + e + 106) := abs_mul_le_pw ha.bhi ha.bhi (by ring)
  have b2 : |ahi * alo| ≤ 2 ^ (e + e + 79) := abs_mul_le_pw ha.bhi ha.blo (by ring)
  have b4 : |alo * alo| ≤ 2 ^ (e + e + 52) := abs_mul_le_pw ha.blo ha.blo (by ring)
  have m1 : Mult (e + e + 54) (ahi * ahi) := by
    have := ha.mhi.mul ha.mhi; rwa [show e + 27 + (e + 27) = e + e + 54 by ring] at this
  have m2 : Mult (e + e + 27) (ahi * alo) := by
    have := ha.mhi.mul ha.mlo; rwa [show e + 27 + e = e + e + 27 by ring] at this
  have m4 : Mult (e + e) (alo * alo) := ha.mlo.mul ha.mlo
  have p1 : fmul ahi ahi = ahi * ahi := fmul_eq (isF_of_le m1 (b1.trans (pw_mono (by omega))))
  have p4 : fmul alo alo = alo * alo := fmul_eq (isF_of_le m4 (b4.trans (pw_mono (by omega))))
  have p0 : fadd ahi ahi = ahi + ahi := fadd_eq (isF_of_le (ha.mhi.add ha.mhi) (by
    have h1 := ha.bhi
    have h2 : (2 : ℚ) ^ (e + 53 + 1) ≤ 2 ^ (e + 27 + 53) := pw_mono (by omega)
    rw [pw_1] at h2
    exact (abs_add_le _ _).trans (by linarith)))
  have m2' : Mult (e + e + 27) ((ahi + ahi) * alo) := by
    rw [show (ahi + ahi) * alo = ahi * alo + ahi * alo by ring]; exact m2.add m2
  have b2' : |(ahi + ahi) * alo| ≤ 2 ^ (e + e + 80) := by
    rw [show (ahi + ahi) * alo = ahi * alo + ahi * alo by ring, show e + e + 80 = e + e + 79 + 1 by ring, pw_1]
    exact (abs_add_le _ _).trans (by linarith)
  have p2 : fmul (ahi + ahi) alo = (ahi + ahi) * alo := fmul_eq (isF_of_le m2' (b2'.trans (pw_mono (by omega))))
  have hab : a * a = ahi * ahi + (ahi + ahi) * alo + alo * alo := by rw [← ha.sum]; ring
  rw [q52] at hx2 b4; rw [q80] at b2'
  obtain ⟨x1, x2⟩ := abs_le.1 hx2
  obtain ⟨c1, c2⟩ := abs_le.1 b2'
  obtain ⟨g1, g2⟩ := abs_le.1 b4
  have e1 : fsub x (ahi * ahi) = x - ahi * ahi := fsub_eq (isF_of_le (hx1.sub (m1.mono (by omega))) (by
    rw [show e + e + 52 + 53 = e + e + 105 by ring, q105, abs_le]; constructor <;> linarith))
  have m5 : Mult (e + e + 27) (x - ahi * ahi) := (hx1.mono (by omega)).sub (m1.mono (by omega))
  have e3 : fsub (x - ahi * ahi) ((ahi + ahi) * alo) = x - ahi * ahi - (ahi + ahi) * alo :=
    fsub_eq (isF_of_le ((m5.sub m2').mono (f := e + e) (by omega)) (by
      rw [q53, abs_le]; constructor <;> linarith))
  have e4 : alo * alo - (x - ahi * ahi - (ahi + ahi) * alo) = a * a - x := by rw [hab]; ring
  have e5 : fsub (alo * alo) (x - ahi * ahi - (ahi + ahi) * alo) = a * a - x := by
    rw [fsub_eq, e4]
    rw [e4]
    exact isF_of_le ((ha.ma.mul ha.ma).sub (hx1.mono (by omega))) (by rw [q53]; linarith)
  rw [p1, p0, p2, p4, e1, e3, e5]

end Verif.Float
