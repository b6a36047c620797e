import Verif.Float.Rn
/-!
# Error-free transformations
-/
namespace Verif.Float

theorem IsF.abs {x : ℚ} (h : IsF x) : IsF |x| := by
  rcases abs_cases x with ⟨e, -⟩ | ⟨e, -⟩ <;> rw [e]
  · exact h
  · exact h.neg

/-- Common unit of two doubles: the first is small compared with it, or the second is. -/
theorem common_unit {a b : ℚ} (ha : IsF a) (hb : IsF b) : ∃ e, Mult e a ∧ Mult e b ∧ (|a| < 2 ^ (e + 53) ∨ |b| < 2 ^ (e + 53)) := by
  obtain ⟨e, hm, hl⟩ := isF_iff.1 ha
  obtain ⟨f, hn, hk⟩ := isF_iff.1 hb
  rcases le_total e f with h | h
  · exact ⟨e, hm, hn.mono h, Or.inl hl⟩
  · exact ⟨f, hm.mono h, hn, Or.inr hk⟩

/-- The error of a rounded sum is a double. -/
theorem sum_err_isF {a b : ℚ} (ha : IsF a) (hb : IsF b) : IsF (a + b - rn (a + b)) := by
  obtain ⟨e, hm, hn, h⟩ := common_unit ha hb
  have hs : Mult e (a + b - rn (a + b)) := (hm.add hn).sub (rn_mult_of (hm.add hn))
  refine isF_of_le hs ?_
  rcases h with h | h
  · have := rn_near (x := a + b) hb
    have e1 : a + b - b = a := by ring
    rw [e1] at this; linarith
  · have := rn_near (x := a + b) ha
    have e1 : a + b - a = b := by ring
    rw [e1] at this; linarith

/-- Sterbenz' lemma. -/
theorem sterbenz {a b : ℚ} (ha : IsF a) (hb : IsF b) (h1 : b ≤ 2 * a) (h2 : a ≤ 2 * b) : IsF (a - b) := by
  obtain ⟨e, hm, hn, h⟩ := common_unit ha hb
  have ha0 : 0 ≤ a := by linarith
  have hb0 : 0 ≤ b := by linarith
  refine isF_of_le (hm.sub hn) ?_
  rw [abs_of_nonneg ha0, abs_of_nonneg hb0] at h
  rcases h with h | h <;> rw [abs_le] <;> constructor <;> linarith

/-- The first step of `fast_two_sum` is exact. -/
theorem fast_virtual_isF {a b : ℚ} (ha : IsF a) (hb : IsF b) (h : |b| ≤ |a|) : IsF (rn (a + b) - a) := by
  by_cases hs : a + b = 0
  · rw [hs, rn_zero, zero_sub]; exact ha.neg
  -- the sum is exact when cancellation occurs
  by_cases hc : |a + b| < |b|
  · have hx : IsF (a + b) := by
      rcases abs_cases a with ⟨e1, f1⟩ | ⟨e1, f1⟩ <;> rcases abs_cases b with ⟨e2, f2⟩ | ⟨e2, f2⟩ <;>
        rcases abs_cases (a + b) with ⟨e3, f3⟩ | ⟨e3, f3⟩ <;> rw [e1, e2] at h <;> rw [e2, e3] at hc <;>
        first
        | (exfalso; linarith)
        | (have := sterbenz ha hb.neg (by linarith) (by linarith); rwa [sub_neg_eq_add] at this)
        | (have := (sterbenz ha.neg hb (by linarith) (by linarith)).neg; rwa [neg_sub, sub_neg_eq_add, add_comm] at this)
    rw [rn_of_isF hx]
    simpa using hb
  have hc := not_lt.1 hc
  obtain ⟨l1, l2⟩ := log_bounds hs
  have herr := rn_err (a + b)
  have hbound : |rn (a + b) - a| ≤ |b| + 2 ^ lsb (a + b) / 2 := by
    have e1 : rn (a + b) - a = b - (a + b - rn (a + b)) := by ring
    rw [e1]; exact (abs_sub _ _).trans (by linarith)
  obtain ⟨ea, hm, hl⟩ := isF_iff.1 ha
  rcases le_or_gt (lsb (a + b)) ea with hle | hlt
  · -- everything is a multiple of the unit of the sum
    have hmul : Mult (lsb (a + b)) (rn (a + b) - a) := (rn_mult _).sub (hm.mono hle)
    refine isF_of_le hmul ?_
    by_contra hcon
    have := ((Mult.mono (e := lsb (a + b) + 53) (by omega) (Mult.pw _)).lt_iff hmul.abs).1 (not_le.1 hcon)
    have hp := pw_pos (lsb (a + b))
    linarith
  · -- the unit of the sum is twice the one of `a`
    have h2 : |a + b| < 2 ^ (ea + 1 + 53) := by
      have := abs_add_le a b
      rw [show ea + 1 + 53 = (ea + 53) + 1 by ring, pw_1]; linarith
    have hle : lsb (a + b) = ea + 1 := le_antisymm (lsb_lt_of hs h2) (by omega)
    have hmul : Mult ea (rn (a + b) - a) := ((rn_mult _).mono (by omega)).sub hm
    refine isF_of_le hmul ?_
    have h3 := (hm.abs.lt_iff (Mult.mono (e := ea + 53) (by omega) (Mult.pw _))).1 hl
    rw [hle, pw_1] at hbound
    linarith

theorem fadd_eq {a b : ℚ} (h : IsF (a + b)) : fadd a b = a + b := rn_of_isF h
theorem fsub_eq {a b : ℚ} (h : IsF (a - b)) : fsub a b = a - b := rn_of_isF h
theorem fmul_eq {a b : ℚ} (h : IsF (a * b)) : fmul a b = a * b := rn_of_isF h

theorem fastTwoSum_spec {a b : ℚ} (ha : IsF a) (hb : IsF b) (h : |b| ≤ |a| ∨ a = 0) :
    fastTwoSum a b = (rn (a + b), a + b - rn (a + b)) := by
  have hv : IsF (rn (a + b) - a) := by
    rcases h with h | h
    · exact fast_virtual_isF ha hb h
    · rw [h, zero_add, sub_zero]; exact rn_isF b
  have he := sum_err_isF ha hb
  simp only [fastTwoSum, Prod.mk.injEq]
  refine ⟨rfl, ?_⟩
  rw [show fadd a b = rn (a + b) from rfl, fsub_eq hv]
  have e1 : b - (rn (a + b) - a) = a + b - rn (a + b) := by ring
  rw [fsub_eq (by rw [e1]; exact he), e1]

/-- The rounded difference used by `two_sum`, when the first operand is the smaller one. -/
theorem two_sum_big {a b : ℚ} (ha : IsF a) (hb : IsF b) (h : |a| < |b|) : IsF (b - rn (rn (a + b) - a)) := by
  set x := rn (a + b) with hx
  by_cases hex : IsF (a + b)
  · rw [hx, rn_of_isF hex, show a + b - a = b by ring, rn_of_isF hb, sub_self]; exact IsF.zero
  have hs : a + b ≠ 0 := fun h0 => hex (by rw [h0]; exact IsF.zero)
  have hd : |a + b - x| ≤ |a| := by
    have := rn_near (x := a + b) hb
    rwa [show a + b - b = a by ring] at this
  have hd2 : |a + b - x| ≤ 2 ^ lsb (a + b) / 2 := rn_err (a + b)
  have hr : |(x - a) - rn (x - a)| ≤ |a + b - x| := by
    have := rn_near (x := x - a) hb
    rwa [show x - a - b = -(a + b - x) by ring, abs_neg] at this
  have hbv : |b - rn (x - a)| ≤ 2 * |a + b - x| := by
    have e1 : b - rn (x - a) = (a + b - x) + ((x - a) - rn (x - a)) := by ring
    rw [e1]; exact (abs_add_le _ _).trans (by linarith)
  obtain ⟨ea, hma, hla⟩ := isF_iff.1 ha
  obtain ⟨eb, hmb, hlb⟩ := isF_iff.1 hb
  rcases le_or_gt eb ea with hle | hlt
  · -- the unit of `b` is the smaller one
    have h2 : |a + b| < 2 ^ (eb + 1 + 53) := by
      have := abs_add_le a b
      rw [show eb + 1 + 53 = (eb + 53) + 1 by ring, pw_1]; linarith
    have hle2 : lsb (a + b) ≤ eb + 1 := lsb_lt_of hs h2
    have hmx : Mult eb x := rn_mult_of ((hma.mono hle).add hmb)
    have hm2 : Mult eb (b - rn (x - a)) := hmb.sub (rn_mult_of (hmx.sub (hma.mono hle)))
    refine isF_of_le hm2 ?_
    have h3 := pw_mono hle2
    have h4 : (2 : ℚ) ^ (eb + 1) ≤ 2 ^ (eb + 53) := pw_mono (by omega)
    linarith
  · have hmb' : Mult (ea + 1) b := hmb.mono (by omega)
    have hms : Mult ea (a + b) := hma.add (hmb.mono hlt.le)
    have hmx : Mult ea x := rn_mult_of hms
    by_cases hw : |x - a| < 2 ^ (ea + 53)
    · -- the difference is exact
      have : IsF (x - a) := isF_iff.2 ⟨ea, hmx.sub hma, hw⟩
      rw [rn_of_isF this, show b - (x - a) = a + b - x by ring]
      exact sum_err_isF ha hb
    · have hw := not_lt.1 hw
      have hl : ea + 1 ≤ lsb (x - a) := le_lsb_of (by rwa [show ea + 1 + 52 = ea + 53 by ring])
      have hm2 : Mult (ea + 1) (b - rn (x - a)) := hmb'.sub ((rn_mult _).mono hl)
      refine isF_of_le hm2 ?_
      rw [show ea + 1 + 53 = (ea + 53) + 1 by ring, pw_1]
      linarith

theorem twoSum_spec {a b : ℚ} (ha : IsF a) (hb : IsF b) : twoSum a b = (rn (a + b), a + b - rn (a + b)) := by
  have he := sum_err_isF ha hb
  have hx : IsF (rn (a + b)) := rn_isF _
  have e0 : fadd a b = rn (a + b) := rfl
  simp only [twoSum, Prod.mk.injEq, e0, true_and]
  -- if the virtual part is exact, everything else is
  have done : IsF (rn (a + b) - a) → fadd (fsub a (fsub (rn (a + b)) (fsub (rn (a + b)) a))) (fsub b (fsub (rn (a + b)) a)) =
      a + b - rn (a + b) := by
    intro hv
    rw [fsub_eq hv]
    have e1 : rn (a + b) - (rn (a + b) - a) = a := by ring
    rw [fsub_eq (a := rn (a + b)) (b := rn (a + b) - a) (by rw [e1]; exact ha), e1, fsub_eq (a := a) (b := a) (by rw [sub_self]; exact IsF.zero)]
    have e2 : b - (rn (a + b) - a) = a + b - rn (a + b) := by ring
    rw [fsub_eq (by rw [e2]; exact he), e2, sub_self, fadd_eq (by rw [zero_add]; exact he), zero_add]
  rcases le_or_gt |b| |a| with h | h
  · exact done (fast_virtual_isF ha hb h)
  rcases lt_or_ge |rn (a + b)| |a| with hxa | hxa
  · -- massive cancellation: the sum is exact
    have hlt : |a + b| < |a| := by
      by_contra hc
      exact absurd (le_abs_rn ha (not_lt.1 hc)) (not_le.2 hxa)
    have hex : IsF (a + b) := by
      rcases abs_cases a with ⟨e1, f1⟩ | ⟨e1, f1⟩ <;> rcases abs_cases b with ⟨e2, f2⟩ | ⟨e2, f2⟩ <;>
        rcases abs_cases (a + b) with ⟨e3, f3⟩ | ⟨e3, f3⟩ <;> rw [e1, e2] at h <;> rw [e1, e3] at hlt <;>
        first
        | (exfalso; linarith)
        | (have := sterbenz ha hb.neg (by linarith) (by linarith); rwa [sub_neg_eq_add] at this)
        | (have := (sterbenz ha.neg hb (by linarith) (by linarith)).neg; rwa [neg_sub, sub_neg_eq_add, add_comm] at this)
    apply done
    rw [rn_of_isF hex, show a + b - a = b by ring]; exact hb
  · -- `x - a` is computed by an implicit fast two-sum
    have hbig := two_sum_big ha hb h
    have hv := fast_virtual_isF hx ha.neg (by rwa [abs_neg])
    have hve := sum_err_isF hx ha.neg
    rw [← sub_eq_add_neg] at hv hve
    set x := rn (a + b) with hxdef
    have e1 : fsub x a = rn (x - a) := rfl
    rw [e1]
    have e2 : fsub x (rn (x - a)) = x - rn (x - a) := fsub_eq (by
      have := hv.neg; rwa [neg_sub] at this)
    have e3 : fsub a (x - rn (x - a)) = a - (x - rn (x - a)) := fsub_eq (by
      have := hve.neg
      rwa [show -(x - a - rn (x - a)) = a - (x - rn (x - a)) by ring] at this)
    have e4 : fsub b (rn (x - a)) = b - rn (x - a) := fsub_eq hbig
    rw [e2, e3, e4]
    have e5 : a - (x - rn (x - a)) + (b - rn (x - a)) = a + b - x := by ring
    rw [fadd_eq (by rw [e5]; exact he), e5]

theorem fsub_neg (a b : ℚ) : fsub a (-b) = fadd a b := by simp [fsub, fadd]
theorem fadd_neg (a b : ℚ) : fadd a (-b) = fsub a b := by simp [fsub, fadd, sub_eq_add_neg]
theorem neg_fsub (a b : ℚ) : -fsub a b = fsub b a := by rw [fsub, ← rn_neg, fsub, neg_sub]

/-- `two_diff` is `two_sum` with the second argument negated. -/
theorem twoDiff_eq (a b : ℚ) : twoDiff a b = twoSum a (-b) := by
  have h0 : fadd a (-b) = fsub a b := fadd_neg a b
  simp only [twoDiff, twoSum, h0, Prod.mk.injEq, true_and]
  have h1 : fadd (fsub a b) (fsub a (fsub a b)) = fsub (fsub a b) (fsub (fsub a b) a) := by
    rw [← neg_fsub a, fsub_neg]
  have h2 : fsub (fsub a (fsub a b)) b = fsub (-b) (fsub (fsub a b) a) := by
    rw [← neg_fsub a (fsub a b), fsub_neg, fadd, fsub]; congr 1; ring
  rw [h1, h2]

theorem twoDiff_spec {a b : ℚ} (ha : IsF a) (hb : IsF b) : twoDiff a b = (rn (a - b), a - b - rn (a - b)) := by
  rw [twoDiff_eq, twoSum_spec ha hb.neg, ← sub_eq_add_neg]

theorem twoDiffTail_spec {a b : ℚ} (ha : IsF a) (hb : IsF b) : twoDiffTail a b (rn (a - b)) = a - b - rn (a - b) :=
  congrArg Prod.snd (twoDiff_spec ha hb)

theorem fastTwoDiff_spec {a b : ℚ} (ha : IsF a) (hb : IsF b) (h : |b| ≤ |a| ∨ a = 0) :
    fastTwoDiff a b = (rn (a - b), a - b - rn (a - b)) := by
  have := fastTwoSum_spec ha hb.neg (by rwa [abs_neg])
  rw [← sub_eq_add_neg] at this
  rw [← this]
  have h0 : fadd a (-b) = fsub a b := fadd_neg a b
  simp only [fastTwoDiff, fastTwoSum, h0, Prod.mk.injEq, true_and]
  rw [← neg_fsub a (fsub a b), fsub_neg, fadd, fsub]; congr 1; ring

end Verif.Float
