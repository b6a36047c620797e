import Verif.Float.Orient2d
/-!
# The accuracy of `estimate` (`src/predicates/predicates.rs` lines 437-440) on an expansion

Adding up the components of an expansion of any length from the smallest to the largest in floating point arithmetic has a relative error of at most about
two and a half units of rounding. The filters of `orient3d`, `incircle` and `insphere` depend on such a bound.
-/
namespace Verif.Float

/-- Half an ulp. -/
theorem rn_half {y : ℚ} {k : ℤ} (h : |y| ≤ 2 ^ k) : |y - rn y| ≤ 2 ^ k * (1 / 18014398509481984) := by
  have hp := pw_pos k
  rcases h.eq_or_lt with h | h
  · have : IsF y := by
      rcases abs_choice y with e | e
      · rw [e] at h; rw [h]; exact IsF.pw k
      · rw [e] at h; rw [← neg_neg y, h]; exact (IsF.pw k).neg
    rw [rn_of_isF this, sub_self, abs_zero]
    positivity
  · by_cases h0 : y = 0
    · rw [h0, rn_zero, sub_zero, abs_zero]; positivity
    · have h1 : lsb y ≤ k - 53 := lsb_lt_of h0 (by rwa [sub_add_cancel])
      have h2 := rn_err y
      have h3 := pw_mono h1
      have h4 := pw_53 (k - 53)
      rw [sub_add_cancel] at h4
      linarith

/-- What is known about the running sum `q` after the components with exact sum `s` and last nonzero component `t`. The numbers: `K` is
`(5/2 + 8ε)ε` and the last factor of `near` is `K - 2ε`. -/
structure Est (s t q : ℚ) : Prop where
  dbl : IsF q
  rel : |q - s| ≤ (5 / 2 + 8 / 9007199254740992) / 9007199254740992 * |s|
  gap : ∀ w : ℤ, |s| < 3 / 4 * 2 ^ w → |t| < 2 ^ w → |q - s| ≤ (5 / 2 + 8 / 9007199254740992) / 9007199254740992 * (2 ^ w - |s|)
  near : ∀ w : ℤ, |s| < 2 ^ w → |t| < 2 ^ (w + 1) → |q - s| ≤ (5 / 2 + 8 / 9007199254740992) / 9007199254740992 * (2 ^ w - |s|) +
    (1 / 2 + 8 / 9007199254740992) / 9007199254740992 * 2 ^ w
  side : ∀ w : ℤ, |t| < 2 ^ (w + 1) → 2 ^ w ≤ |s| → 2 ^ w ≤ |q|

theorem Est.init : Est 0 0 0 where
  dbl := IsF.zero
  rel := by simp
  gap w _ _ := by simp; exact mul_nonneg (by norm_num) (pw_pos w).le
  near w _ _ := by
    have := pw_pos w
    simp only [sub_zero, abs_zero]
    linarith
  side w _ h := by rwa [abs_zero] at h ⊢

theorem Est.neg {s t q : ℚ} (h : Est s t q) : Est (-s) (-t) (-q) where
  dbl := h.dbl.neg
  rel := by
    rw [show -q - -s = -(q - s) by ring, abs_neg, abs_neg]; exact h.rel
  gap w := by rw [show -q - -s = -(q - s) by ring, abs_neg, abs_neg, abs_neg]; exact h.gap w
  near w := by rw [show -q - -s = -(q - s) by ring, abs_neg, abs_neg, abs_neg]; exact h.near w
  side w := by rw [abs_neg, abs_neg, abs_neg]; exact h.side w

/-- The running sum has the sign of the exact sum. -/
theorem Est.sign {s t q : ℚ} (h : Est s t q) : (0 ≤ s → 0 ≤ q) ∧ (s ≤ 0 → q ≤ 0) := by
  have := abs_le.1 h.rel
  constructor
  · intro hs; rw [abs_of_nonneg hs] at this; linarith [this.1]
  · intro hs; rw [abs_of_nonpos hs] at this; linarith [this.2]

/-- A multiple of `2 ^ v` compared with a power of two that is not smaller. -/
theorem mult_cases {v : ℤ} {x p : ℚ} (hx : Mult v x) (hp : Mult v p) : x ≤ p - 2 ^ v ∨ x = p ∨ p + 2 ^ v ≤ x := by
  rcases lt_trichotomy x p with h | h | h
  · exact Or.inl (by have := (hx.lt_iff hp).1 h; linarith)
  · exact Or.inr (Or.inl h)
  · exact Or.inr (Or.inr (by have := (hp.lt_iff hx).1 h; linarith))

theorem mult_pw {v w : ℤ} (h : v ≤ w) : Mult v (2 ^ w : ℚ) := (Mult.pw w).mono h

section Step
variable {s t q x : ℚ} {v : ℤ}

/-- The error after adding a positive component. -/
theorem Est.step_err (y : ℚ) (hy : y = q + x) : |rn y - (s + x)| ≤ |q - s| + |y - rn y| := by
  have := abs_sub (q - s) (y - rn y)
  rw [show q - s - (y - rn y) = rn y - (s + x) by rw [hy]; ring] at this
  exact this

theorem Est.step_rel (h : Est s t q) (hx : Mult v x) (hs : |s| < 3 / 4 * 2 ^ v) (ht : |t| < 2 ^ v) (h0 : 0 < x) (fx : IsF x) :
    |rn (q + x) - (s + x)| ≤ (5 / 2 + 8 / 9007199254740992) / 9007199254740992 * |s + x| := by
  have hp := pw_pos v
  have e1 := Est.step_err (s := s) (q + x) rfl
  have e2 := rr' (q + x)
  have e3 := abs_add_le (q - s) (s + x)
  rw [show q - s + (s + x) = q + x by ring] at e3
  have e4 := h.rel
  have gen : |s| ≤ 3 / 5 * |s + x| → |rn (q + x) - (s + x)| ≤ (5 / 2 + 8 / 9007199254740992) / 9007199254740992 * |s + x| := by
    intro hg
    have hz : (0 : ℚ) ≤ |s + x| := abs_nonneg _
    norm_num at e1 e2 e3 e4 hg ⊢
    linarith
  have hsx : 0 < s + x := by
    have h1 := hx.le_abs h0.ne'
    rw [abs_of_pos h0] at h1
    linarith [neg_abs_le s]
  rw [abs_of_pos hsx] at *
  rcases mult_cases hx (Mult.pw v) with h1 | h1 | h1
  · have := hx.le_abs h0.ne'
    rw [abs_of_pos h0] at this
    linarith
  · rcases le_or_gt 0 s with s0 | s0
    · rw [abs_of_nonneg s0] at *
      exact gen (by linarith)
    · rw [abs_of_neg s0] at *
      have q0 := h.sign.2 s0.le
      rcases lt_or_ge (-s) (2 ^ (v - 1)) with s1 | s1
      · have hn := h.near (v - 1) (by rwa [abs_of_neg s0]) (by rwa [sub_add_cancel])
        rw [abs_of_neg s0] at hn
        have p1 := pw_1 (v - 1)
        rw [sub_add_cancel] at p1
        have e5 := rn_half (y := q + x) (k := v) (by
          rw [abs_le]
          have := (abs_le.1 e4).1
          constructor <;> linarith)
        norm_num at *
        linarith
      · have hd := h.side (v - 1) (by rwa [sub_add_cancel]) (by rwa [abs_of_neg s0])
        have p1 := pw_1 (v - 1)
        rw [sub_add_cancel] at p1
        rw [abs_of_nonpos q0] at hd
        have hq : IsF (x - -q) := sterbenz fx h.dbl.neg (by
          have := (abs_le.1 e4).1
          linarith) (by linarith)
        rw [sub_neg_eq_add, add_comm] at hq
        have hg := h.gap v (by rwa [abs_of_neg s0]) ht
        rw [abs_of_neg s0] at hg
        rw [rn_of_isF hq, show q + x - (s + x) = q - s by ring]
        refine hg.trans (le_of_eq ?_)
        rw [h1]; ring
  · refine gen ?_
    linarith [neg_abs_le s]

theorem Est.step_side (h : Est s t q) (hx : Mult v x) (hs : |s| < 3 / 4 * 2 ^ v) (h0 : 0 < x) (w : ℤ) (hw : |x| < 2 ^ (w + 1)) (hsw : 2 ^ w ≤ |s + x|) :
    2 ^ w ≤ |rn (q + x)| := by
  have hp := pw_pos v
  have h1 := hx.le_abs h0.ne'
  have e4 := h.rel
  have hvw : v ≤ w := by have := pw_lt.1 (h1.trans_lt hw); omega
  rw [abs_of_pos h0] at *
  have hsx : 0 < s + x := by linarith [neg_abs_le s]
  rw [abs_of_pos hsx] at hsw
  have key : (2 : ℚ) ^ w ≤ q + x := by
    rcases mult_cases hx (mult_pw hvw) with h2 | h2 | h2
    · linarith [le_abs_self s]
    · have := h.sign.1 (by linarith)
      linarith
    · have := (abs_le.1 e4).1
      have := neg_abs_le s
      norm_num at *
      linarith
  have := le_abs_rn (f := 2 ^ w) (x := q + x) (IsF.pw w) (by rw [abs_of_pos (pw_pos w)]; exact key.trans (le_abs_self _))
  rwa [abs_of_pos (pw_pos w)] at this

theorem Est.step_near (h : Est s t q) (hx : Mult v x) (hs : |s| < 3 / 4 * 2 ^ v) (ht : |t| < 2 ^ v) (h0 : 0 < x) (fx : IsF x) (w : ℤ)
    (hsw : |s + x| < 2 ^ w) (hw : |x| < 2 ^ (w + 1)) :
    |rn (q + x) - (s + x)| ≤ (5 / 2 + 8 / 9007199254740992) / 9007199254740992 * (2 ^ w - |s + x|) +
      (1 / 2 + 8 / 9007199254740992) / 9007199254740992 * 2 ^ w := by
  have hr := h.step_rel hx hs ht h0 fx
  have hpw := pw_pos w
  have hp := pw_pos v
  have h1 := hx.le_abs h0.ne'
  have e4 := h.rel
  have hvw : v ≤ w := by have := pw_lt.1 (h1.trans_lt hw); omega
  rw [abs_of_pos h0] at *
  have hsx : 0 < s + x := by linarith [neg_abs_le s]
  rw [abs_of_pos hsx] at *
  have e1 := Est.step_err (s := s) (q + x) rfl
  have hpos : 0 < q + x := by
    have := (abs_le.1 e4).1
    have := neg_abs_le s
    norm_num at *
    linarith
  have fin : |q - s| ≤ (5 / 2 + 8 / 9007199254740992) / 9007199254740992 * (2 ^ w - (s + x)) → |rn (q + x) - (s + x)| ≤
      (5 / 2 + 8 / 9007199254740992) / 9007199254740992 * (2 ^ w - (s + x)) + (1 / 2 + 8 / 9007199254740992) / 9007199254740992 * 2 ^ w := by
    intro he
    have e5 := rn_half (y := q + x) (k := w) (by
      rw [abs_of_pos hpos]
      have := (abs_le.1 he).2
      norm_num at *
      linarith)
    norm_num at *
    linarith
  rcases mult_cases hx (mult_pw hvw) with h2 | h2 | h2
  · have := h.gap v hs ht
    refine fin (this.trans ?_)
    have := le_abs_self s
    norm_num at *
    linarith
  · refine fin (e4.trans ?_)
    rw [abs_of_neg (by linarith)]
    norm_num at *
    linarith
  · linarith [neg_abs_le s]

theorem Est.step_gap (h : Est s t q) (hx : Mult v x) (hs : |s| < 3 / 4 * 2 ^ v) (ht : |t| < 2 ^ v) (h0 : 0 < x) (fx : IsF x) (w : ℤ)
    (hsw : |s + x| < 3 / 4 * 2 ^ w) (hw : |x| < 2 ^ w) :
    |rn (q + x) - (s + x)| ≤ (5 / 2 + 8 / 9007199254740992) / 9007199254740992 * (2 ^ w - |s + x|) := by
  have hr := h.step_rel hx hs ht h0 fx
  have hpw := pw_pos w
  have hp := pw_pos v
  have h1 := hx.le_abs h0.ne'
  have e4 := h.rel
  have hvw : v ≤ w - 1 := by have := pw_lt.1 (h1.trans_lt hw); omega
  rw [abs_of_pos h0] at *
  have hsx : 0 < s + x := by linarith [neg_abs_le s]
  rw [abs_of_pos hsx] at *
  have p1 := pw_1 (w - 1)
  rw [sub_add_cancel] at p1
  by_cases hhalf : s + x ≤ 2 ^ (w - 1)
  · refine hr.trans ?_
    norm_num at *
    linarith
  have e1 := Est.step_err (s := s) (q + x) rfl
  have hpos : 0 < q + x := by
    have := (abs_le.1 e4).1
    have := neg_abs_le s
    norm_num at *
    linarith
  have e5 := rn_half (y := q + x) (k := w) (by
    rw [abs_of_pos hpos]
    have := (abs_le.1 e4).2
    have := le_abs_self s
    have := pw_mono hvw
    norm_num at *
    linarith)
  rcases mult_cases hx (mult_pw hvw) with h2 | h2 | h2
  · linarith [le_abs_self s]
  · -- the component is half of `2 ^ w`
    have s0 : 0 < s := by linarith
    have p2 := pw_1 (w - 1 - 1)
    rw [sub_add_cancel] at p2
    have hn := h.near (w - 1 - 1) (by rw [abs_of_pos s0]; linarith) (by
      rw [sub_add_cancel]; exact ht.trans_le (pw_mono hvw))
    rw [abs_of_pos s0] at hn
    norm_num at *
    linarith
  · -- the component is larger: then its unit is at most a quarter of `2 ^ w`
    have hv2 : v ≤ w - 1 - 1 := by
      rcases Int.lt_or_le v (w - 1) with h' | h'
      · omega
      · have : v = w - 1 := by omega
        rw [this] at h2
        linarith
    have p2 := pw_1 (w - 1 - 1)
    rw [sub_add_cancel] at p2
    have hm : Mult v (3 / 4 * 2 ^ w : ℚ) := by
      rw [show (3 / 4 * 2 ^ w : ℚ) = 2 ^ (w - 1) + 2 ^ (w - 1 - 1) by linarith]
      exact (mult_pw hvw).add (mult_pw hv2)
    rcases mult_cases hx hm with h3 | h3 | h3
    · have := h.gap v hs ht
      have := le_abs_self s
      norm_num at *
      linarith
    · have s0 : s < 0 := by linarith
      rw [abs_of_neg s0] at *
      norm_num at *
      linarith
    · linarith [neg_abs_le s]

end Step

/-- One addition. -/
theorem Est.step {s t q x : ℚ} {v : ℤ} (h : Est s t q) (fx : IsF x) (hx : Mult v x) (hs : |s| < 3 / 4 * 2 ^ v) (ht : |t| < 2 ^ v) :
    Est (s + x) (if x = 0 then t else x) (fadd q x) := by
  have pos : ∀ {s t q x : ℚ}, Est s t q → IsF x → Mult v x → |s| < 3 / 4 * 2 ^ v → |t| < 2 ^ v → 0 < x → Est (s + x) x (fadd q x) := by
    intro s t q x h fx hx hs ht h0
    exact ⟨rn_isF _, h.step_rel hx hs ht h0 fx, h.step_gap hx hs ht h0 fx, h.step_near hx hs ht h0 fx, h.step_side hx hs h0⟩
  rcases lt_trichotomy x 0 with h0 | h0 | h0
  · have := (pos h.neg fx.neg hx.neg (by rwa [abs_neg]) (by rwa [abs_neg]) (by linarith : 0 < -x)).neg
    rw [if_neg h0.ne]
    rw [show fadd q x = - fadd (-q) (-x) by rw [fadd, fadd, ← rn_neg]; congr 1; ring]
    rwa [show -(-s + -x) = s + x by ring, neg_neg] at this
  · rw [h0, if_pos rfl, add_zero, fadd, add_zero, rn_of_isF h.dbl]
    exact h
  · rw [if_neg h0.ne']
    exact pos h fx hx hs ht h0

theorem Est.fold {s t q : ℚ} {l : List ℚ} (h : Est s t q) (hl : Nonov s t l) :
    ∃ t', Est (s + l.sum) t' (l.foldl fadd q) := by
  induction l generalizing s t q with
  | nil => exact ⟨t, by simpa using h⟩
  | cons x l ih =>
    obtain ⟨fx, ⟨w, h1, h2, h3⟩, hn⟩ := hl
    obtain ⟨t', ht⟩ := ih (h.step fx h1 h2 h3) hn
    exact ⟨t', by rwa [List.sum_cons, ← add_assoc, List.foldl_cons]⟩

/-- **The accuracy of `estimate`**: on any expansion, of any length, the result differs from the exact value by at most `(5/2 + 8ε)ε` of that value. -/
theorem estimate_close {e : List ℚ} (h : Expansion e) :
    |estimate e - e.sum| ≤ (5 / 2 + 8 / 9007199254740992) / 9007199254740992 * |e.sum| := by
  obtain ⟨t, ht⟩ := Est.init.fold h
  rw [zero_add] at ht
  exact ht.rel

/-- So `estimate` always has the sign of the expansion. -/
theorem estimate_sameSign {e : List ℚ} (h : Expansion e) : SameSign (estimate e) e.sum := by
  have := estimate_close h
  by_cases h0 : e.sum = 0
  · rw [h0, abs_zero, mul_zero, sub_zero] at this
    rw [h0, abs_eq_zero.1 (le_antisymm this (abs_nonneg _))]
    exact ⟨Iff.rfl, Iff.rfl⟩
  · apply SameSign.of_close'
    have hp : (0 : ℚ) < |e.sum| := abs_pos.2 h0
    norm_num at this ⊢
    linarith

end Verif.Float
