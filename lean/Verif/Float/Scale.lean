import Verif.Float.FastSum
/-!
# `scale_expansion_zeroelim` keeps expansions nonoverlapping
-/
namespace Verif.Float

/-- Between two components: `E` is the sum of the components already scaled, `tE` the last nonzero one, `e` what is left, `q` the
accumulator and `t` the last component written; `2 ^ β` is the unit in the last place of the factor `b`. -/
structure Sc (b : ℚ) (β : ℤ) (E tE : ℚ) (e : List ℚ) (q t : ℚ) : Prop where
  ne : Nonov E tE e
  hq : IsF q
  sep : ∃ w, Mult w q ∧ (∀ y ∈ e, Mult (w - β) y) ∧ |t| < 2 ^ w ∧
    (|b * E - q| < 1 / 2 * 2 ^ w ∨
      (|b * E - q| < 3 / 4 * 2 ^ w ∧ (2 ^ (w + 52) - 1 / 4 * 2 ^ w < |b * E| ∨ ∀ y ∈ e, Mult (w + 1 - β) y)))

/-- The condition under which a component may follow. -/
def May (s t x : ℚ) : Prop := IsF x ∧ ∃ w : ℤ, Mult w x ∧ |s| < 3 / 4 * 2 ^ w ∧ |t| < 2 ^ w

theorem Nonov.after {s t : ℚ} {l : List ℚ} (h : Nonov s t l) {k : ℤ} (hk : 2 ^ (k - 1) < |t| ∨ 2 ^ (k - 1) = |t|) : ∀ y ∈ l, Mult k y := by
  intro y hy
  by_cases h0 : y = 0
  · rw [h0]; exact Mult.zero _
  · obtain ⟨w, hw, hlt⟩ := h.asc y hy h0
    have : (2 : ℚ) ^ (k - 1) < 2 ^ w := by rcases hk with h | h <;> linarith
    exact hw.mono (by have := pw_lt.1 this; omega)

theorem Sc.step {b : ℚ} {β : ℤ} (hb : IsF b) (mb : Mult β b) (lb : 2 ^ (β + 52) ≤ |b|) (ub : |b| < 2 ^ (β + 53))
    {E tE q t y : ℚ} {e : List ℚ} (h : Sc b β E tE (y :: e) q t) (hy0 : y ≠ 0) (p1 p0 s h1 q' h2 : ℚ)
    (hp1 : p1 = rn (y * b)) (hp0 : p0 = y * b - p1) (hs : s = rn (q + p0)) (hh1 : h1 = q + p0 - s) (hq' : q' = rn (p1 + s))
    (hh2 : h2 = p1 + s - q') :
    |s| ≤ |p1| ∧ May (b * E - q) t h1 ∧ May (b * E - q + h1) (if h1 = 0 then t else h1) h2 ∧
      Sc b β (E + y) y e q' (if h2 = 0 then (if h1 = 0 then t else h1) else h2) := by
  obtain ⟨hy, ⟨v, hv, hEv, -⟩, ne⟩ := h.ne
  rw [if_neg hy0] at ne
  obtain ⟨w, wq, we, ht, hw⟩ := h.sep
  obtain ⟨a, ua⟩ := exists_unit hy hy0
  have hEa : |E| < 3 / 4 * 2 ^ a := by
    have := pw_mono (ua.exact v hv); linarith
  have hwa : w - β ≤ a := ua.exact _ (we y List.mem_cons_self)
  have we' : ∀ y ∈ e, Mult (w - β) y := fun z hz => we z (List.mem_cons_of_mem _ hz)
  -- magnitudes
  have hA := pw_pos a
  have hB := pw_pos β
  have hU : (2 : ℚ) ^ (a + β) = 2 ^ a * 2 ^ β := pw_add a β
  have hUp := pw_pos (a + β)
  have hub : |b| ≤ 2 ^ β * 9007199254740991 := by
    have := (mb.abs.lt_iff ((Mult.pw (β + 53)).mono (f := β) (by omega))).1 ub
    rw [pw_53] at this; linarith
  have hlb : 2 ^ β * 4503599627370496 ≤ |b| := by rwa [← pw_52]
  have hb0 : b ≠ 0 := by
    intro hb0
    rw [hb0, abs_zero] at hlb
    linarith
  have hbp : 0 < |b| := abs_pos.2 hb0
  have hyb0 : y * b ≠ 0 := mul_ne_zero hy0 hb0
  have hyA := ua.mult.le_abs hy0
  have hZ : 2 ^ a * |b| ≤ |y * b| := by rw [abs_mul]; exact mul_le_mul_of_nonneg_right hyA hbp.le
  have hZU : 2 ^ (a + β) * 4503599627370496 ≤ 2 ^ a * |b| := by
    rw [hU, mul_assoc]; exact mul_le_mul_of_nonneg_left hlb hA.le
  have hZU2 : 2 ^ a * |b| ≤ 2 ^ (a + β) * 9007199254740991 := by
    rw [hU, mul_assoc]; exact mul_le_mul_of_nonneg_left hub hA.le
  have hbE : |b * E| < 3 / 4 * (2 ^ a * |b|) := by
    rw [abs_mul, mul_comm]
    have := mul_lt_mul_of_pos_right hEa hbp
    linarith
  have hwU : (2 : ℚ) ^ w ≤ 2 ^ (a + β) := pw_mono (by omega)
  have hpw := pw_pos w
  have hH34 : |b * E - q| < 3 / 4 * 2 ^ w := by
    rcases hw with h | h
    · linarith
    · exact h.1
  have hqb : |q| ≤ |b * E| + |b * E - q| := by
    have := abs_sub (b * E) (b * E - q)
    rwa [show b * E - (b * E - q) = q by ring] at this
  -- the product
  have hyF := hy
  have hp0F : IsF p0 := by rw [hp0, hp1]; exact prod_err_isF hy hb
  have hp1F : IsF p1 := by rw [hp1]; exact rn_isF _
  have hp0r : |p0| ≤ |y * b| / 2 ^ 53 := by rw [hp0, hp1]; exact rn_rel _
  have hp1r : |y * b| - |y * b| / 2 ^ 53 ≤ |p1| := by
    have h3 := abs_sub_abs_le_abs_sub (y * b) p1
    rw [← hp0] at h3; linarith
  have hxle : |q + p0| ≤ |p1| := by
    have := abs_add_le q p0
    rw [show (2 : ℚ) ^ 53 = 9007199254740992 by norm_num] at hp0r hp1r
    linarith
  have hsle : |s| ≤ |p1| := by rw [hs]; exact abs_rn_le hp1F hxle
  refine ⟨hsle, ?_⟩
  have mw : Mult w (y * b) := by
    have := (we y List.mem_cons_self).mul mb; rwa [sub_add_cancel] at this
  have mp1 : Mult w p1 := by rw [hp1]; exact rn_mult_of mw
  have mp0 : Mult w p0 := by rw [hp0]; exact mw.sub mp1
  have ms : Mult w s := by rw [hs]; exact rn_mult_of (wq.add mp0)
  have mh1 : Mult w h1 := by rw [hh1]; exact (wq.add mp0).sub ms
  have h1F : IsF h1 := by rw [hh1, hs]; exact sum_err_isF h.hq hp0F
  have sF : IsF s := by rw [hs]; exact rn_isF _
  refine ⟨⟨h1F, w, mh1, hH34, ht⟩, ?_⟩
  -- after the first sum
  have hafter : ∃ w1, w ≤ w1 ∧ Mult w1 s ∧ Mult w1 p1 ∧ (∀ y ∈ e, Mult (w1 - β) y) ∧ |if h1 = 0 then t else h1| < 2 ^ w1 ∧
      (|b * E - q + h1| < 1 / 2 * 2 ^ w1 ∨ (h1 = 0 ∧ w1 = w ∧ ¬ |b * E - q| < 1 / 2 * 2 ^ w)) := by
    by_cases h10 : h1 = 0
    · refine ⟨w, le_rfl, ms, mp1, we', by rwa [if_pos h10], ?_⟩
      by_cases hc : |b * E - q| < 1 / 2 * 2 ^ w
      · left; rwa [h10, add_zero]
      · exact Or.inr ⟨h10, rfl, hc⟩
    rw [if_neg h10]
    have hx0 : q + p0 ≠ 0 := fun hx => h10 (by rw [hh1, hs, hx, rn_zero, sub_zero])
    have hp00 : p0 ≠ 0 := by
      intro hp; apply h10
      rw [hh1, hs, hp, add_zero, rn_of_isF h.hq, sub_self]
    have mU : Mult (a + β) (y * b) := ua.mult.mul mb
    have hr1 : |p0| ≤ 2 ^ lsb (y * b) / 2 := by rw [hp0, hp1]; exact rn_err _
    have hr2 : 2 ^ (a + β) ≤ |p0| := by
      have : Mult (a + β) p0 := by rw [hp0, hp1]; exact mU.sub (rn_mult_of mU)
      exact this.le_abs hp00
    have hlr : lsb (q + p0) ≤ lsb (y * b) - 1 := by
      refine lsb_lt_of hx0 ?_
      have := abs_add_le q p0
      rw [show lsb (y * b) - 1 + 53 = lsb (y * b) + 52 by ring, pw_52]
      linarith
    have er : ∀ z ∈ e, Mult (lsb (y * b) - β) z := by
      refine ne.after (Or.inl ?_)
      have h3 := (log_bounds hyb0).1
      rw [abs_mul] at h3
      have h4 : (2 : ℚ) ^ (lsb (y * b) - β - 1) * 2 ^ (β + 53) = 2 ^ (lsb (y * b) + 52) := by rw [← pw_add]; congr 1; ring
      by_contra hc
      have h5 := mul_le_mul_of_nonneg_right (not_lt.1 hc) (pw_pos (β + 53)).le
      have h6 := mul_lt_mul_of_pos_left ub (abs_pos.2 hy0)
      linarith
    have herr : |h1| ≤ 2 ^ lsb (q + p0) / 2 := by rw [hh1, hs]; exact rn_err _
    have hpu := pw_pos (lsb (q + p0))
    have hwu : w < lsb (q + p0) := by
      have h3 := mh1.le_abs h10
      have : (2 : ℚ) ^ w < 2 ^ lsb (q + p0) := by linarith
      exact pw_lt.1 this
    have hadd := abs_add_le (b * E - q) h1
    have mp1r : Mult (lsb (y * b)) p1 := by rw [hp1]; exact rn_mult _
    rcases lt_or_eq_of_le herr with hlt | htie
    · have hhu : |h1| + 2 ^ w ≤ 1 / 2 * 2 ^ lsb (q + p0) := by
        have hm2 : Mult w (1 / 2 * (2 : ℚ) ^ lsb (q + p0)) := by
          have : (1 / 2 : ℚ) * 2 ^ lsb (q + p0) = 2 ^ (lsb (q + p0) - 1) := by
            rw [show lsb (q + p0) = lsb (q + p0) - 1 + 1 by ring, pw_1, show lsb (q + p0) - 1 + 1 - 1 = lsb (q + p0) - 1 by ring]; ring
          rw [this]; exact (Mult.pw _).mono (by omega)
        exact (mh1.abs.lt_iff hm2).1 (by linarith)
      refine ⟨lsb (q + p0), hwu.le, by rw [hs]; exact rn_mult _, mp1r.mono (by omega), fun z hz => (er z hz).mono (by omega),
        by linarith, Or.inl (by linarith)⟩
    · have hev : Mult (lsb (q + p0) + 1) s := by rw [hs]; exact tie_even (by rw [← hs, ← hh1]; exact htie)
      have h2w : (2 : ℚ) ^ w * 2 ≤ 2 ^ lsb (q + p0) := by rw [← pw_1]; exact pw_mono (by omega)
      refine ⟨lsb (q + p0) + 1, by omega, hev, mp1r.mono (by omega), fun z hz => (er z hz).mono (by omega),
        by rw [pw_1]; linarith, Or.inl (by rw [pw_1]; linarith)⟩
  obtain ⟨w1, hww1, ms1, mp11, we1, ht1, hty⟩ := hafter
  set t1 := if h1 = 0 then t else h1
  set H1 := b * E - q + h1 with hH1
  have hpw1 := pw_pos w1
  have hH1' : |H1| < 3 / 4 * 2 ^ w1 := by
    rcases hty with h3 | ⟨h3, h4, -⟩
    · linarith
    · rw [hH1, h3, h4, add_zero]; exact hH34
  have mx : Mult w1 (p1 + s) := mp11.add ms1
  have mq' : Mult w1 q' := by rw [hq']; exact rn_mult_of mx
  have mh2 : Mult w1 h2 := by rw [hh2]; exact mx.sub mq'
  have h2F : IsF h2 := by rw [hh2, hq']; exact sum_err_isF hp1F sF
  refine ⟨⟨h2F, w1, mh2, hH1', ht1⟩, ne, by rw [hq']; exact rn_isF _, ?_⟩
  have hval : p1 + s = b * (E + y) - H1 := by rw [hH1, hh1, hp0]; ring
  have hnew : b * (E + y) - q' = H1 + h2 := by rw [hh2, hval]; ring
  rw [hnew]
  by_cases h20 : h2 = 0
  · rw [if_pos h20, h20, add_zero]
    rcases hty with h3 | ⟨h3, h4, h5⟩
    · exact ⟨w1, mq', we1, ht1, Or.inl h3⟩
    · refine ⟨w1, mq', we1, ht1, Or.inr ⟨hH1', Or.inr (ne.after ?_)⟩⟩
      have h6 := (we y List.mem_cons_self).le_abs hy0
      rw [h4, show w + 1 - β - 1 = w - β by ring]
      rcases lt_or_eq_of_le h6 with h6 | h6
      · exact Or.inl h6
      · exact Or.inr h6
  rw [if_neg h20]
  have hx0 : p1 + s ≠ 0 := fun hx => h20 (by rw [hh2, hq', hx, rn_zero, sub_zero])
  set u := lsb (p1 + s) with hu
  have herr : |h2| ≤ 2 ^ u / 2 := by rw [hh2, hq']; exact rn_err _
  have hpu := pw_pos u
  have hwu : w1 < u := by
    have h3 := mh2.le_abs h20
    have : (2 : ℚ) ^ w1 < 2 ^ u := by linarith
    exact pw_lt.1 this
  have hadd := abs_add_le H1 h2
  -- what follows is a multiple of the unit of the rounding
  have hlb := (log_bounds hx0).1
  rw [← hu, hval] at hlb
  have hsub := abs_sub (b * (E + y)) H1
  have unitle : ∀ {ω : ℤ}, |E + y| < 3 / 4 * 2 ^ ω → w1 - β ≤ ω → u - β ≤ ω := by
    intro ω h3 h4
    have h5 : u ≤ ω + β := by
      refine lsb_lt_of hx0 ?_
      rw [hval]
      have h6 : |b * (E + y)| < 3 / 4 * (2 ^ (ω + β) * 9007199254740991) := by
        rw [abs_mul, mul_comm, pw_add]
        have h7 := mul_lt_mul_of_pos_right h3 hbp
        have h8 := mul_le_mul_of_nonneg_left hub (pw_pos ω).le
        linarith
      have h9 : (2 : ℚ) ^ w1 ≤ 2 ^ (ω + β) := pw_mono (by omega)
      have := pw_pos (ω + β)
      rw [pw_53]; linarith
    omega
  have eu : ∀ z ∈ e, Mult (u - β) z := by
    rcases ne.first with hz | ⟨g, mg, ng, ω, ug, sg, -, rg⟩
    · intro z hz'; rw [hz z hz']; exact Mult.zero _
    · have := unitle sg (ug.exact _ (we1 g mg))
      intro z hz; exact (rg z hz).1.mono this
  have mqu : Mult u q' := by rw [hq']; exact rn_mult _
  rcases lt_or_eq_of_le herr with hlt | htie
  · have hhu : |h2| + 2 ^ w1 ≤ 1 / 2 * 2 ^ u := by
      have hm2 : Mult w1 (1 / 2 * (2 : ℚ) ^ u) := by
        have : (1 / 2 : ℚ) * 2 ^ u = 2 ^ (u - 1) := by
          rw [show u = u - 1 + 1 by ring, pw_1, show u - 1 + 1 - 1 = u - 1 by ring]; ring
        rw [this]; exact (Mult.pw _).mono (by omega)
      exact (mh2.abs.lt_iff hm2).1 (by linarith)
    exact ⟨u, mqu, eu, by linarith, Or.inl (by linarith)⟩
  have hev : Mult (u + 1) q' := by rw [hq', hu]; exact tie_even (by rw [← hq', ← hh2, ← hu]; exact htie)
  have h2w : (2 : ℚ) ^ w1 * 2 ≤ 2 ^ u := by rw [← pw_1]; exact pw_mono (by omega)
  by_cases hall : ∀ z ∈ e, Mult (u + 1 - β) z
  · exact ⟨u + 1, hev, hall, by rw [pw_1]; linarith, Or.inl (by rw [pw_1]; linarith)⟩
  -- a tie, and the next component is an odd multiple of the unit
  have hH14 : |H1| < 1 / 4 * 2 ^ u := by
    rcases hty with h3 | ⟨h3, h4, h5⟩
    · linarith
    have hw34 := (hw.resolve_left h5).2
    by_cases hwu2 : w1 + 2 ≤ u
    · have := pw_mono hwu2
      rw [show w1 + 2 = w1 + 1 + 1 by ring, pw_1, pw_1] at this
      linarith
    exfalso
    have hu1 : u = w + 1 := by omega
    rcases hw34 with hbig | hm
    · -- two ties in a row
      rcases ne.first with hz | ⟨g, mg, ng, ω, ug, sg, tg, rg⟩
      · exact hall fun z hz' => by rw [hz z hz']; exact Mult.zero _
      have hω : ω ≤ w - β + 1 := by
        by_contra hc
        exact hall fun z hz' => (rg z hz').1.mono (by omega)
      have hωp := pw_mono hω
      rw [pw_1] at hωp
      have hmy := we y List.mem_cons_self
      have hyu := (hmy.abs.lt_iff ((Mult.pw (w - β + 1)).mono (f := w - β) (by omega))).1 (by rw [pw_1]; linarith)
      have hyl := hmy.le_abs hy0
      rw [pw_1] at hyu
      have hya : |y| = 2 ^ (w - β) := by linarith
      have hEA : |E| < 3 / 4 * 2 ^ (w - β) := by linarith
      have hW : (2 : ℚ) ^ w = 2 ^ (w - β) * 2 ^ β := by rw [← pw_add]; congr 1; ring
      have hAp := pw_pos (w - β)
      set A : ℚ := 2 ^ (w - β) with hAdef
      have e1 : 1 / 2 * A < |E| := by
        by_contra hc
        have h6 := mul_le_mul (not_lt.1 hc) hub hbp.le (by positivity)
        rw [abs_mul, mul_comm] at hbig
        rw [pw_52, hW] at hbig
        have : 0 < A * 2 ^ β := by positivity
        linarith
      have e2 : A < |E + y| := by
        by_contra hc
        have h6 := mul_le_mul (not_lt.1 hc) hub hbp.le (by positivity)
        rw [abs_mul, mul_comm |b|] at hsub
        rw [hu1, show w + 1 + 52 = w + 53 by ring, pw_53, hW] at hlb
        rw [h4, hW] at hH1'
        have : 0 < A * 2 ^ β := by positivity
        linarith
      have e3 : |E + y| < 3 / 2 * A := by linarith
      rcases abs_cases E with ⟨c1, d1⟩ | ⟨c1, d1⟩ <;> rcases abs_cases y with ⟨c2, d2⟩ | ⟨c2, d2⟩ <;>
        rcases abs_cases (E + y) with ⟨c3, d3⟩ | ⟨c3, d3⟩ <;> rw [c1] at e1 hEA <;> rw [c2] at hya <;> rw [c3] at e2 e3 <;> linarith
    · -- the next component is an even multiple
      apply hall
      refine ne.after ?_
      have h6 := (hm y List.mem_cons_self).le_abs hy0
      rw [hu1, show w + 1 + 1 - β - 1 = w + 1 - β by ring]
      rcases lt_or_eq_of_le h6 with h6 | h6
      · exact Or.inl h6
      · exact Or.inr h6
  refine ⟨u, mqu, eu, by linarith, Or.inr ⟨by linarith, Or.inl ?_⟩⟩
  linarith

/-! ### The loop -/

/-- The loop of `scale_expansion_zeroelim` without its accumulator; the flag tells whether nothing has been written. -/
def scl (b : ℚ) : ℚ → Bool → List ℚ → List ℚ
  | q, f, [] => if q ≠ 0 ∨ f = true then [q] else []
  | q, f, y :: e =>
    let p1 := (twoProductPreSplit y b (split b).1 (split b).2).1
    let p0 := (twoProductPreSplit y b (split b).1 (split b).2).2
    let s := (twoSum q p0).1
    let h1 := (twoSum q p0).2
    let q' := (fastTwoSum p1 s).1
    let h2 := (fastTwoSum p1 s).2
    (if h1 ≠ 0 then [h1] else []) ++ (if h2 ≠ 0 then [h2] else []) ++ scl b q' (f && decide (h1 = 0) && decide (h2 = 0)) e

theorem scaleLoop_eq (b q : ℚ) (harr e : List ℚ) :
    scaleLoop b (split b).1 (split b).2 q harr e = harr ++ scl b q (decide (harr = [])) e := by
  induction e generalizing q harr with
  | nil =>
    simp only [scaleLoop, scl, decide_eq_true_eq]
    split_ifs <;> simp
  | cons y e ih =>
    simp only [scaleLoop, scl]
    rw [ih]
    by_cases h1 : (twoSum q (twoProductPreSplit y b (split b).1 (split b).2).2).2 = 0 <;>
      by_cases h2 : (fastTwoSum (twoProductPreSplit y b (split b).1 (split b).2).1
        (twoSum q (twoProductPreSplit y b (split b).1 (split b).2).2).1).2 = 0 <;> simp [h1, h2]

theorem May.nonov {s t x : ℚ} {l : List ℚ} (h : May s t x) (hn : Nonov (s + x) (if x = 0 then t else x) l) :
    Nonov s t ((if x ≠ 0 then [x] else []) ++ l) := by
  by_cases h0 : x = 0
  · subst h0; simpa using hn
  · rw [if_pos h0]; exact ⟨h.1, h.2, hn⟩

theorem scl_nil_nonov {H t q : ℚ} (f : Bool) (h : May H t q) : Nonov H t (if q ≠ 0 ∨ f = true then [q] else []) := by
  split_ifs
  · exact ⟨h.1, h.2, trivial⟩
  · trivial

/-- One round of the loop as error-free transformations. -/
theorem scl_cons {b q y : ℚ} (hb : IsF b) (hq : IsF q) (hy : IsF y) (f : Bool) (e : List ℚ)
    (hle : |rn (q + (y * b - rn (y * b)))| ≤ |rn (y * b)| ∨ rn (y * b) = 0) (p1 p0 s h1 q' h2 : ℚ)
    (hp1 : p1 = rn (y * b)) (hp0 : p0 = y * b - p1) (hs : s = rn (q + p0)) (hh1 : h1 = q + p0 - s) (hq' : q' = rn (p1 + s))
    (hh2 : h2 = p1 + s - q') :
    scl b q f (y :: e) = (if h1 ≠ 0 then [h1] else []) ++ ((if h2 ≠ 0 then [h2] else []) ++
      scl b q' (f && decide (h1 = 0) && decide (h2 = 0)) e) := by
  have hp0F : IsF p0 := by rw [hp0, hp1]; exact prod_err_isF hy hb
  have hp1F : IsF p1 := by rw [hp1]; exact rn_isF _
  have hsF : IsF s := by rw [hs]; exact rn_isF _
  have e1 : twoProductPreSplit y b (split b).1 (split b).2 = (p1, p0) := by rw [twoProductPreSplit_spec hy hb, hp0, hp1]
  have e2 : twoSum q p0 = (s, h1) := by rw [twoSum_spec hq hp0F, hh1, hs]
  have e3 : fastTwoSum p1 s = (q', h2) := by
    rw [fastTwoSum_spec hp1F hsF, hh2, hq']
    rw [← hp1, ← hp0, ← hs] at hle
    exact hle
  simp only [scl, e1, e2, e3, List.append_assoc]

theorem Sc.zero {b : ℚ} {β : ℤ} {E tE q t : ℚ} {e : List ℚ} (h : Sc b β E tE (0 :: e) q t) : Sc b β E tE e q t := by
  obtain ⟨w, wq, we, ht, hw⟩ := h.sep
  have hn := h.ne.2.2
  rw [add_zero, if_pos rfl] at hn
  refine ⟨hn, h.hq, w, wq, fun z hz => we z (List.mem_cons_of_mem _ hz), ht, ?_⟩
  rcases hw with h1 | ⟨h1, h2 | h2⟩
  · exact Or.inl h1
  · exact Or.inr ⟨h1, Or.inl h2⟩
  · exact Or.inr ⟨h1, Or.inr fun z hz => h2 z (List.mem_cons_of_mem _ hz)⟩

/-- A component that vanishes changes nothing. -/
theorem scl_zero {b q y : ℚ} (hb : IsF b) (hq : IsF q) (hy : IsF y) (f : Bool) (e : List ℚ) (h0 : y * b = 0) :
    scl b q f (y :: e) = scl b q f e := by
  rw [scl_cons hb hq hy f e (Or.inr (by rw [h0, rn_zero])) 0 0 q 0 q 0 (by rw [h0, rn_zero]) (by rw [h0, sub_zero])
    (by rw [add_zero, rn_of_isF hq]) (by ring) (by rw [zero_add, rn_of_isF hq]) (by ring)]
  simp

theorem scl_spec {b : ℚ} {β : ℤ} (hb : IsF b) (mb : Mult β b) (lb : 2 ^ (β + 52) ≤ |b|) (ub : |b| < 2 ^ (β + 53)) (e : List ℚ) :
    ∀ {E tE q t : ℚ} (f : Bool), Sc b β E tE e q t → Nonov (b * E - q) t (scl b q f e) ∧ (scl b q f e).sum = q + b * e.sum := by
  induction e with
  | nil =>
    intro E tE q t f h
    obtain ⟨w, wq, -, ht, hw⟩ := h.sep
    refine ⟨scl_nil_nonov f ⟨h.hq, w, wq, ?_, ht⟩, ?_⟩
    · have := pw_pos w
      rcases hw with h1 | h1
      · linarith
      · exact h1.1
    · simp only [scl]
      split_ifs with h1
      · simp
      · simp only [not_or, not_not] at h1; simp [h1.1]
  | cons y e ih =>
    intro E tE q t f h
    by_cases hy0 : y = 0
    · subst hy0
      rw [scl_zero hb h.hq IsF.zero f e (zero_mul _)]
      have := ih f h.zero
      simpa using this
    obtain ⟨hle, hm1, hm2, hn⟩ := h.step hb mb lb ub hy0 _ _ _ _ _ _ rfl rfl rfl rfl rfl rfl
    rw [scl_cons hb h.hq h.ne.1 f e (Or.inl hle) _ _ _ _ _ _ rfl rfl rfl rfl rfl rfl]
    set p1 := rn (y * b)
    set s := rn (q + (y * b - p1))
    set h1 := q + (y * b - p1) - s with hh1
    set q' := rn (p1 + s)
    set h2 := p1 + s - q' with hh2
    obtain ⟨i1, i2⟩ := ih (f && decide (h1 = 0) && decide (h2 = 0)) hn
    refine ⟨hm1.nonov (hm2.nonov ?_), ?_⟩
    · rwa [show b * E - q + h1 + h2 = b * (E + y) - q' by rw [hh1, hh2]; ring]
    · have part : ∀ x : ℚ, (if x ≠ 0 then [x] else []).sum = x := by
        intro x; split_ifs with hx <;> simp_all
      rw [List.sum_append, List.sum_append, part, part, i2, List.sum_cons, hh1, hh2]; ring

theorem scl_nonzero (b : ℚ) (e : List ℚ) : ∀ q f, (∀ y ∈ scl b q f e, y ≠ 0) ∨ (f = true ∧ scl b q f e = [0]) := by
  induction e with
  | nil =>
    intro q f
    simp only [scl]
    by_cases hq : q = 0
    · cases f <;> simp [hq]
    · simp [hq]
  | cons y e ih =>
    intro q f
    simp only [scl]
    set p1 := (twoProductPreSplit y b (split b).1 (split b).2).1
    set p0 := (twoProductPreSplit y b (split b).1 (split b).2).2
    set s := (twoSum q p0).1
    set h1 := (twoSum q p0).2
    set q' := (fastTwoSum p1 s).1
    set h2 := (fastTwoSum p1 s).2
    rcases ih q' (f && decide (h1 = 0) && decide (h2 = 0)) with h | ⟨h, h'⟩
    · left
      intro x hx
      simp only [List.mem_append] at hx
      rcases hx with (hx | hx) | hx
      · split_ifs at hx with hc
        · rw [List.mem_singleton] at hx; rwa [hx]
        · simp at hx
      · split_ifs at hx with hc
        · rw [List.mem_singleton] at hx; rwa [hx]
        · simp at hx
      · exact h x hx
    · right
      simp only [Bool.and_eq_true, decide_eq_true_eq] at h
      refine ⟨h.1.1, ?_⟩
      rw [h.1.2, h.2]
      simpa [h.1.1, h.1.2, h.2] using h'

theorem scl_ne_nil (b : ℚ) (e : List ℚ) : ∀ q, scl b q true e ≠ [] := by
  induction e with
  | nil => intro q; simp [scl]
  | cons y e ih =>
    intro q hc
    simp only [scl, List.append_eq_nil_iff] at hc
    obtain ⟨⟨h1, h2⟩, h3⟩ := hc
    have h1' : (twoSum q (twoProductPreSplit y b (split b).1 (split b).2).2).2 = 0 := by
      by_contra h; simp [h] at h1
    have h2' : (fastTwoSum (twoProductPreSplit y b (split b).1 (split b).2).1
        (twoSum q (twoProductPreSplit y b (split b).1 (split b).2).2).1).2 = 0 := by
      by_contra h; simp [h] at h2
    rw [h1', h2'] at h3
    exact ih _ (by simpa using h3)

theorem scl_b_zero (e : List ℚ) (he : ∀ y ∈ e, IsF y) : scl 0 0 true e = [0] := by
  induction e with
  | nil => simp [scl]
  | cons y e ih =>
    rw [scl_zero IsF.zero IsF.zero (he y List.mem_cons_self) true e (mul_zero _)]
    exact ih fun z hz => he z (List.mem_cons_of_mem _ hz)

/-- The first product is the same as a round of the loop. -/
theorem scaleExpansion_eq {e : List ℚ} {b : ℚ} (he : ∀ y ∈ e, IsF y) (hb : IsF b) (hn : e ≠ []) :
    scaleExpansionZeroelim e b = some (scl b 0 true e) := by
  cases e with
  | nil => exact absurd rfl hn
  | cons y e =>
    have hy := he y List.mem_cons_self
    have hp0F : IsF (y * b - rn (y * b)) := prod_err_isF hy hb
    have hr : rn (0 + (y * b - rn (y * b))) = y * b - rn (y * b) := by rw [zero_add, rn_of_isF hp0F]
    have hle : |rn (0 + (y * b - rn (y * b)))| ≤ |rn (y * b)| ∨ rn (y * b) = 0 := by
      left
      rw [hr]
      have := rn_rel' (y * b)
      have h2 := abs_nonneg (rn (y * b))
      rw [show (2 : ℚ) ^ 53 = 9007199254740992 by norm_num] at this
      linarith
    rw [scl_cons hb IsF.zero hy true e hle (rn (y * b)) (y * b - rn (y * b)) (y * b - rn (y * b)) 0 (rn (y * b)) (y * b - rn (y * b))
      rfl rfl hr.symm (by ring) (by rw [add_sub_cancel]) (by ring)]
    simp only [scaleExpansionZeroelim, twoProductPreSplit_spec hy hb, scaleLoop_eq]
    by_cases h : y * b - rn (y * b) = 0 <;> simp [h]

/-- The main theorem on `scale_expansion_zeroelim`. -/
theorem scaleExpansion_spec {e : List ℚ} {b : ℚ} (he : Expansion e) (hb : IsF b) (hn : e ≠ []) :
    ∃ r, scaleExpansionZeroelim e b = some r ∧ Expansion r ∧ r.sum = b * e.sum ∧ r ≠ [] ∧ ((∀ y ∈ r, y ≠ 0) ∨ r = [0]) := by
  refine ⟨_, scaleExpansion_eq (fun y hy => he.isF y hy) hb hn, ?_⟩
  have hnz : (∀ y ∈ scl b 0 true e, y ≠ 0) ∨ scl b 0 true e = [0] := (scl_nonzero b e 0 true).imp id And.right
  suffices Expansion (scl b 0 true e) ∧ (scl b 0 true e).sum = b * e.sum from ⟨this.1, this.2, scl_ne_nil _ _ _, hnz⟩
  by_cases hb0 : b = 0
  · subst hb0
    rw [scl_b_zero e fun y hy => he.isF y hy]
    refine ⟨⟨IsF.zero, ⟨0, Mult.zero _, by norm_num, by norm_num⟩, trivial⟩, by simp⟩
  obtain ⟨l1, l2⟩ := log_bounds hb0
  have mb : Mult (lsb b) b := by have := rn_mult b; rwa [rn_of_isF hb] at this
  obtain ⟨w, hw⟩ := exists_common_unit e fun y hy => he.isF y hy
  have hS : Sc b (lsb b) 0 0 e 0 0 := by
    refine ⟨he, IsF.zero, w + lsb b, Mult.zero _, fun y hy => by rw [add_sub_cancel_right]; exact hw y hy, ?_, Or.inl ?_⟩
    · rw [abs_zero]; exact pw_pos _
    · rw [mul_zero, sub_zero, abs_zero]; have := pw_pos (w + lsb b); linarith
  have := scl_spec hb mb l1 l2 e true hS
  simpa [Expansion] using this

end Verif.Float
