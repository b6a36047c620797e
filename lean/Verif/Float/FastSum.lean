import Verif.Float.Product
/-!
# `fast_expansion_sum_zeroelim` keeps expansions nonoverlapping
-/
namespace Verif.Float

/-! ### Units -/

theorem Mult.le_abs {e : ℤ} {x : ℚ} (h : Mult e x) (h0 : x ≠ 0) : 2 ^ e ≤ |x| := by
  by_contra hc
  exact h0 (h.eq_zero (not_le.1 hc))

/-- `2 ^ a` is the largest power of two dividing the double `x`. -/
structure Unit (a : ℤ) (x : ℚ) : Prop where
  mult : Mult a x
  exact : ∀ k, Mult k x → k ≤ a
  lt : |x| < 2 ^ (a + 53)

theorem exists_unit {x : ℚ} (hx : IsF x) (h0 : x ≠ 0) : ∃ a, Unit a x := by
  obtain ⟨m, e, hm, rfl⟩ := hx
  induction hn : m.natAbs using Nat.strong_induction_on generalizing m e with
  | _ n ih =>
    have hm0 : m ≠ 0 := by rintro rfl; simp at h0
    rcases Int.even_or_odd' m with ⟨k, hk | hk⟩
    · have hkm : (k : ℚ) * 2 ^ (e + 1) = m * 2 ^ e := by rw [hk, pw_1]; push_cast; ring
      have := ih k.natAbs (by omega) k (e + 1) (by
        rw [hk, abs_mul] at hm; norm_num at hm ⊢; linarith [abs_nonneg k]) (by rwa [hkm]) rfl
      rwa [hkm] at this
    · refine ⟨e, ⟨m, rfl⟩, fun j hj => ?_, ?_⟩
      · by_contra hc
        obtain ⟨i, hi⟩ := hj.mono (f := e + 1) (by omega)
        rw [pw_1, ← mul_assoc, mul_right_comm] at hi
        have := mul_right_cancel₀ (pw_ne e) hi
        have : m = i * 2 := by exact_mod_cast this
        omega
      · rw [abs_mul, abs_of_pos (pw_pos e), pw_53, mul_comm]
        have h2 : (|m| : ℚ) < 2 ^ 53 := by exact_mod_cast hm
        norm_num at h2
        exact mul_lt_mul_of_pos_left h2 (pw_pos e)

theorem tie_even {x : ℚ} (h : |x - rn x| = 2 ^ lsb x / 2) : Mult (lsb x + 1) (rn x) := by
  by_cases hx : x = 0
  · rw [hx, rn_zero]; exact Mult.zero _
  have hr : rn x = rne (x / 2 ^ lsb x) * 2 ^ lsb x := by rw [rn, if_neg hx]
  have e1 : x - rn x = (x / 2 ^ lsb x - rne (x / 2 ^ lsb x)) * 2 ^ lsb x := by
    rw [sub_mul, div_mul_cancel₀ _ (pw_ne _), hr]
  set q := x / 2 ^ lsb x
  have h1 : |q - rne q| = 1 / 2 := by
    rw [e1, abs_mul, abs_of_pos (pw_pos _), div_eq_inv_mul] at h
    have := mul_right_cancel₀ (pw_ne _) h
    rw [this]; norm_num
  have h2 : rne q % 2 = 0 := by
    rcases abs_cases (q - rne q) with ⟨c, -⟩ | ⟨c, -⟩
    · refine rne_tie q (rne q + 1) (by omega) ?_
      rw [h1, show q - ((rne q + 1 : ℤ) : ℚ) = (q - rne q) - 1 by push_cast; ring, ← c, h1]; norm_num [abs_of_neg]
    · refine rne_tie q (rne q - 1) (by omega) ?_
      rw [h1, show q - ((rne q - 1 : ℤ) : ℚ) = 1 - (-(q - rne q)) by push_cast; ring, ← c, h1]; norm_num
  obtain ⟨k, hk⟩ : (2 : ℤ) ∣ rne q := Int.dvd_of_emod_eq_zero h2
  refine ⟨k, ?_⟩
  rw [hr, hk, pw_1]; push_cast; ring

/-! ### Nonoverlapping lists -/

theorem Nonov.isF {s t : ℚ} {l : List ℚ} (h : Nonov s t l) : ∀ y ∈ l, IsF y := by
  induction l generalizing s t with
  | nil => simp
  | cons x xs ih =>
    obtain ⟨hx, -, hn⟩ := h
    intro y hy
    rcases List.mem_cons.1 hy with rfl | hy
    · exact hx
    · exact ih hn y hy

theorem Nonov.asc {s t : ℚ} {l : List ℚ} (h : Nonov s t l) : ∀ y ∈ l, y ≠ 0 → ∃ w, Mult w y ∧ |t| < 2 ^ w := by
  induction l generalizing s t with
  | nil => simp
  | cons x xs ih =>
    obtain ⟨hx, ⟨w, hw, -, ht⟩, hn⟩ := h
    intro y hy h0
    rcases List.mem_cons.1 hy with rfl | hy
    · exact ⟨w, hw, ht⟩
    · obtain ⟨v, hv, hvt⟩ := ih hn y hy h0
      split_ifs at hvt with hx0
      · exact ⟨v, hv, hvt⟩
      · exact ⟨v, hv, ht.trans_le ((hw.le_abs hx0).trans hvt.le)⟩

theorem Nonov.mult {s t : ℚ} {l : List ℚ} (h : Nonov s t l) {k : ℤ} (hk : 2 ^ k ≤ |t|) : ∀ y ∈ l, Mult k y := by
  intro y hy
  by_cases h0 : y = 0
  · rw [h0]; exact Mult.zero _
  · obtain ⟨w, hw, hlt⟩ := h.asc y hy h0
    exact hw.mono (pw_lt.1 (hk.trans_lt hlt)).le

/-- The first nonzero component. -/
theorem Nonov.first {s t : ℚ} {l : List ℚ} (h : Nonov s t l) :
    (∀ y ∈ l, y = 0) ∨ ∃ g ∈ l, g ≠ 0 ∧ ∃ a, Unit a g ∧ |s| < 3 / 4 * 2 ^ a ∧ |t| < 2 ^ a ∧
      ∀ y ∈ l, Mult a y ∧ (y ≠ 0 → |g| ≤ |y|) := by
  induction l generalizing s t with
  | nil => left; simp
  | cons x xs ih =>
    obtain ⟨hx, ⟨w, hw, hs, ht⟩, hn⟩ := h
    by_cases hx0 : x = 0
    · subst hx0
      rw [add_zero, if_pos rfl] at hn
      rcases ih hn with h | ⟨g, hg, h0, a, hu, h1, h2, h3⟩
      · left; simpa using h
      · refine Or.inr ⟨g, List.mem_cons_of_mem _ hg, h0, a, hu, h1, h2, fun y hy => ?_⟩
        rcases List.mem_cons.1 hy with rfl | hy
        · exact ⟨Mult.zero _, fun h => absurd rfl h⟩
        · exact h3 y hy
    · rw [if_neg hx0] at hn
      obtain ⟨a, hu⟩ := exists_unit hx hx0
      have hwa := pw_mono (hu.exact w hw)
      refine Or.inr ⟨x, List.mem_cons_self, hx0, a, hu, by linarith, by linarith, fun y hy => ?_⟩
      rcases List.mem_cons.1 hy with rfl | hy
      · exact ⟨hu.mult, fun _ => le_rfl⟩
      · refine ⟨hn.mult (hu.mult.le_abs hx0) y hy, fun hy0 => ?_⟩
        obtain ⟨v, hv, hlt⟩ := hn.asc y hy hy0
        exact hlt.le.trans (hv.le_abs hy0)

/-- The bound on a partial sum in terms of its last nonzero component. -/
def Top (F t : ℚ) : Prop := ∀ K : ℤ, |t| < 2 ^ K → |F| < 2 ^ K - 2 ^ (K - 55)

theorem top_zero : Top 0 0 := by
  intro K _
  rw [abs_zero, show K = K - 55 + 55 by ring, pw_add, show K - 55 + 55 - 55 = K - 55 by ring]
  have := pw_pos (K - 55)
  norm_num; linarith

theorem top_next {F x : ℚ} {v : ℤ} (hx : IsF x) (h0 : x ≠ 0) (hv : Mult v x) (hF : |F| < 3 / 4 * 2 ^ v) : Top (F + x) x := by
  intro K hK
  have hvx := hv.le_abs h0
  have hvK : v < K := pw_lt.1 (hvx.trans_lt hK)
  have hp := pw_pos (K - 55)
  have hpv := pw_pos v
  have hadd := abs_add_le F x
  have e53 : (2 : ℚ) ^ (K - 53) = 4 * 2 ^ (K - 55) := by
    rw [show K - 53 = K - 55 + 1 + 1 by ring, pw_1, pw_1]; ring
  have e1 : (2 : ℚ) ^ K = 2 ^ (K - 1) * 2 := by rw [← pw_1]; congr 1; ring
  rcases le_or_gt (K - 53) v with h | h
  · -- the last nonzero component is a multiple of a large unit
    have h1 := (hv.abs.lt_iff ((Mult.pw K).mono hvK.le)).1 hK
    have h2 := pw_mono h
    rw [e53] at h2
    linarith
  · have h2 : (2 : ℚ) ^ v ≤ 2 ^ (K - 54) := pw_mono (by omega)
    have e54 : (2 : ℚ) ^ (K - 54) = 2 * 2 ^ (K - 55) := by
      rw [show K - 54 = K - 55 + 1 by ring, pw_1]; ring
    rcases lt_or_ge |x| (2 ^ (K - 1)) with hs | hs
    · have h3 : (2 : ℚ) ^ (K - 53) ≤ 2 ^ (K - 1) := pw_mono (by omega)
      linarith
    · have hm : Mult (K - 53) x := by
        have := rn_mult x
        rw [rn_of_isF hx] at this
        exact this.mono (le_lsb_of (by rwa [show K - 53 + 52 = K - 1 by ring]))
      have h1 := (hm.abs.lt_iff ((Mult.pw K).mono (by omega))).1 hK
      linarith

/-! ### The loop -/

/-- `fastSumLoop` without accumulator; the flag tells whether nothing has been pushed yet. -/
def fsl : ℚ → Bool → List ℚ → List ℚ
  | q, b, [] => if q ≠ 0 ∨ b = true then [q] else []
  | q, b, now :: rest =>
    if (twoSum q now).2 ≠ 0 then (twoSum q now).2 :: fsl (twoSum q now).1 false rest else fsl (twoSum q now).1 b rest

theorem fastSumLoop_eq (q : ℚ) (harr l : List ℚ) : fastSumLoop q harr l = harr ++ fsl q (decide (harr = [])) l := by
  induction l generalizing q harr with
  | nil =>
    simp only [fastSumLoop, fsl, decide_eq_true_eq]
    split_ifs <;> simp
  | cons x xs ih =>
    simp only [fastSumLoop, fsl]
    rw [ih]
    split_ifs with h
    · rw [List.append_assoc]; simp
    · rfl

/-- Between two steps of the merge: `E`, `F` are the sums of the components already taken from the two expansions, `tE`, `tF`
the last nonzero ones, `e`, `f` what is left, `q` the accumulator and `t` the last component written. -/
structure St (E tE : ℚ) (e : List ℚ) (F tF : ℚ) (f : List ℚ) (q t : ℚ) : Prop where
  ne : Nonov E tE e
  nf : Nonov F tF f
  ef : ∀ y ∈ f, y ≠ 0 → |tE| ≤ |y|
  fe : ∀ y ∈ e, y ≠ 0 → |tF| ≤ |y|
  topE : Top E tE
  topF : Top F tF
  hq : IsF q
  sep : ∃ w, Mult w q ∧ (∀ y ∈ e, Mult w y) ∧ (∀ y ∈ f, Mult w y) ∧ |t| < 2 ^ w ∧
    (|E + F - q| < 1 / 2 * 2 ^ w ∨
      (|E + F - q| < 3 / 4 * 2 ^ w ∧ (∀ y ∈ e, Mult (w + 2) y) ∧ (∀ y ∈ f, Mult (w + 2) y)) ∨
      (|E + F - q| < 3 / 4 * 2 ^ w ∧ Mult (w + 1) q ∧ 2 ^ (w + 52) ≤ |q| ∧
        ¬ ((∀ y ∈ e, Mult (w + 1) y) ∧ (∀ y ∈ f, Mult (w + 1) y))))

theorem St.symm {E tE F tF q t : ℚ} {e f : List ℚ} (h : St E tE e F tF f q t) : St F tF f E tE e q t := by
  obtain ⟨w, h1, h2, h3, h4, h5⟩ := h.sep
  refine ⟨h.nf, h.ne, h.fe, h.ef, h.topF, h.topE, h.hq, w, h1, h3, h2, h4, ?_⟩
  rw [add_comm F E]
  rcases h5 with h5 | ⟨h5, h6, h7⟩ | ⟨h5, h6, h7, h8⟩
  · exact Or.inl h5
  · exact Or.inr (Or.inl ⟨h5, h7, h6⟩)
  · exact Or.inr (Or.inr ⟨h5, h6, h7, fun h => h8 ⟨h.2, h.1⟩⟩)

/-- A rounding whose unit exceeds the unit of a component still to come: the sum has just passed a power of two. -/
theorem carry {S H x : ℚ} {a : ℤ} (hx : x = S - H) (hu : a < lsb x) (hx0 : x ≠ 0) (hS : |S| < 2 ^ (a + 53) + 1 / 2 * 2 ^ a)
    (hH : |H| < 1 / 2 * 2 ^ a) : Mult a (rn x) ∧ |x - rn x| < 2 ^ a ∧ |S - rn x| < 1 / 2 * 2 ^ a := by
  -- by symmetry the sum is positive
  wlog hpos : 0 < x generalizing x S H
  · have hneg : 0 < -x := by
      rcases lt_trichotomy x 0 with h | h | h
      · linarith
      · exact absurd h hx0
      · exact absurd h hpos
    have := this (x := -x) (S := -S) (H := -H) (by rw [hx]; ring) (by rwa [lsb_neg]) (by simpa using hx0) (by rwa [abs_neg])
      (by rwa [abs_neg]) hneg
    rw [rn_neg, show -x - -rn x = -(x - rn x) by ring, abs_neg, show -S - -rn x = -(S - rn x) by ring, abs_neg] at this
    refine ⟨?_, this.2⟩
    have := this.1.neg; rwa [neg_neg] at this
  obtain ⟨l1, l2⟩ := log_bounds hx0
  rw [abs_of_pos hpos] at l1 l2
  have hge : (2 : ℚ) ^ (a + 53) ≤ x := (pw_mono (by omega)).trans l1
  have hp := pw_pos a
  have hp1 := pw_1 a
  obtain ⟨s1, s2⟩ := abs_lt.1 hS
  obtain ⟨g1, g2⟩ := abs_lt.1 hH
  have hlt : x < 2 ^ (a + 53) + 2 ^ a := by linarith
  have hrm : Mult (a + 1) (rn x) := (rn_mult x).mono (by omega)
  have hP : IsF ((2 : ℚ) ^ (a + 53)) := IsF.pw _
  have hr1 : 2 ^ (a + 53) ≤ rn x := by
    have := rn_mono hge; rwa [rn_of_isF hP] at this
  have hnear := rn_near (x := x) hP
  have hd : |x - 2 ^ (a + 53)| < 2 ^ a := by rw [abs_of_nonneg (by linarith)]; linarith
  have hr2 : rn x = 2 ^ (a + 53) := by
    by_contra hne
    have hlt2 : 2 ^ (a + 53) < rn x := lt_of_le_of_ne hr1 (Ne.symm hne)
    have := (((Mult.pw (a + 53)).mono (f := a + 1) (by omega)).lt_iff hrm).1 hlt2
    have h4 := (abs_le.1 hnear).1
    rw [abs_of_nonneg (by linarith : 0 ≤ x - 2 ^ (a + 53))] at h4
    linarith
  refine ⟨hrm.mono (by omega), by rwa [hr2], ?_⟩
  rw [hr2, abs_lt]
  constructor <;> linarith

/-- The second step: what remains to come (`e` and `f`) has the unit `w`, or twice more if the error is large. -/
theorem St.advance {E tE F tF q t g w' : ℚ} {e f : List ℚ} {w : ℤ} (hw' : w' = E + F - g - q) (ne : Nonov E tE e)
    (nf : Nonov F tF f) (ef : ∀ y ∈ f, y ≠ 0 → |tE| ≤ |y|) (fe : ∀ y ∈ e, y ≠ 0 → |tF| ≤ |y|) (topE : Top E tE)
    (topF : Top F tF) (hq : IsF q) (hg : IsF g) (wq : Mult w q) (wg : Mult w g) (we : ∀ y ∈ e, Mult w y) (wf : ∀ y ∈ f, Mult w y)
    (ht : |t| < 2 ^ w)
    (hw : |w'| < 1 / 2 * 2 ^ w ∨ |w'| < 3 / 4 * 2 ^ w ∧ (∀ y ∈ e, Mult (w + 2) y) ∧ (∀ y ∈ f, Mult (w + 2) y)) :
    St E tE e F tF f (rn (q + g)) (if q + g - rn (q + g) = 0 then t else q + g - rn (q + g)) := by
  have hm : Mult w (q + g) := wq.add wg
  have hS : E + F - rn (q + g) = w' + (q + g - rn (q + g)) := by rw [hw']; ring
  refine ⟨ne, nf, ef, fe, topE, topF, rn_isF _, ?_⟩
  by_cases h0 : q + g - rn (q + g) = 0
  · rw [if_pos h0, hS, h0, add_zero]
    refine ⟨w, rn_mult_of hm, we, wf, ht, ?_⟩
    rcases hw with h | h
    · exact Or.inl h
    · exact Or.inr (Or.inl h)
  rw [if_neg h0]
  have hx0 : q + g ≠ 0 := fun h => h0 (by rw [h, rn_zero, sub_zero])
  set x := q + g with hx
  set h := x - rn x with hh
  have hhm : Mult w h := hm.sub (rn_mult_of hm)
  have herr : |h| ≤ 2 ^ lsb x / 2 := rn_err x
  have hwu : w < lsb x := by
    have h1 := hhm.le_abs h0
    have h2 : (2 : ℚ) ^ w < 2 ^ lsb x := by have := pw_pos (lsb x); linarith
    exact pw_lt.1 h2
  have hpu := pw_pos (lsb x)
  have hpw := pw_pos w
  have hw34 : |w'| < 3 / 4 * 2 ^ w := by rcases hw with h | h <;> [linarith; exact h.1]
  have hadd := abs_add_le w' h
  by_cases hA : (∀ y ∈ e, Mult (lsb x) y) ∧ (∀ y ∈ f, Mult (lsb x) y)
  · -- the unit of the rounding divides everything
    rcases lt_or_eq_of_le herr with hlt | htie
    · have hhu : |h| + 2 ^ w ≤ 1 / 2 * 2 ^ lsb x := by
        have hm2 : Mult w (1 / 2 * (2 : ℚ) ^ lsb x) := by
          have : (1 / 2 : ℚ) * 2 ^ lsb x = 2 ^ (lsb x - 1) := by
            rw [show lsb x = lsb x - 1 + 1 by ring, pw_1, show lsb x - 1 + 1 - 1 = lsb x - 1 by ring]; ring
          rw [this]; exact (Mult.pw _).mono (by omega)
        exact (hhm.abs.lt_iff hm2).1 (by linarith)
      refine ⟨lsb x, rn_mult x, hA.1, hA.2, by linarith, Or.inl ?_⟩
      rw [hS]; linarith
    · have hev := tie_even htie
      have h2w : (2 : ℚ) ^ w * 2 ≤ 2 ^ lsb x := by rw [← pw_1]; exact pw_mono (by omega)
      by_cases hB : (∀ y ∈ e, Mult (lsb x + 1) y) ∧ (∀ y ∈ f, Mult (lsb x + 1) y)
      · refine ⟨lsb x + 1, hev, hB.1, hB.2, by rw [pw_1]; linarith, Or.inl ?_⟩
        rw [hS, pw_1]; linarith
      · have hsmall : |w'| < 1 / 4 * 2 ^ lsb x := by
          rcases hw with h1 | ⟨h1, h2, h3⟩
          · linarith
          · have : w + 2 ≤ lsb x := by
              by_contra hc
              exact hB ⟨fun y hy => (h2 y hy).mono (by omega), fun y hy => (h3 y hy).mono (by omega)⟩
            have h4 := pw_mono this
            rw [show w + 2 = w + 1 + 1 by ring, pw_1, pw_1] at h4
            linarith
        refine ⟨lsb x, rn_mult x, hA.1, hA.2, by linarith, Or.inr (Or.inr ⟨?_, hev, (rn_le_pw hx0).1, hB⟩)⟩
        rw [hS]; linarith
  · -- some component to come has a smaller unit
    have key : ∃ a, a < lsb x ∧ w ≤ a ∧ (∀ y ∈ e, Mult a y) ∧ (∀ y ∈ f, Mult a y) ∧ |E + F| < 2 ^ (a + 53) + 1 / 2 * 2 ^ a ∧
        |w'| < 1 / 2 * 2 ^ a := by
      have side : ∀ {A tA B tB : ℚ} {la lb : List ℚ} {c : ℚ} {a : ℤ}, Top B tB → (∀ y ∈ la, y ≠ 0 → |tB| ≤ |y|) → c ∈ la → c ≠ 0 →
          Unit a c → |A| < 3 / 4 * 2 ^ a → |A + B| < 2 ^ (a + 53) + 1 / 2 * 2 ^ a := by
        intro A tA B tB la lb c a hT hle hc hc0 hu hA
        have h1 := hT (a + 53) ((hle c hc hc0).trans_lt hu.lt)
        have h2 := abs_add_le A B
        rw [show a + 53 - 55 = a - 2 by ring] at h1
        have h3 : (2 : ℚ) ^ a = 4 * 2 ^ (a - 2) := by
          rw [show a = a - 2 + 1 + 1 by ring, pw_1, pw_1, show a - 2 + 1 + 1 - 2 = a - 2 by ring]; ring
        linarith
      have small : ∀ {a : ℤ} {c : ℚ}, (c ∈ e ∨ c ∈ f) → c ≠ 0 → Unit a c → |w'| < 1 / 2 * 2 ^ a := by
        intro a c hc hc0 hu
        rcases hw with h1 | ⟨h1, h2, h3⟩
        · have := pw_mono (hu.exact w (hc.elim (we c) (wf c))); linarith
        · have := pw_mono (hu.exact (w + 2) (hc.elim (h2 c) (h3 c)))
          rw [show w + 2 = w + 1 + 1 by ring, pw_1, pw_1] at this
          linarith
      have allU : ∀ {l : List ℚ} {a : ℤ}, (∀ y ∈ l, Mult a y) → lsb x ≤ a → ∀ y ∈ l, Mult (lsb x) y :=
        fun hl ha y hy => (hl y hy).mono ha
      have zeroM : ∀ {l : List ℚ} (k : ℤ), (∀ y ∈ l, y = 0) → ∀ y ∈ l, Mult k y := fun k hl y hy => by
        rw [hl y hy]; exact Mult.zero _
      rcases ne.first with hz1 | ⟨g1, m1, n1, a1, u1, s1, t1, r1⟩ <;> rcases nf.first with hz2 | ⟨g2, m2, n2, a2, u2, s2, t2, r2⟩
      · exact absurd ⟨zeroM _ hz1, zeroM _ hz2⟩ hA
      · have hlt : a2 < lsb x := by
          by_contra hc
          exact hA ⟨zeroM _ hz1, allU (fun y hy => (r2 y hy).1) (not_lt.1 hc)⟩
        refine ⟨a2, hlt, u2.exact w (wf g2 m2), zeroM _ hz1, fun y hy => (r2 y hy).1, ?_, small (Or.inr m2) n2 u2⟩
        rw [add_comm]
        exact side (tA := tF) (lb := e) topE ef m2 n2 u2 s2
      · have hlt : a1 < lsb x := by
          by_contra hc
          exact hA ⟨allU (fun y hy => (r1 y hy).1) (not_lt.1 hc), zeroM _ hz2⟩
        exact ⟨a1, hlt, u1.exact w (we g1 m1), fun y hy => (r1 y hy).1, zeroM _ hz2,
          side (tA := tE) (lb := f) topF fe m1 n1 u1 s1, small (Or.inl m1) n1 u1⟩
      · rcases le_total a1 a2 with hle | hle
        · have hlt : a1 < lsb x := by
            by_contra hc
            exact hA ⟨allU (fun y hy => (r1 y hy).1) (not_lt.1 hc), allU (fun y hy => (r2 y hy).1) ((not_lt.1 hc).trans hle)⟩
          exact ⟨a1, hlt, u1.exact w (we g1 m1), fun y hy => (r1 y hy).1, fun y hy => (r2 y hy).1.mono hle,
            side (tA := tE) (lb := f) topF fe m1 n1 u1 s1, small (Or.inl m1) n1 u1⟩
        · have hlt : a2 < lsb x := by
            by_contra hc
            exact hA ⟨allU (fun y hy => (r1 y hy).1) ((not_lt.1 hc).trans hle), allU (fun y hy => (r2 y hy).1) (not_lt.1 hc)⟩
          refine ⟨a2, hlt, u2.exact w (wf g2 m2), fun y hy => (r1 y hy).1.mono hle, fun y hy => (r2 y hy).1, ?_,
            small (Or.inr m2) n2 u2⟩
          rw [add_comm]
          exact side (tA := tF) (lb := e) topE ef m2 n2 u2 s2
    obtain ⟨a, hau, hwa, hea, hfa, hSa, hHa⟩ := key
    obtain ⟨c1, c2, c3⟩ := carry (S := E + F) (H := w') (x := x) (by rw [hw', hx]; ring) hau hx0 hSa hHa
    exact ⟨a, c1, hea, hfa, c2, Or.inl c3⟩

/-- Taking the smaller head `x` of the second expansion. -/
theorem St.step {E tE F tF q t x : ℚ} {e f : List ℚ} (h : St E tE e F tF (x :: f) q t) (hle : ∀ y ∈ e, y ≠ 0 → |x| ≤ |y|) :
    St E tE e (F + x) (if x = 0 then tF else x) f (rn (q + x)) (if q + x - rn (q + x) = 0 then t else q + x - rn (q + x)) ∧
      IsF (q + x - rn (q + x)) ∧ ∃ w, Mult w (q + x - rn (q + x)) ∧ |E + F - q| < 3 / 4 * 2 ^ w ∧ |t| < 2 ^ w := by
  obtain ⟨hx, ⟨v, hv, hFv, htv⟩, nf⟩ := h.nf
  obtain ⟨w, wq, we, wf, ht, hw⟩ := h.sep
  have wx : Mult w x := wf x List.mem_cons_self
  have wf' : ∀ y ∈ f, Mult w y := fun y hy => wf y (List.mem_cons_of_mem _ hy)
  have hpw := pw_pos w
  have hw34 : |E + F - q| < 3 / 4 * 2 ^ w := by
    rcases hw with h | h | h
    · linarith
    · exact h.1
    · exact h.1
  refine ⟨?_, sum_err_isF h.hq hx, w, (wq.add wx).sub (rn_mult_of (wq.add wx)), hw34, ht⟩
  by_cases hx0 : x = 0
  · subst hx0
    rw [add_zero, if_pos rfl] at nf
    rw [add_zero, add_zero, rn_of_isF h.hq, sub_self, if_pos rfl, if_pos rfl]
    refine ⟨h.ne, nf, fun y hy => h.ef y (List.mem_cons_of_mem _ hy), h.fe, h.topE, h.topF, h.hq, w, wq, we, wf', ht, ?_⟩
    rcases hw with h1 | ⟨h1, h2, h3⟩ | ⟨h1, h2, h3, h4⟩
    · exact Or.inl h1
    · exact Or.inr (Or.inl ⟨h1, h2, fun y hy => h3 y (List.mem_cons_of_mem _ hy)⟩)
    · refine Or.inr (Or.inr ⟨h1, h2, h3, fun hc => h4 ⟨hc.1, fun y hy => ?_⟩⟩)
      rcases List.mem_cons.1 hy with rfl | hy
      · exact Mult.zero _
      · exact hc.2 y hy
  rw [if_neg hx0] at nf ⊢
  refine St.advance (w := w) (w' := E + F - q) (by ring) h.ne nf (fun y hy => h.ef y (List.mem_cons_of_mem _ hy)) hle h.topE
    (top_next hx hx0 hv hFv) h.hq hx wq wx we wf' ht ?_
  rcases hw with h1 | ⟨h1, h2, h3⟩ | ⟨h1, h2, h3, h4⟩
  · exact Or.inl h1
  · exact Or.inr ⟨h1, h2, fun y hy => h3 y (List.mem_cons_of_mem _ hy)⟩
  -- the error was a tie and some component to come is an odd multiple of the unit
  refine Or.inr ⟨h1, ?_⟩
  have hEF : 2 ^ (w + 52) ≤ |E| + |F| + 3 / 4 * 2 ^ w := by
    have e1 : q = E + F - (E + F - q) := by ring
    have := abs_sub (E + F) (E + F - q)
    rw [← e1] at this
    have := abs_add_le E F
    linarith
  have p52 := pw_52 w
  have p53 := pw_53 w
  have big : ∀ {A : ℚ} {b : ℤ}, |A| < 3 / 4 * 2 ^ b → 2 ^ (w + 52) < |A| + 3 / 2 * 2 ^ w → w + 53 ≤ b := by
    intro A b h1 h2
    by_contra hc
    have : (2 : ℚ) ^ b ≤ 2 ^ (w + 52) := pw_mono (by omega)
    linarith
  by_cases hcase : ∀ y ∈ e, Mult (w + 1) y
  · -- the odd component is `x`
    have hex : ¬ ∀ y ∈ x :: f, Mult (w + 1) y := fun hc => h4 ⟨hcase, hc⟩
    have hxw : ¬ Mult (w + 1) x := by
      intro hc
      apply hex
      intro y hy
      rcases List.mem_cons.1 hy with rfl | hy
      · exact hc
      · exact nf.mult (hc.le_abs hx0) y hy
    have hvw : v ≤ w := by
      by_contra hc
      exact hxw (hv.mono (by omega))
    have hvw' := pw_mono hvw
    have hE : 2 ^ (w + 52) < |E| + 3 / 2 * 2 ^ w := by linarith
    have htE : 2 ^ (w + 51) ≤ |tE| := by
      by_contra hc
      have h5 := h.topE _ (not_le.1 hc)
      have h6 := pw_pos (w + 51 - 55)
      have h7 : (2 : ℚ) ^ (w + 52) = 2 ^ (w + 51) * 2 := by rw [show w + 52 = w + 51 + 1 by ring, pw_1]
      linarith
    have hxt : 2 ^ (w + 51) ≤ |x| := htE.trans (h.ef x List.mem_cons_self hx0)
    constructor
    · rcases h.ne.first with hz | ⟨g, mg, ng, a, ug, sg, -, rg⟩
      · intro y hy; rw [hz y hy]; exact Mult.zero _
      · have := big sg hE
        intro y hy; exact (rg y hy).1.mono (by omega)
    · intro y hy; exact (nf.mult hxt y hy).mono (by omega)
  · -- an odd component is left in the other expansion: it should have been taken first
    exfalso
    rcases h.ne.first with hz | ⟨g, mg, ng, a, ug, sg, -, rg⟩
    · exact hcase fun y hy => by rw [hz y hy]; exact Mult.zero _
    · have haw : a ≤ w := by
        by_contra hc
        exact hcase fun y hy => (rg y hy).1.mono (by omega)
      have haw' := pw_mono haw
      have hF : 2 ^ (w + 52) < |F| + 3 / 2 * 2 ^ w := by linarith
      have h5 := big hFv hF
      have h6 := (pw_mono h5).trans (hv.le_abs hx0)
      have h7 := hle g mg ng
      have h8 := ug.lt
      have h9 : (2 : ℚ) ^ (a + 53) ≤ 2 ^ (w + 53) := pw_mono (by omega)
      linarith

/-- The order of the merge. -/
theorem merge_second {a b : ℚ} (h : decide (a > b) = decide (a > -b)) : |b| ≤ |a| := by
  rw [decide_eq_decide] at h
  rcases abs_cases a with ⟨h1, h2⟩ | ⟨h1, h2⟩ <;> rcases abs_cases b with ⟨h3, h4⟩ | ⟨h3, h4⟩ <;> rw [h1, h3] <;>
    by_contra hc <;> have hc := not_le.1 hc <;>
    first
    | (have := h.1 (by linarith); linarith)
    | (have := h.2 (by linarith); linarith)

theorem merge_first {a b : ℚ} (h : ¬ decide (a > b) = decide (a > -b)) : |a| ≤ |b| := by
  rw [decide_eq_decide] at h
  by_contra hc
  have hc := not_le.1 hc
  apply h
  rcases abs_cases a with ⟨h1, h2⟩ | ⟨h1, h2⟩ <;> rcases abs_cases b with ⟨h3, h4⟩ | ⟨h3, h4⟩ <;> rw [h1, h3] at hc <;>
    constructor <;> intro _ <;> linarith

theorem Nonov.head_le {s t x : ℚ} {l : List ℚ} (h : Nonov s t (x :: l)) : ∀ y ∈ x :: l, y ≠ 0 → |x| ≤ |y| := by
  intro y hy hy0
  rcases List.mem_cons.1 hy with rfl | hy
  · exact le_rfl
  · by_cases hx : x = 0
    · rw [hx, abs_zero]; exact abs_nonneg _
    · have hn := h.2.2
      rw [if_neg hx] at hn
      obtain ⟨w, hw, hlt⟩ := hn.asc y hy hy0
      exact hlt.le.trans (hw.le_abs hy0)

/-- Two heads of which the merge takes the smaller one. -/
theorem twoArr_cases (e f : List ℚ) : (e = [] ∧ f = [] ∧ twoArr e f = []) ∨
    (∃ x f', f = x :: f' ∧ twoArr e f = x :: twoArr e f' ∧ ∀ y, e.head? = some y → |x| ≤ |y|) ∨
    (∃ x e', e = x :: e' ∧ twoArr e f = x :: twoArr e' f ∧ ∀ y, f.head? = some y → |x| ≤ |y|) := by
  match e, f with
  | [], [] => left; simp [twoArr]
  | [], b :: f => right; left; exact ⟨b, f, rfl, by cases f <;> simp [twoArr], by simp⟩
  | a :: e, [] => right; right; exact ⟨a, e, rfl, by cases e <;> simp [twoArr], by simp⟩
  | a :: e, b :: f =>
    right
    by_cases h : decide (a > b) = decide (a > -b)
    · left; exact ⟨b, f, rfl, by rw [twoArr, if_pos h], by simpa using merge_second h⟩
    · right; exact ⟨a, e, rfl, by rw [twoArr, if_neg h], by simpa using merge_first h⟩

theorem head_le_all {s t x : ℚ} {l : List ℚ} (h : Nonov s t l) (hx : ∀ y, l.head? = some y → |x| ≤ |y|) :
    ∀ y ∈ l, y ≠ 0 → |x| ≤ |y| := by
  cases l with
  | nil => simp
  | cons a l => intro y hy h0; exact (hx a rfl).trans (h.head_le y hy h0)

theorem Nonov.cons_of {s t x : ℚ} {l : List ℚ} (h1 : IsF x) (h2 : ∃ w : ℤ, Mult w x ∧ |s| < 3 / 4 * 2 ^ w ∧ |t| < 2 ^ w) (h0 : x ≠ 0)
    (h3 : Nonov (s + x) x l) : Nonov s t (x :: l) := ⟨h1, h2, by rwa [if_neg h0]⟩

/-- One step of the loop on an abstract continuation. -/
theorem fsl_step {q x s t : ℚ} {b : Bool} {l : List ℚ} (hq : IsF q) (hx : IsF x) (hs : IsF (q + x - rn (q + x)))
    (hsep : ∃ w, Mult w (q + x - rn (q + x)) ∧ |s| < 3 / 4 * 2 ^ w ∧ |t| < 2 ^ w)
    (hrec : ∀ b, Nonov (s + (q + x - rn (q + x))) (if q + x - rn (q + x) = 0 then t else q + x - rn (q + x)) (fsl (rn (q + x)) b l)) :
    Nonov s t (fsl q b (x :: l)) := by
  simp only [fsl, twoSum_spec hq hx]
  split_ifs with h0
  · have := hrec false
    rw [if_neg h0] at this
    exact Nonov.cons_of hs hsep h0 this
  · have := hrec b
    have h0 := not_not.1 h0
    rwa [if_pos h0, h0, add_zero] at this

theorem fsl_nonov (n : Nat) : ∀ {E tE F tF q t : ℚ} {e f : List ℚ} (b : Bool), e.length + f.length = n → St E tE e F tF f q t →
    Nonov (E + F - q) t (fsl q b (twoArr e f)) := by
  induction n with
  | zero =>
    intro E tE F tF q t e f b hn h
    obtain rfl : e = [] := List.length_eq_zero_iff.1 (by omega)
    obtain rfl : f = [] := List.length_eq_zero_iff.1 (by omega)
    simp only [twoArr, fsl]
    split_ifs
    · obtain ⟨w, h1, -, -, h2, h3⟩ := h.sep
      refine ⟨h.hq, ⟨w, h1, ?_, h2⟩, trivial⟩
      have := pw_pos w
      rcases h3 with h3 | h3 | h3
      · linarith
      · exact h3.1
      · exact h3.1
    · trivial
  | succ n ih =>
    intro E tE F tF q t e f b hn h
    rcases twoArr_cases e f with ⟨rfl, rfl, -⟩ | ⟨x, f', rfl, h1, h2⟩ | ⟨x, e', rfl, h1, h2⟩
    · simp at hn
    · rw [h1]
      obtain ⟨c1, c2, c3⟩ := h.step (head_le_all h.ne h2)
      refine fsl_step h.hq h.nf.1 c2 c3 fun b => ?_
      have := ih b (by simpa [← add_assoc] using hn) c1
      rwa [show E + (F + x) - rn (q + x) = E + F - q + (q + x - rn (q + x)) by ring] at this
    · rw [h1]
      obtain ⟨c1, c2, c3⟩ := h.symm.step (head_le_all h.nf h2)
      rw [add_comm F E] at c3
      refine fsl_step h.hq h.ne.1 c2 c3 fun b => ?_
      have := ih b (by simp at hn; omega) c1.symm
      rwa [show E + x + F - rn (q + x) = E + F - q + (q + x - rn (q + x)) by ring] at this

theorem twoArr_perm (e f : List ℚ) : (twoArr e f).Perm (e ++ f) := by
  induction hn : e.length + f.length generalizing e f with
  | zero =>
    obtain rfl : e = [] := List.length_eq_zero_iff.1 (by omega)
    obtain rfl : f = [] := List.length_eq_zero_iff.1 (by omega)
    simp [twoArr]
  | succ n ih =>
    rcases twoArr_cases e f with ⟨rfl, rfl, -⟩ | ⟨x, f', rfl, h1, -⟩ | ⟨x, e', rfl, h1, -⟩
    · simp at hn
    · rw [h1]
      exact (List.Perm.cons x (ih e f' (by simpa [← add_assoc] using hn))).trans List.perm_middle.symm
    · rw [h1]
      exact List.Perm.cons x (ih e' f (by simp at hn; omega))

theorem fsl_sum (q : ℚ) (b : Bool) (l : List ℚ) (hq : IsF q) (hl : ∀ y ∈ l, IsF y) : (fsl q b l).sum = q + l.sum := by
  induction l generalizing q b with
  | nil =>
    simp only [fsl]
    split_ifs with h
    · simp
    · simp only [not_or, not_not] at h; simp [h.1]
  | cons x xs ih =>
    have hx := hl x List.mem_cons_self
    have hl' : ∀ y ∈ xs, IsF y := fun y hy => hl y (List.mem_cons_of_mem _ hy)
    simp only [fsl, twoSum_spec hq hx]
    split_ifs with h
    · rw [List.sum_cons, ih _ _ (rn_isF _) hl', List.sum_cons]; ring
    · rw [ih _ _ (rn_isF _) hl', List.sum_cons]
      have := not_not.1 h; linarith

/-- The components written are nonzero, unless nothing but a single zero is written. -/
theorem fsl_nonzero (q : ℚ) (b : Bool) (l : List ℚ) : (∀ y ∈ fsl q b l, y ≠ 0) ∨ (b = true ∧ fsl q b l = [0]) := by
  induction l generalizing q b with
  | nil =>
    simp only [fsl]
    by_cases hq : q = 0
    · by_cases hb : b = true
      · right; simp [hq, hb]
      · left; simp [hq, hb]
    · left; simp [hq]
  | cons x xs ih =>
    simp only [fsl]
    split_ifs with h
    · left
      rcases ih (twoSum q x).1 false with h2 | ⟨h2, -⟩
      · intro y hy
        rcases List.mem_cons.1 hy with rfl | hy
        · exact h
        · exact h2 y hy
      · cases h2
    · exact ih _ _

theorem fsl_ne_nil (q : ℚ) (l : List ℚ) : fsl q true l ≠ [] := by
  induction l generalizing q with
  | nil => simp [fsl]
  | cons x xs ih =>
    simp only [fsl]
    split_ifs
    · simp
    · exact ih _

theorem exists_common_unit (l : List ℚ) (h : ∀ y ∈ l, IsF y) : ∃ w, ∀ y ∈ l, Mult w y := by
  induction l with
  | nil => exact ⟨0, by simp⟩
  | cons x xs ih =>
    obtain ⟨w, hw⟩ := ih fun y hy => h y (List.mem_cons_of_mem _ hy)
    obtain ⟨v, hv, -⟩ := isF_iff.1 (h x List.mem_cons_self)
    refine ⟨min v w, fun y hy => ?_⟩
    rcases List.mem_cons.1 hy with rfl | hy
    · exact hv.mono (min_le_left _ _)
    · exact (hw y hy).mono (min_le_right _ _)

theorem St.init {e f : List ℚ} (he : Expansion e) (hf : Expansion f) : St 0 0 e 0 0 f 0 0 := by
  obtain ⟨w, hw⟩ := exists_common_unit (e ++ f) fun y hy => by
    rcases List.mem_append.1 hy with hy | hy
    · exact he.isF y hy
    · exact hf.isF y hy
  refine ⟨he, hf, by simp, by simp, top_zero, top_zero, IsF.zero, w, Mult.zero _, fun y hy => hw y (List.mem_append_left _ hy),
    fun y hy => hw y (List.mem_append_right _ hy), by simpa using pw_pos w, Or.inl ?_⟩
  have := pw_pos w
  simp; linarith

/-- The first step with `fast_two_sum` is the same as two steps of the loop. -/
theorem fastExpansionSum_eq {e f : List ℚ} (he : Expansion e) (hf : Expansion f) (hn : 2 ≤ e.length + f.length) :
    fastExpansionSumZeroelim e f = some (fsl 0 true (twoArr e f)) := by
  have hF : ∀ y ∈ twoArr e f, IsF y := fun y hy => by
    rcases List.mem_append.1 ((twoArr_perm e f).mem_iff.1 hy) with hy | hy
    · exact he.isF y hy
    · exact hf.isF y hy
  have hlen : (twoArr e f).length = e.length + f.length := by rw [(twoArr_perm e f).length_eq, List.length_append]
  -- the first two components are in order
  have hord : ∀ q now iter, twoArr e f = q :: now :: iter → now ≠ 0 → |q| ≤ |now| := by
    intro q now iter h h0
    rcases twoArr_cases e f with ⟨rfl, rfl, -⟩ | ⟨x, f', rfl, h1, h2⟩ | ⟨x, e', rfl, h1, h2⟩
    · simp at hn
    · rw [h] at h1
      have hqx : q = x := (List.cons.inj h1).1
      have hmem : now ∈ twoArr e f' := by rw [← (List.cons.inj h1).2]; exact List.mem_cons_self
      rw [hqx]
      rcases List.mem_append.1 ((twoArr_perm e f').mem_iff.1 hmem) with hy | hy
      · exact head_le_all he h2 now hy h0
      · exact Nonov.head_le hf now (List.mem_cons_of_mem _ hy) h0
    · rw [h] at h1
      have hqx : q = x := (List.cons.inj h1).1
      have hmem : now ∈ twoArr e' f := by rw [← (List.cons.inj h1).2]; exact List.mem_cons_self
      rw [hqx]
      rcases List.mem_append.1 ((twoArr_perm e' f).mem_iff.1 hmem) with hy | hy
      · exact Nonov.head_le he now (List.mem_cons_of_mem _ hy) h0
      · exact head_le_all hf h2 now hy h0
  rw [fastExpansionSumZeroelim]
  match hm : twoArr e f with
  | [] => rw [hm] at hlen; simp at hlen; omega
  | [_] => rw [hm] at hlen; simp at hlen; omega
  | q :: now :: iter =>
    rw [hm] at hF
    have hq := hF q (by simp)
    have hnow := hF now (by simp)
    have h1 : fastTwoSum now q = twoSum q now := by
      rw [fastTwoSum_spec hnow hq, twoSum_spec hq hnow, add_comm]
      by_cases h0 : now = 0
      · exact Or.inr h0
      · exact Or.inl (hord q now iter hm h0)
    have h2 : twoSum 0 q = (q, 0) := by rw [twoSum_spec IsF.zero hq, zero_add, rn_of_isF hq, sub_self]
    simp only [h1, fastSumLoop_eq, fsl, h2]
    simp only [ne_eq, not_true_eq_false, if_false]
    split_ifs with h3
    · simp [h3]
    · simp

/-- The main theorem on `fast_expansion_sum_zeroelim`. -/
theorem fastExpansionSum_spec {e f : List ℚ} (he : Expansion e) (hf : Expansion f) (hn : 2 ≤ e.length + f.length) :
    ∃ r, fastExpansionSumZeroelim e f = some r ∧ Expansion r ∧ r.sum = e.sum + f.sum ∧ r ≠ [] ∧ ((∀ y ∈ r, y ≠ 0) ∨ r = [0]) := by
  refine ⟨_, fastExpansionSum_eq he hf hn, ?_, ?_, fsl_ne_nil _ _, ?_⟩
  · have := fsl_nonov _ true rfl (St.init he hf)
    simpa [Expansion] using this
  · rw [fsl_sum _ _ _ IsF.zero, (twoArr_perm e f).sum_eq, List.sum_append, zero_add]
    intro y hy
    rcases List.mem_append.1 ((twoArr_perm e f).mem_iff.1 hy) with hy | hy
    · exact he.isF y hy
    · exact hf.isF y hy
  · rcases fsl_nonzero 0 true (twoArr e f) with h | ⟨-, h⟩
    · exact Or.inl h
    · exact Or.inr h

/-! ### Signs and negation -/

theorem Nonov.map_neg {s t : ℚ} {l : List ℚ} (h : Nonov s t l) : Nonov (-s) (-t) (l.map (- ·)) := by
  induction l generalizing s t with
  | nil => trivial
  | cons x xs ih =>
    obtain ⟨hx, ⟨w, h1, h2, h3⟩, hn⟩ := h
    refine ⟨hx.neg, ⟨w, h1.neg, by rwa [abs_neg], by rwa [abs_neg]⟩, ?_⟩
    have := ih hn
    rw [neg_add] at this
    by_cases h0 : x = 0
    · simpa [h0] using this
    · simpa [h0] using this

theorem Expansion.neg {e : List ℚ} (h : Expansion e) : Expansion (e.map (- ·)) := by
  have := Nonov.map_neg h
  simpa [Expansion] using this

theorem sum_map_neg (l : List ℚ) : (l.map (- ·)).sum = - l.sum := by
  induction l with
  | nil => simp
  | cons x xs ih => simp only [List.map_cons, List.sum_cons, ih]; ring

/-- The last nonzero component dominates. -/
theorem Nonov.sum_last {s t z : ℚ} {l : List ℚ} (h : Nonov s t (l ++ [z])) (hz : z ≠ 0) : |s + l.sum| < 3 / 4 * |z| := by
  induction l generalizing s t with
  | nil =>
    obtain ⟨-, ⟨w, h1, h2, -⟩, -⟩ := h
    have := h1.le_abs hz
    simp; linarith
  | cons x xs ih =>
    have := ih h.2.2
    rw [List.sum_cons, ← add_assoc]; exact this

theorem Expansion.sign {e : List ℚ} (h : Expansion e) {z : ℚ} (hz : e.getLast? = some z) (h0 : z ≠ 0) :
    (0 < e.sum ↔ 0 < z) ∧ (e.sum < 0 ↔ z < 0) ∧ e.sum ≠ 0 := by
  obtain ⟨l, rfl⟩ := List.getLast?_eq_some_iff.1 hz
  have hd := Nonov.sum_last h h0
  rw [zero_add] at hd
  rw [List.sum_append, List.sum_singleton]
  obtain ⟨d1, d2⟩ := abs_lt.1 hd
  rcases abs_cases z with ⟨e1, e2⟩ | ⟨e1, e2⟩ <;> rw [e1] at d1 d2
  · have hz : 0 < z := lt_of_le_of_ne e2 (Ne.symm h0)
    exact ⟨⟨fun _ => hz, fun _ => by linarith⟩, ⟨fun _ => by linarith, fun _ => by linarith⟩, by linarith⟩
  · refine ⟨⟨fun _ => by linarith, fun _ => by linarith⟩, ⟨fun _ => e2, fun _ => by linarith⟩, by linarith⟩

end Verif.Float
