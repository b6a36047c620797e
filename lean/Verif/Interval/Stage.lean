import Verif.Interval.Lemmas
import Verif.Pred.Rel
import Verif.Pred.Props
/-!
# The interval stage of the predicates
-/
namespace Verif.Interval
open Verif.Pred InSphere

variable {A : Arith}

/-- The interval computation `x` did not panic, and if it avoided the arms 0 and 8 of `mul`, its result holds `a`. -/
def IRep (x : INum A) (a : ℚ) : Prop := ∃ i, x.itv = some i ∧ (∃ v, Holds i v) ∧ (x.clean = true → Holds i a)

theorem IRep.of (x : ℚ) : IRep (.of A x) x := ⟨_, rfl, ⟨x, of_holds x⟩, fun _ => of_holds x⟩

theorem IRep.neg {x : INum A} {a : ℚ} (h : IRep x a) : IRep x.neg (-a) := by
  obtain ⟨i, h1, ⟨v, h2⟩, h3⟩ := h
  exact ⟨i.neg, by simp [INum.neg, h1], ⟨_, neg_holds h2⟩, fun hc => neg_holds (h3 hc)⟩

theorem irep_closed (hA : A.Sound) : Closed (IRep (A := A)) where
  add := by
    rintro x y a b ⟨i, h1, ⟨v, h2⟩, h3⟩ ⟨j, k1, ⟨w, k2⟩, k3⟩
    refine ⟨Itv.add A i j, ?_, ⟨_, add_holds hA h2 k2⟩, fun hc => ?_⟩
    · change both _ x y = _
      simp [both, h1, k1]
    · have hc : (x.clean && y.clean) = true := hc
      rw [Bool.and_eq_true] at hc
      exact add_holds hA (h3 hc.1) (k3 hc.2)
  sub := by
    rintro x y a b ⟨i, h1, ⟨v, h2⟩, h3⟩ ⟨j, k1, ⟨w, k2⟩, k3⟩
    refine ⟨Itv.sub A i j, ?_, ⟨_, sub_holds hA h2 k2⟩, fun hc => ?_⟩
    · change both _ x y = _
      simp [both, h1, k1]
    · have hc : (x.clean && y.clean) = true := hc
      rw [Bool.and_eq_true] at hc
      exact sub_holds hA (h3 hc.1) (k3 hc.2)
  mul := by
    rintro x y a b ⟨i, h1, ⟨v, h2⟩, h3⟩ ⟨j, k1, ⟨w, k2⟩, k3⟩
    obtain ⟨r, hr, r1, r2⟩ := mul_spec hA h2 k2
    refine ⟨r, ?_, ?_, fun hc => ?_⟩
    · change both _ x y = _
      simp [both, h1, k1, hr]
    · by_cases hb : badArm i j
      · exact ⟨_, r2 hb⟩
      · exact ⟨_, r1 hb⟩
    · have hc : (x.clean && y.clean && goodArm x y) = true := hc
      rw [Bool.and_eq_true, Bool.and_eq_true] at hc
      obtain ⟨⟨c1, c2⟩, c3⟩ := hc
      simp only [goodArm, h1, k1, decide_eq_true_eq] at c3
      obtain ⟨r', hr', s1, -⟩ := mul_spec hA (h3 c1) (k3 c2)
      rw [hr] at hr'
      cases hr'
      exact s1 (by rintro (h | h); exacts [c3.1 h, c3.2 h])

theorem toI_rel (p : Pt ℚ) : RelP IRep (toI A p) p := ⟨.of _, .of _, .of _⟩

theorem lambda_rel (hA : A.Sound) (i : Imp ℚ) : RelH IRep (toII A i).lambda i.lambda := by
  haveI := irep_closed hA
  cases i with
  | lpi l => exact lpiLambda_rel (toI_rel _) (toI_rel _) (toI_rel _) (toI_rel _) (toI_rel _)
  | tpi t => exact tpiLambda_rel (toI_rel _) (toI_rel _) (toI_rel _) (toI_rel _) (toI_rel _) (toI_rel _) (toI_rel _) (toI_rel _) (toI_rel _)

/-- `dynamic_filter` does not panic; it returns homogeneous coordinates with a *negative* denominator. -/
theorem filter_spec (hA : A.Sound) (i : Imp ℚ) : ∃ r, dynamicFilter A i = some r ∧ ∀ h, r = some h →
    ∃ h' : Hom ℚ, RelH IRep h h' ∧ (h.d.clean = true → h'.d < 0) ∧ ∀ X, RepI i X → HomOf h' X := by
  have hl := lambda_rel hA i
  obtain ⟨j, hj, ⟨v, hv⟩, hc⟩ := hl.d
  have hom : ∀ X, RepI i X → HomOf i.lambda X := by
    intro X hX
    obtain ⟨hd, rfl⟩ := (repI_iff i X).1 hX
    refine ⟨?_, ?_, ?_⟩ <;> simp only [Hom.pt] <;> field_simp
  simp only [dynamicFilter, hj, Option.bind_eq_bind, Option.bind_some]
  by_cases hn : j.negative = true
  · rw [if_pos hn]
    have e : (toII A i).lambda.d.neg.itv = some j.neg := by simp [INum.neg, hj]
    simp only [e, Option.bind_some, Option.pure_def]
    refine ⟨_, rfl, ?_⟩
    intro h hh
    split_ifs at hh with hz
    cases hh
    refine ⟨⟨-i.lambda.x, -i.lambda.y, -i.lambda.z, -i.lambda.d⟩, ⟨hl.x.neg, hl.y.neg, hl.z.neg, hl.d.neg⟩, fun hcl => ?_, fun X hX => ?_⟩
    · have h1 := (hc hcl).lo
      simp only [Itv.negative, decide_eq_true_eq] at hn
      show -i.lambda.d < 0
      linarith
    · obtain ⟨e1, e2, e3⟩ := hom X hX
      refine ⟨?_, ?_, ?_⟩ <;> simp only [e1, e2, e3] <;> ring
  · rw [if_neg hn]
    simp only [hj, Option.bind_some, Option.pure_def]
    refine ⟨_, rfl, ?_⟩
    intro h hh
    split_ifs at hh with hz
    cases hh
    refine ⟨i.lambda, hl, fun hcl => ?_, hom⟩
    have h1 := (hc hcl).hi
    simp only [Itv.negative, decide_eq_true_eq] at hn
    simp only [Itv.notZero, Bool.or_eq_true, decide_eq_true_eq] at hz
    rcases hz with hz | hz
    · linarith
    · exact absurd hz hn

/-- The last step does not panic; its answer is the sign of the negated determinant. -/
theorem decide_spec {x : INum A} {a : ℚ} (h : IRep x a) : ∃ r, decideI x = some r ∧ ∀ o, r = some o → x.clean = true →
    o = doubleToSign (-a) := by
  obtain ⟨i, h1, -, h3⟩ := h
  simp only [decideI, h1, Option.bind_eq_bind, Option.bind_some, Option.pure_def]
  refine ⟨_, rfl, fun o ho hc => ?_⟩
  have hi := (h3 hc).hi
  have lo := (h3 hc).lo
  split_ifs at ho with c1 c2 c3
  · cases ho
    simp only [Itv.positive, decide_eq_true_eq] at c2
    rw [eq_comm, Geom.sign_pos]; linarith
  · cases ho
    simp only [Itv.negative, decide_eq_true_eq] at c3
    rw [eq_comm, Geom.sign_neg]; linarith

theorem sign_mul_neg {c v : ℚ} (hc : c < 0) : doubleToSign (-(c * v)) = doubleToSign v := by
  rw [← neg_mul]; exact Geom.sign_mul_pos (by linarith)

theorem pow_pos_of_neg_even {d : ℚ} (h : d < 0) : 0 < d ^ 2 := by have := mul_pos_of_neg_of_neg h h; rw [pow_two]; exact this

theorem sign_mul_pos' {c v : ℚ} (hc : 0 < c) : doubleToSign (-(c * v)) = (doubleToSign v).reverse := by
  rw [reverse_sign, ← mul_neg]; exact Geom.sign_mul_pos hc

end Verif.Interval
