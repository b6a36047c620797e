import Verif.Geom.Lemmas
import Mathlib.Tactic.NormNum
import Mathlib.Algebra.Order.Field.Rat
/-!
# C36, C37: the predicates on explicit points decide their geometric meaning
-/
namespace Verif.Geom
open InSphere (Pt Ori orient3d doubleToSign)

variable {K : Type} [Field K] [LinearOrder K] [IsStrictOrderedRing K]

/-! ### C36 -/

/-- C36. `mis_alignment` holds iff the three points are not on a common line. -/
theorem c36_mis_alignment (p q r : Pt K) : misAlignment p q r = true ↔ ¬ Collinear p q r := by
  rw [misAlignment_iff, collinear_iff_flat]

/-- A point off a line in space, and a point on it. -/
example : misAlignment (K := ℚ) ⟨1, 2, 3⟩ ⟨2, 4, 6⟩ ⟨3, 6, 8⟩ = true ∧ misAlignment (K := ℚ) ⟨1, 2, 3⟩ ⟨2, 4, 6⟩ ⟨3, 6, 9⟩ = false := by
  decide +kernel

/-- On a line through two different points, `p` is at some parameter. -/
theorem param_of_flat {p v1 v2 : Pt K} (h : Flat p v1 v2) (hne : v1 ≠ v2) : ∃ t, p = lerp v1 v2 t := by
  obtain ⟨h1, h2, h3⟩ := h
  simp only [nXY, nYZ, nXZ, orient2d, xy, yz, xz] at h1 h2 h3
  have hb : ¬ (v1.x - v2.x = 0 ∧ v1.y - v2.y = 0 ∧ v1.z - v2.z = 0) := by
    rintro ⟨a, b, c⟩
    exact hne (pt_ext (by linarith) (by linarith) (by linarith))
  obtain ⟨c, e1, e2, e3⟩ := parallel (n1 := v1.x - v2.x) (n2 := v1.y - v2.y) (n3 := v1.z - v2.z) (m1 := p.x - v2.x)
      (m2 := p.y - v2.y) (m3 := p.z - v2.z) (by linarith) (by linarith) (by linarith) hb
  exact ⟨1 - c, by apply pt_ext <;> simp only [lerp] <;> linarith⟩

omit [LinearOrder K] [IsStrictOrderedRing K] in
theorem flat_lerp (v1 v2 : Pt K) (t : K) : Flat (lerp v1 v2 t) v1 v2 := by
  refine ⟨?_, ?_, ?_⟩ <;> simp only [nXY, nYZ, nXZ, orient2d, xy, yz, xz, lerp] <;> ring

theorem between_of_lt {a b t : K} (h : (a < b ∧ a < (1 - t) * a + t * b ∧ (1 - t) * a + t * b < b) ∨
    (a > b ∧ a > (1 - t) * a + t * b ∧ (1 - t) * a + t * b > b)) : 0 < t ∧ t < 1 := by
  rcases h with ⟨h1, h2, h3⟩ | ⟨h1, h2, h3⟩
  · constructor
    · by_contra ht; nlinarith [mul_nonneg (neg_nonneg.2 (not_lt.1 ht)) (sub_nonneg.2 h1.le)]
    · by_contra ht; nlinarith [mul_nonneg (sub_nonneg.2 (not_lt.1 ht)) (sub_nonneg.2 h1.le)]
  · constructor
    · by_contra ht; nlinarith [mul_nonneg (neg_nonneg.2 (not_lt.1 ht)) (sub_nonneg.2 h1.le)]
    · by_contra ht; nlinarith [mul_nonneg (sub_nonneg.2 (not_lt.1 ht)) (sub_nonneg.2 h1.le)]

theorem lt_of_between {a b t : K} (hne : a ≠ b) (h0 : 0 < t) (h1 : t < 1) :
    (a < b ∧ a < (1 - t) * a + t * b ∧ (1 - t) * a + t * b < b) ∨
    (a > b ∧ a > (1 - t) * a + t * b ∧ (1 - t) * a + t * b > b) := by
  have h1' : 0 < 1 - t := by linarith
  rcases lt_or_gt_of_ne hne with h | h
  · exact .inl ⟨h, by nlinarith [mul_pos h0 (sub_pos.2 h)], by nlinarith [mul_pos h1' (sub_pos.2 h)]⟩
  · exact .inr ⟨h, by nlinarith [mul_pos h0 (sub_pos.2 h)], by nlinarith [mul_pos h1' (sub_pos.2 h)]⟩

/-- C36. `point_in_inner_segment` holds iff the point is strictly between the two (different) end points. -/
theorem c36_point_in_inner_segment (p v1 v2 : Pt K) : pointInInnerSegment p v1 v2 = true ↔ InOpenSegment p v1 v2 := by
  simp only [pointInInnerSegment, Bool.and_eq_true, Bool.or_eq_true, decide_eq_true_eq, Bool.not_eq_true', ← Bool.not_eq_true,
    misAlignment_iff, not_not]
  constructor
  · rintro ⟨hf, h⟩
    have hne : v1 ≠ v2 := by
      rintro rfl
      rcases h with ((((h | h) | h) | h) | h) | h <;> exact lt_irrefl _ h.1
    obtain ⟨t, rfl⟩ := param_of_flat hf hne
    simp only [lerp] at h
    refine ⟨hne, t, ?_⟩
    have : 0 < t ∧ t < 1 := by
      rcases h with ((((h | h) | h) | h) | h) | h
      · exact between_of_lt (.inl h)
      · exact between_of_lt (.inr h)
      · exact between_of_lt (.inl h)
      · exact between_of_lt (.inr h)
      · exact between_of_lt (.inl h)
      · exact between_of_lt (.inr h)
    exact ⟨this.1, this.2, rfl⟩
  · rintro ⟨hne, t, h0, h1, rfl⟩
    refine ⟨flat_lerp _ _ _, ?_⟩
    have hc : v1.x ≠ v2.x ∨ v1.y ≠ v2.y ∨ v1.z ≠ v2.z := by
      by_contra h
      simp only [not_or, not_not] at h
      exact hne (pt_ext h.1 h.2.1 h.2.2)
    simp only [lerp]
    rcases hc with hc | hc | hc
    · rcases lt_of_between hc h0 h1 with h | h
      · exact .inl (.inl (.inl (.inl (.inl h))))
      · exact .inl (.inl (.inl (.inl (.inr h))))
    · rcases lt_of_between hc h0 h1 with h | h
      · exact .inl (.inl (.inl (.inr h)))
      · exact .inl (.inl (.inr h))
    · rcases lt_of_between hc h0 h1 with h | h
      · exact .inl (.inr h)
      · exact .inr h

/-- The middle of a segment parallel to the z axis; its end; a point beyond it. -/
example : pointInInnerSegment (K := ℚ) ⟨1, 1, 2⟩ ⟨1, 1, 3⟩ ⟨1, 1, 1⟩ = true ∧ pointInInnerSegment (K := ℚ) ⟨1, 1, 3⟩ ⟨1, 1, 3⟩ ⟨1, 1, 1⟩ = false ∧
    pointInInnerSegment (K := ℚ) ⟨1, 1, 4⟩ ⟨1, 1, 3⟩ ⟨1, 1, 1⟩ = false := by decide +kernel

omit [IsStrictOrderedRing K] in
theorem samePoint_iff {p q : Pt K} : samePoint p q = true ↔ p = q := by
  cases p; cases q; simp [samePoint, and_assoc]

omit [LinearOrder K] [IsStrictOrderedRing K] in
theorem lerp_zero (a b : Pt K) : lerp a b 0 = a := by cases a; simp [lerp]
omit [LinearOrder K] [IsStrictOrderedRing K] in
theorem lerp_one (a b : Pt K) : lerp a b 1 = b := by cases b; simp [lerp]
omit [LinearOrder K] [IsStrictOrderedRing K] in
theorem lerp_self (a : Pt K) (t : K) : lerp a a t = a := by
  cases a; simp only [lerp, Pt.mk.injEq]; refine ⟨?_, ?_, ?_⟩ <;> ring

/-- C36. `point_in_segment` holds iff the point is in the closed segment. -/
theorem c36_point_in_segment (p v1 v2 : Pt K) : pointInSegment p v1 v2 = true ↔ InClosedSegment p v1 v2 := by
  simp only [pointInSegment, Bool.or_eq_true, samePoint_iff, c36_point_in_inner_segment]
  constructor
  · rintro ((rfl | rfl) | ⟨-, t, h0, h1, rfl⟩)
    · exact ⟨0, le_rfl, zero_le_one, (lerp_zero _ _).symm⟩
    · exact ⟨1, zero_le_one, le_rfl, (lerp_one _ _).symm⟩
    · exact ⟨t, h0.le, h1.le, rfl⟩
  · rintro ⟨t, h0, h1, rfl⟩
    by_cases hne : v1 = v2
    · subst hne; rw [lerp_self]; exact .inl (.inl rfl)
    rcases h0.eq_or_lt with rfl | h0
    · rw [lerp_zero]; exact .inl (.inl rfl)
    rcases h1.eq_or_lt with rfl | h1
    · rw [lerp_one]; exact .inl (.inr rfl)
    exact .inr ⟨hne, t, h0, h1, rfl⟩

example : pointInSegment (K := ℚ) ⟨1, 1, 3⟩ ⟨1, 1, 3⟩ ⟨1, 1, 1⟩ = true ∧ pointInSegment (K := ℚ) ⟨1, 1, 4⟩ ⟨1, 1, 3⟩ ⟨1, 1, 1⟩ = false := by
  decide +kernel

omit [IsStrictOrderedRing K] in
theorem lessThan_neg {a b : K} : lessThan a b = .negative ↔ a < b := by
  unfold lessThan; split_ifs <;> simp_all
omit [IsStrictOrderedRing K] in
theorem lessThan_zero {a b : K} : lessThan a b = .zero ↔ a = b := by
  unfold lessThan; split_ifs with h1 h2
  · simpa using h1.ne
  · simpa using h2.ne'
  · simpa using le_antisymm (not_lt.1 h2) (not_lt.1 h1)
omit [IsStrictOrderedRing K] in
theorem lessThan_pos {a b : K} : lessThan a b = .positive ↔ b < a := by
  unfold lessThan; split_ifs with h1 h2
  · simpa using h1.le
  · simpa using h2
  · simpa using not_lt.1 h2

/-- The decision taken on one coordinate: `some` answer, or `none` when all three coordinates agree. -/
def axisTest (a p b : K) : Option Bool :=
  if lessThan a p ≠ lessThan p b then some (decide (lessThan a p = .zero ∨ lessThan p b = .zero))
  else if lessThan a p ≠ .zero then some true else none

theorem axisTest_spec (a b t : K) :
    axisTest a ((1 - t) * a + t * b) b = if a = b then none else some (decide (0 ≤ t ∧ t ≤ 1)) := by
  have key : ∀ p, p = (1 - t) * a + t * b → axisTest a p b = if a = b then none else some (decide (0 ≤ t ∧ t ≤ 1)) := by
    intro p hp
    by_cases hab : a = b
    · subst hab
      have : p = a := by rw [hp]; ring
      subst this
      simp [axisTest, lessThan]
    rw [if_neg hab]
    have e1 : p - a = t * (b - a) := by rw [hp]; ring
    have e2 : b - p = (1 - t) * (b - a) := by rw [hp]; ring
    have hne : b - a ≠ 0 := sub_ne_zero.2 (Ne.symm hab)
    have z1 : lessThan a p = .zero ↔ t = 0 := by
      rw [lessThan_zero, eq_comm, ← sub_eq_zero, e1, mul_eq_zero, or_iff_left hne]
    have z2 : lessThan p b = .zero ↔ t = 1 := by
      rw [lessThan_zero, eq_comm, ← sub_eq_zero, e2, mul_eq_zero, or_iff_left hne, sub_eq_zero, eq_comm]
    have main : ∀ c : K, c ≠ 0 → p - a = t * c → b - p = (1 - t) * c → (lessThan a p = lessThan p b ↔ 0 < t ∧ t < 1) := by
      intro c hc f1 f2
      constructor
      · intro h
        rcases h3 : lessThan a p with _ | _ | _
        · rw [h3] at h
          have q1 := lessThan_pos.1 h3
          have q2 := lessThan_pos.1 h.symm
          have hcn : c < 0 := by
            by_contra hcn
            have hcp : 0 < c := lt_of_le_of_ne (not_lt.1 hcn) (Ne.symm hc)
            nlinarith
          constructor
          · by_contra ht; nlinarith [mul_nonneg_of_nonpos_of_nonpos (not_lt.1 ht) hcn.le]
          · by_contra ht; nlinarith [mul_nonneg (sub_nonneg.2 (not_lt.1 ht)) (neg_nonneg.2 hcn.le)]
        · rw [h3] at h
          have q1 := lessThan_neg.1 h3
          have q2 := lessThan_neg.1 h.symm
          have hcp : 0 < c := by
            by_contra hcn
            nlinarith
          constructor
          · by_contra ht; nlinarith [mul_nonneg (neg_nonneg.2 (not_lt.1 ht)) hcp.le]
          · by_contra ht; nlinarith [mul_nonneg (sub_nonneg.2 (not_lt.1 ht)) hcp.le]
        · rw [h3] at h
          have q1 := z1.1 h3
          have q2 := z2.1 h.symm
          rw [q1] at q2
          exact absurd q2 zero_ne_one
      · rintro ⟨h0, h1⟩
        have h1' : 0 < 1 - t := by linarith
        rcases lt_or_gt_of_ne hc with hc | hc
        · rw [lessThan_pos.2 (by nlinarith [mul_neg_of_pos_of_neg h0 hc]), lessThan_pos.2 (by nlinarith [mul_neg_of_pos_of_neg h1' hc])]
        · rw [lessThan_neg.2 (by nlinarith [mul_pos h0 hc]), lessThan_neg.2 (by nlinarith [mul_pos h1' hc])]
    have hm := main (b - a) hne e1 e2
    unfold axisTest
    by_cases h : 0 < t ∧ t < 1
    · have h3 : ¬ lessThan a p = .zero := by rw [z1]; exact h.1.ne'
      rw [if_neg (not_not.2 (hm.2 h)), if_pos h3, decide_eq_true ⟨h.1.le, h.2.le⟩]
    · rw [if_pos (fun e => h (hm.1 e))]
      congr 1
      rw [decide_eq_decide, z1, z2]
      constructor
      · rintro (rfl | rfl)
        · exact ⟨le_rfl, zero_le_one⟩
        · exact ⟨zero_le_one, le_rfl⟩
      · rintro ⟨h0, h1⟩
        by_contra hh
        simp only [not_or] at hh
        exact h ⟨lt_of_le_of_ne h0 (Ne.symm hh.1), lt_of_le_of_ne h1 hh.2⟩
  exact key _ rfl

omit [IsStrictOrderedRing K] in
theorem general_eq (p v1 v2 : Pt K) : pointInSegmentGeneral p v1 v2 =
    match axisTest v1.x p.x v2.x with
    | some b => b
    | none => match axisTest v1.y p.y v2.y with
      | some b => b
      | none => match axisTest v1.z p.z v2.z with
        | some b => b
        | none => true := by
  unfold pointInSegmentGeneral axisTest
  split_ifs <;> simp_all

/-- C36. For a point on the line of a (possibly degenerate) segment, `point_in_segment_general` holds iff the point is in the closed
segment. (The hypothesis is the assumption stated in the comment of the function; for a degenerate segment it says that the point
is that segment.) -/
theorem c36_point_in_segment_general (p v1 v2 : Pt K) (h : ∃ t, p = lerp v1 v2 t) :
    pointInSegmentGeneral p v1 v2 = true ↔ InClosedSegment p v1 v2 := by
  obtain ⟨t, rfl⟩ := h
  rw [general_eq]
  simp only [lerp, axisTest_spec]
  by_cases hx : v1.x = v2.x
  · by_cases hy : v1.y = v2.y
    · by_cases hz : v1.z = v2.z
      · have : v1 = v2 := pt_ext hx hy hz
        simp only [hx, hy, hz, if_true, true_iff]
        subst this
        exact ⟨0, le_rfl, zero_le_one, by apply pt_ext <;> simp only [lerp] <;> ring⟩
      · simp only [hx, hy, hz, if_true, if_false, decide_eq_true_eq]
        constructor
        · rintro ⟨h0, h1⟩
          exact ⟨t, h0, h1, by simp only [lerp, hx, hy]⟩
        · rintro ⟨t', h0, h1, e⟩
          have e' := congrArg Pt.z e
          simp only [lerp] at e'
          have : t = t' := by
            have h3 : (t - t') * (v2.z - v1.z) = 0 := by linarith
            rcases mul_eq_zero.1 h3 with h | h
            · linarith
            · exact absurd (by linarith) hz
          rw [this]; exact ⟨h0, h1⟩
    · simp only [hx, hy, if_true, if_false, decide_eq_true_eq]
      constructor
      · rintro ⟨h0, h1⟩
        exact ⟨t, h0, h1, by simp only [lerp, hx]⟩
      · rintro ⟨t', h0, h1, e⟩
        have e' := congrArg Pt.y e
        simp only [lerp] at e'
        have : t = t' := by
          have h3 : (t - t') * (v2.y - v1.y) = 0 := by linarith
          rcases mul_eq_zero.1 h3 with h | h
          · linarith
          · exact absurd (by linarith) hy
        rw [this]; exact ⟨h0, h1⟩
  · simp only [hx, if_false, decide_eq_true_eq]
    constructor
    · rintro ⟨h0, h1⟩
      exact ⟨t, h0, h1, rfl⟩
    · rintro ⟨t', h0, h1, e⟩
      have e' := congrArg Pt.x e
      simp only [lerp] at e'
      have : t = t' := by
        have h3 : (t - t') * (v2.x - v1.x) = 0 := by linarith
        rcases mul_eq_zero.1 h3 with h | h
        · linarith
        · exact absurd (by linarith) hx
      rw [this]; exact ⟨h0, h1⟩

example : pointInSegmentGeneral (K := ℚ) ⟨0, 1, 2⟩ ⟨0, 2, 4⟩ ⟨0, 0, 0⟩ = true ∧ pointInSegmentGeneral (K := ℚ) ⟨0, 3, 6⟩ ⟨0, 2, 4⟩ ⟨0, 0, 0⟩ = false ∧
    (∃ t : ℚ, (⟨0, 3, 6⟩ : Pt ℚ) = lerp ⟨0, 2, 4⟩ ⟨0, 0, 0⟩ t) :=
  ⟨by decide +kernel, by decide +kernel, -1/2, by decide +kernel⟩

/-- The oriented areas at a common point of two lines, in terms of the cross product of the directions. -/
theorem areas_at_crossing {u1 u2 v1 v2 : Pt K} {s t : K} (h : lerp u1 u2 s = lerp v1 v2 t) :
    ∃ w1 w2 w3 : K,
      (nXY u1 v1 v2 = s * w1 ∧ nYZ u1 v1 v2 = s * w2 ∧ nXZ u1 v1 v2 = s * w3) ∧
      (nXY u2 v1 v2 = -(1 - s) * w1 ∧ nYZ u2 v1 v2 = -(1 - s) * w2 ∧ nXZ u2 v1 v2 = -(1 - s) * w3) ∧
      (nXY v1 u1 u2 = -t * w1 ∧ nYZ v1 u1 u2 = -t * w2 ∧ nXZ v1 u1 u2 = -t * w3) ∧
      (nXY v2 u1 u2 = (1 - t) * w1 ∧ nYZ v2 u1 u2 = (1 - t) * w2 ∧ nXZ v2 u1 u2 = (1 - t) * w3) := by
  have ex := congrArg Pt.x h
  have ey := congrArg Pt.y h
  have ez := congrArg Pt.z h
  simp only [lerp] at ex ey ez
  refine ⟨(u2.x - u1.x) * (v2.y - v1.y) - (u2.y - u1.y) * (v2.x - v1.x), (u2.y - u1.y) * (v2.z - v1.z) - (u2.z - u1.z) * (v2.y - v1.y),
    (u2.x - u1.x) * (v2.z - v1.z) - (u2.z - u1.z) * (v2.x - v1.x), ⟨?_, ?_, ?_⟩, ⟨?_, ?_, ?_⟩, ⟨?_, ?_, ?_⟩, ?_, ?_, ?_⟩ <;>
    simp only [nXY, nYZ, nXZ, orient2d, xy, yz, xz]
  · linear_combination (v1.y - v2.y) * ex - (v1.x - v2.x) * ey
  · linear_combination (v1.z - v2.z) * ey - (v1.y - v2.y) * ez
  · linear_combination (v1.z - v2.z) * ex - (v1.x - v2.x) * ez
  · linear_combination (v1.y - v2.y) * ex - (v1.x - v2.x) * ey
  · linear_combination (v1.z - v2.z) * ey - (v1.y - v2.y) * ez
  · linear_combination (v1.z - v2.z) * ex - (v1.x - v2.x) * ez
  · linear_combination -(u1.y - u2.y) * ex + (u1.x - u2.x) * ey
  · linear_combination -(u1.z - u2.z) * ey + (u1.y - u2.y) * ez
  · linear_combination -(u1.z - u2.z) * ex + (u1.x - u2.x) * ez
  · linear_combination -(u1.y - u2.y) * ex + (u1.x - u2.x) * ey
  · linear_combination -(u1.z - u2.z) * ey + (u1.y - u2.y) * ez
  · linear_combination -(u1.z - u2.z) * ex + (u1.x - u2.x) * ez

theorem coplanar_of_crossing {u1 u2 v1 v2 : Pt K} {s t : K} (h1 : s < 1) (h : lerp u1 u2 s = lerp v1 v2 t) :
    orient3d u1 u2 v1 v2 = 0 := by
  have ex := congrArg Pt.x h
  have ey := congrArg Pt.y h
  have ez := congrArg Pt.z h
  simp only [lerp] at ex ey ez
  have hs : 1 - s ≠ 0 := by intro h; linarith
  have : (1 - s) * orient3d u1 u2 v1 v2 = 0 := by
    simp only [orient3d]
    linear_combination ((u2.y - v2.y) * (v1.z - v2.z) - (u2.z - v2.z) * (v1.y - v2.y)) * ex +
      ((u2.z - v2.z) * (v1.x - v2.x) - (u2.x - v2.x) * (v1.z - v2.z)) * ey +
      ((u2.x - v2.x) * (v1.y - v2.y) - (u2.y - v2.y) * (v1.x - v2.x)) * ez
  exact (mul_eq_zero.1 this).resolve_left hs

theorem signs_opposite {a b w1 w2 w3 : K} (ha : 0 < a) (hb : 0 < b) (hw : ¬ (w1 = 0 ∧ w2 = 0 ∧ w3 = 0)) :
    ¬ (doubleToSign (a * w1) = doubleToSign (-b * w1) ∧ doubleToSign (a * w2) = doubleToSign (-b * w2) ∧
      doubleToSign (a * w3) = doubleToSign (-b * w3)) := by
  rintro ⟨e1, e2, e3⟩
  rw [sign_mul_pos ha, eq_comm] at e1 e2 e3
  have := (signs_multiple hw).1 ⟨e1, e2, e3⟩
  linarith

theorem scaled_ne {a w1 w2 w3 : K} (ha : a ≠ 0) (hw : ¬ (w1 = 0 ∧ w2 = 0 ∧ w3 = 0)) :
    ¬ (a * w1 = 0 ∧ a * w2 = 0 ∧ a * w3 = 0) := by
  rintro ⟨e1, e2, e3⟩
  exact hw ⟨(mul_eq_zero.1 e1).resolve_left ha, (mul_eq_zero.1 e2).resolve_left ha, (mul_eq_zero.1 e3).resolve_left ha⟩

/-- C36. `same_half_plane(p, q, v1, v2)`, for points coplanar with the line `v1 v2` and not on it: false iff the open segment `p q`
meets that line. -/
theorem c36_same_half_plane (p q v1 v2 : Pt K) (hd : orient3d p q v1 v2 = 0) (hp : ¬ Collinear p v1 v2)
    (hq : ¬ Collinear q v1 v2) :
    sameHalfPlane p q v1 v2 = false ↔ ∃ s t, 0 < s ∧ s < 1 ∧ lerp p q s = lerp v1 v2 t := by
  rw [collinear_iff_flat] at hp hq
  constructor
  · exact meet_line hd hp hq
  · rintro ⟨s, t, h0, h1, h⟩
    obtain ⟨w1, w2, w3, ⟨a1, a2, a3⟩, ⟨b1, b2, b3⟩, -⟩ := areas_at_crossing h
    rw [← Bool.not_eq_true, sameHalfPlane_iff, a1, a2, a3, b1, b2, b3]
    apply signs_opposite h0 (by linarith)
    rintro ⟨rfl, rfl, rfl⟩
    exact hp ⟨by rw [a1]; ring, by rw [a2]; ring, by rw [a3]; ring⟩

/-- Two points on different sides of a line in an oblique plane. -/
example : sameHalfPlane (K := ℚ) ⟨1, 0, 1⟩ ⟨0, 1, 1⟩ ⟨0, 0, 0⟩ ⟨1, 1, 2⟩ = false ∧ orient3d (K := ℚ) ⟨1, 0, 1⟩ ⟨0, 1, 1⟩ ⟨0, 0, 0⟩ ⟨1, 1, 2⟩ = 0 ∧
    misAlignment (K := ℚ) ⟨1, 0, 1⟩ ⟨0, 0, 0⟩ ⟨1, 1, 2⟩ = true ∧ misAlignment (K := ℚ) ⟨0, 1, 1⟩ ⟨0, 0, 0⟩ ⟨1, 1, 2⟩ = true := by decide +kernel

/-- C36. `inner_segments_cross` holds iff the two open segments have a common point and are not on one line. -/
theorem c36_inner_segments_cross (u1 u2 v1 v2 : Pt K) :
    innerSegmentsCross u1 u2 v1 v2 = true ↔ SegmentsCross u1 u2 v1 v2 := by
  constructor
  · intro h
    have hd : orient3d u1 u2 v1 v2 = 0 := by
      by_contra h'; rw [innerSegmentsCross, if_pos h'] at h; cases h
    have hs : ¬ ((sameHalfPlane u1 u2 v1 v2 || sameHalfPlane v1 v2 u1 u2) = true) := by
      intro h'; rw [innerSegmentsCross, if_neg (not_not.2 hd), if_pos h'] at h; cases h
    have m1 : ¬ ((!misAlignment u1 v1 v2) = true) := by
      intro h'; rw [innerSegmentsCross, if_neg (not_not.2 hd), if_neg hs, if_pos h'] at h; cases h
    have m2 : ¬ ((!misAlignment u2 v1 v2) = true) := by
      intro h'; rw [innerSegmentsCross, if_neg (not_not.2 hd), if_neg hs, if_neg m1, if_pos h'] at h; cases h
    have m3 : ¬ ((!misAlignment v1 u1 u2) = true) := by
      intro h'; rw [innerSegmentsCross, if_neg (not_not.2 hd), if_neg hs, if_neg m1, if_neg m2, if_pos h'] at h; cases h
    have m4 : ¬ ((!misAlignment v2 u1 u2) = true) := by
      intro h'; rw [innerSegmentsCross, if_neg (not_not.2 hd), if_neg hs, if_neg m1, if_neg m2, if_neg m3, if_pos h'] at h; cases h
    clear h
    simp only [Bool.or_eq_true, not_or, Bool.not_eq_true] at hs
    simp only [Bool.not_eq_true', Bool.not_eq_false, misAlignment_iff] at m1 m2 m3 m4
    have hd' : orient3d v1 v2 u1 u2 = 0 := by
      rw [← hd]; simp only [orient3d]; ring
    obtain ⟨s, t, s0, s1, e⟩ := meet_line hd m1 m2 hs.1
    obtain ⟨s', t', s0', s1', e'⟩ := meet_line hd' m3 m4 hs.2
    have ht : t = s' := by
      by_contra hne
      have ex := congrArg Pt.x e
      have ey := congrArg Pt.y e
      have ez := congrArg Pt.z e
      have ex' := congrArg Pt.x e'
      have ey' := congrArg Pt.y e'
      have ez' := congrArg Pt.z e'
      simp only [lerp] at ex ey ez ex' ey' ez'
      have hne' : t - s' ≠ 0 := sub_ne_zero.2 hne
      apply m3
      have key : ∀ {n : K}, (t - s') * n = 0 → n = 0 := fun h => (mul_eq_zero.1 h).resolve_left hne'
      refine ⟨key ?_, key ?_, key ?_⟩ <;> simp only [nXY, nYZ, nXZ, orient2d, xy, yz, xz]
      · linear_combination s' * ((u1.y - u2.y) * ex - (u1.x - u2.x) * ey) + t * ((u1.y - u2.y) * ex' - (u1.x - u2.x) * ey')
      · linear_combination s' * ((u1.z - u2.z) * ey - (u1.y - u2.y) * ez) + t * ((u1.z - u2.z) * ey' - (u1.y - u2.y) * ez')
      · linear_combination s' * ((u1.z - u2.z) * ex - (u1.x - u2.x) * ez) + t * ((u1.z - u2.z) * ex' - (u1.x - u2.x) * ez')
    subst ht
    refine ⟨⟨s, t, s0, s1, s0', s1', e⟩, ?_⟩
    rintro ⟨h1, -⟩
    rw [collinear_iff_flat, ← flat_rot] at h1
    exact m3 h1
  · rintro ⟨⟨s, t, s0, s1, t0, t1, e⟩, hn⟩
    obtain ⟨w1, w2, w3, ⟨a1, a2, a3⟩, ⟨b1, b2, b3⟩, ⟨c1, c2, c3⟩, d1, d2, d3⟩ := areas_at_crossing e
    have hw : ¬ (w1 = 0 ∧ w2 = 0 ∧ w3 = 0) := by
      rintro ⟨rfl, rfl, rfl⟩
      apply hn
      simp only [collinear_iff_flat]
      refine ⟨?_, ?_, ?_, ?_⟩
      · rw [← flat_rot]; exact ⟨by rw [c1]; ring, by rw [c2]; ring, by rw [c3]; ring⟩
      · rw [← flat_rot]; exact ⟨by rw [d1]; ring, by rw [d2]; ring, by rw [d3]; ring⟩
      · rw [← flat_rot]; exact ⟨by rw [a1]; ring, by rw [a2]; ring, by rw [a3]; ring⟩
      · rw [← flat_rot]; exact ⟨by rw [b1]; ring, by rw [b2]; ring, by rw [b3]; ring⟩
    have hd := coplanar_of_crossing s1 e
    have f1 : ¬ Flat u1 v1 v2 := by unfold Flat; rw [a1, a2, a3]; exact scaled_ne s0.ne' hw
    have f2 : ¬ Flat u2 v1 v2 := by unfold Flat; rw [b1, b2, b3]; exact scaled_ne (by intro h; linarith) hw
    have f3 : ¬ Flat v1 u1 u2 := by unfold Flat; rw [c1, c2, c3]; exact scaled_ne (by intro h; linarith) hw
    have f4 : ¬ Flat v2 u1 u2 := by unfold Flat; rw [d1, d2, d3]; exact scaled_ne (by intro h; linarith) hw
    have g1 : sameHalfPlane u1 u2 v1 v2 = false := by
      rw [← Bool.not_eq_true, sameHalfPlane_iff, a1, a2, a3, b1, b2, b3]
      exact signs_opposite s0 (by linarith) hw
    have g2 : sameHalfPlane v1 v2 u1 u2 = false := by
      rw [← Bool.not_eq_true, sameHalfPlane_iff, c1, c2, c3, d1, d2, d3]
      rintro ⟨e1, e2, e3⟩
      exact signs_opposite (a := 1 - t) (b := t) (by linarith) t0 hw ⟨e1.symm, e2.symm, e3.symm⟩
    have m1 := misAlignment_iff.2 f1
    have m2 := misAlignment_iff.2 f2
    have m3 := misAlignment_iff.2 f3
    have m4 := misAlignment_iff.2 f4
    unfold innerSegmentsCross
    rw [if_neg (by simp [hd]), if_neg (by simp [g1, g2]), if_neg (by simp [m1]), if_neg (by simp [m2]), if_neg (by simp [m3]),
      if_neg (by simp [m4])]
    have f3' : ¬ Flat u1 u2 v1 := by rwa [← flat_rot]
    split_ifs with q1 q2 q3 q4 q5 q6 <;> try rfl
    simp only [ne_eq, not_not] at q1 q3 q5
    exact absurd ⟨q1, q3, q5⟩ f3'

/-- The diagonals of a square in an oblique plane cross; segments sharing an end point, or overlapping on a line, do not. -/
example : innerSegmentsCross (K := ℚ) ⟨0, 0, 0⟩ ⟨2, 2, 4⟩ ⟨0, 2, 2⟩ ⟨2, 0, 2⟩ = true ∧ innerSegmentsCross (K := ℚ) ⟨0, 0, 0⟩ ⟨2, 2, 4⟩ ⟨0, 0, 0⟩ ⟨2, 0, 2⟩ = false ∧
    innerSegmentsCross (K := ℚ) ⟨0, 0, 0⟩ ⟨2, 2, 4⟩ ⟨1, 1, 2⟩ ⟨3, 3, 6⟩ = false := by decide +kernel

/-! ### C37 -/

theorem innerTriangle_iff {p v1 v2 v3 : Pt K} : pointInInnerTriangle p v1 v2 v3 = true ↔
    (doubleToSign (nXY p v2 v3) = doubleToSign (nXY v1 v2 v3) ∧ doubleToSign (nYZ p v2 v3) = doubleToSign (nYZ v1 v2 v3) ∧
      doubleToSign (nXZ p v2 v3) = doubleToSign (nXZ v1 v2 v3)) ∧
    (doubleToSign (nXY p v3 v1) = doubleToSign (nXY v1 v2 v3) ∧ doubleToSign (nYZ p v3 v1) = doubleToSign (nYZ v1 v2 v3) ∧
      doubleToSign (nXZ p v3 v1) = doubleToSign (nXZ v1 v2 v3)) ∧
    (doubleToSign (nXY p v1 v2) = doubleToSign (nXY v1 v2 v3) ∧ doubleToSign (nYZ p v1 v2) = doubleToSign (nYZ v1 v2 v3) ∧
      doubleToSign (nXZ p v1 v2) = doubleToSign (nXZ v1 v2 v3)) := by
  unfold pointInInnerTriangle oXY oYZ oXZ nXY nYZ nXZ
  split_ifs <;> simp_all

omit [LinearOrder K] [IsStrictOrderedRing K] in
theorem orient_comb {w1 w2 w3 : K} (h : w1 + w2 + w3 = 1) (v1 v2 v3 : Pt K) : orient3d (comb w1 w2 w3 v1 v2 v3) v1 v2 v3 = 0 := by
  have : w3 = 1 - w1 - w2 := by linear_combination h
  subst this
  simp only [orient3d, comb]; ring

/-- The plane equation. -/
theorem coplanar_iff {p v1 v2 v3 : Pt K} (hn : ¬ Flat v1 v2 v3) : Coplanar p v1 v2 v3 ↔ orient3d p v1 v2 v3 = 0 := by
  constructor
  · rintro ⟨w1, w2, w3, h, rfl⟩; exact orient_comb h _ _ _
  · intro h
    obtain ⟨w1, w2, w3, hs, e, -⟩ := plane_coords h hn
    exact ⟨w1, w2, w3, hs, e⟩

/-- Barycentric coordinates in a proper triangle are unique. -/
theorem comb_unique {v1 v2 v3 : Pt K} (hn : ¬ Flat v1 v2 v3) {a1 a2 a3 b1 b2 b3 : K} (ha : a1 + a2 + a3 = 1) (hb : b1 + b2 + b3 = 1)
    (h : comb a1 a2 a3 v1 v2 v3 = comb b1 b2 b3 v1 v2 v3) : a1 = b1 ∧ a2 = b2 ∧ a3 = b3 := by
  have ex := congrArg Pt.x h
  have ey := congrArg Pt.y h
  have ez := congrArg Pt.z h
  simp only [comb] at ex ey ez
  have e3 : a3 = 1 - a1 - a2 := by linear_combination ha
  have f3 : b3 = 1 - b1 - b2 := by linear_combination hb
  subst e3 f3
  have key : ∀ y : K, y * nXY v1 v2 v3 = 0 → y * nYZ v1 v2 v3 = 0 → y * nXZ v1 v2 v3 = 0 → y = 0 := by
    intro y e1 e2 e3
    by_contra hy
    exact hn ⟨(mul_eq_zero.1 e1).resolve_left hy, (mul_eq_zero.1 e2).resolve_left hy, (mul_eq_zero.1 e3).resolve_left hy⟩
  have h1 : a1 - b1 = 0 := by
    apply key <;> simp only [nXY, nYZ, nXZ, orient2d, xy, yz, xz]
    · linear_combination (v2.y - v3.y) * ex - (v2.x - v3.x) * ey
    · linear_combination (v2.z - v3.z) * ey - (v2.y - v3.y) * ez
    · linear_combination (v2.z - v3.z) * ex - (v2.x - v3.x) * ez
  have h2 : a2 - b2 = 0 := by
    apply key <;> simp only [nXY, nYZ, nXZ, orient2d, xy, yz, xz]
    · linear_combination -(v1.y - v3.y) * ex + (v1.x - v3.x) * ey
    · linear_combination -(v1.z - v3.z) * ey + (v1.y - v3.y) * ez
    · linear_combination -(v1.z - v3.z) * ex + (v1.x - v3.x) * ez
  exact ⟨by linarith, by linarith, by linarith⟩

/-- C37. For a point in the plane of a proper triangle, `point_in_inner_triangle` holds iff it is inside the triangle. -/
theorem c37_point_in_inner_triangle (p v1 v2 v3 : Pt K) (hn : ¬ Collinear v1 v2 v3) (hp : Coplanar p v1 v2 v3) :
    pointInInnerTriangle p v1 v2 v3 = true ↔ InOpenTriangle p v1 v2 v3 := by
  rw [collinear_iff_flat] at hn
  obtain ⟨w1, w2, w3, hs, e, ⟨a1, a2, a3⟩, ⟨b1, b2, b3⟩, c1, c2, c3⟩ := plane_coords ((coplanar_iff hn).1 hp) hn
  rw [innerTriangle_iff, a1, a2, a3, b1, b2, b3, c1, c2, c3, signs_multiple hn, signs_multiple hn, signs_multiple hn]
  constructor
  · rintro ⟨h1, h2, h3⟩
    exact ⟨w1, w2, w3, h1, h2, h3, hs, e⟩
  · rintro ⟨x1, x2, x3, h1, h2, h3, hs', e'⟩
    obtain ⟨r1, r2, r3⟩ := comb_unique hn hs hs' (e.symm.trans e')
    rw [r1, r2, r3]; exact ⟨h1, h2, h3⟩

/-- A point inside, and a point on an edge of, a triangle in an oblique plane. -/
example : pointInInnerTriangle (K := ℚ) ⟨1, 1, 2⟩ ⟨0, 0, 0⟩ ⟨4, 0, 4⟩ ⟨0, 4, 4⟩ = true ∧ pointInInnerTriangle (K := ℚ) ⟨2, 2, 4⟩ ⟨0, 0, 0⟩ ⟨4, 0, 4⟩ ⟨0, 4, 4⟩ = false ∧
    misAlignment (K := ℚ) ⟨0, 0, 0⟩ ⟨4, 0, 4⟩ ⟨0, 4, 4⟩ = true ∧
    Coplanar (K := ℚ) ⟨1, 1, 2⟩ ⟨0, 0, 0⟩ ⟨4, 0, 4⟩ ⟨0, 4, 4⟩ ∧ Coplanar (K := ℚ) ⟨2, 2, 4⟩ ⟨0, 0, 0⟩ ⟨4, 0, 4⟩ ⟨0, 4, 4⟩ :=
  ⟨by decide +kernel, by decide +kernel, by decide +kernel, ⟨1/2, 1/4, 1/4, by decide +kernel⟩, ⟨0, 1/2, 1/2, by decide +kernel⟩⟩

/-- C37. For a point in the plane of a proper triangle, `point_in_triangle` holds iff it is in the closed triangle. -/
theorem c37_point_in_triangle (p v1 v2 v3 : Pt K) (hn : ¬ Collinear v1 v2 v3) (hp : Coplanar p v1 v2 v3) :
    pointInTriangle p v1 v2 v3 = true ↔ InClosedTriangle p v1 v2 v3 := by
  simp only [pointInTriangle, Bool.or_eq_true, c36_point_in_segment, c37_point_in_inner_triangle p v1 v2 v3 hn hp]
  constructor
  · rintro (((⟨t, h0, h1, rfl⟩ | ⟨t, h0, h1, rfl⟩) | ⟨t, h0, h1, rfl⟩) | ⟨w1, w2, w3, h1, h2, h3, hs, rfl⟩)
    · exact ⟨1 - t, t, 0, by linarith, h0, le_rfl, by ring, by simp [lerp, comb]⟩
    · exact ⟨0, 1 - t, t, le_rfl, by linarith, h0, by ring, by simp [lerp, comb]⟩
    · exact ⟨t, 0, 1 - t, h0, le_rfl, by linarith, by ring, by simp [lerp, comb, add_comm]⟩
    · exact ⟨w1, w2, w3, h1.le, h2.le, h3.le, hs, rfl⟩
  · rintro ⟨w1, w2, w3, h1, h2, h3, hs, rfl⟩
    rcases h1.eq_or_lt with rfl | h1
    · exact .inl (.inl (.inr ⟨w3, h3, by linarith, by
        have : w2 = 1 - w3 := by linarith
        simp [lerp, comb, this]⟩))
    rcases h2.eq_or_lt with rfl | h2
    · exact .inl (.inr ⟨w1, h1.le, by linarith, by
        have : w3 = 1 - w1 := by linarith
        simp [lerp, comb, this, add_comm]⟩)
    rcases h3.eq_or_lt with rfl | h3
    · exact .inl (.inl (.inl ⟨w2, h2.le, by linarith, by
        have : w1 = 1 - w2 := by linarith
        simp [lerp, comb, this]⟩))
    exact .inr ⟨w1, w2, w3, h1, h2, h3, hs, rfl⟩

example : pointInTriangle (K := ℚ) ⟨2, 2, 4⟩ ⟨0, 0, 0⟩ ⟨4, 0, 4⟩ ⟨0, 4, 4⟩ = true ∧ pointInTriangle (K := ℚ) ⟨3, 3, 6⟩ ⟨0, 0, 0⟩ ⟨4, 0, 4⟩ ⟨0, 4, 4⟩ = false := by
  decide +kernel

omit [LinearOrder K] [IsStrictOrderedRing K] in
theorem volumes (u1 u2 v1 v2 v3 : Pt K) :
    orient3d u1 v1 v2 v3 - orient3d u2 v1 v2 v3 =
      orient3d u1 u2 v2 v3 + orient3d u1 u2 v3 v1 + orient3d u1 u2 v1 v2 := by
  simp only [orient3d]; ring

omit [LinearOrder K] [IsStrictOrderedRing K] in
theorem crossing_point (u1 u2 v1 v2 v3 : Pt K) :
    (orient3d u1 v1 v2 v3 * u2.x - orient3d u2 v1 v2 v3 * u1.x =
      orient3d u1 u2 v2 v3 * v1.x + orient3d u1 u2 v3 v1 * v2.x + orient3d u1 u2 v1 v2 * v3.x) ∧
    (orient3d u1 v1 v2 v3 * u2.y - orient3d u2 v1 v2 v3 * u1.y =
      orient3d u1 u2 v2 v3 * v1.y + orient3d u1 u2 v3 v1 * v2.y + orient3d u1 u2 v1 v2 * v3.y) ∧
    (orient3d u1 v1 v2 v3 * u2.z - orient3d u2 v1 v2 v3 * u1.z =
      orient3d u1 u2 v2 v3 * v1.z + orient3d u1 u2 v3 v1 * v2.z + orient3d u1 u2 v1 v2 * v3.z) := by
  refine ⟨?_, ?_, ?_⟩ <;> simp only [orient3d] <;> ring

omit [LinearOrder K] [IsStrictOrderedRing K] in
theorem orient_lerp (u1 u2 v1 v2 v3 : Pt K) (s : K) :
    orient3d (lerp u1 u2 s) v1 v2 v3 = (1 - s) * orient3d u1 v1 v2 v3 + s * orient3d u2 v1 v2 v3 := by
  simp only [orient3d, lerp]; ring

/-- At a common point of the line `u1 u2` and the plane, the three side volumes are the barycentric weights times the height
difference. -/
theorem side_volumes {u1 u2 v1 v2 v3 : Pt K} {s w1 w2 w3 : K} (hw : w1 + w2 + w3 = 1) (e : lerp u1 u2 s = comb w1 w2 w3 v1 v2 v3) :
    orient3d u1 u2 v2 v3 = w1 * (orient3d u1 v1 v2 v3 - orient3d u2 v1 v2 v3) ∧
    orient3d u1 u2 v3 v1 = w2 * (orient3d u1 v1 v2 v3 - orient3d u2 v1 v2 v3) ∧
    orient3d u1 u2 v1 v2 = w3 * (orient3d u1 v1 v2 v3 - orient3d u2 v1 v2 v3) := by
  have ex := congrArg Pt.x e
  have ey := congrArg Pt.y e
  have ez := congrArg Pt.z e
  simp only [lerp, comb] at ex ey ez
  have h3 : w3 = 1 - w1 - w2 := by linear_combination hw
  subst h3
  simp only [orient3d]
  refine ⟨?_, ?_, ?_⟩
  · linear_combination ((u2.y - u1.y) * (v2.z - v3.z) - (u2.z - u1.z) * (v2.y - v3.y)) * ex +
      ((u2.z - u1.z) * (v2.x - v3.x) - (u2.x - u1.x) * (v2.z - v3.z)) * ey +
      ((u2.x - u1.x) * (v2.y - v3.y) - (u2.y - u1.y) * (v2.x - v3.x)) * ez
  · linear_combination ((u2.y - u1.y) * (v3.z - v1.z) - (u2.z - u1.z) * (v3.y - v1.y)) * ex +
      ((u2.z - u1.z) * (v3.x - v1.x) - (u2.x - u1.x) * (v3.z - v1.z)) * ey +
      ((u2.x - u1.x) * (v3.y - v1.y) - (u2.y - u1.y) * (v3.x - v1.x)) * ez
  · linear_combination ((u2.y - u1.y) * (v1.z - v2.z) - (u2.z - u1.z) * (v1.y - v2.y)) * ex +
      ((u2.z - u1.z) * (v1.x - v2.x) - (u2.x - u1.x) * (v1.z - v2.z)) * ey +
      ((u2.x - u1.x) * (v1.y - v2.y) - (u2.y - u1.y) * (v1.x - v2.x)) * ez

/-- Equality in a bounding box test forces everything into one plane `coordinate = bound`. -/
theorem box_exit {a b p q r s w1 w2 w3 : K} (s0 : 0 < s) (s1 : s < 1) (h1 : 0 < w1) (h2 : 0 < w2) (h3 : 0 < w3)
    (hw : w1 + w2 + w3 = 1) (e : (1 - s) * a + s * b = w1 * p + w2 * q + w3 * r)
    (hb : (p ≤ min a b ∧ q ≤ min a b ∧ r ≤ min a b) ∨ (p ≥ max a b ∧ q ≥ max a b ∧ r ≥ max a b)) : p = a ∧ q = a ∧ r = a := by
  have s1' : 0 < 1 - s := by linarith
  have e3 : w3 = 1 - w1 - w2 := by linarith
  rcases hb with ⟨p1, p2, p3⟩ | ⟨p1, p2, p3⟩
  · simp only [le_min_iff] at p1 p2 p3
    -- all these products are ≤ 0 and sum to 0
    have k1 : 0 ≤ w1 * ((1 - s) * (a - p)) := mul_nonneg h1.le (mul_nonneg s1'.le (by linarith))
    have k2 : 0 ≤ w2 * ((1 - s) * (a - q)) := mul_nonneg h2.le (mul_nonneg s1'.le (by linarith))
    have k3 : 0 ≤ w3 * ((1 - s) * (a - r)) := mul_nonneg h3.le (mul_nonneg s1'.le (by linarith))
    have l1 : 0 ≤ w1 * (s * (b - p)) := mul_nonneg h1.le (mul_nonneg s0.le (by linarith))
    have l2 : 0 ≤ w2 * (s * (b - q)) := mul_nonneg h2.le (mul_nonneg s0.le (by linarith))
    have l3 : 0 ≤ w3 * (s * (b - r)) := mul_nonneg h3.le (mul_nonneg s0.le (by linarith))
    have sum : w1 * ((1 - s) * (a - p)) + w2 * ((1 - s) * (a - q)) + w3 * ((1 - s) * (a - r)) + w1 * (s * (b - p)) +
        w2 * (s * (b - q)) + w3 * (s * (b - r)) = 0 := by
      have : (w1 + w2 + w3) * ((1 - s) * a + s * b) - (w1 * p + w2 * q + w3 * r) = 0 := by rw [hw, e]; ring
      linear_combination this
    have z : ∀ {w x : K}, 0 < w → w * ((1 - s) * x) = 0 → x = 0 := by
      intro w x hw h
      exact (mul_eq_zero.1 ((mul_eq_zero.1 h).resolve_left hw.ne')).resolve_left s1'.ne'
    have z1 := z (x := a - p) h1 (by linarith)
    have z2 := z (x := a - q) h2 (by linarith)
    have z3 := z (x := a - r) h3 (by linarith)
    exact ⟨by linarith, by linarith, by linarith⟩
  · simp only [ge_iff_le, max_le_iff] at p1 p2 p3
    have k1 : 0 ≤ w1 * ((1 - s) * (p - a)) := mul_nonneg h1.le (mul_nonneg s1'.le (by linarith))
    have k2 : 0 ≤ w2 * ((1 - s) * (q - a)) := mul_nonneg h2.le (mul_nonneg s1'.le (by linarith))
    have k3 : 0 ≤ w3 * ((1 - s) * (r - a)) := mul_nonneg h3.le (mul_nonneg s1'.le (by linarith))
    have l1 : 0 ≤ w1 * (s * (p - b)) := mul_nonneg h1.le (mul_nonneg s0.le (by linarith))
    have l2 : 0 ≤ w2 * (s * (q - b)) := mul_nonneg h2.le (mul_nonneg s0.le (by linarith))
    have l3 : 0 ≤ w3 * (s * (r - b)) := mul_nonneg h3.le (mul_nonneg s0.le (by linarith))
    have sum : w1 * ((1 - s) * (p - a)) + w2 * ((1 - s) * (q - a)) + w3 * ((1 - s) * (r - a)) + w1 * (s * (p - b)) +
        w2 * (s * (q - b)) + w3 * (s * (r - b)) = 0 := by
      have : (w1 + w2 + w3) * ((1 - s) * a + s * b) - (w1 * p + w2 * q + w3 * r) = 0 := by rw [hw, e]; ring
      linear_combination -this
    have z : ∀ {w x : K}, 0 < w → w * ((1 - s) * x) = 0 → x = 0 := by
      intro w x hw h
      exact (mul_eq_zero.1 ((mul_eq_zero.1 h).resolve_left hw.ne')).resolve_left s1'.ne'
    have z1 := z (x := p - a) h1 (by linarith)
    have z2 := z (x := q - a) h2 (by linarith)
    have z3 := z (x := r - a) h3 (by linarith)
    exact ⟨by linarith, by linarith, by linarith⟩

omit [IsStrictOrderedRing K] in
/-- The tests after the bounding boxes, as plain conditions on signs. -/
theorem crossTail_iff (a b c d e : Ori) :
    (if a = .zero ∨ b = .zero then false
      else if a = b then false
      else if c = .zero ∨ d = .zero then false
      else if c ≠ d then false
      else if e = .zero then false
      else if e ≠ d then false
      else true) = true ↔ a ≠ .zero ∧ b ≠ .zero ∧ a ≠ b ∧ c ≠ .zero ∧ c = d ∧ e = d := by
  cases a <;> cases b <;> cases c <;> cases d <;> cases e <;> decide

theorem flat_of_degenerate {p v1 v2 v3 : Pt K} (h : Flat v1 v2 v3) : orient3d p v1 v2 v3 = 0 := by
  obtain ⟨h1, h2, h3⟩ := h
  simp only [nXY, nYZ, nXZ, orient2d, xy, yz, xz] at h1 h2 h3
  simp only [orient3d]
  linear_combination (p.z - v3.z) * h1 + (p.x - v3.x) * h2 - (p.y - v3.y) * h3

/-- C37. `inner_segment_cross_inner_triangle` holds iff the triangle is proper, the segment is not in its plane and the open segment
meets the inside of the triangle: the shortcut exits on bounding boxes never change the answer. -/
theorem c37_inner_segment_cross_inner_triangle (u1 u2 v1 v2 v3 : Pt K) :
    innerSegmentCrossInnerTriangle u1 u2 v1 v2 v3 = true ↔
      ¬ Collinear v1 v2 v3 ∧ ¬ Coplanar u1 v1 v2 v3 ∧ ∃ s, 0 < s ∧ s < 1 ∧ InOpenTriangle (lerp u1 u2 s) v1 v2 v3 := by
  have vol := volumes u1 u2 v1 v2 v3
  constructor
  · intro h
    have ht : (if o3 u1 v1 v2 v3 = .zero ∨ o3 u2 v1 v2 v3 = .zero then false
      else if o3 u1 v1 v2 v3 = o3 u2 v1 v2 v3 then false
      else if o3 u1 u2 v1 v2 = .zero ∨ o3 u1 u2 v2 v3 = .zero then false
      else if o3 u1 u2 v1 v2 ≠ o3 u1 u2 v2 v3 then false
      else if o3 u1 u2 v3 v1 = .zero then false
      else if o3 u1 u2 v3 v1 ≠ o3 u1 u2 v2 v3 then false
      else true) = true := by
      unfold innerSegmentCrossInnerTriangle at h
      generalize (if o3 u1 v1 v2 v3 = .zero ∨ o3 u2 v1 v2 v3 = .zero then false
      else if o3 u1 v1 v2 v3 = o3 u2 v1 v2 v3 then false
      else if o3 u1 u2 v1 v2 = .zero ∨ o3 u1 u2 v2 v3 = .zero then false
      else if o3 u1 u2 v1 v2 ≠ o3 u1 u2 v2 v3 then false
      else if o3 u1 u2 v3 v1 = .zero then false
      else if o3 u1 u2 v3 v1 ≠ o3 u1 u2 v2 v3 then false
      else true) = r at h ⊢
      revert h
      split_ifs <;> simp
    clear h
    rw [crossTail_iff] at ht
    obtain ⟨h1, h2, h3, h4, h5, h6⟩ := ht
    unfold o3 at h1 h2 h3 h4 h5 h6
    rw [Ne, sign_zero] at h1 h2 h4
    have hnf : ¬ Flat v1 v2 v3 := fun h => h1 (flat_of_degenerate h)
    refine ⟨by rwa [collinear_iff_flat], by rwa [coplanar_iff hnf], ?_⟩
    obtain ⟨cx, cy, cz⟩ := crossing_point u1 u2 v1 v2 v3
    rw [sign_eq_iff] at h5 h6
    rw [Ne, sign_eq_iff] at h3
    generalize orient3d u1 u2 v1 v2 = V3 at *
    generalize orient3d u1 u2 v2 v3 = V1 at *
    generalize orient3d u1 u2 v3 v1 = V2 at *
    generalize orient3d u1 v1 v2 v3 = D1 at *
    generalize orient3d u2 v1 v2 v3 = D2 at *
    have opp : (0 < D1 ∧ D2 < 0) ∨ (D1 < 0 ∧ 0 < D2) := by
      rcases lt_or_gt_of_ne h1 with a | a <;> rcases lt_or_gt_of_ne h2 with b | b
      · exact absurd ⟨⟨fun h => absurd h a.not_gt, fun h => absurd h b.not_gt⟩, ⟨fun _ => b, fun _ => a⟩⟩ h3
      · exact .inr ⟨a, b⟩
      · exact .inl ⟨a, b⟩
      · exact absurd ⟨⟨fun _ => b, fun _ => a⟩, ⟨fun h => absurd h a.not_gt, fun h => absurd h b.not_gt⟩⟩ h3
    have hd : D1 - D2 ≠ 0 := by rcases opp with ⟨a, b⟩ | ⟨a, b⟩ <;> intro h <;> linarith
    have quot : ∀ {x : K}, ((0 < D1 - D2 ∧ 0 < x) ∨ (D1 - D2 < 0 ∧ x < 0)) → 0 < x / (D1 - D2) := by
      rintro x (⟨a, b⟩ | ⟨a, b⟩)
      · exact div_pos b a
      · exact div_pos_of_neg_of_neg b a
    have sides : (0 < D1 - D2 ∧ 0 < V1 ∧ 0 < V2 ∧ 0 < V3) ∨ (D1 - D2 < 0 ∧ V1 < 0 ∧ V2 < 0 ∧ V3 < 0) := by
      rcases lt_or_gt_of_ne h4 with a | a
      · have b1 := h5.2.1 a
        have b2 := h6.2.2 b1
        exact .inr ⟨by linarith, b1, b2, a⟩
      · have b1 := h5.1.1 a
        have b2 := h6.1.2 b1
        exact .inl ⟨by linarith, b1, b2, a⟩
    have s0 : 0 < D1 / (D1 - D2) := by
      apply quot
      rcases opp with ⟨a, b⟩ | ⟨a, b⟩
      · exact .inl ⟨by linarith, a⟩
      · exact .inr ⟨by linarith, a⟩
    have s1 : 0 < (-D2) / (D1 - D2) := by
      apply quot
      rcases opp with ⟨a, b⟩ | ⟨a, b⟩
      · exact .inl ⟨by linarith, by linarith⟩
      · exact .inr ⟨by linarith, by linarith⟩
    have e1 : 1 - D1 / (D1 - D2) = (-D2) / (D1 - D2) := by field_simp; ring
    refine ⟨D1 / (D1 - D2), s0, by linarith, V1 / (D1 - D2), V2 / (D1 - D2), V3 / (D1 - D2), ?_, ?_, ?_, ?_, ?_⟩
    · apply quot; rcases sides with h | h
      · exact .inl ⟨h.1, h.2.1⟩
      · exact .inr ⟨h.1, h.2.1⟩
    · apply quot; rcases sides with h | h
      · exact .inl ⟨h.1, h.2.2.1⟩
      · exact .inr ⟨h.1, h.2.2.1⟩
    · apply quot; rcases sides with h | h
      · exact .inl ⟨h.1, h.2.2.2⟩
      · exact .inr ⟨h.1, h.2.2.2⟩
    · rw [← add_div, ← add_div, ← vol, div_self hd]
    · apply pt_ext <;> simp only [lerp, comb, e1] <;> field_simp <;> linarith
  · rintro ⟨hn, hp, s, s0, s1, w1, w2, w3, p1, p2, p3, hw, e⟩
    rw [collinear_iff_flat] at hn
    rw [coplanar_iff hn] at hp
    have s1' : 0 < 1 - s := by linarith
    have hX := orient_lerp u1 u2 v1 v2 v3 s
    rw [e, orient_comb hw] at hX
    obtain ⟨V1, V2, V3⟩ := side_volumes hw e
    have ex := congrArg Pt.x e
    have ey := congrArg Pt.y e
    have ez := congrArg Pt.z e
    simp only [lerp, comb] at ex ey ez
    have bx : ¬ ((v1.x ≤ min u1.x u2.x ∧ v2.x ≤ min u1.x u2.x ∧ v3.x ≤ min u1.x u2.x) ∨
        (v1.x ≥ max u1.x u2.x ∧ v2.x ≥ max u1.x u2.x ∧ v3.x ≥ max u1.x u2.x)) := by
      intro hb
      obtain ⟨q1, q2, q3⟩ := box_exit s0 s1 p1 p2 p3 hw ex hb
      apply hp; simp only [orient3d, q1, q2, q3]; ring
    have bY : ¬ ((v1.y ≤ min u1.y u2.y ∧ v2.y ≤ min u1.y u2.y ∧ v3.y ≤ min u1.y u2.y) ∨
        (v1.y ≥ max u1.y u2.y ∧ v2.y ≥ max u1.y u2.y ∧ v3.y ≥ max u1.y u2.y)) := by
      intro hb
      obtain ⟨q1, q2, q3⟩ := box_exit s0 s1 p1 p2 p3 hw ey hb
      apply hp; simp only [orient3d, q1, q2, q3]; ring
    have bz : ¬ ((v1.z ≤ min u1.z u2.z ∧ v2.z ≤ min u1.z u2.z ∧ v3.z ≤ min u1.z u2.z) ∨
        (v1.z ≥ max u1.z u2.z ∧ v2.z ≥ max u1.z u2.z ∧ v3.z ≥ max u1.z u2.z)) := by
      intro hb
      obtain ⟨q1, q2, q3⟩ := box_exit s0 s1 p1 p2 p3 hw ez hb
      apply hp; simp only [orient3d, q1, q2, q3]; ring
    rw [not_or] at bx bY bz
    rw [innerSegmentCrossInnerTriangle, if_neg bx.1, if_neg bx.2, if_neg bY.1, if_neg bY.2, if_neg bz.1, if_neg bz.2, crossTail_iff]
    have opp : (orient3d u1 v1 v2 v3 < 0 ∧ 0 < orient3d u2 v1 v2 v3) ∨ (0 < orient3d u1 v1 v2 v3 ∧ orient3d u2 v1 v2 v3 < 0) := by
      rcases lt_or_gt_of_ne hp with h | h
      · left
        refine ⟨h, ?_⟩
        by_contra h'
        nlinarith [mul_pos s1' (neg_pos.2 h), mul_nonneg s0.le (neg_nonneg.2 (not_lt.1 h'))]
      · right
        refine ⟨h, ?_⟩
        by_contra h'
        nlinarith [mul_pos s1' h, mul_nonneg s0.le (not_lt.1 h')]
    unfold o3
    rcases opp with ⟨a, b⟩ | ⟨a, b⟩
    · have hd : orient3d u1 v1 v2 v3 - orient3d u2 v1 v2 v3 < 0 := by linarith
      have x1 := mul_neg_of_pos_of_neg p1 hd
      have x2 := mul_neg_of_pos_of_neg p2 hd
      have x3 := mul_neg_of_pos_of_neg p3 hd
      rw [← V1] at x1; rw [← V2] at x2; rw [← V3] at x3
      rw [sign_neg.2 a, sign_pos.2 b, sign_neg.2 x1, sign_neg.2 x2, sign_neg.2 x3]
      decide
    · have hd : 0 < orient3d u1 v1 v2 v3 - orient3d u2 v1 v2 v3 := by linarith
      have x1 := mul_pos p1 hd
      have x2 := mul_pos p2 hd
      have x3 := mul_pos p3 hd
      rw [← V1] at x1; rw [← V2] at x2; rw [← V3] at x3
      rw [sign_pos.2 a, sign_neg.2 b, sign_pos.2 x1, sign_pos.2 x2, sign_pos.2 x3]
      decide


/-- A segment through the inside of a triangle; one through its edge; one ending on it. -/
example : innerSegmentCrossInnerTriangle (K := ℚ) ⟨1, 1, 0⟩ ⟨1, 1, 3⟩ ⟨0, 0, 0⟩ ⟨4, 0, 4⟩ ⟨0, 4, 4⟩ = true ∧
    innerSegmentCrossInnerTriangle (K := ℚ) ⟨2, 2, 0⟩ ⟨2, 2, 5⟩ ⟨0, 0, 0⟩ ⟨4, 0, 4⟩ ⟨0, 4, 4⟩ = false ∧
    innerSegmentCrossInnerTriangle (K := ℚ) ⟨1, 1, 2⟩ ⟨1, 1, 3⟩ ⟨0, 0, 0⟩ ⟨4, 0, 4⟩ ⟨0, 4, 4⟩ = false := by decide +kernel

/-- A segment meeting the plane of a triangle in its inside has both end points on the plane or none. -/
theorem ends_off_plane {u1 u2 v1 v2 v3 : Pt K} {s : K} (s0 : 0 < s) (s1 : s < 1)
    (hX : orient3d (lerp u1 u2 s) v1 v2 v3 = 0) (h : ¬ (orient3d u1 v1 v2 v3 = 0 ∧ orient3d u2 v1 v2 v3 = 0)) :
    orient3d u1 v1 v2 v3 ≠ 0 := by
  intro h1
  rw [orient_lerp, h1, mul_zero, zero_add] at hX
  exact h ⟨h1, (mul_eq_zero.1 hX).resolve_left s0.ne'⟩

/-- C37. For a proper triangle and a segment not contained in its plane, `inner_segment_cross_triangle` holds iff the open segment
meets the closed triangle. -/
theorem c37_inner_segment_cross_triangle (u1 u2 v1 v2 v3 : Pt K) (hn : ¬ Collinear v1 v2 v3)
    (hu : ¬ (Coplanar u1 v1 v2 v3 ∧ Coplanar u2 v1 v2 v3)) :
    innerSegmentCrossTriangle u1 u2 v1 v2 v3 = true ↔ ∃ s, 0 < s ∧ s < 1 ∧ InClosedTriangle (lerp u1 u2 s) v1 v2 v3 := by
  have hn' := hn
  rw [collinear_iff_flat] at hn'
  have hu' := hu
  rw [coplanar_iff hn', coplanar_iff hn'] at hu'
  simp only [innerSegmentCrossTriangle, Bool.or_eq_true, c36_point_in_inner_segment, c36_inner_segments_cross,
    c37_inner_segment_cross_inner_triangle]
  constructor
  · rintro ((((((⟨-, t, h0, h1, e⟩ | ⟨-, t, h0, h1, e⟩) | ⟨-, t, h0, h1, e⟩) | ⟨⟨s, t, s0, s1, t0, t1, e⟩, -⟩) |
      ⟨⟨s, t, s0, s1, t0, t1, e⟩, -⟩) | ⟨⟨s, t, s0, s1, t0, t1, e⟩, -⟩) | ⟨-, -, s, s0, s1, w1, w2, w3, p1, p2, p3, hw, e⟩)
    · exact ⟨t, h0, h1, 1, 0, 0, zero_le_one, le_rfl, le_rfl, by ring, by rw [← e]; simp [comb]⟩
    · exact ⟨t, h0, h1, 0, 1, 0, le_rfl, zero_le_one, le_rfl, by ring, by rw [← e]; simp [comb]⟩
    · exact ⟨t, h0, h1, 0, 0, 1, le_rfl, le_rfl, zero_le_one, by ring, by rw [← e]; simp [comb]⟩
    · exact ⟨t, t0, t1, 0, 1 - s, s, le_rfl, by linarith, s0.le, by ring, by rw [← e]; simp [comb, lerp]⟩
    · exact ⟨t, t0, t1, s, 0, 1 - s, s0.le, le_rfl, by linarith, by ring, by rw [← e]; simp [comb, lerp, add_comm]⟩
    · exact ⟨t, t0, t1, 1 - s, s, 0, by linarith, s0.le, le_rfl, by ring, by rw [← e]; simp [comb, lerp]⟩
    · exact ⟨s, s0, s1, w1, w2, w3, p1.le, p2.le, p3.le, hw, e⟩
  · rintro ⟨s, s0, s1, w1, w2, w3, p1, p2, p3, hw, e⟩
    have hX : orient3d (lerp u1 u2 s) v1 v2 v3 = 0 := by rw [e]; exact orient_comb hw _ _ _
    have d1 := ends_off_plane s0 s1 hX hu'
    have hne : u1 ≠ u2 := by
      rintro rfl
      rw [lerp_self] at hX
      exact d1 hX
    have off : ∀ a b : Pt K, (∀ p, Flat p a b → orient3d p v1 v2 v3 = 0) → ¬ (Collinear a b u1 ∧ Collinear a b u2 ∧
        Collinear u1 u2 a ∧ Collinear u1 u2 b) := by
      rintro a b h ⟨h1, -⟩
      rw [collinear_iff_flat, ← flat_rot] at h1
      exact d1 (h _ h1)
    have f23 : ∀ p, Flat p v2 v3 → orient3d p v1 v2 v3 = 0 := by
      rintro p ⟨h1, h2, h3⟩
      simp only [nXY, nYZ, nXZ, orient2d, xy, yz, xz] at h1 h2 h3
      simp only [orient3d]
      linear_combination -(v1.z - v3.z) * h1 - (v1.x - v3.x) * h2 + (v1.y - v3.y) * h3
    have f31 : ∀ p, Flat p v3 v1 → orient3d p v1 v2 v3 = 0 := by
      rintro p ⟨h1, h2, h3⟩
      simp only [nXY, nYZ, nXZ, orient2d, xy, yz, xz] at h1 h2 h3
      simp only [orient3d]
      linear_combination -(v2.z - v3.z) * h1 - (v2.x - v3.x) * h2 + (v2.y - v3.y) * h3
    have f12 : ∀ p, Flat p v1 v2 → orient3d p v1 v2 v3 = 0 := by
      rintro p ⟨h1, h2, h3⟩
      simp only [nXY, nYZ, nXZ, orient2d, xy, yz, xz] at h1 h2 h3
      simp only [orient3d]
      linear_combination -(v3.z - v2.z) * h1 - (v3.x - v2.x) * h2 + (v3.y - v2.y) * h3
    rcases p1.eq_or_lt with rfl | p1
    · rcases p2.eq_or_lt with rfl | p2
      · have : w3 = 1 := by linarith
        subst this
        exact .inl (.inl (.inl (.inl (.inr ⟨hne, s, s0, s1, by rw [e]; simp [comb]⟩))))
      rcases p3.eq_or_lt with rfl | p3
      · have : w2 = 1 := by linarith
        subst this
        exact .inl (.inl (.inl (.inl (.inl (.inr ⟨hne, s, s0, s1, by rw [e]; simp [comb]⟩)))))
      have : w2 = 1 - w3 := by linarith
      subst this
      exact .inl (.inl (.inl (.inr ⟨⟨w3, s, p3, by linarith, s0, s1, by rw [e]; simp [comb, lerp]⟩, off _ _ f23⟩)))
    rcases p2.eq_or_lt with rfl | p2
    · rcases p3.eq_or_lt with rfl | p3
      · have : w1 = 1 := by linarith
        subst this
        exact .inl (.inl (.inl (.inl (.inl (.inl ⟨hne, s, s0, s1, by rw [e]; simp [comb]⟩)))))
      have : w3 = 1 - w1 := by linarith
      subst this
      exact .inl (.inl (.inr ⟨⟨w1, s, p1, by linarith, s0, s1, by rw [e]; simp [comb, lerp, add_comm]⟩, off _ _ f31⟩))
    rcases p3.eq_or_lt with rfl | p3
    · have : w1 = 1 - w2 := by linarith
      subst this
      exact .inl (.inr ⟨⟨w2, s, p2, by linarith, s0, s1, by rw [e]; simp [comb, lerp]⟩, off _ _ f12⟩)
    exact .inr ⟨hn, by rwa [coplanar_iff hn'], s, s0, s1, w1, w2, w3, p1, p2, p3, hw, e⟩

/-- A segment through an edge, through a vertex, and past the triangle. -/
example : innerSegmentCrossTriangle (K := ℚ) ⟨2, 2, 0⟩ ⟨2, 2, 5⟩ ⟨0, 0, 0⟩ ⟨4, 0, 4⟩ ⟨0, 4, 4⟩ = true ∧
    innerSegmentCrossTriangle (K := ℚ) ⟨4, 0, 0⟩ ⟨4, 0, 5⟩ ⟨0, 0, 0⟩ ⟨4, 0, 4⟩ ⟨0, 4, 4⟩ = true ∧
    innerSegmentCrossTriangle (K := ℚ) ⟨3, 3, 0⟩ ⟨3, 3, 9⟩ ⟨0, 0, 0⟩ ⟨4, 0, 4⟩ ⟨0, 4, 4⟩ = false ∧
    orient3d (K := ℚ) ⟨2, 2, 0⟩ ⟨0, 0, 0⟩ ⟨4, 0, 4⟩ ⟨0, 4, 4⟩ ≠ 0 := by decide +kernel

end Verif.Geom
