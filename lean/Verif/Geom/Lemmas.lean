import Verif.Geom.Model
import Verif.Geom.Spec
import Mathlib.Tactic.Ring
import Mathlib.Tactic.FieldSimp
import Mathlib.Tactic.Linarith
import Mathlib.Tactic.LinearCombination
/-! # Helper lemmas: signs and parallel vectors -/
namespace Verif.Geom
open InSphere (Pt Ori orient3d doubleToSign)

variable {K : Type} [Field K] [LinearOrder K] [IsStrictOrderedRing K]

theorem pt_ext {p q : Pt K} (hx : p.x = q.x) (hy : p.y = q.y) (hz : p.z = q.z) : p = q := by
  cases p; cases q; simp_all

section Sign
omit [IsStrictOrderedRing K]
theorem sign_pos {v : K} : doubleToSign v = .positive ↔ 0 < v := by
  unfold doubleToSign; split_ifs <;> simp_all
theorem sign_neg {v : K} : doubleToSign v = .negative ↔ v < 0 := by
  unfold doubleToSign; split_ifs with h1 h2 <;> simp_all
  exact le_of_lt h1
theorem sign_zero {v : K} : doubleToSign v = .zero ↔ v = 0 := by
  unfold doubleToSign; split_ifs with h1 h2
  · simpa using h1.ne'
  · simpa using h2.ne
  · simpa using le_antisymm (not_lt.1 h1) (not_lt.1 h2)
theorem sign_eq_iff {a b : K} : doubleToSign a = doubleToSign b ↔ (0 < a ↔ 0 < b) ∧ (a < 0 ↔ b < 0) := by
  constructor
  · intro h
    exact ⟨by rw [← sign_pos, ← sign_pos, h], by rw [← sign_neg, ← sign_neg, h]⟩
  · rintro ⟨h1, h2⟩
    rcases lt_trichotomy b 0 with h | h | h
    · rw [sign_neg.2 h, sign_neg.2 (h2.2 h)]
    · have hb1 : ¬ 0 < b := by rw [h]; exact lt_irrefl _
      have hb2 : ¬ b < 0 := by rw [h]; exact lt_irrefl _
      have : a = 0 := le_antisymm (not_lt.1 fun q => hb1 (h1.1 q)) (not_lt.1 fun q => hb2 (h2.1 q))
      rw [h, this]
    · rw [sign_pos.2 h, sign_pos.2 (h1.2 h)]
end Sign

/-- Multiplying by a positive number keeps the sign. -/
theorem sign_mul_pos {c v : K} (hc : 0 < c) : doubleToSign (c * v) = doubleToSign v := by
  rw [sign_eq_iff]
  refine ⟨mul_pos_iff_of_pos_left hc, ⟨fun h => ?_, fun h => mul_neg_of_pos_of_neg hc h⟩⟩
  by_contra hv
  have := mul_nonneg hc.le (not_lt.1 hv)
  linarith

theorem sign_mul_eq {c v : K} (hv : v ≠ 0) : doubleToSign (c * v) = doubleToSign v ↔ 0 < c := by
  constructor
  · intro h
    by_contra hc
    rcases (not_lt.1 hc).lt_or_eq with hc | rfl
    · rcases lt_or_gt_of_ne hv with hv | hv
      · have h1 := sign_neg.2 hv
        rw [← h, sign_neg] at h1
        have := mul_pos_of_neg_of_neg hc hv
        linarith
      · have h1 := sign_pos.2 hv
        rw [← h, sign_pos] at h1
        have := mul_neg_of_neg_of_pos hc hv
        linarith
    · rw [zero_mul, sign_zero.2 rfl] at h
      exact hv (sign_zero.1 h.symm)
  · exact sign_mul_pos

/-- Parallel vectors. -/
theorem parallel {n1 n2 n3 m1 m2 m3 : K} (h12 : n1 * m2 = n2 * m1) (h23 : n2 * m3 = n3 * m2) (h13 : n1 * m3 = n3 * m1)
    (hn : ¬ (n1 = 0 ∧ n2 = 0 ∧ n3 = 0)) : ∃ c, m1 = c * n1 ∧ m2 = c * n2 ∧ m3 = c * n3 := by
  by_cases h1 : n1 = 0
  · by_cases h2 : n2 = 0
    · have h3 : n3 ≠ 0 := fun h => hn ⟨h1, h2, h⟩
      subst h1 h2
      refine ⟨m3 / n3, ?_, ?_, ?_⟩
      · have : n3 * m1 = 0 := by linarith
        rcases mul_eq_zero.1 this with h | h
        · exact absurd h h3
        · rw [h]; ring
      · have : n3 * m2 = 0 := by linarith
        rcases mul_eq_zero.1 this with h | h
        · exact absurd h h3
        · rw [h]; ring
      · field_simp
    · refine ⟨m2 / n2, ?_, ?_, ?_⟩ <;> field_simp <;> linarith
  · refine ⟨m1 / n1, ?_, ?_, ?_⟩ <;> field_simp <;> linarith

/-- Signs of a multiple of a non-zero vector agree with its own signs iff the factor is positive. -/
theorem signs_multiple {c n1 n2 n3 : K} (hn : ¬ (n1 = 0 ∧ n2 = 0 ∧ n3 = 0)) :
    (doubleToSign (c * n1) = doubleToSign n1 ∧ doubleToSign (c * n2) = doubleToSign n2 ∧
      doubleToSign (c * n3) = doubleToSign n3) ↔ 0 < c := by
  constructor
  · rintro ⟨a1, a2, a3⟩
    by_cases h1 : n1 = 0
    · by_cases h2 : n2 = 0
      · by_cases h3 : n3 = 0
        · exact absurd ⟨h1, h2, h3⟩ hn
        · exact (sign_mul_eq h3).1 a3
      · exact (sign_mul_eq h2).1 a2
    · exact (sign_mul_eq h1).1 a1
  · intro h
    exact ⟨sign_mul_pos h, sign_mul_pos h, sign_mul_pos h⟩

/-- All three projections of the oriented area. -/
def nXY (a b c : Pt K) : K := orient2d (xy a) (xy b) (xy c)
@[inherit_doc nXY] def nYZ (a b c : Pt K) : K := orient2d (yz a) (yz b) (yz c)
@[inherit_doc nXY] def nXZ (a b c : Pt K) : K := orient2d (xz a) (xz b) (xz c)

/-- The triangle is degenerate. -/
def Flat (a b c : Pt K) : Prop := nXY a b c = 0 ∧ nYZ a b c = 0 ∧ nXZ a b c = 0

section
omit [LinearOrder K] [IsStrictOrderedRing K]

theorem flat_of_collinear {p q r : Pt K} (h : Collinear p q r) : Flat p q r := by
  obtain ⟨o, d, a, b, c, rfl, rfl, rfl⟩ := h
  refine ⟨?_, ?_, ?_⟩ <;> simp only [nXY, nYZ, nXZ, orient2d, xy, yz, xz, onLine] <;> ring
end

theorem collinear_of_flat {p q r : Pt K} (h : Flat p q r) : Collinear p q r := by
  obtain ⟨h1, h2, h3⟩ := h
  simp only [nXY, nYZ, nXZ, orient2d, xy, yz, xz] at h1 h2 h3
  by_cases hb : q.x - r.x = 0 ∧ q.y - r.y = 0 ∧ q.z - r.z = 0
  · refine ⟨r, ⟨p.x - r.x, p.y - r.y, p.z - r.z⟩, 1, 0, 0, ?_, ?_, ?_⟩ <;> apply pt_ext <;> simp only [onLine] <;> linarith [hb.1, hb.2.1, hb.2.2]
  · obtain ⟨c, e1, e2, e3⟩ := parallel (n1 := q.x - r.x) (n2 := q.y - r.y) (n3 := q.z - r.z) (m1 := p.x - r.x)
      (m2 := p.y - r.y) (m3 := p.z - r.z) (by linarith) (by linarith) (by linarith) hb
    refine ⟨r, ⟨q.x - r.x, q.y - r.y, q.z - r.z⟩, c, 1, 0, ?_, ?_, ?_⟩ <;> apply pt_ext <;> simp only [onLine] <;> linarith

theorem collinear_iff_flat {p q r : Pt K} : Collinear p q r ↔ Flat p q r := ⟨flat_of_collinear, collinear_of_flat⟩

omit [IsStrictOrderedRing K] in
theorem misAlignment_iff {p q r : Pt K} : misAlignment p q r = true ↔ ¬ Flat p q r := by
  unfold misAlignment Flat nXY nYZ nXZ
  split_ifs with h1 h2 <;> simp_all

omit [LinearOrder K] [IsStrictOrderedRing K] in
theorem flat_swap {p q r : Pt K} : Flat p q r ↔ Flat q p r := by
  have h1 : nXY p q r = - nXY q p r := by simp only [nXY, orient2d]; ring
  have h2 : nYZ p q r = - nYZ q p r := by simp only [nYZ, orient2d]; ring
  have h3 : nXZ p q r = - nXZ q p r := by simp only [nXZ, orient2d]; ring
  simp [Flat, h1, h2, h3]

omit [LinearOrder K] [IsStrictOrderedRing K] in
theorem flat_rot {p q r : Pt K} : Flat p q r ↔ Flat q r p := by
  have h1 : nXY p q r = nXY q r p := by simp only [nXY, orient2d]; ring
  have h2 : nYZ p q r = nYZ q r p := by simp only [nYZ, orient2d]; ring
  have h3 : nXZ p q r = nXZ q r p := by simp only [nXZ, orient2d]; ring
  simp [Flat, h1, h2, h3]

omit [IsStrictOrderedRing K] in
theorem sameHalfPlane_iff {p q v1 v2 : Pt K} : sameHalfPlane p q v1 v2 = true ↔
    doubleToSign (nXY p v1 v2) = doubleToSign (nXY q v1 v2) ∧ doubleToSign (nYZ p v1 v2) = doubleToSign (nYZ q v1 v2) ∧
      doubleToSign (nXZ p v1 v2) = doubleToSign (nXZ q v1 v2) := by
  unfold sameHalfPlane oXY oYZ oXZ nXY nYZ nXZ
  split_ifs with h1 h2 <;> simp_all

/-- If the end points of `u1 u2` are strictly on different sides of the line `v1 v2` in a common plane, then the open segment meets that
line. -/
theorem meet_line {u1 u2 v1 v2 : Pt K} (hd : orient3d u1 u2 v1 v2 = 0) (h1 : ¬ Flat u1 v1 v2) (h2 : ¬ Flat u2 v1 v2)
    (hs : sameHalfPlane u1 u2 v1 v2 = false) : ∃ s t, 0 < s ∧ s < 1 ∧ lerp u1 u2 s = lerp v1 v2 t := by
  have p12 : nXY u1 v1 v2 * nYZ u2 v1 v2 = nYZ u1 v1 v2 * nXY u2 v1 v2 := by
    simp only [nXY, nYZ, orient2d, xy, yz, orient3d] at *
    linear_combination (v1.y - v2.y) * hd
  have p23 : nYZ u1 v1 v2 * nXZ u2 v1 v2 = nXZ u1 v1 v2 * nYZ u2 v1 v2 := by
    simp only [nXZ, nYZ, orient2d, xz, yz, orient3d] at *
    linear_combination (v2.z - v1.z) * hd
  have p13 : nXY u1 v1 v2 * nXZ u2 v1 v2 = nXZ u1 v1 v2 * nXY u2 v1 v2 := by
    simp only [nXY, nXZ, orient2d, xy, xz, orient3d] at *
    linear_combination (v1.x - v2.x) * hd
  obtain ⟨c, c1, c2, c3⟩ := parallel p12 p23 p13 h1
  have hc : c < 0 := by
    have hne : c ≠ 0 := by
      rintro rfl
      exact h2 ⟨by rw [c1]; ring, by rw [c2]; ring, by rw [c3]; ring⟩
    by_contra hge
    have hpos : 0 < c := lt_of_le_of_ne (not_lt.1 hge) (Ne.symm hne)
    have := (signs_multiple h1).2 hpos
    rw [← c1, ← c2, ← c3] at this
    have h3 : sameHalfPlane u1 u2 v1 v2 = true := sameHalfPlane_iff.2 ⟨this.1.symm, this.2.1.symm, this.2.2.symm⟩
    rw [hs] at h3; cases h3
  have h1c : (0 : K) < 1 - c := by linarith
  have hd0 : ¬ (v1.x - v2.x = 0 ∧ v1.y - v2.y = 0 ∧ v1.z - v2.z = 0) := by
    rintro ⟨a1, a2, a3⟩
    apply h1
    simp only [Flat, nXY, nYZ, nXZ, orient2d, xy, yz, xz, a1, a2, a3]
    refine ⟨?_, ?_, ?_⟩ <;> ring
  simp only [nXY, nYZ, nXZ, orient2d, xy, yz, xz] at c1 c2 c3
  obtain ⟨t, t1, t2, t3⟩ := parallel (n1 := v1.x - v2.x) (n2 := v1.y - v2.y) (n3 := v1.z - v2.z)
    (m1 := (-c * (u1.x - v2.x) + (u2.x - v2.x))) (m2 := (-c * (u1.y - v2.y) + (u2.y - v2.y)))
    (m3 := (-c * (u1.z - v2.z) + (u2.z - v2.z))) (by linear_combination -c1) (by linear_combination -c2)
    (by linear_combination -c3) hd0
  refine ⟨1 / (1 - c), 1 - t / (1 - c), by positivity, by rw [div_lt_one h1c]; linarith, ?_⟩
  have hne : (1 - c) ≠ 0 := h1c.ne'
  apply pt_ext <;> simp only [lerp] <;> field_simp <;> linarith

/-- Barycentric coordinates in the plane of a triangle. -/
theorem plane_coords {p v1 v2 v3 : Pt K} (hd : orient3d p v1 v2 v3 = 0) (hn : ¬ Flat v1 v2 v3) :
    ∃ w1 w2 w3, w1 + w2 + w3 = 1 ∧ p = comb w1 w2 w3 v1 v2 v3 ∧
      (nXY p v2 v3 = w1 * nXY v1 v2 v3 ∧ nYZ p v2 v3 = w1 * nYZ v1 v2 v3 ∧ nXZ p v2 v3 = w1 * nXZ v1 v2 v3) ∧
      (nXY p v3 v1 = w2 * nXY v1 v2 v3 ∧ nYZ p v3 v1 = w2 * nYZ v1 v2 v3 ∧ nXZ p v3 v1 = w2 * nXZ v1 v2 v3) ∧
      (nXY p v1 v2 = w3 * nXY v1 v2 v3 ∧ nYZ p v1 v2 = w3 * nYZ v1 v2 v3 ∧ nXZ p v1 v2 = w3 * nXZ v1 v2 v3) := by
  have par : ∀ q r : Pt K, (q = v2 ∧ r = v3) ∨ (q = v3 ∧ r = v1) →
      ∃ c, nXY p q r = c * nXY v1 v2 v3 ∧ nYZ p q r = c * nYZ v1 v2 v3 ∧ nXZ p q r = c * nXZ v1 v2 v3 := by
    intro q r hqr
    apply parallel _ _ _ hn
    · rcases hqr with ⟨rfl, rfl⟩ | ⟨rfl, rfl⟩ <;> simp only [nXY, nYZ, orient2d, xy, yz, orient3d] at * <;>
        first | linear_combination (r.y - q.y) * hd | linear_combination (q.y - r.y) * hd
    · rcases hqr with ⟨rfl, rfl⟩ | ⟨rfl, rfl⟩ <;> simp only [nXZ, nYZ, orient2d, xz, yz, orient3d] at * <;>
        first | linear_combination (r.z - q.z) * hd | linear_combination (q.z - r.z) * hd
    · rcases hqr with ⟨rfl, rfl⟩ | ⟨rfl, rfl⟩ <;> simp only [nXY, nXZ, orient2d, xy, xz, orient3d] at * <;>
        first | linear_combination (r.x - q.x) * hd | linear_combination (q.x - r.x) * hd
  obtain ⟨w1, a1, a2, a3⟩ := par v2 v3 (.inl ⟨rfl, rfl⟩)
  obtain ⟨w2, b1, b2, b3⟩ := par v3 v1 (.inr ⟨rfl, rfl⟩)
  have sXY : nXY p v2 v3 + nXY p v3 v1 + nXY p v1 v2 = nXY v1 v2 v3 := by simp only [nXY, orient2d]; ring
  have sYZ : nYZ p v2 v3 + nYZ p v3 v1 + nYZ p v1 v2 = nYZ v1 v2 v3 := by simp only [nYZ, orient2d]; ring
  have sXZ : nXZ p v2 v3 + nXZ p v3 v1 + nXZ p v1 v2 = nXZ v1 v2 v3 := by simp only [nXZ, orient2d]; ring
  refine ⟨w1, w2, 1 - w1 - w2, by ring, ?_, ⟨a1, a2, a3⟩, ⟨b1, b2, b3⟩, by linear_combination sXY - a1 - b1,
    by linear_combination sYZ - a2 - b2, by linear_combination sXZ - a3 - b3⟩
  have solve : ∀ y : K, y * nXY v1 v2 v3 = 0 → y * nYZ v1 v2 v3 = 0 → y * nXZ v1 v2 v3 = 0 → y = 0 := by
    intro y e1 e2 e3
    by_contra hy
    exact hn ⟨(mul_eq_zero.1 e1).resolve_left hy, (mul_eq_zero.1 e2).resolve_left hy, (mul_eq_zero.1 e3).resolve_left hy⟩
  simp only [nXY, nYZ, nXZ, orient2d, xy, yz, xz] at a1 a2 a3 b1 b2 b3 solve
  apply pt_ext <;> simp only [comb] <;> apply eq_of_sub_eq_zero <;> apply solve
  · linear_combination (v1.x - v3.x) * a1 + (v2.x - v3.x) * b1
  · linear_combination (v1.x - v3.x) * a2 - (v2.z - v3.z) * b1 + (v2.y - v3.y) * b3
  · linear_combination (v1.x - v3.x) * a3 + (v2.x - v3.x) * b3
  · linear_combination (v1.y - v3.y) * a1 + (v2.y - v3.y) * b1
  · linear_combination (v1.y - v3.y) * a2 + (v2.y - v3.y) * b2
  · linear_combination (v1.y - v3.y) * a3 + (v2.z - v3.z) * b1 + (v2.x - v3.x) * b2
  · linear_combination (v1.z - v3.z) * a1 + (v2.y - v3.y) * b3 - (v2.x - v3.x) * b2
  · linear_combination (v1.z - v3.z) * a2 + (v2.z - v3.z) * b2
  · linear_combination (v1.z - v3.z) * a3 + (v2.z - v3.z) * b3

end Verif.Geom
