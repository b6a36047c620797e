import Verif.Constraint.Spec
import Verif.Geom.Props
import Mathlib.Algebra.BigOperators.Fin
import Mathlib.Algebra.Order.Field.Basic
import Mathlib.Tactic.Positivity
import Mathlib.Tactic.FieldSimp
/-!
# Points of a tetrahedron and of the plane of a triangle
-/
namespace Verif.Constraint
open InSphere (Pt orient3d)
open Delaunay (Comb)
open Geom

variable {K : Type} [Field K] [LinearOrder K] [IsStrictOrderedRing K]

omit [LinearOrder K] [IsStrictOrderedRing K] in
/-- The height over a plane is affine. -/
theorem height_comb {c : Fin 4 → Pt K} {w : Fin 4 → K} {p : Pt K} (h : Comb c w p) (A B C : Pt K) :
    orient3d p A B C = ∑ i, w i * orient3d (c i) A B C := by
  obtain ⟨hs, hx, hy, hz⟩ := h
  rw [Fin.sum_univ_four] at *
  have : w 3 = 1 - w 0 - w 1 - w 2 := by linear_combination hs
  simp only [orient3d, hx, hy, hz, this]
  ring

omit [LinearOrder K] [IsStrictOrderedRing K] in
theorem comb_lerp {c : Fin 4 → Pt K} {w w' : Fin 4 → K} {p q : Pt K} (h : Comb c w p) (h' : Comb c w' q) (t : K) :
    Comb c (fun i => (1 - t) * w i + t * w' i) (lerp p q t) := by
  obtain ⟨hs, hx, hy, hz⟩ := h
  obtain ⟨hs', hx', hy', hz'⟩ := h'
  rw [Fin.sum_univ_four] at *
  refine ⟨?_, ?_, ?_, ?_⟩ <;> rw [Fin.sum_univ_four]
  · linear_combination (1 - t) * hs + t * hs'
  · simp only [lerp]; linear_combination (1 - t) * hx + t * hx'
  · simp only [lerp]; linear_combination (1 - t) * hy + t * hy'
  · simp only [lerp]; linear_combination (1 - t) * hz + t * hz'

omit [LinearOrder K] [IsStrictOrderedRing K] in
theorem comb3_lerp (A B C : Pt K) (a b c a' b' c' t : K) :
    lerp (comb a b c A B C) (comb a' b' c' A B C) t = comb ((1 - t) * a + t * a') ((1 - t) * b + t * b') ((1 - t) * c + t * c') A B C := by
  simp only [lerp, comb, Pt.mk.injEq]
  refine ⟨?_, ?_, ?_⟩ <;> ring

omit [LinearOrder K] [IsStrictOrderedRing K] in
/-- The corners of a tetrahedron. -/
theorem comb_corner (c : Fin 4 → Pt K) (i : Fin 4) : Comb c (Pi.single i 1) (c i) := by
  refine ⟨by simp, ?_, ?_, ?_⟩ <;> simp [Pi.single_apply]

omit [LinearOrder K] [IsStrictOrderedRing K] in
/-- Any weights give a point. -/
theorem comb_exists (c : Fin 4 → Pt K) {w : Fin 4 → K} (h : ∑ i, w i = 1) : ∃ p, Comb c w p :=
  ⟨⟨∑ i, w i * (c i).x, ∑ i, w i * (c i).y, ∑ i, w i * (c i).z⟩, h, rfl, rfl, rfl⟩

theorem inTet_corner (c : Fin 4 → Pt K) (i : Fin 4) : InTet c (c i) :=
  ⟨_, fun j => by rw [Pi.single_apply]; split <;> simp, comb_corner c i⟩

theorem inTet_lerp {c : Fin 4 → Pt K} {p q : Pt K} (hp : InTet c p) (hq : InTet c q) {t : K} (h0 : 0 ≤ t) (h1 : t ≤ 1) : InTet c (lerp p q t) := by
  obtain ⟨w, hw, e⟩ := hp
  obtain ⟨w', hw', e'⟩ := hq
  exact ⟨_, fun i => add_nonneg (mul_nonneg (by linarith) (hw i)) (mul_nonneg h0 (hw' i)), comb_lerp e e' t⟩

theorem InsideTet.inTet {c : Fin 4 → Pt K} {p : Pt K} (h : InsideTet c p) : InTet c p := by
  obtain ⟨w, hw, e⟩ := h
  exact ⟨w, fun i => (hw i).le, e⟩

/-- A little way towards `w'` positive weights stay positive. -/
theorem eps1 {w w' : K} (h : 0 < w) : ∃ e, 0 < e ∧ e < 1 ∧ ∀ t, 0 ≤ t → t ≤ e → 0 < (1 - t) * w + t * w' := by
  refine ⟨min (1 / 2) (w / (2 * (w + |w'|))), lt_min (by norm_num) ?_, lt_of_le_of_lt (min_le_left _ _) (by norm_num), fun t h0 h1 => ?_⟩
  · have : 0 < w + |w'| := by positivity
    positivity
  · have hp : 0 < w + |w'| := by positivity
    have h2 : t ≤ w / (2 * (w + |w'|)) := le_trans h1 (min_le_right _ _)
    rw [le_div_iff₀ (by linarith)] at h2
    have h3 : -|w'| ≤ w' := neg_abs_le w'
    have h4 : -(t * |w'|) ≤ t * w' := by nlinarith
    nlinarith

/-- The point of a line at which the first of three numbers reaches zero. -/
theorem first_zero {w1 w2 w3 v1 v2 v3 : K} (h1 : 0 < w1) (h2 : 0 < w2) (h3 : 0 < w3) (hv : ¬ (0 < v1 ∧ 0 < v2 ∧ 0 < v3)) :
    ∃ t, 0 < t ∧ t ≤ 1 ∧ 0 ≤ (1 - t) * w1 + t * v1 ∧ 0 ≤ (1 - t) * w2 + t * v2 ∧ 0 ≤ (1 - t) * w3 + t * v3 ∧
      ((1 - t) * w1 + t * v1 = 0 ∨ (1 - t) * w2 + t * v2 = 0 ∨ (1 - t) * w3 + t * v3 = 0) := by
  -- the time at which one weight vanishes, or 1
  have key : ∀ w v : K, 0 < w → ∃ s, 0 < s ∧ s ≤ 1 ∧ (∀ t, 0 ≤ t → t ≤ s → 0 ≤ (1 - t) * w + t * v) ∧ (v ≤ 0 → (1 - s) * w + s * v = 0) ∧ (0 < v → s = 1) := by
    intro w v hw
    by_cases hv : v ≤ 0
    · have hd : 0 < w - v := by linarith
      refine ⟨w / (w - v), div_pos hw hd, (div_le_one hd).2 (by linarith), fun t h0 h1 => ?_, fun _ => ?_, fun h => absurd h (not_lt.2 hv)⟩
      · rw [le_div_iff₀ hd] at h1; nlinarith
      · field_simp; ring
    · push Not at hv
      exact ⟨1, one_pos, le_rfl, fun t h0 h1 => by nlinarith, fun h => absurd h (not_le.2 hv), fun _ => rfl⟩
  obtain ⟨s1, a1, b1, c1, d1, e1⟩ := key w1 v1 h1
  obtain ⟨s2, a2, b2, c2, d2, e2⟩ := key w2 v2 h2
  obtain ⟨s3, a3, b3, c3, d3, e3⟩ := key w3 v3 h3
  have neg : v1 ≤ 0 ∨ v2 ≤ 0 ∨ v3 ≤ 0 := by
    by_contra h
    simp only [not_or, not_le] at h
    exact hv h
  -- the smallest of the three times
  have goal : ∀ s, 0 < s → s ≤ 1 → s ≤ s1 → s ≤ s2 → s ≤ s3 → ((s = s1 ∧ v1 ≤ 0) ∨ (s = s2 ∧ v2 ≤ 0) ∨ (s = s3 ∧ v3 ≤ 0)) →
      ∃ t, 0 < t ∧ t ≤ 1 ∧ 0 ≤ (1 - t) * w1 + t * v1 ∧ 0 ≤ (1 - t) * w2 + t * v2 ∧ 0 ≤ (1 - t) * w3 + t * v3 ∧
      ((1 - t) * w1 + t * v1 = 0 ∨ (1 - t) * w2 + t * v2 = 0 ∨ (1 - t) * w3 + t * v3 = 0) := by
    intro s p q r1 r2 r3 h
    refine ⟨s, p, q, c1 s p.le r1, c2 s p.le r2, c3 s p.le r3, ?_⟩
    rcases h with ⟨rfl, h⟩ | ⟨rfl, h⟩ | ⟨rfl, h⟩
    · exact .inl (d1 h)
    · exact .inr (.inl (d2 h))
    · exact .inr (.inr (d3 h))
  have sgn : ∀ {s v : K}, (0 < v → s = 1) → v ≤ 0 ∨ s = 1 := fun h => by
    rename_i s v
    rcases le_or_gt v 0 with g | g
    · exact .inl g
    · exact .inr (h g)
  rcases sgn e1 with p1 | p1 <;> rcases sgn e2 with p2 | p2 <;> rcases sgn e3 with p3 | p3
  · rcases le_total s1 s2 with q | q
    · rcases le_total s1 s3 with r | r
      · exact goal s1 a1 b1 le_rfl q r (.inl ⟨rfl, p1⟩)
      · exact goal s3 a3 b3 r (r.trans q) le_rfl (.inr (.inr ⟨rfl, p3⟩))
    · rcases le_total s2 s3 with r | r
      · exact goal s2 a2 b2 q le_rfl r (.inr (.inl ⟨rfl, p2⟩))
      · exact goal s3 a3 b3 (r.trans q) r le_rfl (.inr (.inr ⟨rfl, p3⟩))
  · rcases le_total s1 s2 with q | q
    · exact goal s1 a1 b1 le_rfl q (p3 ▸ b1) (.inl ⟨rfl, p1⟩)
    · exact goal s2 a2 b2 q le_rfl (p3 ▸ b2) (.inr (.inl ⟨rfl, p2⟩))
  · rcases le_total s1 s3 with q | q
    · exact goal s1 a1 b1 le_rfl (p2 ▸ b1) q (.inl ⟨rfl, p1⟩)
    · exact goal s3 a3 b3 q (p2 ▸ b3) le_rfl (.inr (.inr ⟨rfl, p3⟩))
  · exact goal s1 a1 b1 le_rfl (p2 ▸ b1) (p3 ▸ b1) (.inl ⟨rfl, p1⟩)
  · rcases le_total s2 s3 with q | q
    · exact goal s2 a2 b2 (p1 ▸ b2) le_rfl q (.inr (.inl ⟨rfl, p2⟩))
    · exact goal s3 a3 b3 (p1 ▸ b3) q le_rfl (.inr (.inr ⟨rfl, p3⟩))
  · exact goal s2 a2 b2 (p1 ▸ b2) le_rfl (p3 ▸ b2) (.inr (.inl ⟨rfl, p2⟩))
  · exact goal s3 a3 b3 (p1 ▸ b3) (p2 ▸ b3) le_rfl (.inr (.inr ⟨rfl, p3⟩))
  · refine goal 1 one_pos le_rfl p1.ge p2.ge p3.ge ?_
    rcases neg with h | h | h
    · exact .inl ⟨p1.symm, h⟩
    · exact .inr (.inl ⟨p2.symm, h⟩)
    · exact .inr (.inr ⟨p3.symm, h⟩)

/-- A point of the closed triangle with a vanishing weight is on a side. -/
theorem onSides_of_zero {A B C : Pt K} {a b c : K} (ha : 0 ≤ a) (hb : 0 ≤ b) (hc : 0 ≤ c) (hs : a + b + c = 1) (h : a = 0 ∨ b = 0 ∨ c = 0) :
    OnSides (comb a b c A B C) A B C := by
  rcases h with rfl | rfl | rfl
  · refine .inr (.inl ⟨c, hc, by linarith, ?_⟩)
    apply pt_ext <;> simp only [lerp, comb] <;> rw [show b = 1 - c by linarith] <;> ring
  · refine .inr (.inr ⟨a, ha, by linarith, ?_⟩)
    apply pt_ext <;> simp only [lerp, comb] <;> rw [show c = 1 - a by linarith] <;> ring
  · refine .inl ⟨b, hb, by linarith, ?_⟩
    apply pt_ext <;> simp only [lerp, comb] <;> rw [show a = 1 - b by linarith] <;> ring

/-- A point on a side has a vanishing weight. -/
theorem zero_of_onSides {A B C p : Pt K} (h : OnSides p A B C) :
    ∃ a b c, 0 ≤ a ∧ 0 ≤ b ∧ 0 ≤ c ∧ a + b + c = 1 ∧ p = comb a b c A B C ∧ (a = 0 ∨ b = 0 ∨ c = 0) := by
  rcases h with ⟨t, h0, h1, rfl⟩ | ⟨t, h0, h1, rfl⟩ | ⟨t, h0, h1, rfl⟩
  · exact ⟨1 - t, t, 0, by linarith, h0, le_rfl, by ring, by apply pt_ext <;> simp only [lerp, comb] <;> ring, .inr (.inr rfl)⟩
  · exact ⟨0, 1 - t, t, le_rfl, by linarith, h0, by ring, by apply pt_ext <;> simp only [lerp, comb] <;> ring, .inl rfl⟩
  · exact ⟨t, 0, 1 - t, h0, le_rfl, by linarith, by ring, by apply pt_ext <;> simp only [lerp, comb] <;> ring, .inr (.inl rfl)⟩

/-- A segment in the plane of a triangle that starts inside and meets no side ends inside. -/
theorem stays_inside {A B C p q : Pt K} (hp : InOpenTriangle p A B C) (hq : Coplanar q A B C)
    (h : ∀ t, 0 ≤ t → t ≤ 1 → ¬ OnSides (lerp p q t) A B C) : InOpenTriangle q A B C := by
  obtain ⟨a, b, c, ha, hb, hc, hs, rfl⟩ := hp
  obtain ⟨a', b', c', hs', rfl⟩ := hq
  refine ⟨a', b', c', ?_⟩
  by_contra hn
  have hv : ¬ (0 < a' ∧ 0 < b' ∧ 0 < c') := fun ⟨x, y, z⟩ => hn ⟨x, y, z, hs', rfl⟩
  obtain ⟨t, t0, t1, z1, z2, z3, hz⟩ := first_zero ha hb hc hv
  apply h t t0.le t1
  rw [comb3_lerp]
  exact onSides_of_zero z1 z2 z3 (by linear_combination (1 - t) * hs + t * hs') hz

end Verif.Constraint
