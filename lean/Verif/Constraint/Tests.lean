import Verif.Constraint.Weights
import Verif.Geom.Props
/-!
# The tests of the walk in terms of barycentric coordinates
-/
namespace Verif.Constraint
open InSphere (Pt orient3d doubleToSign)
open Tet (Mesh TriFace orientIdx)
open Delaunay (Comb SolidTet IsDelaunay pt get_pt)
open Geom

variable {K : Type} [Field K] [LinearOrder K] [IsStrictOrderedRing K] {m : Mesh} {pts : List (Pt K)}

section
variable (hD : IsDelaunay pts m) {t : Nat} {x : Tet.Tet} {a b c d : Nat}
include hD

/-- A point of the face. -/
theorem Four.on_face (h : Four x a b c d) (S : Sol pts m t x) {p : Pt K} (h0 : wt pts x d p = 0) :
    wt pts x a p + wt pts x b p + wt pts x c p = 1 ∧ p = comb (wt pts x a p) (wt pts x b p) (wt pts x c p) (pt pts a) (pt pts b) (pt pts c) := by
  obtain ⟨hs, hx, hy, hz⟩ := h.expand hD S p
  rw [h0] at hs hx hy hz
  refine ⟨by linear_combination hs, pt_ext ?_ ?_ ?_⟩ <;> simp only [comb]
  · linear_combination hx
  · linear_combination hy
  · linear_combination hz

omit [IsStrictOrderedRing K] in
theorem Four.of_face (h : Four x a b c d) (S : Sol pts m t x) {wa wb wc : K} (hs : wa + wb + wc = 1) :
    wt pts x a (comb wa wb wc (pt pts a) (pt pts b) (pt pts c)) = wa ∧ wt pts x b (comb wa wb wc (pt pts a) (pt pts b) (pt pts c)) = wb ∧
    wt pts x c (comb wa wb wc (pt pts a) (pt pts b) (pt pts c)) = wc ∧ wt pts x d (comb wa wb wc (pt pts a) (pt pts b) (pt pts c)) = 0 :=
  h.unique hD S (by linear_combination hs) (by simp [comb]) (by simp [comb]) (by simp [comb])

/-- A point of the edge. -/
theorem Four.on_edge (h : Four x a b c d) (S : Sol pts m t x) {p : Pt K} (hc : wt pts x c p = 0) (h0 : wt pts x d p = 0) : wt pts x a p = 1 - wt pts x b p ∧ p = lerp (pt pts a) (pt pts b) (wt pts x b p) := by
  obtain ⟨hs, e⟩ := h.on_face hD S h0
  rw [hc] at hs e
  have ha : wt pts x a p = 1 - wt pts x b p := by linear_combination hs
  refine ⟨ha, ?_⟩
  rw [ha] at e
  conv_lhs => rw [e]
  apply pt_ext <;> simp only [comb, lerp] <;> ring

omit [IsStrictOrderedRing K] in
theorem Four.of_edge (h : Four x a b c d) (S : Sol pts m t x) (s : K) :
    wt pts x a (lerp (pt pts a) (pt pts b) s) = 1 - s ∧ wt pts x b (lerp (pt pts a) (pt pts b) s) = s ∧ wt pts x c (lerp (pt pts a) (pt pts b) s) = 0 ∧ wt pts x d (lerp (pt pts a) (pt pts b) s) = 0 :=
  h.unique hD S (by ring) (by simp [lerp]) (by simp [lerp]) (by simp [lerp])

open Classical in
/-- The open segment pierces the open face. -/
theorem segInnerTri_eq (h : Four x a b c d) (S : Sol pts m t x) {u1 u2 : Nat} (h1 : u1 < pts.length) (h2 : u2 < pts.length) :
    vSegInnerTri pts u1 u2 a b c = some (decide (wt pts x d (pt pts u1) ≠ 0 ∧ ∃ s, 0 < s ∧ s < 1 ∧ 0 < wt pts x a (lerp (pt pts u1) (pt pts u2) s) ∧ 0 < wt pts x b (lerp (pt pts u1) (pt pts u2) s) ∧
      0 < wt pts x c (lerp (pt pts u1) (pt pts u2) s) ∧ wt pts x d (lerp (pt pts u1) (pt pts u2) s) = 0)) := by
  have hz : ∀ v, v = a ∨ v = b ∨ v = c → wt pts x d (pt pts v) = 0 := by
    obtain ⟨n1, n2, n3, n4, n5, n6⟩ := h.ne hD S
    rintro v (rfl | rfl | rfl)
    · exact (h.corner hD S).2.2.2
    · exact (h.swap01.corner hD S).2.2.2
    · exact (h.swap12.swap01.corner hD S).2.2.2
  obtain ⟨ga, gb, gc, gd⟩ := h.lt hD S
  unfold vSegInnerTri
  split
  · next he =>
    symm
    rw [Option.some.injEq, decide_eq_false_iff_not]
    rintro ⟨hne, s, h0, h1, -, -, -, hd⟩
    by_cases hu : u1 = a ∨ u1 = b ∨ u1 = c
    · exact hne (hz _ hu)
    · have hu2 : u2 = a ∨ u2 = b ∨ u2 = c := by tauto
      rw [S.wt_lerp hD, hz _ hu2, mul_zero, add_zero] at hd
      rcases mul_eq_zero.1 hd with h | h
      · linarith
      · exact hne h
  · rw [get_pt h1, get_pt h2, get_pt ga, get_pt gb, get_pt gc]
    simp only [Option.bind_eq_bind, Option.bind_some, Option.pure_def, Option.some.injEq]
    rw [Bool.eq_iff_iff, c37_inner_segment_cross_inner_triangle, decide_eq_true_iff, collinear_iff_flat, coplanar_iff (h.not_flat hD S)]
    have hv := h.volume hD S
    rw [h.height hD S]
    constructor
    · rintro ⟨-, hne, s, h0, h1, wa, wb, wc, ha, hb, hc, hs, e⟩
      refine ⟨fun e => hne (by rw [e, zero_mul]), s, h0, h1, ?_⟩
      rw [e]
      obtain ⟨e1, e2, e3, e4⟩ := h.of_face hD S hs
      exact ⟨by rw [e1]; exact ha, by rw [e2]; exact hb, by rw [e3]; exact hc, e4⟩
    · rintro ⟨hne, s, h0, h1, ha, hb, hc, hd⟩
      obtain ⟨hs, e⟩ := h.on_face hD S hd
      exact ⟨h.not_flat hD S, mul_ne_zero hne hv, s, h0, h1, _, _, _, ha, hb, hc, hs, e⟩

theorem Four.collinear_iff (h : Four x a b c d) (S : Sol pts m t x) {p : Pt K} (hne : pt pts a ≠ pt pts b) : Collinear (pt pts a) (pt pts b) p ↔ wt pts x c p = 0 ∧ wt pts x d p = 0 := by
  constructor
  · rintro ⟨o, dd, r, s, u, ea, eb, ec⟩
    have hrs : r ≠ s := fun e => hne (by rw [ea, eb, e])
    have hsr : s - r ≠ 0 := sub_ne_zero.2 (Ne.symm hrs)
    have : p = lerp (pt pts a) (pt pts b) ((u - r) / (s - r)) := by
      rw [ea, eb, ec]
      apply pt_ext <;> simp only [lerp, onLine] <;> field_simp <;> ring
    rw [this]
    obtain ⟨-, -, e3, e4⟩ := h.of_edge hD S ((u - r) / (s - r))
    exact ⟨e3, e4⟩
  · rintro ⟨h1, h2⟩
    obtain ⟨-, e⟩ := h.on_edge hD S h1 h2
    refine ⟨pt pts a, ⟨(pt pts b).x - (pt pts a).x, (pt pts b).y - (pt pts a).y, (pt pts b).z - (pt pts a).z⟩, 0, 1, wt pts x b p, ?_, ?_, ?_⟩
    · apply pt_ext <;> simp [onLine]
    · apply pt_ext <;> simp [onLine]
    · conv_lhs => rw [e]
      apply pt_ext <;> simp only [onLine, lerp] <;> ring

open Classical in
/-- The open segment crosses the open edge. -/
theorem segCross_eq (h : Four x a b c d) (S : Sol pts m t x) {u1 u2 : Nat} (h1 : u1 < pts.length) (h2 : u2 < pts.length) :
    vSegCross pts u1 u2 a b = some (decide (¬ (wt pts x c (pt pts u1) = 0 ∧ wt pts x d (pt pts u1) = 0) ∧ ∃ s, 0 < s ∧ s < 1 ∧ 0 < wt pts x a (lerp (pt pts u1) (pt pts u2) s) ∧
      0 < wt pts x b (lerp (pt pts u1) (pt pts u2) s) ∧ wt pts x c (lerp (pt pts u1) (pt pts u2) s) = 0 ∧ wt pts x d (lerp (pt pts u1) (pt pts u2) s) = 0)) := by
  have hz : ∀ v, v = a ∨ v = b → wt pts x c (pt pts v) = 0 ∧ wt pts x d (pt pts v) = 0 := by
    rintro v (rfl | rfl)
    · exact (h.corner hD S).2.2
    · exact (h.swap01.corner hD S).2.2
  obtain ⟨ga, gb, gc, gd⟩ := h.lt hD S
  have hab : pt pts a ≠ pt pts b := fun e => (h.ne hD S).1 (pt_inj hD ga gb e)
  unfold vSegCross
  split
  · next he =>
    symm
    rw [Option.some.injEq, decide_eq_false_iff_not]
    rintro ⟨hne, s, h0, h1, -, -, hc, hd⟩
    by_cases hu : u1 = a ∨ u1 = b
    · exact hne (hz _ hu)
    · have hu2 : u2 = a ∨ u2 = b := by tauto
      rw [S.wt_lerp hD, (hz _ hu2).2, mul_zero, add_zero] at hd
      rw [S.wt_lerp hD, (hz _ hu2).1, mul_zero, add_zero] at hc
      have hs : 1 - s ≠ 0 := by intro h; linarith
      exact hne ⟨(mul_eq_zero.1 hc).resolve_left hs, (mul_eq_zero.1 hd).resolve_left hs⟩
  · rw [get_pt h1, get_pt h2, get_pt ga, get_pt gb]
    simp only [Option.bind_eq_bind, Option.bind_some, Option.pure_def, Option.some.injEq]
    rw [Bool.eq_iff_iff, c36_inner_segments_cross, decide_eq_true_iff]
    constructor
    · rintro ⟨⟨s, r, s0, s1, r0, r1, e⟩, hn⟩
      have e' := h.of_edge hD S r
      rw [← e] at e'
      obtain ⟨e1, e2, e3, e4⟩ := e'
      refine ⟨fun hu => hn ?_, s, s0, s1, by rw [e1]; linarith, by rw [e2]; exact r0, e3, e4⟩
      have hs0 : s ≠ 0 := s0.ne'
      have hu2 : wt pts x c (pt pts u2) = 0 ∧ wt pts x d (pt pts u2) = 0 := by
        rw [S.wt_lerp hD, hu.1, mul_zero, zero_add] at e3
        rw [S.wt_lerp hD, hu.2, mul_zero, zero_add] at e4
        exact ⟨(mul_eq_zero.1 e3).resolve_left hs0, (mul_eq_zero.1 e4).resolve_left hs0⟩
      obtain ⟨-, eu1⟩ := h.on_edge hD S hu.1 hu.2
      obtain ⟨-, eu2⟩ := h.on_edge hD S hu2.1 hu2.2
      have line : ∀ {p : Pt K} {s : K}, p = lerp (pt pts a) (pt pts b) s → p = onLine (pt pts a) ⟨(pt pts b).x - (pt pts a).x, (pt pts b).y - (pt pts a).y, (pt pts b).z - (pt pts a).z⟩ s := by
        rintro p s rfl
        apply pt_ext <;> simp only [onLine, lerp] <;> ring
      have la := line (lerp_zero (pt pts a) (pt pts b)).symm
      have lb := line (lerp_one (pt pts a) (pt pts b)).symm
      have l1 := line eu1
      have l2 := line eu2
      exact ⟨⟨_, _, _, _, _, l1, l2, la⟩, ⟨_, _, _, _, _, l1, l2, lb⟩, ⟨_, _, _, _, _, la, lb, l1⟩, ⟨_, _, _, _, _, la, lb, l2⟩⟩
    · rintro ⟨hn, s, h0, h1, ha, hb, hc, hd⟩
      obtain ⟨e1, e2⟩ := h.on_edge hD S hc hd
      refine ⟨⟨s, _, h0, h1, hb, by linarith, e2⟩, ?_⟩
      rintro ⟨-, -, hcol, -⟩
      exact hn ((h.collinear_iff hD S hab).1 hcol)

open Classical in
/-- The vertex lies in the open segment. -/
theorem inInnerSeg_eq {v u1 u2 : Nat} (hv : v < pts.length) (h1 : u1 < pts.length) (h2 : u2 < pts.length) (hne : u1 ≠ u2) :
    vInInnerSeg pts v u1 u2 = some (decide (∃ s, 0 < s ∧ s < 1 ∧ pt pts v = lerp (pt pts u1) (pt pts u2) s)) := by
  have hne' : pt pts u1 ≠ pt pts u2 := fun e => hne (pt_inj hD h1 h2 e)
  unfold vInInnerSeg
  split
  · next he =>
    symm
    rw [Option.some.injEq, decide_eq_false_iff_not]
    rintro ⟨s, h0, h1, e⟩
    apply hne'
    have hs : 1 - s ≠ 0 := by intro h; linarith
    have hx := congrArg Pt.x e
    have hy := congrArg Pt.y e
    have hz := congrArg Pt.z e
    simp only [lerp] at hx hy hz
    rcases he with rfl | rfl
    · refine pt_ext (mul_left_cancel₀ h0.ne' ?_) (mul_left_cancel₀ h0.ne' ?_) (mul_left_cancel₀ h0.ne' ?_) <;> linarith
    · refine pt_ext (mul_left_cancel₀ hs ?_) (mul_left_cancel₀ hs ?_) (mul_left_cancel₀ hs ?_) <;> linarith
  · rw [get_pt h1, get_pt h2, get_pt hv]
    simp only [Option.bind_eq_bind, Option.bind_some, Option.pure_def, Option.some.injEq]
    rw [Bool.eq_iff_iff, c36_point_in_inner_segment, decide_eq_true_iff]
    exact ⟨fun h => h.2, fun h => ⟨hne', h⟩⟩

omit hD in
theorem sign_mul {w o : K} (ho : o ≠ 0) : doubleToSign (w * o) = doubleToSign o ↔ 0 < w := by
  have := signs_multiple (c := w) (n1 := o) (n2 := o) (n3 := o) (by tauto)
  rw [← this]; tauto

/-- The point lies on the side of `d` of the face. -/
theorem sameSpace_eq (h : Four x a b c d) (S : Sol pts m t x) {u : Nat} (hu : u < pts.length) :
    vSameSpace pts u d a b c = some (decide (0 < wt pts x d (pt pts u))) ∧ vSameSpace pts d u a b c = some (decide (0 < wt pts x d (pt pts u))) := by
  obtain ⟨ga, gb, gc, gd⟩ := h.lt hD S
  have hv := h.volume hD S
  have hs := sign_mul (w := wt pts x d (pt pts u)) hv
  unfold vSameSpace orientIdx
  rw [get_pt hu, get_pt ga, get_pt gb, get_pt gc, get_pt gd]
  simp only [Option.bind_eq_bind, Option.bind_some, Option.pure_def, Option.some.injEq]
  rw [h.height hD S]
  constructor
  · rw [Bool.eq_iff_iff, decide_eq_true_iff, beq_iff_eq]; exact hs
  · rw [Bool.eq_iff_iff, decide_eq_true_iff, beq_iff_eq]; exact eq_comm.trans hs

/-- For a point in the plane of the face: it lies on the side of `c` of the edge. -/
theorem samePlane_eq (h : Four x a b c d) (S : Sol pts m t x) {u : Nat} (hu : u < pts.length) (h0 : wt pts x d (pt pts u) = 0) :
    vSamePlane pts c u a b = some (decide (0 < wt pts x c (pt pts u))) := by
  obtain ⟨ga, gb, gc, gd⟩ := h.lt hD S
  obtain ⟨n1, n2, n3, n4, n5, n6⟩ := h.ne hD S
  unfold vSamePlane
  split
  · next he =>
    symm
    rw [Option.some.injEq, decide_eq_false_iff_not, not_lt]
    rcases he with e | e | rfl | rfl
    · exact absurd e.symm n2
    · exact absurd e.symm n4
    · exact (h.corner hD S).2.2.1.le
    · exact (h.swap01.corner hD S).2.2.1.le
  · rw [get_pt hu, get_pt ga, get_pt gb, get_pt gc]
    simp only [Option.bind_eq_bind, Option.bind_some, Option.pure_def, Option.some.injEq]
    rw [Bool.eq_iff_iff, sameHalfPlane_iff, decide_eq_true_iff]
    obtain ⟨hs, e⟩ := h.on_face hD S h0
    generalize hwa : wt pts x a (pt pts u) = wa at *
    generalize hwb : wt pts x b (pt pts u) = wb at *
    generalize hwc : wt pts x c (pt pts u) = wc at *
    have hnf : ¬ (nXY (pt pts c) (pt pts a) (pt pts b) = 0 ∧ nYZ (pt pts c) (pt pts a) (pt pts b) = 0 ∧ nXZ (pt pts c) (pt pts a) (pt pts b) = 0) := h.swap12.swap01.not_flat hD S
    have := signs_multiple (c := wc) hnf
    rw [← this, e]
    have hwa' : wa = 1 - wb - wc := by linear_combination hs
    have e1 : nXY (comb wa wb wc (pt pts a) (pt pts b) (pt pts c)) (pt pts a) (pt pts b) = wc * nXY (pt pts c) (pt pts a) (pt pts b) := by
      simp only [nXY, orient2d, xy, comb, hwa']; ring
    have e2 : nYZ (comb wa wb wc (pt pts a) (pt pts b) (pt pts c)) (pt pts a) (pt pts b) = wc * nYZ (pt pts c) (pt pts a) (pt pts b) := by
      simp only [nYZ, orient2d, yz, comb, hwa']; ring
    have e3 : nXZ (comb wa wb wc (pt pts a) (pt pts b) (pt pts c)) (pt pts a) (pt pts b) = wc * nXZ (pt pts c) (pt pts a) (pt pts b) := by
      simp only [nXZ, orient2d, xz, comb, hwa']; ring
    rw [e1, e2, e3]
    constructor
    · rintro ⟨g1, g2, g3⟩; exact ⟨g1.symm, g2.symm, g3.symm⟩
    · rintro ⟨g1, g2, g3⟩; exact ⟨g1.symm, g2.symm, g3.symm⟩

end

end Verif.Constraint
