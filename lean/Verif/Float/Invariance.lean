import Verif.Float.InsphereProps
import Verif.Float.IncircleProps
/-!
# The predicates respect the symmetries of the space, and `orient3d_fast`

Consequences of the exact signs: moving, scaling and mirroring the points changes the computed answers as it changes the geometry, as long as the moved points
are doubles again.
-/
namespace Verif.Float

local notation "ε" => (1 / 9007199254740992 : ℚ)

theorem SameSign.scale {r r' D D' k : ℚ} (h : SameSign r D) (h' : SameSign r' D') (e : D' = k * D) (k0 : 0 < k) : SameSign r' r := by
  unfold SameSign at *
  rw [e, mul_pos_iff_of_pos_left k0, ← neg_pos (a := k * D), ← mul_neg, mul_pos_iff_of_pos_left k0, neg_pos] at h'
  exact ⟨h'.1.trans h.1.symm, h'.2.trans h.2.symm⟩

theorem SameSign.eq_zero {r D : ℚ} (h : SameSign r D) : r = 0 ↔ D = 0 := by
  obtain ⟨h1, h2⟩ := h
  constructor
  · rintro rfl
    exact le_antisymm (not_lt.1 fun k => lt_irrefl _ (h1.2 k)) (not_lt.1 fun k => lt_irrefl _ (h2.2 k))
  · rintro rfl
    exact le_antisymm (not_lt.1 fun k => lt_irrefl _ (h1.1 k)) (not_lt.1 fun k => lt_irrefl _ (h2.1 k))

/-- `orient2d` on points. -/
def orient2dP (a b c : P2) : Option ℚ := orient2d a.x a.y b.x b.y c.x c.y

/-- Scaling by `k` and moving by `v`. -/
def P2.sim (p : P2) (k : ℚ) (v : P2) : P2 := ⟨k * p.x + v.x, k * p.y + v.y⟩

/-- The mirror image. -/
def P2.mirror (p : P2) : P2 := ⟨-p.x, p.y⟩

/-- Scaling by `k` and moving by `v`. -/
def P3.sim (p : P3) (k : ℚ) (v : P3) : P3 := ⟨k * p.x + v.x, k * p.y + v.y, k * p.z + v.z⟩

theorem orient2dP_spec {a b c : P2} (ha : a.IsF) (hb : b.IsF) (hc : c.IsF) : ∃ r, orient2dP a b c = some r ∧ SameSign r (area2 a.x a.y b.x b.y c.x c.y) :=
  c70_orient2d ha.1 ha.2 hb.1 hb.2 hc.1 hc.2

/-- The three points lie on a common line. -/
def Collinear2 (a b c : P2) : Prop := ∃ u v w : ℚ, (u ≠ 0 ∨ v ≠ 0) ∧ ∀ p ∈ [a, b, c], u * p.x + v * p.y = w

theorem area2_zero {a b c : P2} : area2 a.x a.y b.x b.y c.x c.y = 0 ↔ Collinear2 a b c := by
  constructor
  · intro h
    simp only [area2] at h
    by_cases hac : a.x = c.x ∧ a.y = c.y
    · by_cases hbc : b.x = c.x ∧ b.y = c.y
      · refine ⟨1, 0, c.x, Or.inl one_ne_zero, ?_⟩
        simp [hac.1, hbc.1]
      · refine ⟨b.y - c.y, -(b.x - c.x), (b.y - c.y) * c.x - (b.x - c.x) * c.y, ?_, ?_⟩
        · by_contra k
          push Not at k
          exact hbc ⟨by linarith [k.2], by linarith [k.1]⟩
        · simp only [List.mem_cons, List.not_mem_nil, or_false, forall_eq_or_imp, forall_eq, hac.1, hac.2]
          refine ⟨by ring, by ring, by ring⟩
    · refine ⟨a.y - c.y, -(a.x - c.x), (a.y - c.y) * c.x - (a.x - c.x) * c.y, ?_, ?_⟩
      · by_contra k
        push Not at k
        exact hac ⟨by linarith [k.2], by linarith [k.1]⟩
      · simp only [List.mem_cons, List.not_mem_nil, or_false, forall_eq_or_imp, forall_eq]
        refine ⟨by ring, by linarith, by ring⟩
  · rintro ⟨u, v, w, h0, h⟩
    simp only [List.mem_cons, List.not_mem_nil, or_false, forall_eq_or_imp, forall_eq] at h
    obtain ⟨h1, h2, h3⟩ := h
    simp only [area2]
    have e1 : u * (a.x - c.x) = -(v * (a.y - c.y)) := by linarith
    have e2 : u * (b.x - c.x) = -(v * (b.y - c.y)) := by linarith
    rcases h0 with h0 | h0
    · apply mul_left_cancel₀ h0
      rw [mul_zero]
      linear_combination (b.y - c.y) * e1 - (a.y - c.y) * e2
    · apply mul_left_cancel₀ h0
      rw [mul_zero]
      linear_combination (a.x - c.x) * e2 - (b.x - c.x) * e1

/-- `orient2d` is zero exactly for points on a common line. -/
theorem c28_orient2d_collinear {a b c : P2} (ha : a.IsF) (hb : b.IsF) (hc : c.IsF) : orient2dP a b c = some 0 ↔ Collinear2 a b c := by
  obtain ⟨r, h, hs⟩ := orient2dP_spec ha hb hc
  rw [h, Option.some.injEq, hs.eq_zero, area2_zero]

/-- Scaling and moving does not change the answer of `orient2d`. -/
theorem c28_orient2d_similar {a b c v : P2} {k : ℚ} (k0 : k ≠ 0) (ha : a.IsF) (hb : b.IsF) (hc : c.IsF) (ha' : (a.sim k v).IsF) (hb' : (b.sim k v).IsF)
    (hc' : (c.sim k v).IsF) : ∃ r r', orient2dP a b c = some r ∧ orient2dP (a.sim k v) (b.sim k v) (c.sim k v) = some r' ∧ SameSign r' r := by
  obtain ⟨r, h, hs⟩ := orient2dP_spec ha hb hc
  obtain ⟨r', h', hs'⟩ := orient2dP_spec ha' hb' hc'
  refine ⟨r, r', h, h', hs.scale hs' (k := k ^ 2) ?_ (by positivity)⟩
  simp only [P2.sim, area2]; ring

/-- The mirror image turns the other way. -/
theorem c28_orient2d_mirror {a b c : P2} (ha : a.IsF) (hb : b.IsF) (hc : c.IsF) :
    ∃ r r', orient2dP a b c = some r ∧ orient2dP a.mirror b.mirror c.mirror = some r' ∧ SameSign r' (-r) := by
  obtain ⟨r, h, hs⟩ := orient2dP_spec ha hb hc
  obtain ⟨r', h', hs'⟩ := orient2dP_spec (a := a.mirror) (b := b.mirror) (c := c.mirror) ⟨ha.1.neg, ha.2⟩ ⟨hb.1.neg, hb.2⟩ ⟨hc.1.neg, hc.2⟩
  refine ⟨r, r', h, h', hs'.neg_of hs ?_⟩
  simp only [P2.mirror, area2]; ring

/-- Scaling and moving does not change the answer of `incircle`. -/
theorem c28_incircle_similar {a b c d v : P2} {k : ℚ} (k0 : k ≠ 0) (ha : a.IsF) (hb : b.IsF) (hc : c.IsF) (hd : d.IsF) (ha' : (a.sim k v).IsF)
    (hb' : (b.sim k v).IsF) (hc' : (c.sim k v).IsF) (hd' : (d.sim k v).IsF) :
    ∃ r r', incircle a b c d = some r ∧ incircle (a.sim k v) (b.sim k v) (c.sim k v) (d.sim k v) = some r' ∧ SameSign r' r := by
  obtain ⟨r, h, hs⟩ := c71_incircle ha hb hc hd
  obtain ⟨r', h', hs'⟩ := c71_incircle ha' hb' hc' hd'
  refine ⟨r, r', h, h', hs.scale hs' (k := k ^ 4) ?_ (by positivity)⟩
  simp only [P2.sim, inCircleDet]; ring

/-- The mirror image has the opposite answer. -/
theorem c28_incircle_mirror {a b c d : P2} (ha : a.IsF) (hb : b.IsF) (hc : c.IsF) (hd : d.IsF) :
    ∃ r r', incircle a b c d = some r ∧ incircle a.mirror b.mirror c.mirror d.mirror = some r' ∧ SameSign r' (-r) := by
  obtain ⟨r, h, hs⟩ := c71_incircle ha hb hc hd
  obtain ⟨r', h', hs'⟩ := c71_incircle (a := a.mirror) (b := b.mirror) (c := c.mirror) (d := d.mirror) ⟨ha.1.neg, ha.2⟩ ⟨hb.1.neg, hb.2⟩ ⟨hc.1.neg, hc.2⟩
    ⟨hd.1.neg, hd.2⟩
  refine ⟨r, r', h, h', hs'.neg_of hs ?_⟩
  simp only [P2.mirror, inCircleDet]; ring

/-- Scaling and moving the points, scaling the heights and adding an affine function to them does not change the answer of `orient4d`. -/
theorem c28_orient4d_similar {a b c d e t : P3} {ah bh ch dh eh k m u v w l : ℚ} (k0 : 0 < k) (m0 : 0 < m) (ha : a.IsF) (hb : b.IsF) (hc : c.IsF)
    (hd : d.IsF) (he : e.IsF) (ka : IsF ah) (kb : IsF bh) (kc : IsF ch) (kd : IsF dh) (ke : IsF eh)
    (ha' : (a.sim k t).IsF) (hb' : (b.sim k t).IsF) (hc' : (c.sim k t).IsF) (hd' : (d.sim k t).IsF) (he' : (e.sim k t).IsF)
    (ka' : IsF (m * ah + affine u v w l a)) (kb' : IsF (m * bh + affine u v w l b)) (kc' : IsF (m * ch + affine u v w l c))
    (kd' : IsF (m * dh + affine u v w l d)) (ke' : IsF (m * eh + affine u v w l e)) :
    ∃ r r', orient4d a b c d e ah bh ch dh eh = some r ∧
      orient4d (a.sim k t) (b.sim k t) (c.sim k t) (d.sim k t) (e.sim k t) (m * ah + affine u v w l a) (m * bh + affine u v w l b)
        (m * ch + affine u v w l c) (m * dh + affine u v w l d) (m * eh + affine u v w l e) = some r' ∧ SameSign r' r := by
  obtain ⟨r, h, hs⟩ := c72_orient4d ha hb hc hd he ka kb kc kd ke
  obtain ⟨r', h', hs'⟩ := c72_orient4d ha' hb' hc' hd' he' ka' kb' kc' kd' ke'
  refine ⟨r, r', h, h', hs.scale hs' (k := k ^ 3 * m) ?_ (by positivity)⟩
  simp only [P3.sim, orient4dDet, det4, exactRows, det3, P3.sub, affine]; ring

/-- `orient4d` with the squared lengths as heights answers as the last stage of `insphere`. -/
theorem c28_orient4d_insphere {a b c d e : P3} (ha : a.IsF) (hb : b.IsF) (hc : c.IsF) (hd : d.IsF) (he : e.IsF) (ka : IsF a.sq) (kb : IsF b.sq) (kc : IsF c.sq)
    (kd : IsF d.sq) (ke : IsF e.sq) :
    ∃ r r', orient4d a b c d e a.sq b.sq c.sq d.sq e.sq = some r ∧ insphereExact a b c d e = some r' ∧ SameSign r r' := by
  obtain ⟨r, h, hs⟩ := c72_orient4d ha hb hc hd he ka kb kc kd ke
  obtain ⟨r', h', hs'⟩ := c73_exact_stage ha hb hc hd he
  refine ⟨r, r', h, h', hs'.scale hs (k := 1) ?_ one_pos⟩
  simp only [orient4dDet, inSphereDet, Rows.lifts, det4, exactRows, det3, P3.sub, P3.sq]; ring

/-! ### `orient3d_fast` -/

/-- `orient3d_fast` (predicates.rs 791-812). -/
def orient3dFast (pa pb pc pd : P3) : ℚ :=
  let adx := fsub pa.x pd.x
  let ady := fsub pa.y pd.y
  let adz := fsub pa.z pd.z
  let bdx := fsub pb.x pd.x
  let bdy := fsub pb.y pd.y
  let bdz := fsub pb.z pd.z
  let cdx := fsub pc.x pd.x
  let cdy := fsub pc.y pd.y
  let cdz := fsub pc.z pd.z
  let bdxcdy := fmul bdx cdy
  let cdxbdy := fmul cdx bdy
  let cdxady := fmul cdx ady
  let adxcdy := fmul adx cdy
  let adxbdy := fmul adx bdy
  let bdxady := fmul bdx ady
  fadd (fadd (fmul adz (fsub bdxcdy cdxbdy)) (fmul bdz (fsub cdxady adxcdy))) (fmul cdz (fsub adxbdy bdxady))

theorem orient3dFast_eq (a b c d : P3) : orient3dFast a b c d = rowC (a.sub d) (b.sub d) (c.sub d) := rfl

theorem vol6_eq (a b c d : P3) : vol6 a b c d = det3 (a.sub d) (b.sub d) (c.sub d) := rfl

/-- `orient3d_fast` differs from the determinant by at most nine roundings of the sum of the absolute values of its products. -/
theorem c28_fast_error (a b c d : P3) : |vol6 a b c d - orient3dFast a b c d| ≤ size3 (a.sub d) (b.sub d) (c.sub d) * (9 / 2 ^ 53) := by
  rw [orient3dFast_eq, vol6_eq]
  have h1 := (row_close (a.sub d) (b.sub d) (c.sub d)).2
  have h2 := rowA_le (a.sub d) (b.sub d) (c.sub d)
  have h3 := rowQ_size (a.sub d) (b.sub d) (c.sub d)
  have h4 := rowQ_nonneg (a.sub d) (b.sub d) (c.sub d)
  norm_num at h1 h2 h3 ⊢
  linarith

/-- Its sign is right for all tetrahedra that are not nearly flat. -/
theorem c28_fast_sign {a b c d : P3} (h : size3 (a.sub d) (b.sub d) (c.sub d) * (18 / 2 ^ 53) < |vol6 a b c d|) :
    SameSign (orient3dFast a b c d) (vol6 a b c d) := by
  apply SameSign.of_close
  have h1 := c28_fast_error a b c d
  have h2 := abs_add_le (vol6 a b c d - orient3dFast a b c d) (orient3dFast a b c d)
  rw [sub_add_cancel] at h2
  linarith

/-- Without the hypothesis it is wrong: `orient3d_fast` is no substitute for `orient3d`. -/
theorem c28_fast_inexact : ∃ a b c d : P3, a.IsF ∧ b.IsF ∧ c.IsF ∧ d.IsF ∧ vol6 a b c d ≠ 0 ∧ orient3dFast a b c d = 0 := by
  refine ⟨⟨0, 1, 0⟩, ⟨1, 0, 0⟩, ⟨1 / 2 ^ 60, 1, 1⟩, ⟨1, 0, 1⟩, ?_, ?_, ?_, ?_, ?_, ?_⟩
  · exact ⟨⟨0, 0, by norm_num, by norm_num⟩, ⟨1, 0, by norm_num, by norm_num⟩, ⟨0, 0, by norm_num, by norm_num⟩⟩
  · exact ⟨⟨1, 0, by norm_num, by norm_num⟩, ⟨0, 0, by norm_num, by norm_num⟩, ⟨0, 0, by norm_num, by norm_num⟩⟩
  · exact ⟨⟨1, -60, by norm_num, by norm_num⟩, ⟨1, 0, by norm_num, by norm_num⟩, ⟨1, 0, by norm_num, by norm_num⟩⟩
  · exact ⟨⟨1, 0, by norm_num, by norm_num⟩, ⟨0, 0, by norm_num, by norm_num⟩, ⟨1, 0, by norm_num, by norm_num⟩⟩
  · decide +kernel
  · decide +kernel

/-- A proper tetrahedron. -/
example : orient3dFast ⟨1, 0, 0⟩ ⟨0, 1, 0⟩ ⟨0, 0, 1⟩ ⟨1 / 4, 1 / 4, 1 / 4⟩ = 1 / 4 ∧
    size3 (P3.sub ⟨1, 0, 0⟩ ⟨1 / 4, 1 / 4, 1 / 4⟩) (P3.sub ⟨0, 1, 0⟩ ⟨1 / 4, 1 / 4, 1 / 4⟩) (P3.sub ⟨0, 0, 1⟩ ⟨1 / 4, 1 / 4, 1 / 4⟩) * (18 / 2 ^ 53) <
      |vol6 ⟨1, 0, 0⟩ ⟨0, 1, 0⟩ ⟨0, 0, 1⟩ ⟨1 / 4, 1 / 4, 1 / 4⟩| := by decide +kernel

/-- Doubling and moving a triangle by a third of its size is possible within the doubles. -/
example : orient2dP ⟨0, 0⟩ ⟨3, 0⟩ ⟨0, 3⟩ = some 9 ∧ orient2dP (P2.sim ⟨0, 0⟩ (-2) ⟨1, 1⟩) (P2.sim ⟨3, 0⟩ (-2) ⟨1, 1⟩) (P2.sim ⟨0, 3⟩ (-2) ⟨1, 1⟩) = some 36 ∧
    orient2dP (P2.mirror ⟨0, 0⟩) (P2.mirror ⟨3, 0⟩) (P2.mirror ⟨0, 3⟩) = some (-9) ∧
    incircle (P2.mirror ⟨0, 0⟩) (P2.mirror ⟨3, 0⟩) (P2.mirror ⟨0, 3⟩) (P2.mirror ⟨1, 1⟩) = some (-36) ∧ incircle ⟨0, 0⟩ ⟨3, 0⟩ ⟨0, 3⟩ ⟨1, 1⟩ = some 36 := by
  decide +kernel

end Verif.Float
