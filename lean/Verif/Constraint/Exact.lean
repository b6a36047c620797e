import Verif.Constraint.Improper
/-!
# C94: which marks of tetrahedra that a side touches are true
-/
namespace Verif.Constraint
open InSphere (Pt orient3d)
open Tet (Mesh)
open Delaunay (Comb SolidTet IsDelaunay pt get_pt)
open Geom

variable {K : Type} [Field K] [LinearOrder K] [IsStrictOrderedRing K] {m : Mesh} {pts : List (Pt K)}

theorem anyM_mem {α : Type} {f : α → Option Bool} : ∀ {l : List α}, anyM f l = some true → ∃ a ∈ l, f a = some true
  | b :: l, h => by
    unfold anyM at h
    cases e : f b with
    | none => rw [e] at h; cases h
    | some r =>
      rw [e, some_bind] at h
      cases r with
      | true => exact ⟨b, by simp, e⟩
      | false =>
        obtain ⟨a, ha, ea⟩ := anyM_mem (l := l) h
        exact ⟨a, by simp [ha], ea⟩

theorem closed_lerp {p q A B C : Pt K} (hp : InClosedTriangle p A B C) (hq : InClosedTriangle q A B C) {t : K} (h0 : 0 ≤ t) (h1 : t ≤ 1) : InClosedTriangle (lerp p q t) A B C := by
  obtain ⟨a, b, c, ha, hb, hc, hs, rfl⟩ := hp
  obtain ⟨a', b', c', ha', hb', hc', hs', rfl⟩ := hq
  have h1' : 0 ≤ 1 - t := by linarith
  exact ⟨_, _, _, add_nonneg (mul_nonneg h1' ha) (mul_nonneg h0 ha'), add_nonneg (mul_nonneg h1' hb) (mul_nonneg h0 hb'), add_nonneg (mul_nonneg h1' hc) (mul_nonneg h0 hc'),
    by linear_combination (1 - t) * hs + t * hs', comb3_lerp _ _ _ _ _ _ _ _ _ _⟩

section
variable (hD : IsDelaunay pts m) {t : Nat} {x : Tet.Tet}
include hD

/-- From a point where a side crosses a plane of a face, a little way to the inner side. -/
theorem toward (S : Sol pts m t x) {A B : Pt K} {r : K} (h0 : 0 < r) (h1 : r < 1) {k : Nat} (hk : wt pts x k (lerp A B r) = 0) (hA : wt pts x k A ≠ 0) (l : List Nat) (hl : ∀ v ∈ l, 0 < wt pts x v (lerp A B r)) :
    ∃ s, 0 ≤ s ∧ s ≤ 1 ∧ 0 < wt pts x k (lerp A B s) ∧ ∀ v ∈ l, 0 < wt pts x v (lerp A B s) := by
  -- the end on the inner side
  obtain ⟨τ, t0, t1, ht⟩ : ∃ τ, 0 ≤ τ ∧ τ ≤ 1 ∧ 0 < wt pts x k (lerp A B τ) := by
    rcases lt_or_gt_of_ne hA with h | h
    · refine ⟨1, zero_le_one, le_rfl, ?_⟩
      have e := S.wt_lerp hD k A B r
      rw [hk] at e
      rw [lerp_one]
      by_contra hc
      have : (1 - r) * wt pts x k A < 0 := mul_neg_of_pos_of_neg (by linarith) h
      have : r * wt pts x k B ≤ 0 := mul_nonpos_of_nonneg_of_nonpos h0.le (not_lt.1 hc)
      linarith
    · exact ⟨0, le_rfl, zero_le_one, by rw [lerp_zero]; exact h⟩
  have key : ∀ l : List Nat, (∀ v ∈ l, 0 < wt pts x v (lerp A B r)) → ∃ e, 0 < e ∧ e < 1 ∧ ∀ u, 0 ≤ u → u ≤ e → ∀ v ∈ l, 0 < (1 - u) * wt pts x v (lerp A B r) + u * wt pts x v (lerp A B τ) := by
    intro l hl
    induction l with
    | nil => exact ⟨1 / 2, by norm_num, by norm_num, by simp⟩
    | cons v l ih =>
      obtain ⟨e1, p1, q1, f1⟩ := ih fun v hv => hl v (by simp [hv])
      obtain ⟨e2, p2, q2, f2⟩ := eps1 (w' := wt pts x v (lerp A B τ)) (hl v (by simp))
      refine ⟨min e1 e2, lt_min p1 p2, lt_of_le_of_lt (min_le_left _ _) q1, fun u u0 u1 w hw => ?_⟩
      rcases List.mem_cons.1 hw with rfl | hw
      · exact f2 u u0 (u1.trans (min_le_right _ _))
      · exact f1 u u0 (u1.trans (min_le_left _ _)) w hw
  obtain ⟨e, p, q, f⟩ := key l hl
  have el : lerp A B ((1 - e) * r + e * τ) = lerp (lerp A B r) (lerp A B τ) e := by
    apply pt_ext <;> simp only [lerp] <;> ring
  refine ⟨(1 - e) * r + e * τ, add_nonneg (mul_nonneg (by linarith) h0.le) (mul_nonneg p.le t0), ?_, ?_, fun v hv => ?_⟩
  · have h2 : (1 - e) * r ≤ (1 - e) * 1 := mul_le_mul_of_nonneg_left h1.le (by linarith)
    have h3 : e * τ ≤ e * 1 := mul_le_mul_of_nonneg_left t1 p.le
    linarith
  · rw [el, S.wt_lerp hD, hk]
    have := mul_pos p ht
    linarith
  · rw [el, S.wt_lerp hD]
    exact f e p.le le_rfl v hv

variable {c : Nat × Nat × Nat} (hc : Proper pts.length c) (hn : ¬ Collinear (pt pts c.1) (pt pts c.2.1) (pt pts c.2.2))
include hc hn

omit hD in
theorem closed_of_inTri {v : Nat} (hv : v < pts.length) (h0 : orient3d (pt pts v) (pt pts c.1) (pt pts c.2.1) (pt pts c.2.2) = 0) (h : vInTri pts v c = some true) :
    InClosedTriangle (pt pts v) (pt pts c.1) (pt pts c.2.1) (pt pts c.2.2) := by
  have hf := hn
  rw [collinear_iff_flat] at hf
  unfold vInTri at h
  split at h
  · next hv =>
    rcases hv with rfl | rfl | rfl
    · exact ⟨1, 0, 0, zero_le_one, le_rfl, le_rfl, by ring, by simp [comb]⟩
    · exact ⟨0, 1, 0, le_rfl, zero_le_one, le_rfl, by ring, by simp [comb]⟩
    · exact ⟨0, 0, 1, le_rfl, le_rfl, zero_le_one, by ring, by simp [comb]⟩
  · simp only [get_pt hv, get_pt hc.lt1, get_pt hc.lt2, get_pt hc.lt3, Option.bind_eq_bind, Option.bind_some, Option.pure_def, Option.some.injEq] at h
    rwa [c37_point_in_triangle _ _ _ _ hn ((coplanar_iff hf).2 h0)] at h

/-- The face test is true only if the constraint overlaps the face. -/
theorem faceTest_sound (S : Sol pts m t x) {z0 z1 z2 o : Nat} (F : Four x z0 z1 z2 o) (h0 : orient3d (pt pts z0) (pt pts c.1) (pt pts c.2.1) (pt pts c.2.2) = 0)
    (h1 : orient3d (pt pts z1) (pt pts c.1) (pt pts c.2.1) (pt pts c.2.2) = 0) (h2 : orient3d (pt pts z2) (pt pts c.1) (pt pts c.2.1) (pt pts c.2.2) = 0)
    (h3 : orient3d (pt pts o) (pt pts c.1) (pt pts c.2.1) (pt pts c.2.2) ≠ 0) (h : faceTest pts c z0 z1 z2 = some true) :
    ∃ p, 0 < wt pts x z0 p ∧ 0 < wt pts x z1 p ∧ 0 < wt pts x z2 p ∧ wt pts x o p = 0 ∧ InClosedTriangle p (pt pts c.1) (pt pts c.2.1) (pt pts c.2.2) := by
  obtain ⟨g0, g1, g2, g3⟩ := F.lt hD S
  obtain ⟨r1, e1⟩ := vInTri_ok (v := c) g0 hc.lt1 hc.lt2 hc.lt3
  obtain ⟨r2, e2⟩ := vInTri_ok (v := c) g1 hc.lt1 hc.lt2 hc.lt3
  obtain ⟨r3, e3⟩ := vInTri_ok (v := c) g2 hc.lt1 hc.lt2 hc.lt3
  unfold faceTest at h
  simp only [e1, e2, e3, Option.bind_eq_bind, Option.bind_some] at h
  split at h
  · next hr =>
    simp only [Bool.and_eq_true] at hr
    obtain ⟨⟨rfl, rfl⟩, rfl⟩ := hr
    have k0 := closed_of_inTri hc hn g0 h0 e1
    have k1 := closed_of_inTri hc hn g1 h1 e2
    have k2 := closed_of_inTri hc hn g2 h2 e3
    obtain ⟨w1, w2, w3, w4⟩ := F.of_face hD S (wa := 1 / 4) (wb := 1 / 4) (wc := 1 / 2) (by norm_num)
    refine ⟨_, by rw [w1]; norm_num, by rw [w2]; norm_num, by rw [w3]; norm_num, w4, ?_⟩
    have := closed_lerp (closed_lerp k0 k1 (t := 1 / 2) (by norm_num) (by norm_num)) k2 (t := 1 / 2) (by norm_num) (by norm_num)
    convert this using 1
    apply pt_ext <;> simp only [lerp, comb] <;> ring
  · obtain ⟨⟨d, e⟩, hde, hx⟩ := anyM_mem h
    obtain ⟨d', hd, hde⟩ := List.mem_flatMap.1 hde
    obtain ⟨e', he, hde⟩ := List.mem_map.1 hde
    simp only [Prod.mk.injEq] at hde
    obtain ⟨rfl, rfl⟩ := hde
    obtain ⟨l1, l2, -⟩ := hc.side he
    have hpl : ∀ u, wt pts x o (lerp (pt pts e'.1) (pt pts e'.2) u) = 0 := fun u => by
      have := F.level hD S (lerp (pt pts e'.1) (pt pts e'.2) u) (pt pts c.1) (pt pts c.2.1) (pt pts c.2.2)
      rw [side_level he, h0, h1, h2] at this
      simp only [mul_zero, zero_add] at this
      exact (mul_eq_zero.1 this.symm).resolve_right h3
    have main : ∀ {p q u}, Four x p q u o → vSegCross pts p q e'.1 e'.2 = some true → ∃ y, 0 < wt pts x p y ∧ 0 < wt pts x q y ∧ 0 < wt pts x u y ∧ wt pts x o y = 0 ∧
        InClosedTriangle y (pt pts c.1) (pt pts c.2.1) (pt pts c.2.2) := by
      intro p q u G hx
      obtain ⟨j1, j2, -, -⟩ := G.lt hD S
      obtain ⟨b, eb, hb⟩ := of_decide (segCross_eq hD G S l1 l2)
      rw [vSegCross_comm j1 j2 l1 l2 hx, Option.some.injEq] at eb
      obtain ⟨ha, r, r0, r1, hp, hq, hu, -⟩ := hb.1 eb.symm
      have ha' : wt pts x u (pt pts e'.1) ≠ 0 := fun h => ha ⟨h, by have := hpl 0; rwa [lerp_zero] at this⟩
      obtain ⟨s, s0, s1, k1, k2⟩ := toward hD S r0 r1 hu ha' [p, q] (by simp [hp, hq])
      exact ⟨_, k2 p (by simp), k2 q (by simp), k1, hpl s, side_closed he s0 s1⟩
    simp only [List.mem_cons, List.not_mem_nil, or_false] at hd
    rcases hd with rfl | rfl | rfl
    · exact main F hx
    · obtain ⟨y, a1, a2, a3, a4, a5⟩ := main F.swap01.swap12 hx
      exact ⟨y, a3, a1, a2, a4, a5⟩
    · obtain ⟨y, a1, a2, a3, a4, a5⟩ := main F.swap12.swap01 hx
      exact ⟨y, a2, a3, a1, a4, a5⟩

/-- The test for no corner in the plane is true only if the constraint cuts through. -/
theorem emptyTest_sound (S : Sol pts m t x) {neg pos : List Nat} (hcor : ∀ i, x.data i ∈ neg ∨ x.data i ∈ pos)
    (hneg : ∀ v ∈ neg, (∃ i, x.data i = v) ∧ 0 < orient3d (pt pts v) (pt pts c.1) (pt pts c.2.1) (pt pts c.2.2))
    (hpos : ∀ v ∈ pos, (∃ i, x.data i = v) ∧ orient3d (pt pts v) (pt pts c.1) (pt pts c.2.1) (pt pts c.2.2) < 0)
    {vn vp : Nat} (hvn : vn ∈ neg) (hvp : vp ∈ pos) (h : emptyTest pts c x neg pos = some true) : Crossed (fun i => pt pts (x.data i)) (pt pts c.1) (pt pts c.2.1) (pt pts c.2.2) := by
  have lt : ∀ v, (∃ i, x.data i = v) → v < pts.length := by rintro v ⟨i, rfl⟩; exact S.lt hD i
  have hpl : ∀ e ∈ neg.flatMap fun n => pos.map fun p => (n, p), e.1 ∈ neg ∧ e.2 ∈ pos := by
    intro e he
    simp only [List.mem_flatMap, List.mem_map] at he
    obtain ⟨n, hn, p, hp, rfl⟩ := he
    exact ⟨hn, hp⟩
  have hmem : ∀ n ∈ neg, ∀ p ∈ pos, (n, p) ∈ neg.flatMap fun n => pos.map fun p => (n, p) := fun n hn p hp => List.mem_flatMap.2 ⟨n, hn, List.mem_map.2 ⟨p, hp, rfl⟩⟩
  have hlt : ∀ e ∈ neg.flatMap fun n => pos.map fun p => (n, p), e.1 < pts.length ∧ e.2 < pts.length := fun e he =>
    ⟨lt _ (hneg _ (hpl e he).1).1, lt _ (hpos _ (hpl e he).2).1⟩
  have four : ∀ n ∈ neg, ∀ p ∈ pos, ∃ u k, Four x n p u k := by
    intro n hn' p hp'
    obtain ⟨m1, m2⟩ := hneg _ hn'
    obtain ⟨m3, m4⟩ := hpos _ hp'
    have hne : n ≠ p := by intro h; rw [h] at m2; linarith
    obtain ⟨q, u, k, G⟩ := Four.exists hD S m1
    rcases (G.mem _).1 m3 with h | h | h | h
    · exact absurd h.symm hne
    · exact ⟨u, k, h ▸ G⟩
    · exact ⟨q, k, h ▸ G.swap12⟩
    · exact ⟨u, q, h ▸ G.perm (by exact ((List.Perm.swap _ _ _).trans (List.Perm.cons _ (List.Perm.swap _ _ _)) |>.trans (List.Perm.swap _ _ _) |>.cons _))⟩
  obtain ⟨r1, e1, hr1⟩ := allCross_ok hc hn hlt
  obtain ⟨r2, e2⟩ : ∃ r, anyM (fun (e : Nat × Nat) => vSegInnerTri pts e.1 e.2 c.1 c.2.1 c.2.2) (neg.flatMap fun n => pos.map fun p => (n, p)) = some r :=
    anyM_isSome fun e he => vSegInnerTri_ok (hlt e he).1 (hlt e he).2 hc.lt1 hc.lt2 hc.lt3
  unfold emptyTest at h
  simp only [e1, e2, Option.bind_eq_bind, Option.bind_some] at h
  split at h
  · next hr =>
    have hcr := hr1.1 hr
    -- every corner carries a point of the constraint
    have one : ∀ v, (∃ i, x.data i = v) → ∃ q, In pts x q ∧ InClosedTriangle q (pt pts c.1) (pt pts c.2.1) (pt pts c.2.2) ∧ 0 < wt pts x v q := by
      have two : ∀ n ∈ neg, ∀ p ∈ pos, ∃ q, In pts x q ∧ InClosedTriangle q (pt pts c.1) (pt pts c.2.1) (pt pts c.2.2) ∧ 0 < wt pts x n q ∧ 0 < wt pts x p q := by
        intro n hn' p hp'
        obtain ⟨u, k, G⟩ := four n hn' p hp'
        obtain ⟨d, hd, ⟨s, r, s0, s1, r0, r1, e⟩, -⟩ := hcr _ (hmem n hn' p hp')
        obtain ⟨w1, w2, w3, w4⟩ := G.of_edge hD S s
        refine ⟨lerp (pt pts n) (pt pts p) s, G.in_of hD (by rw [w1]; linarith) (by rw [w2]; exact s0.le) w3.ge w4.ge, ?_, by rw [w1]; linarith, by rw [w2]; exact s0⟩
        dsimp only at e
        rw [e]
        exact side_closed hd r0.le r1.le
      rintro v ⟨i, rfl⟩
      rcases hcor i with h | h
      · obtain ⟨q, a, b, c', -⟩ := two _ h vp hvp
        exact ⟨q, a, b, c'⟩
      · obtain ⟨q, a, b, -, c'⟩ := two vn hvn _ h
        exact ⟨q, a, b, c'⟩
    have many : ∀ l : List Nat, (∀ v ∈ l, ∃ i, x.data i = v) → ∃ q, In pts x q ∧ InClosedTriangle q (pt pts c.1) (pt pts c.2.1) (pt pts c.2.2) ∧ ∀ v ∈ l, 0 < wt pts x v q := by
      intro l hl
      induction l with
      | nil =>
        obtain ⟨q, a, b, -⟩ := one (x.data 0) ⟨0, rfl⟩
        exact ⟨q, a, b, by simp⟩
      | cons v l ih =>
        obtain ⟨q, a, b, f⟩ := ih fun v hv => hl v (by simp [hv])
        obtain ⟨q', a', b', f'⟩ := one v (hl v (by simp))
        have hw : ∀ u, wt pts x u (lerp q q' (1 / 2)) = 1 / 2 * wt pts x u q + 1 / 2 * wt pts x u q' := fun u => by rw [S.wt_lerp hD]; ring
        refine ⟨lerp q q' (1 / 2), fun u => ?_, closed_lerp b b' (by norm_num) (by norm_num), fun u hu => ?_⟩
        · rw [hw]
          have := a u
          have := a' u
          linarith
        · rw [hw]
          have := a u
          have := a' u
          rcases List.mem_cons.1 hu with rfl | hu
          · linarith
          · have := f u hu
            linarith
    obtain ⟨q, -, hq, hw⟩ := many (corners x) (fun v hv => by rw [(show Four x _ _ _ _ from List.Perm.refl _).mem]; simpa [corners] using hv)
    exact ⟨q, ⟨_, fun i => hw (x.data i) (by fin_cases i <;> simp [corners]), S.comb hD q⟩, hq⟩
  split at h
  · next hr =>
    subst hr
    obtain ⟨e, he, hx⟩ := anyM_mem e2
    obtain ⟨hn', hp'⟩ := hpl e he
    obtain ⟨⟨i, hi⟩, m2⟩ := hneg _ hn'
    obtain ⟨⟨j, hj⟩, m4⟩ := hpos _ hp'
    obtain ⟨l1, l2⟩ := hlt e he
    obtain ⟨a1, a2, a3⟩ := off_plane hc m2.ne'
    obtain ⟨b1, b2, b3⟩ := off_plane hc m4.ne
    unfold vSegInnerTri at hx
    rw [if_neg (by simp [a1, a2, a3, b1, b2, b3])] at hx
    simp only [get_pt l1, get_pt l2, get_pt hc.lt1, get_pt hc.lt2, get_pt hc.lt3, Option.bind_eq_bind, Option.bind_some, Option.pure_def, Option.some.injEq] at hx
    rw [c37_inner_segment_cross_inner_triangle] at hx
    obtain ⟨-, -, s, s0, s1, ho⟩ := hx
    refine crossed_of_opposite hn (q := lerp (pt pts e.1) (pt pts e.2) s) ?_ ho (j := i) (k := j) (by rw [hi]; exact m2) (by rw [hj]; exact m4)
    rw [← hi, ← hj]
    exact inTet_lerp (inTet_corner _ i) (inTet_corner _ j) s0.le s1.le
  · obtain ⟨⟨d, f⟩, hdf, hx⟩ := anyM_mem h
    obtain ⟨d', hd, hdf⟩ := List.mem_flatMap.1 hdf
    obtain ⟨f', hf, hdf⟩ := List.mem_map.1 hdf
    simp only [Prod.mk.injEq] at hdf
    obtain ⟨rfl, rfl⟩ := hdf
    obtain ⟨l1, l2, -⟩ := hc.side hd
    have main : ∀ {p q u k}, Four x p q u k → vSegInnerTri pts d'.1 d'.2 p q u = some true → Crossed (fun i => pt pts (x.data i)) (pt pts c.1) (pt pts c.2.1) (pt pts c.2.2) := by
      intro p q u k G hx
      obtain ⟨b, eb, hb⟩ := of_decide (segInnerTri_eq hD G S l1 l2)
      rw [hx, Option.some.injEq] at eb
      obtain ⟨ha, r, r0, r1, hp, hq, hu, hk⟩ := hb.1 eb.symm
      obtain ⟨s, s0, s1, k1, k2⟩ := toward hD S r0 r1 hk ha [p, q, u] (by simp [hp, hq, hu])
      refine ⟨_, ⟨_, fun i => ?_, S.comb hD _⟩, side_closed hd s0 s1⟩
      rcases (G.mem (x.data i)).1 ⟨i, rfl⟩ with h | h | h | h
      · rw [h]; exact k2 p (by simp)
      · rw [h]; exact k2 q (by simp)
      · rw [h]; exact k2 u (by simp)
      · rw [h]; exact k1
    have F : Four x (x.data 0) (x.data 1) (x.data 2) (x.data 3) := .refl _
    have F1 : Four x (x.data 1) (x.data 2) (x.data 3) (x.data 0) := F.swap01.swap12.swap23
    have F2 : Four x (x.data 2) (x.data 3) (x.data 0) (x.data 1) := F1.swap01.swap12.swap23
    have F3 : Four x (x.data 3) (x.data 0) (x.data 1) (x.data 2) := F2.swap01.swap12.swap23
    simp only [List.mem_cons, List.not_mem_nil, or_false] at hf
    rcases hf with rfl | rfl | rfl | rfl
    · exact main F hx
    · exact main F1 hx
    · exact main F2 hx
    · exact main F3 hx

/-- What a mark of the loop body of `set_improper_intersections` means. -/
theorem improper_sound (S : Sol pts m t x) (ht : Touched (fun i => pt pts (x.data i)) (pt pts c.1) (pt pts c.2.1) (pt pts c.2.2)) {k : Nat} (h : improper m pts c t = some (some k)) :
    (∀ i : Fin 4, k = i.val → FaceOver (fun i => pt pts (x.data i)) i (pt pts c.1) (pt pts c.2.1) (pt pts c.2.2)) ∧
    (k = 4 → (∃ i, 0 < orient3d (pt pts (x.data i)) (pt pts c.1) (pt pts c.2.1) (pt pts c.2.2)) ∧ ∃ i, orient3d (pt pts (x.data i)) (pt pts c.1) (pt pts c.2.1) (pt pts c.2.2) < 0) ∧
    (k = 4 → (∀ i, ¬ Coplanar (pt pts (x.data i)) (pt pts c.1) (pt pts c.2.1) (pt pts c.2.2)) → Crossed (fun i => pt pts (x.data i)) (pt pts c.1) (pt pts c.2.1) (pt pts c.2.2)) := by
  have hf := hn
  rw [collinear_iff_flat] at hf
  have ltc : ∀ u ∈ corners x, u < pts.length := by
    intro u hu
    simp only [corners, List.mem_cons, List.not_mem_nil, or_false] at hu
    rcases hu with rfl | rfl | rfl | rfl <;> exact S.lt hD _
  have mcor : ∀ u, u ∈ corners x ↔ ∃ i, x.data i = u := by
    intro u
    rw [(show Four x _ _ _ _ from List.Perm.refl _).mem]
    simp [corners]
  obtain ⟨zero, pos, neg, es, perm, hz, hps, hng⟩ := split_exact (m := m) hc (points_le_tets hD) ltc
  have hlen := perm.length_eq
  have lcor : (corners x).length = 4 := rfl
  rw [lcor] at hlen
  simp only [List.length_append] at hlen
  have cz : ∀ v ∈ zero, ∃ i, x.data i = v := fun v hv => (mcor v).1 (perm.mem_iff.1 (by simp [hv]))
  have cp : ∀ v ∈ pos, ∃ i, x.data i = v := fun v hv => (mcor v).1 (perm.mem_iff.1 (by simp [hv]))
  have cn : ∀ v ∈ neg, ∃ i, x.data i = v := fun v hv => (mcor v).1 (perm.mem_iff.1 (by simp [hv]))
  have hsome := not_all_zero (c := fun i => pt pts (x.data i)) (S.vol hD) hn
  have both : 0 < neg.length → 0 < pos.length → (∃ i, 0 < orient3d (pt pts (x.data i)) (pt pts c.1) (pt pts c.2.1) (pt pts c.2.2)) ∧ ∃ i, orient3d (pt pts (x.data i)) (pt pts c.1) (pt pts c.2.1) (pt pts c.2.2) < 0 := by
    intro h1 h2
    obtain ⟨v, hv⟩ := List.exists_mem_of_length_pos h1
    obtain ⟨u, hu⟩ := List.exists_mem_of_length_pos h2
    obtain ⟨i, hi⟩ := cn v hv
    obtain ⟨j, hj⟩ := cp u hu
    exact ⟨⟨i, by rw [hi]; exact hng v hv⟩, j, by rw [hj]; exact hps u hu⟩
  unfold improper at h
  rw [S.get, some_bind, es, some_bind] at h
  dsimp only at h
  match zero, hlen, hz, cz, perm, h with
  | [], hlen, hz, cz, perm, h =>
    obtain ⟨b, eb⟩ := emptyTest_ok (v := c) hc.lt1 hc.lt2 hc.lt3 (x := x) (fun i => S.lt hD i) (neg := neg) (pos := pos) (fun v hv => by obtain ⟨i, rfl⟩ := cn v hv; exact S.lt hD i)
      (fun v hv => by obtain ⟨i, rfl⟩ := cp v hv; exact S.lt hD i)
    cases b with
    | false => simp [eb] at h
    | true =>
      simp only [eb, Option.bind_eq_bind, Option.bind_some, if_true, Option.pure_def, Option.some.injEq] at h
      subst h
      have hcor : ∀ i, x.data i ∈ neg ∨ x.data i ∈ pos := fun i => by
        have := perm.mem_iff.2 ((mcor _).2 ⟨i, rfl⟩)
        simp only [List.nil_append, List.mem_append] at this
        exact this.symm
      -- the plane meets the tetrahedron
      obtain ⟨y, ⟨w, hw, hcomb⟩, hon⟩ := ht
      have hlev := height_comb hcomb (pt pts c.1) (pt pts c.2.1) (pt pts c.2.2)
      obtain ⟨e, he, s, -, -, rfl⟩ := onSides_iff.1 hon
      rw [side_level he] at hlev
      have hpos1 : ∃ i, 0 < w i := by
        by_contra hcon
        push Not at hcon
        have : ∑ i, w i ≤ 0 := Finset.sum_nonpos fun i _ => hcon i
        rw [hcomb.sum] at this
        linarith
      obtain ⟨i, hi⟩ := hpos1
      obtain ⟨vn, hvn⟩ : ∃ v, v ∈ neg := by
        by_contra hcon
        push Not at hcon
        have hneg : ∀ i, orient3d (pt pts (x.data i)) (pt pts c.1) (pt pts c.2.1) (pt pts c.2.2) < 0 := fun i => hps _ ((hcor i).resolve_left (hcon _))
        have : ∑ i, w i * orient3d (pt pts (x.data i)) (pt pts c.1) (pt pts c.2.1) (pt pts c.2.2) < ∑ i : Fin 4, 0 :=
          Finset.sum_lt_sum (fun i _ => mul_nonpos_of_nonneg_of_nonpos (hw i) (hneg i).le) ⟨i, Finset.mem_univ _, mul_neg_of_pos_of_neg hi (hneg i)⟩
        rw [← hlev] at this
        simp at this
      obtain ⟨vp, hvp⟩ : ∃ v, v ∈ pos := by
        by_contra hcon
        push Not at hcon
        have hneg : ∀ i, 0 < orient3d (pt pts (x.data i)) (pt pts c.1) (pt pts c.2.1) (pt pts c.2.2) := fun i => hng _ ((hcor i).resolve_right (hcon _))
        have : ∑ i : Fin 4, 0 < ∑ i, w i * orient3d (pt pts (x.data i)) (pt pts c.1) (pt pts c.2.1) (pt pts c.2.2) :=
          Finset.sum_lt_sum (fun i _ => mul_nonneg (hw i) (hneg i).le) ⟨i, Finset.mem_univ _, mul_pos hi (hneg i)⟩
        rw [← hlev] at this
        simp at this
      refine ⟨fun i hi => by omega, fun _ => both (List.length_pos_of_mem hvn) (List.length_pos_of_mem hvp), fun _ _ => ?_⟩
      exact emptyTest_sound hD hc hn S hcor (fun v hv => ⟨cn v hv, hng v hv⟩) (fun v hv => ⟨cp v hv, hps v hv⟩) hvn hvp eb
  | [z0], hlen, hz, cz, perm, h =>
    have hk : k = 4 ∧ 0 < neg.length ∧ 0 < pos.length := by
      dsimp only at h
      split at h
      · cases h
      · next he =>
        simp only [Bool.or_eq_true, List.isEmpty_iff, not_or] at he
        refine ⟨?_, List.length_pos_iff.2 he.1, List.length_pos_iff.2 he.2⟩
        simp only [Option.bind_eq_bind, Option.pure_def] at h
        split at h <;> simp only [Option.bind_eq_some_iff, Option.some.injEq] at h
        · obtain ⟨_, _, _, _, _, _, _, b, _, h⟩ := h
          split at h <;> simp_all
        · obtain ⟨_, _, _, _, _, _, _, b, _, h⟩ := h
          split at h <;> simp_all
    obtain ⟨rfl, h1, h2⟩ := hk
    refine ⟨fun i hi => by omega, fun _ => both h1 h2, fun _ hcp => ?_⟩
    obtain ⟨i, hi⟩ := cz z0 (by simp)
    exact absurd ((coplanar_iff hf).2 (by rw [hi]; exact hz z0 (by simp))) (hcp i)
  | [z0, z1], hlen, hz, cz, perm, h =>
    have hk : k = 4 ∧ 0 < neg.length ∧ 0 < pos.length := by
      dsimp only at h
      split at h
      · cases h
      · next he =>
        simp only [List.length_cons, List.length_nil] at hlen
        refine ⟨?_, by omega, by omega⟩
        simp only [Option.bind_eq_bind, Option.pure_def, Option.bind_eq_some_iff, Option.some.injEq] at h
        obtain ⟨_, _, _, _, b, _, h⟩ := h
        split at h <;> simp_all
    obtain ⟨rfl, h1, h2⟩ := hk
    refine ⟨fun i hi => by omega, fun _ => both h1 h2, fun _ hcp => ?_⟩
    obtain ⟨i, hi⟩ := cz z0 (by simp)
    exact absurd ((coplanar_iff hf).2 (by rw [hi]; exact hz z0 (by simp))) (hcp i)
  | [z0, z1, z2], hlen, hz, cz, perm, h =>
    simp only [List.length_cons, List.length_nil] at hlen
    obtain ⟨o, ho⟩ := List.length_eq_one_iff.1 (show (pos ++ neg).length = 1 by rw [List.length_append]; omega)
    have F : Four x z0 z1 z2 o := by
      rw [List.append_assoc, ho] at perm
      exact perm
    have ev : (if pos.isEmpty = true then neg[0]? else pos[0]?) = some o := by
      cases pos with
      | nil => simp only [List.nil_append] at ho; simp [ho]
      | cons a l => simp only [List.cons_append, List.cons.injEq] at ho; simp [ho.1]
    have hoo : orient3d (pt pts o) (pt pts c.1) (pt pts c.2.1) (pt pts c.2.2) ≠ 0 := by
      have : o ∈ pos ++ neg := by rw [ho]; simp
      rcases List.mem_append.1 this with h | h
      · exact (hps _ h).ne
      · exact (hng _ h).ne'
    obtain ⟨i, e', hi⟩ := Tet.Mesh.index_spec (x := x) (v := o) ((F.mem o).2 (by simp))
    have ht' : k = i.val ∧ faceTest pts c z0 z1 z2 = some true := by
      dsimp only at h
      split at ev
      · next hE =>
        rw [if_pos hE, ev, some_bind, e', some_bind] at h
        simp only [Option.bind_eq_bind, Option.pure_def, Option.bind_eq_some_iff, Option.some.injEq] at h
        obtain ⟨b, eb, h⟩ := h
        split at h <;> simp_all
      · next hE =>
        rw [if_neg hE, ev, some_bind, e', some_bind] at h
        simp only [Option.bind_eq_bind, Option.pure_def, Option.bind_eq_some_iff, Option.some.injEq] at h
        obtain ⟨b, eb, h⟩ := h
        split at h <;> simp_all
    obtain ⟨rfl, ht'⟩ := ht'
    refine ⟨fun j hj => ?_, fun h => by omega, fun h => by omega⟩
    obtain rfl : i = j := Fin.ext hj
    obtain ⟨y, a0, a1, a2, a3, hy⟩ := faceTest_sound hD hc hn S F (hz z0 (by simp)) (hz z1 (by simp)) (hz z2 (by simp)) hoo ht'
    have other : ∀ j, j ≠ i → x.data j = z0 ∨ x.data j = z1 ∨ x.data j = z2 := fun j hj => by
      rcases (F.mem _).1 ⟨j, rfl⟩ with h | h | h | h
      · exact .inl h
      · exact .inr (.inl h)
      · exact .inr (.inr h)
      · exact absurd (S.inj hD (h.trans hi.symm)) hj
    refine ⟨fun j hj => (coplanar_iff hf).2 ?_, y, _, S.comb hD y, by rw [hi]; exact a3, fun j hj => ?_, hy⟩
    · dsimp only
      rcases other j hj with h | h | h <;> rw [h] <;> exact hz _ (by simp)
    · rcases other j hj with h | h | h <;> rw [h] <;> assumption
  | z0 :: z1 :: z2 :: z3 :: l, hlen, hz, cz, perm, h =>
    exfalso
    simp only [List.length_cons] at hlen
    have h1 := List.length_eq_zero_iff.1 (show pos.length = 0 by omega)
    have h2 := List.length_eq_zero_iff.1 (show neg.length = 0 by omega)
    subst h1 h2
    obtain ⟨i, hi⟩ := hsome
    refine hi (hz _ ?_)
    have := perm.mem_iff.2 ((mcor _).2 ⟨i, rfl⟩)
    simpa using this

end
end Verif.Constraint
