import Verif.Constraint.Cuts
/-!
# C94: the classification of the tetrahedra that a side of the constraint touches is complete
-/
namespace Verif.Constraint
open InSphere (Pt orient3d)
open Tet (Mesh orientIdx)
open Delaunay (Comb SolidTet IsDelaunay pt get_pt)
open Geom

variable {K : Type} [Field K] [LinearOrder K] [IsStrictOrderedRing K] {m : Mesh} {pts : List (Pt K)}

/-- The plane of the triangle cuts the tetrahedron in a quadrilateral, two opposite corners of which lie on one side of the triangle. -/
def Diagonal (T : Fin 4 → Pt K) (A B C : Pt K) : Prop :=
  (∀ i, ¬ Coplanar (T i) A B C) ∧ ∃ U V, (U = A ∧ V = B ∨ U = B ∧ V = C ∨ U = C ∧ V = A) ∧
    ∃ i j k l : Fin 4, [i, j, k, l].Nodup ∧ (∃ p, InOpenSegment p (T i) (T j) ∧ InOpenSegment p U V) ∧ ∃ q, InOpenSegment q (T k) (T l) ∧ InOpenSegment q U V

/-- The face opposite to corner `i` lies in the plane of the triangle, and the triangle holds a point of the inside of the face. -/
def FaceOver (T : Fin 4 → Pt K) (i : Fin 4) (A B C : Pt K) : Prop :=
  (∀ j, j ≠ i → Coplanar (T j) A B C) ∧ ∃ p w, Comb T w p ∧ w i = 0 ∧ (∀ j, j ≠ i → 0 < w j) ∧ InClosedTriangle p A B C

omit [IsStrictOrderedRing K] in
theorem anyM_true {α : Type} {f : α → Option Bool} {a : α} : ∀ {l : List α}, (∀ a ∈ l, ∃ b, f a = some b) → a ∈ l → f a = some true → anyM f l = some true
  | b :: l, h, ha, e => by
    obtain ⟨r, hr⟩ := h b (by simp)
    unfold anyM
    rw [hr, some_bind]
    cases r with
    | true => rfl
    | false =>
      rcases List.mem_cons.1 ha with rfl | ha
      · rw [hr] at e; cases e
      · exact anyM_true (fun a ha => h a (by simp [ha])) ha e

theorem lerp_of_collinear {A B p : Pt K} (hne : A ≠ B) (h : Collinear A B p) : ∃ r, p = lerp A B r := by
  obtain ⟨o, dd, r, s, u, ea, eb, ec⟩ := h
  have hrs : r ≠ s := fun e => hne (by rw [ea, eb, e])
  have hsr : s - r ≠ 0 := sub_ne_zero.2 (Ne.symm hrs)
  refine ⟨(u - r) / (s - r), ?_⟩
  rw [ea, eb, ec]
  apply pt_ext <;> simp only [lerp, onLine] <;> field_simp <;> ring

section
variable {a b : Nat} (ha : a < pts.length) (hb : b < pts.length)
include ha hb

theorem vSegCross0_eq {d e : Nat} (hd : d < pts.length) (he : e < pts.length) : vSegCross0 pts a b d e = some (innerSegmentsCross (pt pts a) (pt pts b) (pt pts d) (pt pts e)) := by
  simp [vSegCross0, get_pt ha, get_pt hb, get_pt hd, get_pt he]

end

section
variable (hD : IsDelaunay pts m) {t : Nat} {x : Tet.Tet}
include hD

/-- A segment that crosses an open face. -/
theorem pierce_true (S : Sol pts m t x) {p q u k a b : Nat} (F : Four x p q u k) (ha : a < pts.length) (hb : b < pts.length) {r s : K} (h0 : 0 < r) (h1 : r < 1) (hrs : r ≠ s)
    (hk : wt pts x k (lerp (pt pts a) (pt pts b) r) = 0) (hpos : ∀ v, (∃ i, x.data i = v) → v ≠ k → 0 < wt pts x v (lerp (pt pts a) (pt pts b) r))
    (hs : wt pts x k (lerp (pt pts a) (pt pts b) s) ≠ 0) : vSegInnerTri pts a b p q u = some true := by
  obtain ⟨n1, n2, n3, n4, n5, n6⟩ := F.ne hD S
  obtain ⟨o, e, ho⟩ := of_decide (segInnerTri_eq hD F S ha hb)
  rw [e, ho.2]
  refine ⟨fun h => hs ?_, r, h0, h1, hpos p ((F.mem p).2 (by simp)) n3, hpos q ((F.mem q).2 (by simp)) n5, hpos u ((F.mem u).2 (by simp)) n6, hk⟩
  rw [S.aff hD] at hk ⊢
  refine aff_zero h0.ne ?_ hk s
  unfold aff; rw [h]; ring

omit hD in
theorem vSegCross_comm {a b c d : Nat} (ha : a < pts.length) (hb : b < pts.length) (hc : c < pts.length) (hd : d < pts.length) (h : vSegCross pts a b c d = some true) :
    vSegCross pts c d a b = some true := by
  unfold vSegCross at h ⊢
  split at h
  · cases h
  · next hne =>
    rw [if_neg (fun h => hne (by rcases h with h | h | h | h <;> simp [h]))]
    simp only [get_pt ha, get_pt hb, get_pt hc, get_pt hd, Option.bind_eq_bind, Option.bind_some, Option.pure_def, Option.some.injEq] at h ⊢
    rw [c36_inner_segments_cross] at h ⊢
    obtain ⟨⟨s, t, s0, s1, t0, t1, e⟩, hn⟩ := h
    exact ⟨⟨t, s, t0, t1, s0, s1, e.symm⟩, fun ⟨h1, h2, h3, h4⟩ => hn ⟨h3, h4, h1, h2⟩⟩

/-- A segment that crosses an open edge. -/
theorem cross_true (S : Sol pts m t x) {p q u k a b : Nat} (F : Four x p q u k) (ha : a < pts.length) (hb : b < pts.length) {r s : K} (h0 : 0 < r) (h1 : r < 1) (hrs : r ≠ s)
    (hp : 0 < wt pts x p (lerp (pt pts a) (pt pts b) r)) (hq : 0 < wt pts x q (lerp (pt pts a) (pt pts b) r)) (hu : wt pts x u (lerp (pt pts a) (pt pts b) r) = 0) (hk : wt pts x k (lerp (pt pts a) (pt pts b) r) = 0)
    (hs : wt pts x u (lerp (pt pts a) (pt pts b) s) ≠ 0) : vSegCross pts p q a b = some true := by
  obtain ⟨g1, g2, -, -⟩ := F.lt hD S
  obtain ⟨o, e, ho⟩ := of_decide (segCross_eq hD F S ha hb)
  refine vSegCross_comm ha hb g1 g2 ?_
  rw [e, ho.2]
  refine ⟨fun h => hs ?_, r, h0, h1, hp, hq, hu, hk⟩
  rw [S.aff hD] at hu ⊢
  refine aff_zero h0.ne ?_ hu s
  unfold aff; rw [h.1]; ring

variable {c : Nat × Nat × Nat} (hc : Proper pts.length c) (hn : ¬ Collinear (pt pts c.1) (pt pts c.2.1) (pt pts c.2.2))
include hc

omit hD in
omit [IsStrictOrderedRing K] in
theorem off_plane {v : Nat} (h : orient3d (pt pts v) (pt pts c.1) (pt pts c.2.1) (pt pts c.2.2) ≠ 0) : v ≠ c.1 ∧ v ≠ c.2.1 ∧ v ≠ c.2.2 := by
  refine ⟨?_, ?_, ?_⟩ <;> rintro rfl <;> apply h <;> simp only [orient3d] <;> ring

include hn

omit hD in
/-- An edge through the plane meets the closed constraint. -/
theorem segTri_true {u v : Nat} (hu : u < pts.length) (hv : v < pts.length) (h1 : orient3d (pt pts u) (pt pts c.1) (pt pts c.2.1) (pt pts c.2.2) ≠ 0)
    (h2 : orient3d (pt pts v) (pt pts c.1) (pt pts c.2.1) (pt pts c.2.2) ≠ 0) {s : K} (s0 : 0 < s) (s1 : s < 1)
    (hi : InClosedTriangle (lerp (pt pts u) (pt pts v) s) (pt pts c.1) (pt pts c.2.1) (pt pts c.2.2)) : vSegTri pts u v c = some true := by
  obtain ⟨a1, a2, a3⟩ := off_plane hc h1
  obtain ⟨b1, b2, b3⟩ := off_plane hc h2
  have hf := hn
  rw [collinear_iff_flat] at hf
  unfold vSegTri
  rw [if_neg (by simp [a1, a2, a3, b1, b2, b3])]
  simp only [get_pt hu, get_pt hv, get_pt hc.lt1, get_pt hc.lt2, get_pt hc.lt3, Option.bind_eq_bind, Option.bind_some, Option.pure_def, Option.some.injEq]
  rw [c37_inner_segment_cross_triangle _ _ _ _ _ hn fun h => h1 ((coplanar_iff hf).1 h.1)]
  exact ⟨s, s0, s1, hi⟩

omit hD in
/-- An edge through the plane meets the open constraint. -/
theorem segInner_true {u v : Nat} (hu : u < pts.length) (hv : v < pts.length) (h1 : orient3d (pt pts u) (pt pts c.1) (pt pts c.2.1) (pt pts c.2.2) ≠ 0)
    (h2 : orient3d (pt pts v) (pt pts c.1) (pt pts c.2.1) (pt pts c.2.2) ≠ 0) {s : K} (s0 : 0 < s) (s1 : s < 1)
    (hi : InOpenTriangle (lerp (pt pts u) (pt pts v) s) (pt pts c.1) (pt pts c.2.1) (pt pts c.2.2)) : vSegInnerTri pts u v c.1 c.2.1 c.2.2 = some true := by
  obtain ⟨a1, a2, a3⟩ := off_plane hc h1
  obtain ⟨b1, b2, b3⟩ := off_plane hc h2
  have hf := hn
  rw [collinear_iff_flat] at hf
  unfold vSegInnerTri
  rw [if_neg (by simp [a1, a2, a3, b1, b2, b3])]
  simp only [get_pt hu, get_pt hv, get_pt hc.lt1, get_pt hc.lt2, get_pt hc.lt3, Option.bind_eq_bind, Option.bind_some, Option.pure_def, Option.some.injEq]
  rw [c37_inner_segment_cross_inner_triangle]
  exact ⟨hn, fun h => h1 ((coplanar_iff hf).1 h), s, s0, s1, hi⟩

omit hD in
/-- A vertex in the constraint. -/
theorem inTri_true {v : Nat} (hv : v < pts.length) (hi : InClosedTriangle (pt pts v) (pt pts c.1) (pt pts c.2.1) (pt pts c.2.2)) : vInTri pts v c = some true := by
  unfold vInTri
  split
  · rfl
  · simp only [get_pt hv, get_pt hc.lt1, get_pt hc.lt2, get_pt hc.lt3, Option.bind_eq_bind, Option.bind_some, Option.pure_def, Option.some.injEq]
    rw [c37_point_in_triangle _ _ _ _ hn (coplanar_of_closed hi)]
    exact hi

omit hD in
/-- A vertex in the plane of the constraint. -/
theorem inInner_eq {v : Nat} (hv : v < pts.length) (h0 : orient3d (pt pts v) (pt pts c.1) (pt pts c.2.1) (pt pts c.2.2) = 0) :
    ∃ r, vInInnerTri pts v c = some r ∧ (r = true ↔ ¬ (v = c.1 ∨ v = c.2.1 ∨ v = c.2.2) ∧ InClosedTriangle (pt pts v) (pt pts c.1) (pt pts c.2.1) (pt pts c.2.2)) := by
  have hf := hn
  rw [collinear_iff_flat] at hf
  unfold vInInnerTri
  split
  · next h => exact ⟨_, rfl, by simp [h]⟩
  · next h =>
    simp only [get_pt hv, get_pt hc.lt1, get_pt hc.lt2, get_pt hc.lt3, Option.bind_eq_bind, Option.bind_some, Option.pure_def]
    refine ⟨_, rfl, ?_⟩
    rw [c37_point_in_triangle _ _ _ _ hn ((coplanar_iff hf).2 h0)]
    simp [h]

omit hc hn in
/-- A vertex on a segment. -/
theorem inSeg_eq {v a b : Nat} (hv : v < pts.length) (ha : a < pts.length) (hb : b < pts.length) :
    ∃ r, vInSeg pts v a b = some r ∧ (r = true ↔ InClosedSegment (pt pts v) (pt pts a) (pt pts b)) := by
  unfold vInSeg
  split
  · next h =>
    refine ⟨_, rfl, fun _ => ?_, fun _ => rfl⟩
    rcases h with rfl | rfl
    · exact ⟨0, le_rfl, zero_le_one, (lerp_zero _ _).symm⟩
    · exact ⟨1, zero_le_one, le_rfl, (lerp_one _ _).symm⟩
  · next h =>
    simp only [get_pt hv, get_pt ha, get_pt hb, Option.bind_eq_bind, Option.bind_some, Option.pure_def]
    refine ⟨_, rfl, ?_⟩
    rw [c36_point_in_inner_segment]
    simp only [not_or] at h
    constructor
    · rintro ⟨-, s, s0, s1, e⟩
      exact ⟨s, s0.le, s1.le, e⟩
    · rintro ⟨s, s0, s1, e⟩
      refine ⟨fun hab => ?_, s, lt_of_le_of_ne s0 ?_, lt_of_le_of_ne s1 ?_, e⟩
      · rw [← hab] at e
        refine h.1 (pt_inj hD hv ha (e.trans ?_))
        apply pt_ext <;> simp only [lerp] <;> ring
      · rintro rfl
        rw [lerp_zero] at e
        exact h.1 (pt_inj hD hv ha e)
      · rintro rfl
        rw [lerp_one] at e
        exact h.2 (pt_inj hD hv hb e)

omit hD in
omit hc hn [LinearOrder K] [IsStrictOrderedRing K] in
theorem side_level [LinearOrder K] {e : Nat × Nat} (he : e ∈ sidesOf c) (r : K) : orient3d (lerp (pt pts e.1) (pt pts e.2) r) (pt pts c.1) (pt pts c.2.1) (pt pts c.2.2) = 0 := by
  simp only [sidesOf, List.mem_cons, List.not_mem_nil, or_false] at he
  rcases he with rfl | rfl | rfl <;> simp only [orient3d, lerp] <;> ring

omit hD hc hn in
theorem side_closed {e : Nat × Nat} (he : e ∈ sidesOf c) {r : K} (h0 : 0 ≤ r) (h1 : r ≤ 1) : InClosedTriangle (lerp (pt pts e.1) (pt pts e.2) r) (pt pts c.1) (pt pts c.2.1) (pt pts c.2.2) := by
  obtain ⟨a, b, g, ha, hb, hg, hs, e, -⟩ := zero_of_onSides (onSides_iff.2 ⟨e, he, r, h0, h1, rfl⟩)
  exact ⟨a, b, g, ha, hb, hg, hs, e⟩

/-- The three ways in which the constraint cuts through a tetrahedron. -/
theorem ways (S : Sol pts m t x) {p : Pt K} (hp : Rel pts x (fun v => ∃ i, x.data i = v) p) (hi : InClosedTriangle p (pt pts c.1) (pt pts c.2.1) (pt pts c.2.2)) :
    (∃ e ∈ sidesOf c, ∃ s, 0 ≤ s ∧ s ≤ 1 ∧ Rel pts x (fun v => ∃ i, x.data i = v) (lerp (pt pts e.1) (pt pts e.2) s) ∧ (Pierces pts x e.1 e.2 s ∨ EdgeToEdge pts x e.1 e.2)) ∨
    ∀ q, In pts x q → orient3d q (pt pts c.1) (pt pts c.2.1) (pt pts c.2.2) = 0 → InClosedTriangle q (pt pts c.1) (pt pts c.2.1) (pt pts c.2.2) := by
  have hf := hn
  rw [collinear_iff_flat] at hf
  rcases side_or_all hD S hp hi with ⟨r, hr, hs⟩ | h
  · obtain ⟨e, he, s, h0, h1, rfl⟩ := onSides_iff.1 hs
    obtain ⟨g1, g2, -⟩ := hc.side he
    exact .inl ⟨e, he, s, h0, h1, hr, through_inside hD S g1 g2 h0 h1 hr⟩
  · exact .inr fun q hq h0 => h q hq (fun v hv => by push Not at hv; exact wt_none (pts := pts) hv _) ((coplanar_iff hf).2 h0)

/-- The face test finds a face that the constraint overlaps. -/
theorem faceTest_complete (S : Sol pts m t x) {z0 z1 z2 o : Nat} (F : Four x z0 z1 z2 o) (h0 : orient3d (pt pts z0) (pt pts c.1) (pt pts c.2.1) (pt pts c.2.2) = 0)
    (h1 : orient3d (pt pts z1) (pt pts c.1) (pt pts c.2.1) (pt pts c.2.2) = 0) (h2 : orient3d (pt pts z2) (pt pts c.1) (pt pts c.2.1) (pt pts c.2.2) = 0)
    (h3 : orient3d (pt pts o) (pt pts c.1) (pt pts c.2.1) (pt pts c.2.2) ≠ 0) {p : Pt K} (hp : Rel pts x (fun v => v = z0 ∨ v = z1 ∨ v = z2) p)
    (hi : InClosedTriangle p (pt pts c.1) (pt pts c.2.1) (pt pts c.2.2)) : faceTest pts c z0 z1 z2 = some true := by
  obtain ⟨g0, g1, g2, g3⟩ := F.lt hD S
  obtain ⟨n1, n2, n3, n4, n5, n6⟩ := F.ne hD S
  have hf := hn
  rw [collinear_iff_flat] at hf
  rcases side_or_all hD S hp hi with ⟨r, hr, hs⟩ | h
  · obtain ⟨e, he, s, s0, s1, rfl⟩ := onSides_iff.1 hs
    obtain ⟨l1, l2, -⟩ := hc.side he
    have hpl : ∀ u, wt pts x o (lerp (pt pts e.1) (pt pts e.2) u) = 0 := fun u => by
      have := F.level hD S (lerp (pt pts e.1) (pt pts e.2) u) (pt pts c.1) (pt pts c.2.1) (pt pts c.2.2)
      rw [side_level he, h0, h1, h2] at this
      simp only [mul_zero, zero_add] at this
      exact (mul_eq_zero.1 this.symm).resolve_right h3
    obtain ⟨p', q', u', r, G, r0, r1, rs, hp', hq', hu'⟩ := through_face hD S F l1 l2 s0 s1 hr hpl
    obtain ⟨k1, k2, k3, k4, k5, k6⟩ := G.ne hD S
    have hmem : ∀ v, v = p' ∨ v = q' ∨ v = u' → v = z0 ∨ v = z1 ∨ v = z2 := by
      intro v hv
      have : v ≠ o := by rintro rfl; rcases hv with h | h | h <;> [exact k3 h.symm; exact k5 h.symm; exact k6 h.symm]
      have := (F.mem v).1 ((G.mem v).2 (by rcases hv with h | h | h <;> simp [h]))
      tauto
    have hs' : wt pts x u' (lerp (pt pts e.1) (pt pts e.2) s) ≠ 0 := ((hr u').1 (hmem u' (by simp))).ne'
    have c1 := cross_true hD S G l1 l2 r0 r1 rs hp' hq' hu' (hpl r) hs'
    have c2 := cross_true hD S G.swap01 l1 l2 r0 r1 rs hq' hp' hu' (hpl r) hs'
    obtain ⟨d, hd, hcr⟩ : ∃ d ∈ [(z0, z1), (z1, z2), (z2, z0)], vSegCross pts d.1 d.2 e.1 e.2 = some true := by
      rcases hmem p' (by simp) with rfl | rfl | rfl <;> rcases hmem q' (by simp) with rfl | rfl | rfl <;> first | exact absurd rfl k1 | skip
      · exact ⟨(p', q'), by simp, c1⟩
      · exact ⟨(q', p'), by simp, c2⟩
      · exact ⟨(q', p'), by simp, c2⟩
      · exact ⟨(p', q'), by simp, c1⟩
      · exact ⟨(p', q'), by simp, c1⟩
      · exact ⟨(q', p'), by simp, c2⟩
    obtain ⟨r1, e1⟩ := vInTri_ok (v := c) g0 hc.lt1 hc.lt2 hc.lt3
    obtain ⟨r2, e2⟩ := vInTri_ok (v := c) g1 hc.lt1 hc.lt2 hc.lt3
    obtain ⟨r3, e3⟩ := vInTri_ok (v := c) g2 hc.lt1 hc.lt2 hc.lt3
    unfold faceTest
    simp only [e1, e2, e3, Option.bind_eq_bind, Option.bind_some]
    split
    · rfl
    · refine anyM_true (a := (d, e)) (fun e he => ?_) ?_ hcr
      · simp only [List.mem_flatMap, List.mem_map, List.mem_cons, List.not_mem_nil, or_false] at he
        obtain ⟨d, hd, g, hg, rfl⟩ := he
        obtain ⟨g1, g2, -⟩ := hc.side hg
        rcases hd with rfl | rfl | rfl <;> exact vSegCross_ok (by assumption) (by assumption) g1 g2
      · exact List.mem_flatMap.2 ⟨d, hd, List.mem_map.2 ⟨e, he, rfl⟩⟩
  · have key : ∀ v, (v = z0 ∨ v = z1 ∨ v = z2) → v < pts.length → orient3d (pt pts v) (pt pts c.1) (pt pts c.2.1) (pt pts c.2.2) = 0 → vInTri pts v c = some true := by
      intro v hv hl hz
      have hcor : ∃ i, x.data i = v := (F.mem v).2 (by rcases hv with h | h | h <;> simp [h])
      refine inTri_true hc hn hl (h _ ((S.in_vertex hD hl).2 hcor) (fun w hw => ?_) ((coplanar_iff hf).2 hz))
      rw [S.wt_corner hD hcor, if_neg]
      rintro rfl
      exact hw hv
    unfold faceTest
    rw [key z0 (by simp) g0 h0, key z1 (by simp) g1 h1, key z2 (by simp) g2 h2]
    rfl

/-- The edge test finds every tetrahedron that the constraint cuts through. -/
theorem edgeTest_complete (S : Sol pts m t x) {va vb n0 n1 : Nat} (F : Four x va vb n0 n1) (h0 : orient3d (pt pts va) (pt pts c.1) (pt pts c.2.1) (pt pts c.2.2) = 0)
    (h1 : orient3d (pt pts vb) (pt pts c.1) (pt pts c.2.1) (pt pts c.2.2) = 0)
    (h2 : (0 < orient3d (pt pts n0) (pt pts c.1) (pt pts c.2.1) (pt pts c.2.2) ∧ orient3d (pt pts n1) (pt pts c.1) (pt pts c.2.1) (pt pts c.2.2) < 0) ∨
      (orient3d (pt pts n0) (pt pts c.1) (pt pts c.2.1) (pt pts c.2.2) < 0 ∧ 0 < orient3d (pt pts n1) (pt pts c.1) (pt pts c.2.1) (pt pts c.2.2)))
    {p : Pt K} (hp : Rel pts x (fun v => ∃ i, x.data i = v) p) (hi : InClosedTriangle p (pt pts c.1) (pt pts c.2.1) (pt pts c.2.2)) : edgeTest pts c va vb n0 n1 = some true := by
  obtain ⟨g0, g1, g2, g3⟩ := F.lt hD S
  obtain ⟨q1, q2, q3, q4, q5, q6⟩ := F.ne hD S
  have hn0 : orient3d (pt pts n0) (pt pts c.1) (pt pts c.2.1) (pt pts c.2.2) ≠ 0 := by rcases h2 with h | h <;> [exact h.1.ne'; exact h.1.ne]
  have hn1 : orient3d (pt pts n1) (pt pts c.1) (pt pts c.2.1) (pt pts c.2.2) ≠ 0 := by rcases h2 with h | h <;> [exact h.2.ne; exact h.2.ne']
  have cor : ∀ v, v = va ∨ v = vb ∨ v = n0 ∨ v = n1 → ∃ i, x.data i = v := fun v => (F.mem v).2
  have lev : ∀ e ∈ sidesOf c, ∀ r, 0 = wt pts x n0 (lerp (pt pts e.1) (pt pts e.2) r) * orient3d (pt pts n0) (pt pts c.1) (pt pts c.2.1) (pt pts c.2.2) +
      wt pts x n1 (lerp (pt pts e.1) (pt pts e.2) r) * orient3d (pt pts n1) (pt pts c.1) (pt pts c.2.1) (pt pts c.2.2) := fun e he r => by
    have := F.level hD S (lerp (pt pts e.1) (pt pts e.2) r) (pt pts c.1) (pt pts c.2.1) (pt pts c.2.2)
    rw [side_level he, h0, h1] at this
    linear_combination this
  -- a face that a side crosses has the corners `n0`, `n1`
  have hpierce : ∀ e ∈ sidesOf c, ∀ s, Rel pts x (fun v => ∃ i, x.data i = v) (lerp (pt pts e.1) (pt pts e.2) s) → Pierces pts x e.1 e.2 s →
      (vSegInnerTri pts e.1 e.2 n0 n1 va = some true ∧ vSegInnerTri pts e.2 e.1 n0 n1 va = some true) ∨ (vSegInnerTri pts e.1 e.2 n0 n1 vb = some true ∧ vSegInnerTri pts e.2 e.1 n0 n1 vb = some true) := by
    rintro e he s hr ⟨k, r, hk, r0, r1, rs, kz, kp⟩
    obtain ⟨l1, l2, -⟩ := hc.side he
    have both : ∀ {p q u}, Four x p q u k → vSegInnerTri pts e.1 e.2 p q u = some true ∧ vSegInnerTri pts e.2 e.1 p q u = some true := fun G =>
      ⟨pierce_true hD S G l1 l2 r0 r1 rs kz kp ((hr k).1 hk).ne', pierce_true hD S (r := 1 - r) (s := 1 - s) G l2 l1 (by linarith) (by linarith) (fun h => rs (by linarith)) (by rw [← lerp_rev]; exact kz)
        (by rw [← lerp_rev]; exact kp) (by rw [← lerp_rev]; exact ((hr k).1 hk).ne')⟩
    have hl := lev e he r
    rcases (F.mem k).1 hk with rfl | rfl | rfl | rfl
    · exact .inr (both (F.perm (by exact List.perm_append_comm (l₁ := [n0, n1, vb]) (l₂ := [k]) |>.trans (List.Perm.cons _ (List.perm_append_comm (l₁ := [n0, n1]) (l₂ := [vb]))))))
    · exact .inl (both (F.swap01.perm (by exact List.perm_append_comm (l₁ := [n0, n1, va]) (l₂ := [k]) |>.trans (List.Perm.cons _ (List.perm_append_comm (l₁ := [n0, n1]) (l₂ := [va]))))))
    · rw [kz, zero_mul, zero_add] at hl
      exact absurd hl.symm (mul_ne_zero (kp n1 (cor n1 (by simp)) q6.symm).ne' hn1)
    · rw [kz, zero_mul, add_zero] at hl
      exact absurd hl.symm (mul_ne_zero (kp n0 (cor n0 (by simp)) q6).ne' hn0)
  -- a side from edge to edge runs from `va vb` to `n0 n1`
  have hedge : ∀ e ∈ sidesOf c, EdgeToEdge pts x e.1 e.2 → vSegTri pts n0 n1 c = some true := by
    rintro e he h
    obtain ⟨q, u, k, r0, r1, G, a1, a2, a3, a4, b1, b2, b3, b4, d1, d2, d3, d4⟩ := h.at (cor va (by simp))
    obtain ⟨k1, k2, k3, k4, k5, k6⟩ := G.ne hD S
    have hl := G.level hD S (lerp (pt pts e.1) (pt pts e.2) r0) (pt pts c.1) (pt pts c.2.1) (pt pts c.2.2)
    rw [side_level he, h0, b3, b4] at hl
    simp only [mul_zero, zero_mul, zero_add, add_zero] at hl
    have hq : orient3d (pt pts q) (pt pts c.1) (pt pts c.2.1) (pt pts c.2.2) = 0 := (mul_eq_zero.1 hl.symm).resolve_left b2.ne'
    have eq : q = vb := by
      rcases (F.mem q).1 ((G.mem q).2 (by simp)) with h | h | h | h
      · exact absurd h.symm k1
      · exact h
      · rw [h] at hq; exact absurd hq hn0
      · rw [h] at hq; exact absurd hq hn1
    subst eq
    obtain ⟨w1, w2⟩ := (F.perm (by exact (List.perm_append_comm (l₁ := [n0, n1]) (l₂ := [va, q])))).on_edge hD S d1 d2
    have hpos : ∀ v, v = n0 ∨ v = n1 → 0 < wt pts x v (lerp (pt pts e.1) (pt pts e.2) r1) := by
      intro v hv
      have hva : v ≠ va := by rintro rfl; rcases hv with h | h <;> [exact q2 h; exact q3 h]
      have hvb : v ≠ q := by rintro rfl; rcases hv with h | h <;> [exact q4 h; exact q5 h]
      rcases (G.mem v).1 (cor v (by rcases hv with h | h <;> simp [h])) with h | h | h | h
      · exact absurd h hva
      · exact absurd h hvb
      · rw [h]; exact d3
      · rw [h]; exact d4
    have p0 := hpos n0 (by simp)
    have p1 := hpos n1 (by simp)
    refine segTri_true hc hn g2 g3 hn0 hn1 p1 (by linarith) ?_
    rw [← w2]
    exact side_closed he a3.le a4.le
  -- if all of the section lies in the constraint
  have hall : (∀ q, In pts x q → orient3d q (pt pts c.1) (pt pts c.2.1) (pt pts c.2.2) = 0 → InClosedTriangle q (pt pts c.1) (pt pts c.2.1) (pt pts c.2.2)) → vSegTri pts n0 n1 c = some true := by
    intro h
    obtain ⟨s, s0, s1, hz⟩ := edge_meets h2
    refine segTri_true hc hn g2 g3 hn0 hn1 s0 s1 (h _ ?_ hz)
    obtain ⟨e1, e2, e3, e4⟩ := (F.perm (by exact (List.perm_append_comm (l₁ := [n0, n1]) (l₂ := [va, vb])))).of_edge hD S s
    exact F.in_of hD e3.ge e4.ge (by rw [e1]; linarith) (by rw [e2]; exact s0.le)
  have hW := ways hD hc hn S hp hi
  obtain ⟨ia, ea, hia⟩ := inInner_eq hc hn g0 h0
  obtain ⟨ib, eb, hib⟩ := inInner_eq hc hn g1 h1
  obtain ⟨a0, ea0, ha0⟩ := inSeg_eq hD g0 hc.lt2 hc.lt3
  obtain ⟨a1, ea1, ha1⟩ := inSeg_eq hD g0 hc.lt3 hc.lt1
  obtain ⟨a2, ea2, ha2⟩ := inSeg_eq hD g0 hc.lt1 hc.lt2
  obtain ⟨b0, eb0, hb0⟩ := inSeg_eq hD g1 hc.lt2 hc.lt3
  obtain ⟨b1, eb1, hb1⟩ := inSeg_eq hD g1 hc.lt3 hc.lt1
  obtain ⟨b2, eb2, hb2⟩ := inSeg_eq hD g1 hc.lt1 hc.lt2
  obtain ⟨r3, e3⟩ := vSegTri_ok (v := c) g2 g3 hc.lt1 hc.lt2 hc.lt3
  unfold edgeTest onSides
  simp only [ea, eb, ea0, ea1, ea2, eb0, eb1, eb2, e3, Option.bind_eq_bind, Option.bind_some, Option.pure_def]
  split
  · rfl
  split
  · split
    · rfl
    next hcom =>
    split
    · rfl
    next hr3 =>
    have hr3' : vSegTri pts n0 n1 c ≠ some true := by rw [e3]; simpa using hr3
    -- a side through the inside that crosses a face
    obtain ⟨e, he, s, s0, s1, hr, hpi⟩ : ∃ e ∈ sidesOf c, ∃ s, 0 ≤ s ∧ s ≤ 1 ∧ Rel pts x (fun v => ∃ i, x.data i = v) (lerp (pt pts e.1) (pt pts e.2) s) ∧ Pierces pts x e.1 e.2 s := by
      rcases hW with ⟨e, he, s, s0, s1, hr, h | h⟩ | h
      · exact ⟨e, he, s, s0, s1, hr, h⟩
      · exact absurd (hedge e he h) hr3'
      · exact absurd (hall h) hr3'
    -- it is not the common side
    have hside : ∀ d : Nat × Nat, d = e → ¬ (InClosedSegment (pt pts va) (pt pts d.1) (pt pts d.2) ∧ InClosedSegment (pt pts vb) (pt pts d.1) (pt pts d.2)) := by
      rintro d rfl ⟨⟨s1, -, -, f1⟩, s2, -, -, f2⟩
      have hne : s1 ≠ s2 := by
        rintro rfl
        exact q1 (pt_inj hD g0 g1 (f1.trans f2.symm))
      have z1 : wt pts x n0 (lerp (pt pts d.1) (pt pts d.2) s1) = 0 := by rw [← f1, S.wt_corner hD (cor va (by simp)), if_neg q2.symm]
      have z2 : wt pts x n0 (lerp (pt pts d.1) (pt pts d.2) s2) = 0 := by rw [← f2, S.wt_corner hD (cor vb (by simp)), if_neg q4.symm]
      have := (hr n0).1 (cor n0 (by simp))
      rw [S.aff hD] at z1 z2 this
      rw [aff_zero hne z1 z2] at this
      exact lt_irrefl _ this
    have hf := hpierce e he s hr hpi
    have fin : ∀ o ea eb, o < pts.length → ea < pts.length → eb < pts.length → (e = (o, ea) ∨ e = (ea, o) ∨ e = (o, eb) ∨ e = (eb, o)) →
        anyM (fun (e : Nat × Nat) => vSegInnerTri pts e.1 o n0 n1 e.2) [(ea, va), (ea, vb), (eb, va), (eb, vb)] = some true := by
      intro o ea eb ho hea heb h
      have tot : ∀ a ∈ [(ea, va), (ea, vb), (eb, va), (eb, vb)], ∃ b, vSegInnerTri pts a.1 o n0 n1 a.2 = some b := by
        intro a ha
        simp only [List.mem_cons, List.not_mem_nil, or_false] at ha
        rcases ha with rfl | rfl | rfl | rfl <;> exact vSegInnerTri_ok (by assumption) ho g2 g3 (by assumption)
      rcases hf with ⟨f1, f2⟩ | ⟨f1, f2⟩
      · rcases h with rfl | rfl | rfl | rfl
        · exact anyM_true (a := (ea, va)) tot (by simp) f2
        · exact anyM_true (a := (ea, va)) tot (by simp) f1
        · exact anyM_true (a := (eb, va)) tot (by simp) f2
        · exact anyM_true (a := (eb, va)) tot (by simp) f1
      · rcases h with rfl | rfl | rfl | rfl
        · exact anyM_true (a := (ea, vb)) tot (by simp) f2
        · exact anyM_true (a := (ea, vb)) tot (by simp) f1
        · exact anyM_true (a := (eb, vb)) tot (by simp) f2
        · exact anyM_true (a := (eb, vb)) tot (by simp) f1
    simp only [sidesOf, List.mem_cons, List.not_mem_nil, or_false] at he
    by_cases c0 : (a0 && b0) = true
    · simp only [c0, if_true]
      rw [Bool.and_eq_true, ha0, hb0] at c0
      refine fin _ _ _ hc.lt1 hc.lt2 hc.lt3 ?_
      rcases he with h | h | h
      · exact .inl h
      · exact absurd c0 (hside _ h.symm)
      · exact .inr (.inr (.inr h))
    · by_cases c1 : (a1 && b1) = true
      · simp only [c0, c1, if_true]
        rw [Bool.and_eq_true, ha1, hb1] at c1
        refine fin _ _ _ hc.lt2 hc.lt3 hc.lt1 ?_
        rcases he with h | h | h
        · exact .inr (.inr (.inr h))
        · exact .inl h
        · exact absurd c1 (hside _ h.symm)
      · have c2 : (a2 && b2) = true := by
          simp only [Bool.not_eq_true] at c0 c1
          simpa [c0, c1] using hcom
        simp only [c0, c1]
        rw [Bool.and_eq_true, ha2, hb2] at c2
        refine fin _ _ _ hc.lt3 hc.lt1 hc.lt2 ?_
        rcases he with h | h | h
        · exact absurd c2 (hside _ h.symm)
        · exact .inr (.inr (.inr h))
        · exact .inl h
  next hnb =>
  split
  · have tot4 : ∀ e ∈ sidesOf c, ∃ r, vSegCross pts va vb e.1 e.2 = some r := fun e he => vSegCross_ok g0 g1 (hc.side he).1 (hc.side he).2.1
    obtain ⟨r4, e4⟩ : ∃ r, anyM (fun (e : Nat × Nat) => vSegCross pts va vb e.1 e.2) (sidesOf c) = some r := anyM_isSome tot4
    simp only [e4, Option.bind_some]
    split
    · rfl
    next hr4 =>
    split
    · rfl
    next hr3 =>
    have hr3' : vSegTri pts n0 n1 c ≠ some true := by rw [e3]; simpa using hr3
    obtain ⟨e, he, s, s0, s1, hr, hpi⟩ : ∃ e ∈ sidesOf c, ∃ s, 0 ≤ s ∧ s ≤ 1 ∧ Rel pts x (fun v => ∃ i, x.data i = v) (lerp (pt pts e.1) (pt pts e.2) s) ∧ Pierces pts x e.1 e.2 s := by
      rcases hW with ⟨e, he, s, s0, s1, hr, h | h⟩ | h
      · exact ⟨e, he, s, s0, s1, hr, h⟩
      · exact absurd (hedge e he h) hr3'
      · exact absurd (hall h) hr3'
    have tot : ∀ a ∈ (sidesOf c).flatMap (fun e => [va, vb].map fun v => (e, v)), ∃ b, vSegInnerTri pts a.1.1 a.1.2 n0 n1 a.2 = some b := by
      intro a ha
      simp only [List.mem_flatMap, List.mem_map, List.mem_cons, List.not_mem_nil, or_false] at ha
      obtain ⟨g, hg, u, hu, rfl⟩ := ha
      obtain ⟨k1, k2, -⟩ := hc.side hg
      rcases hu with rfl | rfl
      · exact vSegInnerTri_ok k1 k2 g2 g3 g0
      · exact vSegInnerTri_ok k1 k2 g2 g3 g1
    rcases hpierce e he s hr hpi with ⟨f1, -⟩ | ⟨f1, -⟩
    · exact anyM_true (a := (e, va)) tot (List.mem_flatMap.2 ⟨e, he, by simp⟩) f1
    · exact anyM_true (a := (e, vb)) tot (List.mem_flatMap.2 ⟨e, he, by simp⟩) f1
  · rfl

/-- The vertex test finds every tetrahedron that the constraint cuts through. -/
theorem vertexTest_complete (S : Sol pts m t x) {tv over u0 u1 : Nat} (F : Four x tv over u0 u1) (h0 : orient3d (pt pts tv) (pt pts c.1) (pt pts c.2.1) (pt pts c.2.2) = 0)
    (h2 : (0 < orient3d (pt pts over) (pt pts c.1) (pt pts c.2.1) (pt pts c.2.2) ∧ orient3d (pt pts u0) (pt pts c.1) (pt pts c.2.1) (pt pts c.2.2) < 0 ∧ orient3d (pt pts u1) (pt pts c.1) (pt pts c.2.1) (pt pts c.2.2) < 0) ∨
      (orient3d (pt pts over) (pt pts c.1) (pt pts c.2.1) (pt pts c.2.2) < 0 ∧ 0 < orient3d (pt pts u0) (pt pts c.1) (pt pts c.2.1) (pt pts c.2.2) ∧ 0 < orient3d (pt pts u1) (pt pts c.1) (pt pts c.2.1) (pt pts c.2.2)))
    {p : Pt K} (hp : Rel pts x (fun v => ∃ i, x.data i = v) p) (hi : InClosedTriangle p (pt pts c.1) (pt pts c.2.1) (pt pts c.2.2)) : vertexTest pts c tv over u0 u1 = some true := by
  obtain ⟨g0, g1, g2, g3⟩ := F.lt hD S
  obtain ⟨q1, q2, q3, q4, q5, q6⟩ := F.ne hD S
  have ho : orient3d (pt pts over) (pt pts c.1) (pt pts c.2.1) (pt pts c.2.2) ≠ 0 := by rcases h2 with h | h <;> [exact h.1.ne'; exact h.1.ne]
  have hn0 : orient3d (pt pts u0) (pt pts c.1) (pt pts c.2.1) (pt pts c.2.2) ≠ 0 := by rcases h2 with h | h <;> [exact h.2.1.ne; exact h.2.1.ne']
  have hn1 : orient3d (pt pts u1) (pt pts c.1) (pt pts c.2.1) (pt pts c.2.2) ≠ 0 := by rcases h2 with h | h <;> [exact h.2.2.ne; exact h.2.2.ne']
  have cor : ∀ v, v = tv ∨ v = over ∨ v = u0 ∨ v = u1 → ∃ i, x.data i = v := fun v => (F.mem v).2
  have tot : ∀ e ∈ sidesOf c, ∃ b, (do return (← vSegInnerTri pts e.1 e.2 tv over u0) || (← vSegInnerTri pts e.1 e.2 tv over u1) || (← vSegInnerTri pts e.1 e.2 over u0 u1) : Option Bool) = some b := by
    intro e he
    obtain ⟨l1, l2, -⟩ := hc.side he
    obtain ⟨r5, e5⟩ := vSegInnerTri_ok l1 l2 g0 g1 g2
    obtain ⟨r6, e6⟩ := vSegInnerTri_ok l1 l2 g0 g1 g3
    obtain ⟨r7, e7⟩ := vSegInnerTri_ok l1 l2 g1 g2 g3
    simp [e5, e6, e7]
  obtain ⟨r1, e1⟩ := vInInnerTri_ok (v := c) g0 hc.lt1 hc.lt2 hc.lt3
  obtain ⟨r2, e2⟩ : ∃ r, anyM (fun (e : Nat × Nat) => vInSeg pts tv e.1 e.2) (sidesOf c) = some r :=
    anyM_isSome fun e he => vInSeg_ok g0 (hc.side he).1 (hc.side he).2.1
  obtain ⟨r3, e3⟩ := vSegTri_ok (v := c) g1 g2 hc.lt1 hc.lt2 hc.lt3
  obtain ⟨r4, e4⟩ := vSegTri_ok (v := c) g1 g3 hc.lt1 hc.lt2 hc.lt3
  have e3' := e3
  have e4' := e4
  unfold vertexTest
  simp only [e1, e2, e3, e4, Option.bind_eq_bind, Option.bind_some]
  split
  · rfl
  split
  · rfl
  split
  · rfl
  next hr =>
  rcases ways hD hc hn S hp hi with ⟨e, he, s, s0, s1, hr, h | h⟩ | h
  · obtain ⟨k, r, hk, r0, r1, rs, kz, kp⟩ := h
    obtain ⟨l1, l2, -⟩ := hc.side he
    obtain ⟨o5, e5⟩ := vSegInnerTri_ok l1 l2 g0 g1 g2
    obtain ⟨o6, e6⟩ := vSegInnerTri_ok l1 l2 g0 g1 g3
    obtain ⟨o7, e7⟩ := vSegInnerTri_ok l1 l2 g1 g2 g3
    have ht : ∀ {p q u}, Four x p q u k → vSegInnerTri pts e.1 e.2 p q u = some true := fun G => pierce_true hD S G l1 l2 r0 r1 rs kz kp ((hr k).1 hk).ne'
    refine anyM_true (a := e) tot he ?_
    rcases (F.mem k).1 hk with rfl | rfl | rfl | rfl
    · rw [ht F.swap01.swap12.swap23] at e7
      simp only [Option.some.injEq] at e7
      simp [e5, e6, ht F.swap01.swap12.swap23]
    · have := F.level hD S (lerp (pt pts e.1) (pt pts e.2) r) (pt pts c.1) (pt pts c.2.1) (pt pts c.2.2)
      rw [side_level he, h0, kz] at this
      have p0 := kp u0 (cor u0 (by simp)) q4.symm
      have p1 := kp u1 (cor u1 (by simp)) q5.symm
      simp only [mul_zero, zero_mul, zero_add] at this
      rcases h2 with ⟨-, j0, j1⟩ | ⟨-, j0, j1⟩
      · linarith [mul_neg_of_pos_of_neg p0 j0, mul_neg_of_pos_of_neg p1 j1]
      · linarith [mul_pos p0 j0, mul_pos p1 j1]
    · simp [e5, ht F.swap23, e7]
    · simp [ht F, e6, e7]
  · obtain ⟨q, u, k, r0, r1, G, a1, a2, a3, a4, b1, b2, b3, b4, d1, d2, d3, d4⟩ := h.at (cor tv (by simp))
    obtain ⟨k1, k2, k3, k4, k5, k6⟩ := G.ne hD S
    have hl := G.level hD S (lerp (pt pts e.1) (pt pts e.2) r0) (pt pts c.1) (pt pts c.2.1) (pt pts c.2.2)
    rw [side_level he, h0, b3, b4] at hl
    simp only [mul_zero, zero_mul, zero_add, add_zero] at hl
    have hq : orient3d (pt pts q) (pt pts c.1) (pt pts c.2.1) (pt pts c.2.2) = 0 := (mul_eq_zero.1 hl.symm).resolve_left b2.ne'
    rcases (F.mem q).1 ((G.mem q).2 (by simp)) with h | h | h | h
    · exact absurd h.symm k1
    · rw [h] at hq; exact absurd hq ho
    · rw [h] at hq; exact absurd hq hn0
    · rw [h] at hq; exact absurd hq hn1
  · exfalso
    have key : ∀ {u w}, Four x tv over u w → u < pts.length → orient3d (pt pts u) (pt pts c.1) (pt pts c.2.1) (pt pts c.2.2) ≠ 0 →
        ((0 < orient3d (pt pts over) (pt pts c.1) (pt pts c.2.1) (pt pts c.2.2) ∧ orient3d (pt pts u) (pt pts c.1) (pt pts c.2.1) (pt pts c.2.2) < 0) ∨
        (orient3d (pt pts over) (pt pts c.1) (pt pts c.2.1) (pt pts c.2.2) < 0 ∧ 0 < orient3d (pt pts u) (pt pts c.1) (pt pts c.2.1) (pt pts c.2.2))) → vSegTri pts over u c = some true := by
      intro u w F hu hz hs
      obtain ⟨s, s0, s1, hz'⟩ := edge_meets hs
      refine segTri_true hc hn g1 hu ho hz s0 s1 (h _ ?_ hz')
      have G : Four x over u tv w := F.swap01.swap12
      obtain ⟨e1, e2, e3, e4⟩ := G.of_edge hD S s
      exact G.in_of hD (by rw [e1]; linarith) (by rw [e2]; exact s0.le) e3.ge e4.ge
    rw [key F g2 hn0 (h2.imp (fun h => ⟨h.1, h.2.1⟩) fun h => ⟨h.1, h.2.1⟩), Option.some.injEq] at e3'
    rw [key F.swap23 g3 hn1 (h2.imp (fun h => ⟨h.1, h.2.2⟩) fun h => ⟨h.1, h.2.2⟩), Option.some.injEq] at e4'
    simp [← e3', ← e4'] at hr

omit hD in
/-- Does a side cross every edge of the list? -/
theorem allCross_ok {l : List (Nat × Nat)} (hl : ∀ e ∈ l, e.1 < pts.length ∧ e.2 < pts.length) :
    ∃ r, allCross pts c l = some r ∧ (r = true ↔ ∀ e ∈ l, ∃ d ∈ sidesOf c, SegmentsCross (pt pts e.1) (pt pts e.2) (pt pts d.1) (pt pts d.2)) := by
  induction l with
  | nil => exact ⟨_, rfl, by simp⟩
  | cons e l ih =>
    obtain ⟨r, er, hr⟩ := ih fun e he => hl e (List.mem_cons_of_mem _ he)
    obtain ⟨q1, q2⟩ := hl e (by simp)
    have ea := anyM_some (f := fun (d : Nat × Nat) => vSegCross0 pts e.1 e.2 d.1 d.2) (g := fun d => innerSegmentsCross (pt pts e.1) (pt pts e.2) (pt pts d.1) (pt pts d.2)) (l := sidesOf c)
      fun d hd => vSegCross0_eq q1 q2 (hc.side hd).1 (hc.side hd).2.1
    have hy : ((sidesOf c).any fun d => innerSegmentsCross (pt pts e.1) (pt pts e.2) (pt pts d.1) (pt pts d.2)) = true ↔ ∃ d ∈ sidesOf c, SegmentsCross (pt pts e.1) (pt pts e.2) (pt pts d.1) (pt pts d.2) := by
      rw [List.any_eq_true]
      simp only [c36_inner_segments_cross]
    unfold allCross
    rw [ea, some_bind]
    split
    · next h =>
      refine ⟨r, er, ?_⟩
      rw [hr, List.forall_mem_cons]
      exact ⟨fun g => ⟨hy.1 h, g⟩, fun g => g.2⟩
    · next h =>
      refine ⟨false, rfl, ?_⟩
      simp only [Bool.false_eq_true, false_iff]
      intro hall
      exact h (hy.2 (hall e (by simp)))

/-- The test for no corner in the plane finds every tetrahedron that the constraint cuts through, unless a side is a diagonal of the section. -/
theorem emptyTest_complete (S : Sol pts m t x) (hz : ∀ i, orient3d (pt pts (x.data i)) (pt pts c.1) (pt pts c.2.1) (pt pts c.2.2) ≠ 0) {neg pos : List Nat}
    (hneg : ∀ v ∈ neg, (∃ i, x.data i = v) ∧ 0 < orient3d (pt pts v) (pt pts c.1) (pt pts c.2.1) (pt pts c.2.2))
    (hpos : ∀ v ∈ pos, (∃ i, x.data i = v) ∧ orient3d (pt pts v) (pt pts c.1) (pt pts c.2.1) (pt pts c.2.2) < 0)
    (hd : ¬ Diagonal (fun i => pt pts (x.data i)) (pt pts c.1) (pt pts c.2.1) (pt pts c.2.2))
    {p : Pt K} (hp : Rel pts x (fun v => ∃ i, x.data i = v) p) (hi : InClosedTriangle p (pt pts c.1) (pt pts c.2.1) (pt pts c.2.2)) : emptyTest pts c x neg pos = some true := by
  have hf := hn
  rw [collinear_iff_flat] at hf
  have lt : ∀ v, (∃ i, x.data i = v) → v < pts.length := by rintro v ⟨i, rfl⟩; exact S.lt hD i
  have hpl : ∀ e ∈ neg.flatMap fun n => pos.map fun p => (n, p), e.1 ∈ neg ∧ e.2 ∈ pos := by
    intro e he
    simp only [List.mem_flatMap, List.mem_map] at he
    obtain ⟨n, hn, p, hp, rfl⟩ := he
    exact ⟨hn, hp⟩
  have hlt : ∀ e ∈ neg.flatMap fun n => pos.map fun p => (n, p), e.1 < pts.length ∧ e.2 < pts.length := fun e he =>
    ⟨lt _ (hneg _ (hpl e he).1).1, lt _ (hpos _ (hpl e he).2).1⟩
  obtain ⟨r1, e1, hr1⟩ := allCross_ok hc hn hlt
  have tot2 : ∀ e ∈ neg.flatMap fun n => pos.map fun p => (n, p), ∃ r, vSegInnerTri pts e.1 e.2 c.1 c.2.1 c.2.2 = some r := fun e he => vSegInnerTri_ok (hlt e he).1 (hlt e he).2 hc.lt1 hc.lt2 hc.lt3
  obtain ⟨r2, e2⟩ : ∃ r, anyM (fun (e : Nat × Nat) => vSegInnerTri pts e.1 e.2 c.1 c.2.1 c.2.2) (neg.flatMap fun n => pos.map fun p => (n, p)) = some r := anyM_isSome tot2
  unfold emptyTest
  simp only [e1, e2, Option.bind_eq_bind, Option.bind_some]
  split
  · rfl
  next hr1' =>
  split
  · rfl
  next hr2' =>
  rcases ways hD hc hn S hp hi with ⟨e, he, s, s0, s1, hr, h | h⟩ | h
  · obtain ⟨k, r, hk, r0, r1, rs, kz, kp⟩ := h
    obtain ⟨l1, l2, -⟩ := hc.side he
    have ht : ∀ {p q u}, Four x p q u k → vSegInnerTri pts e.1 e.2 p q u = some true := fun G => pierce_true hD S G l1 l2 r0 r1 rs kz kp ((hr k).1 hk).ne'
    obtain ⟨f, hf, e⟩ : ∃ f ∈ [(x.data 0, x.data 1, x.data 2), (x.data 1, x.data 2, x.data 3), (x.data 2, x.data 3, x.data 0), (x.data 3, x.data 0, x.data 1)],
        vSegInnerTri pts e.1 e.2 f.1 f.2.1 f.2.2 = some true := by
      have F : Four x (x.data 0) (x.data 1) (x.data 2) (x.data 3) := .refl _
      have F1 : Four x (x.data 1) (x.data 2) (x.data 3) (x.data 0) := F.swap01.swap12.swap23
      have F2 : Four x (x.data 2) (x.data 3) (x.data 0) (x.data 1) := F1.swap01.swap12.swap23
      have F3 : Four x (x.data 3) (x.data 0) (x.data 1) (x.data 2) := F2.swap01.swap12.swap23
      rcases (F.mem k).1 hk with rfl | rfl | rfl | rfl
      · exact ⟨(x.data 1, x.data 2, x.data 3), by simp, ht F1⟩
      · exact ⟨(x.data 2, x.data 3, x.data 0), by simp, ht F2⟩
      · exact ⟨(x.data 3, x.data 0, x.data 1), by simp, ht F3⟩
      · exact ⟨(x.data 0, x.data 1, x.data 2), by simp, ht F⟩
    refine anyM_true (a := (_, f)) (fun a ha => ?_) (List.mem_flatMap.2 ⟨_, he, List.mem_map.2 ⟨f, hf, rfl⟩⟩) e
    simp only [List.mem_flatMap, List.mem_map, List.mem_cons, List.not_mem_nil, or_false] at ha
    obtain ⟨d, hd, f, hf, rfl⟩ := ha
    obtain ⟨g1, g2, -⟩ := hc.side hd
    rcases hf with rfl | rfl | rfl | rfl <;> exact vSegInnerTri_ok g1 g2 (S.lt hD _) (S.lt hD _) (S.lt hD _)
  · exfalso
    apply hd
    obtain ⟨p, q, u, k, r0, r1, G, a1, a2, a3, a4, b1, b2, b3, b4, d1, d2, d3, d4⟩ := h
    obtain ⟨k1, k2, k3, k4, k5, k6⟩ := G.ne hD S
    obtain ⟨l1, l2, l3⟩ := hc.side he
    obtain ⟨g0, g1, g2, g3⟩ := G.lt hD S
    obtain ⟨i, hi⟩ := (G.mem p).2 (by simp)
    obtain ⟨j, hj⟩ := (G.mem q).2 (by simp)
    obtain ⟨i', hi'⟩ := (G.mem u).2 (by simp)
    obtain ⟨j', hj'⟩ := (G.mem k).2 (by simp)
    have hne := fun e => l3 (pt_inj hD l1 l2 e)
    refine ⟨fun i h => hz i ((coplanar_iff hf).1 h), pt pts e.1, pt pts e.2, ?_, i, j, i', j', ?_, ⟨_, ⟨?_, ?_⟩, hne, r0, a1, a2, rfl⟩, _, ⟨?_, ?_⟩, hne, r1, a3, a4, rfl⟩
    · simp only [sidesOf, List.mem_cons, List.not_mem_nil, or_false] at he
      rcases he with rfl | rfl | rfl <;> simp
    · have hinj : ∀ {a b : Fin 4} {v w}, x.data a = v → x.data b = w → v ≠ w → a ≠ b := by
        rintro a b v w rfl rfl h rfl
        exact h rfl
      simp [hinj hi hj k1, hinj hi hi' k2, hinj hi hj' k3, hinj hj hi' k4, hinj hj hj' k5, hinj hi' hj' k6]
    · dsimp only; rw [hi, hj]; exact fun e => k1 (pt_inj hD g0 g1 e)
    · obtain ⟨w1, w2⟩ := G.on_edge hD S b3 b4
      dsimp only
      rw [hi, hj]
      exact ⟨_, b2, by linarith, w2⟩
    · dsimp only; rw [hi', hj']; exact fun e => k6 (pt_inj hD g2 g3 e)
    · obtain ⟨w1, w2⟩ := (G.perm (by exact (List.perm_append_comm (l₁ := [u, k]) (l₂ := [p, q])))).on_edge hD S d1 d2
      dsimp only
      rw [hi', hj']
      exact ⟨_, d4, by linarith, w2⟩
  · exfalso
    apply hr1'
    rw [hr1]
    intro e he
    obtain ⟨hn', hp'⟩ := hpl e he
    obtain ⟨m1, m2⟩ := hneg _ hn'
    obtain ⟨m3, m4⟩ := hpos _ hp'
    obtain ⟨s, s0, s1, hs⟩ := edge_meets (.inl ⟨m2, m4⟩)
    have hne : e.1 ≠ e.2 := by intro h; rw [h] at m2; linarith
    obtain ⟨u, k, G⟩ : ∃ u k, Four x e.1 e.2 u k := by
      obtain ⟨q, u, k, G⟩ := Four.exists hD S m1
      rcases (G.mem _).1 m3 with h | h | h | h
      · exact absurd h.symm hne
      · exact ⟨u, k, h ▸ G⟩
      · exact ⟨q, k, h ▸ G.swap12⟩
      · exact ⟨u, q, h ▸ G.perm (by exact ((List.Perm.swap _ _ _).trans (List.Perm.cons _ (List.Perm.swap _ _ _)) |>.trans (List.Perm.swap _ _ _) |>.cons _))⟩
    obtain ⟨w1, w2, w3, w4⟩ := G.of_edge hD S s
    have hin : In pts x (lerp (pt pts e.1) (pt pts e.2) s) := G.in_of hD (by rw [w1]; linarith) (by rw [w2]; exact s0.le) w3.ge w4.ge
    have hcl := h _ hin hs
    have hon : OnSides (lerp (pt pts e.1) (pt pts e.2) s) (pt pts c.1) (pt pts c.2.1) (pt pts c.2.2) := by
      by_contra hcon
      have := anyM_true (a := e) tot2 he (segInner_true hc hn (hlt e he).1 (hlt e he).2 m2.ne' m4.ne s0 s1 (open_of_closed hcl hcon))
      rw [e2, Option.some.injEq] at this
      exact hr2' this
    obtain ⟨d, hd, r, r0, r1, er⟩ := onSides_iff.1 hon
    obtain ⟨l1, l2, l3⟩ := hc.side hd
    rw [er] at w1 w2 hin
    obtain ⟨r0', r1'⟩ := inner_param hD S l1 l2 r0 r1 hne hin (by rw [w1]; linarith) (by rw [w2]; exact s0)
    refine ⟨d, hd, ⟨s, r, s0, s1, r0', r1', er⟩, fun ⟨_, _, h1, _⟩ => ?_⟩
    -- the edge end is not in the plane
    apply m2.ne'
    obtain ⟨r', e'⟩ := lerp_of_collinear (fun e => l3 (pt_inj hD l1 l2 e)) h1
    rw [e']
    exact side_level hd r'

omit hD hn in
theorem split_exact {l : List Nat} (hr : pts.length ≤ m.tets.length) (hl : ∀ u ∈ l, u < pts.length) :
    ∃ zero pos neg, split m pts c l = some (zero, pos, neg) ∧ (zero ++ pos ++ neg).Perm l ∧ (∀ v ∈ zero, orient3d (pt pts v) (pt pts c.1) (pt pts c.2.1) (pt pts c.2.2) = 0) ∧
      (∀ v ∈ pos, orient3d (pt pts v) (pt pts c.1) (pt pts c.2.1) (pt pts c.2.2) < 0) ∧ (∀ v ∈ neg, 0 < orient3d (pt pts v) (pt pts c.1) (pt pts c.2.1) (pt pts c.2.2)) := by
  induction l with
  | nil => exact ⟨[], [], [], rfl, .refl _, by simp, by simp, by simp⟩
  | cons u l ih =>
    obtain ⟨zero, pos, neg, e, hp, hz, hps, hng⟩ := ih fun u hu => hl u (List.mem_cons_of_mem _ hu)
    have hu := hl u (by simp)
    have er : lookupOri m pts c u = some (orient3d (pt pts c.1) (pt pts c.2.1) (pt pts c.2.2) (pt pts u)) := by
      unfold lookupOri
      rw [if_pos (by omega)]
      simp [orientIdx, get_pt hc.lt1, get_pt hc.lt2, get_pt hc.lt3, get_pt hu]
    have eq : orient3d (pt pts c.1) (pt pts c.2.1) (pt pts c.2.2) (pt pts u) = - orient3d (pt pts u) (pt pts c.1) (pt pts c.2.1) (pt pts c.2.2) := by
      simp only [orient3d]; ring
    rw [eq] at er
    by_cases h0 : orient3d (pt pts u) (pt pts c.1) (pt pts c.2.1) (pt pts c.2.2) = 0
    · exact ⟨u :: zero, pos, neg, by simp [split, er, e, h0], by simpa using hp, by simpa [h0] using hz, hps, hng⟩
    · by_cases h0' : orient3d (pt pts u) (pt pts c.1) (pt pts c.2.1) (pt pts c.2.2) < 0
      · refine ⟨zero, u :: pos, neg, by simp [split, er, e, h0, h0'], ?_, hz, by simpa [h0'] using hps, hng⟩
        refine List.Perm.trans ?_ (hp.cons u)
        simp only [List.append_assoc, List.cons_append]
        exact List.perm_middle
      · have hg : 0 < orient3d (pt pts u) (pt pts c.1) (pt pts c.2.1) (pt pts c.2.2) := lt_of_le_of_ne (not_lt.1 h0') (Ne.symm h0)
        refine ⟨zero, pos, u :: neg, by simp [split, er, e, h0, h0'], ?_, hz, hps, by simpa [hg] using hng⟩
        refine List.Perm.trans ?_ (hp.cons u)
        exact List.perm_middle

/-- The loop body of `set_improper_intersections` misses nothing but diagonals. -/
theorem improper_complete (S : Sol pts m t x) :
    (Crossed (fun i => pt pts (x.data i)) (pt pts c.1) (pt pts c.2.1) (pt pts c.2.2) → ¬ Diagonal (fun i => pt pts (x.data i)) (pt pts c.1) (pt pts c.2.1) (pt pts c.2.2) → improper m pts c t = some (some 4)) ∧
    ∀ i : Fin 4, FaceOver (fun i => pt pts (x.data i)) i (pt pts c.1) (pt pts c.2.1) (pt pts c.2.2) → improper m pts c t = some (some i.val) := by
  have hf := hn
  rw [collinear_iff_flat] at hf
  have ltc : ∀ u ∈ corners x, u < pts.length := by
    intro u hu
    simp only [corners, List.mem_cons, List.not_mem_nil, or_false] at hu
    rcases hu with rfl | rfl | rfl | rfl <;> exact S.lt hD _
  have mcor : ∀ u, u ∈ corners x ↔ ∃ i, x.data i = u := by
    intro u
    rw [(show Four x _ _ _ _ from List.Perm.refl _).mem]
    simp [corners]
  obtain ⟨zero, pos, neg, es, perm, hz, hps, hng⟩ := split_exact (m := m) hc (points_le_tets hD) ltc
  have hlen := perm.length_eq
  have lcor : (corners x).length = 4 := rfl
  rw [lcor] at hlen
  have cz : ∀ v ∈ zero, ∃ i, x.data i = v := fun v hv => (mcor v).1 (perm.mem_iff.1 (by simp [hv]))
  have cp : ∀ v ∈ pos, ∃ i, x.data i = v := fun v hv => (mcor v).1 (perm.mem_iff.1 (by simp [hv]))
  have cn : ∀ v ∈ neg, ∃ i, x.data i = v := fun v hv => (mcor v).1 (perm.mem_iff.1 (by simp [hv]))
  have hsome := not_all_zero (c := fun i => pt pts (x.data i)) (S.vol hD) hn
  unfold improper
  rw [S.get, some_bind, es, some_bind]
  dsimp only
  refine ⟨fun hx hd => ?_, fun i hx => ?_⟩
  · obtain ⟨⟨j, hj⟩, k, hk⟩ := opposite_of_crossed hn hsome hx
    obtain ⟨p, ⟨w, hw, hcomb⟩, hi⟩ := hx
    have hp : Rel pts x (fun v => ∃ i, x.data i = v) p := fun v => by
      refine ⟨?_, fun h => ?_⟩
      · rintro ⟨i, rfl⟩
        rw [← S.unique hD hcomb]
        exact hw i
      · push Not at h
        exact wt_none (pts := pts) h _
    have mj : x.data j ∈ neg := by
      have := perm.mem_iff.2 ((mcor _).2 ⟨j, rfl⟩)
      simp only [List.mem_append] at this
      rcases this with (h | h) | h
      · exact absurd (hz _ h) hj.ne'
      · exact absurd (hps _ h) (not_lt.2 hj.le)
      · exact h
    have mk : x.data k ∈ pos := by
      have := perm.mem_iff.2 ((mcor _).2 ⟨k, rfl⟩)
      simp only [List.mem_append] at this
      rcases this with (h | h) | h
      · exact absurd (hz _ h) hk.ne
      · exact h
      · exact absurd (hng _ h) (not_lt.2 hk.le)
    have lp : 0 < pos.length := List.length_pos_of_mem mk
    have ln : 0 < neg.length := List.length_pos_of_mem mj
    simp only [List.length_append] at hlen
    match zero, hlen with
    | [], hlen =>
      have : emptyTest pts c x neg pos = some true := emptyTest_complete hD hc hn S (fun i h => by
        have := perm.mem_iff.2 ((mcor _).2 ⟨i, rfl⟩)
        simp only [List.nil_append, List.mem_append] at this
        rcases this with h' | h'
        · exact absurd h (hps _ h').ne
        · exact absurd h (hng _ h').ne') (fun v hv => ⟨cn v hv, hng v hv⟩) (fun v hv => ⟨cp v hv, hps v hv⟩) hd hp hi
      simp [this]
    | [z0], hlen =>
      have e1 : (neg.isEmpty || pos.isEmpty) = false := by
        cases neg <;> cases pos <;> simp_all
      simp only [List.length_cons, List.length_nil] at hlen
      rw [e1]
      by_cases hl : neg.length > pos.length
      · obtain ⟨o, rfl⟩ := List.length_eq_one_iff.1 (show pos.length = 1 by omega)
        obtain ⟨a, b, rfl⟩ := List.length_eq_two.1 (show neg.length = 2 by omega)
        have F : Four x z0 o a b := perm
        have : vertexTest pts c z0 o a b = some true := vertexTest_complete hD hc hn S F (hz z0 (by simp)) (.inr ⟨hps o (by simp), hng a (by simp), hng b (by simp)⟩) hp hi
        simp [this]
      · obtain ⟨o, rfl⟩ := List.length_eq_one_iff.1 (show neg.length = 1 by omega)
        obtain ⟨a, b, rfl⟩ := List.length_eq_two.1 (show pos.length = 2 by omega)
        have F : Four x z0 a b o := perm
        have : vertexTest pts c z0 o a b = some true := vertexTest_complete hD hc hn S F.swap23.swap12 (hz z0 (by simp)) (.inl ⟨hng o (by simp), hps a (by simp), hps b (by simp)⟩) hp hi
        simp [this]
    | [z0, z1], hlen =>
      simp only [List.length_cons, List.length_nil] at hlen
      obtain ⟨n0, rfl⟩ := List.length_eq_one_iff.1 (show neg.length = 1 by omega)
      obtain ⟨n1, rfl⟩ := List.length_eq_one_iff.1 (show pos.length = 1 by omega)
      have F : Four x z0 z1 n1 n0 := perm
      have : edgeTest pts c z0 z1 n0 n1 = some true := edgeTest_complete hD hc hn S F.swap23 (hz z0 (by simp)) (hz z1 (by simp)) (.inl ⟨hng n0 (by simp), hps n1 (by simp)⟩) hp hi
      simp [this]
    | _ :: _ :: _ :: _, hlen =>
      simp only [List.length_cons] at hlen
      omega
  · obtain ⟨hpl, p, w, hcomb, wz, wp, hi⟩ := hx
    have hzero : ∀ j, j ≠ i → orient3d (pt pts (x.data j)) (pt pts c.1) (pt pts c.2.1) (pt pts c.2.2) = 0 := fun j hj => (coplanar_iff hf).1 (hpl j hj)
    have hoi : orient3d (pt pts (x.data i)) (pt pts c.1) (pt pts c.2.1) (pt pts c.2.2) ≠ 0 := by
      obtain ⟨j, hj⟩ := hsome
      by_cases e : j = i
      · rw [← e]; exact hj
      · exact absurd (hzero j e) hj
    have hnd : (zero ++ pos ++ neg).Nodup := perm.nodup_iff.2 (by
      obtain ⟨n1, n2, n3, n4, n5, n6⟩ := (show Four x _ _ _ _ from List.Perm.refl _).ne hD S
      simp [corners, n1, n2, n3, n4, n5, n6])
    have hrest : ∀ v ∈ pos ++ neg, v = x.data i := by
      intro v hv
      obtain ⟨j, rfl⟩ : ∃ j, x.data j = v := by
        rcases List.mem_append.1 hv with h | h
        · exact cp v h
        · exact cn v h
      by_contra hne
      have h0 := hzero j fun e => hne (by rw [e])
      rcases List.mem_append.1 hv with h | h
      · exact (hps _ h).ne h0
      · exact (hng _ h).ne' h0
    have hin : x.data i ∈ pos ++ neg := by
      have := perm.mem_iff.2 ((mcor _).2 ⟨i, rfl⟩)
      rw [List.append_assoc] at this
      rcases List.mem_append.1 this with h | h
      · exact absurd (hz _ h) hoi
      · exact h
    have hone : pos ++ neg = [x.data i] := by
      rw [List.append_assoc] at hnd
      have hnd' := hnd.of_append_right
      generalize pos ++ neg = l at *
      match l with
      | [] => cases hin
      | [a] => rw [hrest a (by simp)]
      | a :: b :: l =>
        simp only [List.nodup_cons, List.mem_cons, not_or] at hnd'
        exact absurd ((hrest a (by simp)).trans (hrest b (by simp)).symm) hnd'.1.1
    rw [List.append_assoc, hone] at perm
    rw [List.append_assoc, hone] at hlen
    simp only [List.length_append, List.length_cons, List.length_nil] at hlen
    obtain ⟨z0, z1, z2, rfl⟩ := List.length_eq_three.1 (show zero.length = 3 by omega)
    have F : Four x z0 z1 z2 (x.data i) := perm
    obtain ⟨q1, q2, q3, q4, q5, q6⟩ := F.ne hD S
    have ev : (if pos.isEmpty = true then neg[0]? else pos[0]?) = some (x.data i) := by
      cases pos with
      | nil => simp only [List.nil_append] at hone; simp [hone]
      | cons a l => simp only [List.cons_append, List.cons.injEq] at hone; simp [hone.1]
    obtain ⟨i', e', hi'⟩ := Tet.Mesh.index_spec (x := x) (v := x.data i) ⟨i, rfl⟩
    have ei : i' = i := S.inj hD hi'
    subst ei
    have hp : Rel pts x (fun v => v = z0 ∨ v = z1 ∨ v = z2) p := fun v => by
      have hw : ∀ j, wt pts x (x.data j) p = w j := fun j => (S.unique hD hcomb j).symm
      refine ⟨fun hv => ?_, fun hv => ?_⟩
      · obtain ⟨j, rfl⟩ := (F.mem v).2 (by tauto)
        rw [hw]
        refine wp j fun e => ?_
        rw [e] at hv
        rcases hv with h | h | h
        · exact q3 h.symm
        · exact q5 h.symm
        · exact q6 h.symm
      · by_cases hcv : ∃ j, x.data j = v
        · have : v = x.data i' := by have := (F.mem v).1 hcv; tauto
          rw [this, hw, wz]
        · push Not at hcv
          exact wt_none (pts := pts) hcv _
    have ht : faceTest pts c z0 z1 z2 = some true := faceTest_complete hD hc hn S F (hz z0 (by simp)) (hz z1 (by simp)) (hz z2 (by simp)) hoi hp hi
    dsimp only
    split at ev
    · next hE =>
      rw [if_pos hE, ev, some_bind, e', some_bind, ht, some_bind]
      rfl
    · next hE =>
      rw [if_neg hE, ev, some_bind, e', some_bind, ht, some_bind]
      rfl

end
end Verif.Constraint
