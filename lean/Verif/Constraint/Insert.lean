import Verif.Constraint.Sides
import Verif.Constraint.Exact
import Verif.Constraint.Interior
import Verif.Constraint.Room
import Verif.Constraint.Hole
/-!
# C93: `insert_constraints` as a whole
-/
namespace Verif.Constraint
open InSphere (Pt orient3d)
open Tet (Mesh TriFace face vpivot)
open Delaunay (Comb SolidTet IsDelaunay pt get_pt)
open Geom

variable {K : Type} [Field K] [LinearOrder K] [IsStrictOrderedRing K] {m : Mesh} {pts : List (Pt K)}

/-- The tetrahedron is solid and a side of the constraint touches it. -/
def TouchedBy (pts : List (Pt K)) (m : Mesh) (A B C : Pt K) (t : Nat) : Prop := ∃ T, SolidTet pts m t T ∧ Touched T A B C

section
variable (hD : IsDelaunay pts m)
include hD

omit [IsStrictOrderedRing K] in
/-- Every face between three points belongs to a solid tetrahedron. -/
theorem face_solid {h : TriFace} (hl : h.tet < m.tets.length) {p q u : Nat} (ho : m.org h = some p) (hd : m.dest h = some q) (ha : m.apex h = some u) (hp : p < pts.length) (hq : q < pts.length) (hu : u < pts.length) :
    ∃ t y k, Sol pts m t y ∧ Four y p q u k := by
  obtain ⟨x, hx, -⟩ := hD.whole.corners _ hl
  have eo : x.data (Tet.orgPivot h.ver) = p := by simpa [Mesh.org, hx] using ho
  have ed : x.data (Tet.destPivot h.ver) = q := by simpa [Mesh.dest, hx] using hd
  have ea : x.data (Tet.apexPivot h.ver) = u := by simpa [Mesh.apex, hx] using ha
  by_cases h3 : x.data 3 = pts.length
  · obtain ⟨n, y, k, hn, hy, -, F, -⟩ := two_sides hD hx ho hd ha
    obtain ⟨g0, g1, g2, -⟩ := hD.point _ x hx
    obtain ⟨-, g, eg, z, hz, z3⟩ := hD.hull _ x _ _ _ hx h3 (get_pt g0) (get_pt g1) (get_pt g2)
    have e3 : face h.ver = 3 := by
      rw [face_oppo]
      rcases pivot_cases h.ver 3 with e | e | e | e
      · rw [e, eo] at h3; omega
      · rw [e, ed] at h3; omega
      · rw [e, ea] at h3; omega
      · exact e.symm
    rw [e3, eg, Option.some.injEq] at hn
    subst hn
    rw [hy, Option.some.injEq] at hz
    subst hz
    rw [hD.num] at z3
    exact ⟨_, y, k, ⟨hy, z3⟩, F⟩
  · have F := pivots_perm x h.ver
    rw [eo, ed, ea] at F
    exact ⟨_, x, _, ⟨hx, h3⟩, F⟩

/-- A tetrahedron with a corner of the constraint is touched. -/
theorem touched_corner {t : Nat} {x : Tet.Tet} (S : Sol pts m t x) {A B C : Pt K} {v : Nat} (hv : ∃ i, x.data i = v) (h : pt pts v = A ∨ pt pts v = B ∨ pt pts v = C) : TouchedBy pts m A B C t := by
  obtain ⟨i, rfl⟩ := hv
  refine ⟨_, S.solid hD, pt pts (x.data i), inTet_corner _ i, ?_⟩
  rcases h with e | e | e <;> rw [e]
  · exact .inl ⟨0, le_rfl, zero_le_one, (lerp_zero _ _).symm⟩
  · exact .inl ⟨1, zero_le_one, le_rfl, (lerp_one _ _).symm⟩
  · exact .inr (.inl ⟨1, zero_le_one, le_rfl, (lerp_one _ _).symm⟩)

/-- A constraint that is a face of the mesh meets no other tetrahedra than those that it touches. -/
theorem face_meets {t : Nat} {y : Tet.Tet} {p q u k : Nat} (S : Sol pts m t y) (F : Four y p q u k) {w : Nat} (h : Meets pts m (pt pts p) (pt pts q) (pt pts u) w) : TouchedBy pts m (pt pts p) (pt pts q) (pt pts u) w := by
  obtain ⟨T, hT, h⟩ := h
  obtain ⟨z, hz, z3, hp⟩ := hT
  have Z : Sol pts m w z := ⟨hz, z3⟩
  have eT : T = fun i => pt pts (z.data i) := funext fun i => Option.some.inj ((hp i).symm.trans (get_pt (Z.lt hD i)))
  subst eT
  have on : ∀ r, InClosedTriangle r (pt pts p) (pt pts q) (pt pts u) → In pts y r ∧ wt pts y k r = 0 := by
    rintro r ⟨w1, w2, w3, g1, g2, g3, gs, rfl⟩
    obtain ⟨e1, e2, e3, e4⟩ := F.of_face hD S gs
    refine ⟨F.in_of hD ?_ ?_ ?_ ?_, e4⟩
    · rw [e1]; exact g1
    · rw [e2]; exact g2
    · rw [e3]; exact g3
    · rw [e4]
  rcases h with ⟨r, ⟨W, hW, hc⟩, hr⟩ | ⟨i, h⟩
  · exfalso
    obtain ⟨hin, h0⟩ := on r hr
    have pos : ∀ i, 0 < wt pts z (z.data i) r := fun i => by rw [← Z.unique hD hc]; exact hW i
    have hinz : In pts z r := (Z.in_iff hD r).2 ⟨W, fun i => (hW i).le, hc⟩
    have hcor : ∀ i, ∃ j, y.data j = z.data i := fun i => corner_of_wt (pts := pts) (p := r) (by rw [S.agree hD Z hin hinz]; exact (pos i).ne')
    choose f hf using hcor
    have finj : Function.Injective f := fun i j e => Z.inj hD (by rw [← hf, ← hf, e])
    obtain ⟨j, hj⟩ := (F.mem k).2 (by simp)
    obtain ⟨i, rfl⟩ := Finite.injective_iff_surjective.1 finj j
    have := pos i
    rw [← hf, hj, ← S.agree hD Z hin hinz, h0] at this
    exact lt_irrefl _ this
  · obtain ⟨j, hj⟩ : ∃ j : Fin 4, j ≠ i := exists_ne i
    obtain ⟨hin, h0⟩ := on _ (h j hj)
    have hc := S.corner_of_in hD (Z.lt hD j) hin
    refine touched_corner hD Z ⟨j, rfl⟩ ?_
    rcases (F.mem _).1 hc with e | e | e | e
    · exact .inl (by rw [e])
    · exact .inr (.inl (by rw [e]))
    · exact .inr (.inr (by rw [e]))
    · rw [S.wt_corner hD hc, if_pos e.symm] at h0
      exact absurd h0 one_ne_zero

/-- A face that lies in a triangle lies over it. -/
theorem over_of_in {t : Nat} {x : Tet.Tet} (S : Sol pts m t x) {i : Fin 4} {A B C : Pt K} (h : FaceIn (fun i => pt pts (x.data i)) i A B C) : FaceOver (fun i => pt pts (x.data i)) i A B C := by
  obtain ⟨p, q, u, -, F⟩ := Four.of_corners hD S (rfl : x.data i = x.data i)
  have hcl : ∀ v, v = p ∨ v = q ∨ v = u → InClosedTriangle (pt pts v) A B C := fun v hv => by
    obtain ⟨j, rfl⟩ := (F.mem v).2 (by tauto)
    refine h j fun e => ?_
    obtain ⟨-, -, n3, -, n5, n6⟩ := F.ne hD S
    rw [e] at hv
    rcases hv with e | e | e
    · exact n3 e.symm
    · exact n5 e.symm
    · exact n6 e.symm
  have h3 : (3 : K) ≠ 0 := by norm_num
  obtain ⟨e1, e2, e3, e4⟩ := F.of_face hD S (wa := 1 / 3) (wb := 1 / 3) (wc := 1 / 3) (by norm_num)
  refine ⟨fun j hj => coplanar_of_closed (h j hj), _, _, S.comb hD _, e4, fun j hj => ?_, ?_⟩
  · rcases (F.mem _).1 ⟨j, rfl⟩ with e | e | e | e
    · rw [e, e1]; norm_num
    · rw [e, e2]; norm_num
    · rw [e, e3]; norm_num
    · exact absurd (S.inj hD e) hj
  · have := closed_lerp (hcl p (.inl rfl)) (closed_lerp (hcl q (.inr (.inl rfl))) (hcl u (.inr (.inr rfl))) (t := 1 / 2) (by norm_num) (by norm_num)) (t := 2 / 3) (by norm_num) (by norm_num)
    convert this using 1
    simp only [comb, lerp, Pt.mk.injEq]
    refine ⟨?_, ?_, ?_⟩ <;> ring

/-- The plane of a triangle that cuts through a tetrahedron has corners on both sides. -/
theorem sides_of_crossed {t : Nat} {x : Tet.Tet} (S : Sol pts m t x) {A B C : Pt K} (hn : ¬ Collinear A B C) (h : Crossed (fun i => pt pts (x.data i)) A B C) :
    (∃ i, 0 < orient3d (pt pts (x.data i)) A B C) ∧ ∃ i, orient3d (pt pts (x.data i)) A B C < 0 := by
  have hsome := not_all_zero (c := fun i => pt pts (x.data i)) (S.vol hD) hn
  obtain ⟨r, ⟨W, hW, hc⟩, hr⟩ := h
  have hf := hn
  rw [collinear_iff_flat] at hf
  have h0 := (coplanar_iff hf).1 (coplanar_of_closed hr)
  rw [height_comb hc A B C] at h0
  obtain ⟨i, hi⟩ := hsome
  constructor
  · by_contra hcon
    push Not at hcon
    have := (Finset.sum_eq_zero_iff_of_nonpos fun i _ => mul_nonpos_of_nonneg_of_nonpos (hW i).le (hcon i)).1 h0 i (Finset.mem_univ _)
    exact hi ((mul_eq_zero.1 this).resolve_left (hW i).ne')
  · by_contra hcon
    push Not at hcon
    have := (Finset.sum_eq_zero_iff_of_nonneg fun i _ => mul_nonneg (hW i).le (hcon i)).1 h0 i (Finset.mem_univ _)
    exact hi ((mul_eq_zero.1 this).resolve_left (hW i).ne')

/-- A tetrahedron with a face over a triangle of the mesh has that triangle as its face. -/
theorem four_of_over {t w : Nat} {x y : Tet.Tet} {p q u k : Nat} (S : Sol pts m w y) (F : Four y p q u k) (X : Sol pts m t x) {i : Fin 4} (h : FaceOver (fun i => pt pts (x.data i)) i (pt pts p) (pt pts q) (pt pts u)) :
    Four x p q u (x.data i) := by
  obtain ⟨-, r, W, hc, h0, hpos, hr⟩ := h
  obtain ⟨w1, w2, w3, g1, g2, g3, gs, rfl⟩ := hr
  obtain ⟨e1, e2, e3, e4⟩ := F.of_face hD S gs
  have hin : In pts y (comb w1 w2 w3 (pt pts p) (pt pts q) (pt pts u)) := by
    refine F.in_of hD ?_ ?_ ?_ ?_
    · rw [e1]; exact g1
    · rw [e2]; exact g2
    · rw [e3]; exact g3
    · rw [e4]
  have hinx : In pts x (comb w1 w2 w3 (pt pts p) (pt pts q) (pt pts u)) := (X.in_iff hD _).2 ⟨W, fun j => by
    by_cases hj : j = i
    · rw [hj, h0]
    · exact (hpos j hj).le, hc⟩
  have hmem : ∀ j, j ≠ i → x.data j = p ∨ x.data j = q ∨ x.data j = u := fun j hj => by
    have hne : wt pts y (x.data j) (comb w1 w2 w3 (pt pts p) (pt pts q) (pt pts u)) ≠ 0 := by
      rw [S.agree hD X hin hinx, ← X.unique hD hc]
      exact (hpos j hj).ne'
    rcases (F.mem _).1 (corner_of_wt hne) with e | e | e | e
    · exact .inl e
    · exact .inr (.inl e)
    · exact .inr (.inr e)
    · rw [e, e4] at hne
      exact absurd rfl hne
  obtain ⟨p', q', u', -, F'⟩ := Four.of_corners hD X (rfl : x.data i = x.data i)
  obtain ⟨n1, n2, n3, n4, n5, n6⟩ := F'.ne hD X
  have key : ∀ v, v = p' ∨ v = q' ∨ v = u' → v = p ∨ v = q ∨ v = u := fun v hv => by
    obtain ⟨j, rfl⟩ := (F'.mem v).2 (by tauto)
    refine hmem j fun e => ?_
    rw [e] at hv
    rcases hv with e | e | e
    · exact n3 e.symm
    · exact n5 e.symm
    · exact n6 e.symm
  have k1 := key p' (.inl rfl)
  have k2 := key q' (.inr (.inl rfl))
  have k3 := key u' (.inr (.inr rfl))
  rcases k1 with rfl | rfl | rfl <;> rcases k2 with rfl | rfl | rfl <;> rcases k3 with rfl | rfl | rfl <;>
    first
      | exact absurd rfl n1
      | exact absurd rfl n2
      | exact absurd rfl n4
      | exact F'
      | exact F'.swap01
      | exact F'.swap12
      | exact F'.swap01.swap12
      | exact F'.swap12.swap01
      | exact F'.swap01.swap12.swap01

/-- A triangle that is a face of the mesh cuts through no tetrahedron. -/
theorem face_not_crossed {t w : Nat} {x y : Tet.Tet} {p q u k : Nat} (S : Sol pts m w y) (F : Four y p q u k) (X : Sol pts m t x) : ¬ Crossed (fun i => pt pts (x.data i)) (pt pts p) (pt pts q) (pt pts u) := by
  rintro ⟨r, ⟨W, hW, hc⟩, w1, w2, w3, g1, g2, g3, gs, rfl⟩
  obtain ⟨e1, e2, e3, e4⟩ := F.of_face hD S gs
  have hin : In pts y (comb w1 w2 w3 (pt pts p) (pt pts q) (pt pts u)) := by
    refine F.in_of hD ?_ ?_ ?_ ?_
    · rw [e1]; exact g1
    · rw [e2]; exact g2
    · rw [e3]; exact g3
    · rw [e4]
  have pos : ∀ i, 0 < wt pts x (x.data i) (comb w1 w2 w3 (pt pts p) (pt pts q) (pt pts u)) := fun i => by rw [← X.unique hD hc]; exact hW i
  have hinz := (X.in_iff hD (comb w1 w2 w3 (pt pts p) (pt pts q) (pt pts u))).2 ⟨W, fun i => (hW i).le, hc⟩
  have hcor : ∀ i, ∃ j, y.data j = x.data i := fun i => corner_of_wt (pts := pts) (by rw [S.agree hD X hin hinz]; exact (pos i).ne')
  choose f hf using hcor
  have finj : Function.Injective f := fun i j e => X.inj hD (by rw [← hf, ← hf, e])
  obtain ⟨j, hj⟩ := (F.mem k).2 (by simp)
  obtain ⟨i, rfl⟩ := Finite.injective_iff_surjective.1 finj j
  have := pos i
  rw [← hf, hj, ← S.agree hD X hin hinz, e4] at this
  exact lt_irrefl _ this

omit hD in
omit [IsStrictOrderedRing K] in
theorem improperLoop_ok {c : Nat × Nat × Nat} {cid : Nat} : ∀ (l : List Nat) (marks : List Mark), (∀ t ∈ l, ∃ r, improper m pts c t = some r) →
    ∃ marks', improperLoop m pts c cid l marks = some marks' ∧ ∀ k t i, Mark.mk k t i ∈ marks' ↔ Mark.mk k t i ∈ marks ∨ i = cid ∧ t ∈ l ∧ improper m pts c t = some (some k)
  | [], marks, _ => ⟨marks, rfl, by simp⟩
  | t :: l, marks, h => by
    obtain ⟨r, e⟩ := h t (by simp)
    unfold improperLoop
    rw [e]
    cases r with
    | none =>
      obtain ⟨marks', e', h'⟩ := improperLoop_ok (c := c) (cid := cid) l marks fun u hu => h u (by simp [hu])
      refine ⟨marks', e', fun k u i => ?_⟩
      rw [h']
      refine or_congr_right (and_congr_right fun _ => ⟨fun ⟨h1, h2⟩ => ⟨by simp [h1], h2⟩, fun ⟨h1, h2⟩ => ⟨?_, h2⟩⟩)
      rcases List.mem_cons.1 h1 with rfl | h1
      · rw [e] at h2; cases h2
      · exact h1
    | some k0 =>
      obtain ⟨marks', e', h'⟩ := improperLoop_ok (c := c) (cid := cid) l (marks ++ [⟨k0, t, cid⟩]) fun u hu => h u (by simp [hu])
      refine ⟨marks', e', fun k u i => ?_⟩
      rw [h']
      simp only [List.mem_append, List.mem_cons, List.not_mem_nil, or_false, Mark.mk.injEq]
      constructor
      · rintro ((h1 | ⟨rfl, rfl, rfl⟩) | ⟨h1, h2, h3⟩)
        · exact .inl h1
        · exact .inr ⟨rfl, .inl rfl, e⟩
        · exact .inr ⟨h1, .inr h2, h3⟩
      · rintro (h1 | ⟨rfl, rfl | h2, h3⟩)
        · exact .inl (.inl h1)
        · rw [e] at h3
          simp only [Option.some.injEq] at h3
          exact .inl (.inr ⟨h3.symm, rfl, rfl⟩)
        · exact .inr ⟨rfl, h2, h3⟩

omit hD in
theorem mem_marksAt {marks : List Mark} {k t i : Nat} : i ∈ marksAt marks k t ↔ Mark.mk k t i ∈ marks := by
  simp only [marksAt, List.mem_map, List.mem_filter, Bool.and_eq_true, beq_iff_eq]
  constructor
  · rintro ⟨⟨_, _, _⟩, ⟨h, rfl, rfl⟩, rfl⟩
    exact h
  · intro h
    exact ⟨_, ⟨h, rfl, rfl⟩, rfl⟩

/-- What the marks of a constraint mean: they lie in range, and those of tetrahedra that no side touches are true and complete as far as such tetrahedra hang together. -/
structure GoodMarks (pts : List (Pt K)) (m : Mesh) (c : Nat × Nat × Nat) (N : Nat → Nat → Prop) : Prop where
  range : ∀ k t, N k t → k ≤ 4 ∧ t < m.tets.length
  sound : ∀ A B C, Vertices pts c A B C → ¬ Collinear A B C → ∀ t T, SolidTet pts m t T → ¬ Touched T A B C → ∀ k, N k t →
    (k = 4 → Crossed T A B C) ∧ ∀ i : Fin 4, k = i.val → FaceIn T i A B C
  complete : ∀ A B C, Vertices pts c A B C → ¬ Collinear A B C → ∀ t T, SolidTet pts m t T → Spread m (TouchedBy pts m A B C) (Meets pts m A B C) t →
    (Crossed T A B C → N 4 t) ∧ ∀ i : Fin 4, FaceIn T i A B C → N i t
  faces : ∀ A B C, Vertices pts c A B C → ¬ Collinear A B C → ∀ t T, SolidTet pts m t T → ∀ i : Fin 4, (N i t → FaceOver T i A B C) ∧ (Touched T A B C → FaceOver T i A B C → N i t)
  inner : ∀ A B C, Vertices pts c A B C → ¬ Collinear A B C → ∀ t T, SolidTet pts m t T →
    (N 4 t → (∃ i, 0 < orient3d (T i) A B C) ∧ (∃ i, orient3d (T i) A B C < 0) ∧ ((∀ i, ¬ Coplanar (T i) A B C) → Crossed T A B C)) ∧ (Touched T A B C → Crossed T A B C → ¬ Diagonal T A B C → N 4 t)

theorem insertOne_ok {c : Nat × Nat × Nat} (hc : Proper pts.length c) {fuel : Nat} (hf : m.tets.length < fuel) (cid : Nat) (marks : List Mark) :
    ∃ (marks' : List Mark) (N : Nat → Nat → Prop), insertOne fuel m pts cid c marks = some (m, marks') ∧ GoodMarks pts m c N ∧ ∀ k t i, Mark.mk k t i ∈ marks' ↔ Mark.mk k t i ∈ marks ∨ i = cid ∧ N k t := by
  have vtx : ∀ {A B C}, Vertices pts c A B C → pt pts c.1 = A ∧ pt pts c.2.1 = B ∧ pt pts c.2.2 = C := fun h =>
    ⟨Option.some.inj ((get_pt hc.lt1).symm.trans h.a), Option.some.inj ((get_pt hc.lt2).symm.trans h.b), Option.some.inj ((get_pt hc.lt3).symm.trans h.c)⟩
  obtain ⟨t0, x0, hp, hx0, ⟨i0, hi0⟩, -⟩ := hD.vertex c.1 hc.lt1
  have hl0 := (List.getElem?_eq_some_iff.1 hx0).1
  obtain ⟨res, er, hres⟩ := Poly.c58_sound m _ hD.whole (fun j x _ hx => hD.clean j x hx) c.1 c.2.1 c.2.2 t0 hc.ne1 hc.ne3.symm hp hl0 ⟨x0, i0, hx0, hi0⟩ fuel hf
  cases res with
  | some h =>
    obtain ⟨hl, ho, hda⟩ := hres h rfl
    obtain ⟨x, hx, -⟩ := hD.whole.corners _ hl
    obtain ⟨q, u, hd, ha, hset⟩ : ∃ q u, m.dest h = some q ∧ m.apex h = some u ∧ (q = c.2.1 ∧ u = c.2.2 ∨ q = c.2.2 ∧ u = c.2.1) := by
      rcases hda with ⟨h1, h2⟩ | ⟨h1, h2⟩
      · exact ⟨_, _, h1, h2, .inl ⟨rfl, rfl⟩⟩
      · exact ⟨_, _, h1, h2, .inr ⟨rfl, rfl⟩⟩
    obtain ⟨n, y, k, hn, hy, hk, F, htwo⟩ := two_sides hD hx ho hd ha
    obtain ⟨w, z, k', Z, F'⟩ : ∃ t y k, Sol pts m t y ∧ Four y c.1 c.2.1 c.2.2 k := by
      rcases hset with ⟨rfl, rfl⟩ | ⟨rfl, rfl⟩
      · exact face_solid hD hl ho hd ha hc.lt1 hc.lt2 hc.lt3
      · obtain ⟨t, y, k, S, F⟩ := face_solid hD hl ho hd ha hc.lt1 hc.lt3 hc.lt2
        exact ⟨t, y, k, S, F.swap12⟩
    refine ⟨marks ++ [⟨(face h.ver).val, h.tet, cid⟩, ⟨(face n.ver).val, n.tet, cid⟩], fun k t => k = (face h.ver).val ∧ t = h.tet ∨ k = (face n.ver).val ∧ t = n.tet, ?_, ?_, ?_⟩
    · unfold insertOne
      rw [er, some_bind]
      dsimp only
      rw [hx, some_bind, hn, some_bind]
      rfl
    · constructor
      · rintro k t (⟨rfl, rfl⟩ | ⟨rfl, rfl⟩)
        · exact ⟨by omega, hl⟩
        · exact ⟨by omega, (List.getElem?_eq_some_iff.1 hy).1⟩
      · intro A B C hv _ t T hT ht k hk
        obtain ⟨rfl, rfl, rfl⟩ := vtx hv
        exfalso
        obtain ⟨x', hx', h3, hp⟩ := hT
        have hcor : ∃ i, x'.data i = c.1 := by
          rcases hk with ⟨-, rfl⟩ | ⟨-, rfl⟩
          · rw [hx, Option.some.injEq] at hx'
            subst hx'
            exact ⟨Tet.orgPivot h.ver, by simpa [Mesh.org, hx] using ho⟩
          · rw [hy, Option.some.injEq] at hx'
            subst hx'
            exact (F.mem _).2 (by simp)
        obtain ⟨T', hT', ht'⟩ := touched_corner hD ⟨hx', h3⟩ hcor (C := pt pts c.2.2) (B := pt pts c.2.1) (.inl rfl)
        rw [solid_unique hT' ⟨x', hx', h3, hp⟩] at ht'
        exact ht ht'
      · intro A B C hv _ t T hT sp
        obtain ⟨rfl, rfl, rfl⟩ := vtx hv
        exact absurd (face_meets hD Z F' sp.not_seed.2) sp.not_seed.1
      · intro A B C hv hn' t T hT i
        obtain ⟨rfl, rfl, rfl⟩ := vtx hv
        obtain ⟨x', hx', h3, hp⟩ := hT
        have X : Sol pts m t x' := ⟨hx', h3⟩
        obtain rfl : T = fun i => pt pts (x'.data i) := funext fun i => Option.some.inj ((hp i).symm.trans (get_pt (X.lt hD i)))
        have Fh : Four x c.1 q u (x.data (face h.ver)) := by
          have := pivots_perm x h.ver
          rw [show x.data (Tet.orgPivot h.ver) = c.1 by simpa [Mesh.org, hx] using ho, show x.data (Tet.destPivot h.ver) = q by simpa [Mesh.dest, hx] using hd,
            show x.data (Tet.apexPivot h.ver) = u by simpa [Mesh.apex, hx] using ha, ← face_oppo] at this
          exact this
        have Fn : Four y c.1 q u (y.data (face n.ver)) := by
          rw [show y.data (face n.ver) = k by rw [face_oppo]; simpa [Mesh.oppo, hy] using hk]
          exact F
        have turn : ∀ {x : Tet.Tet} {o}, Four x c.1 q u o ↔ Four x c.1 c.2.1 c.2.2 o := by
          intro x o
          rcases hset with ⟨rfl, rfl⟩ | ⟨rfl, rfl⟩
          · exact Iff.rfl
          · exact ⟨fun h => h.swap12, fun h => h.swap12⟩
        have over : ∀ i, Four x' c.1 c.2.1 c.2.2 (x'.data i) → FaceOver (fun i => pt pts (x'.data i)) i (pt pts c.1) (pt pts c.2.1) (pt pts c.2.2) := fun i G => over_of_in hD X fun j hj => by
          rcases (G.mem _).1 ⟨j, rfl⟩ with e | e | e | e
          · dsimp only; rw [e]; exact ⟨1, 0, 0, zero_le_one, le_rfl, le_rfl, by ring, by simp [comb]⟩
          · dsimp only; rw [e]; exact ⟨0, 1, 0, le_rfl, zero_le_one, le_rfl, by ring, by simp [comb]⟩
          · dsimp only; rw [e]; exact ⟨0, 0, 1, le_rfl, le_rfl, zero_le_one, by ring, by simp [comb]⟩
          · exact absurd (X.inj hD e) hj
        constructor
        · rintro (⟨e, rfl⟩ | ⟨e, rfl⟩) <;> rw [Fin.val_inj] at e <;> subst e
          · rw [hx, Option.some.injEq] at hx'
            subst hx'
            exact over _ (turn.1 Fh)
          · rw [hy, Option.some.injEq] at hx'
            subst hx'
            exact over _ (turn.1 Fn)
        · intro _ ho'
          have G := turn.2 (four_of_over hD Z F' X ho')
          have same : ∀ j, Four x' c.1 q u (x'.data j) → i = j := fun j G' => by
            obtain ⟨-, -, n3, -, n5, n6⟩ := G.ne hD X
            rcases (G'.mem _).1 ⟨i, rfl⟩ with e | e | e | e
            · exact absurd e.symm n3
            · exact absurd e.symm n5
            · exact absurd e.symm n6
            · exact X.inj hD e
          rcases htwo t x' hx' ((G.mem _).2 (by simp)) ((G.mem _).2 (by simp)) ((G.mem _).2 (by simp)) with rfl | rfl
          · rw [hx, Option.some.injEq] at hx'
            subst hx'
            exact .inl ⟨by rw [same _ Fh], rfl⟩
          · rw [hy, Option.some.injEq] at hx'
            subst hx'
            exact .inr ⟨by rw [same _ Fn], rfl⟩
      · intro A B C hv hn' t T hT
        obtain ⟨rfl, rfl, rfl⟩ := vtx hv
        obtain ⟨x', hx', h3, hp⟩ := hT
        have X : Sol pts m t x' := ⟨hx', h3⟩
        obtain rfl : T = fun i => pt pts (x'.data i) := funext fun i => Option.some.inj ((hp i).symm.trans (get_pt (X.lt hD i)))
        refine ⟨fun h => ?_, fun _ h => absurd h (face_not_crossed hD Z F' X)⟩
        rcases h with ⟨e, -⟩ | ⟨e, -⟩ <;> omega
    · intro k t i
      simp only [List.mem_append, List.mem_cons, List.not_mem_nil, or_false, Mark.mk.injEq]
      constructor
      · rintro (h | ⟨h1, h2, h3⟩ | ⟨h1, h2, h3⟩)
        · exact .inl h
        · exact .inr ⟨h3, .inl ⟨h1, h2⟩⟩
        · exact .inr ⟨h3, .inr ⟨h1, h2⟩⟩
      · rintro (h | ⟨h3, ⟨h1, h2⟩ | ⟨h1, h2⟩⟩)
        · exact .inl h
        · exact .inr (.inl ⟨h1, h2, h3⟩)
        · exact .inr (.inr ⟨h1, h2, h3⟩)
  | none =>
    obtain ⟨S, V, e1, nd, hV, hS⟩ := c92_sides hD c hc.lt1 hc.lt2 hc.lt3 hc.ne1 hc.ne2 hc.ne3 (get_pt hc.lt1) (get_pt hc.lt2) (get_pt hc.lt3) fuel hf
    have hlS : ∀ t ∈ S, t < m.tets.length := fun t ht => by
      obtain ⟨T, ⟨x, hx, -⟩, -⟩ := (hS t).1 ht
      exact (List.getElem?_eq_some_iff.1 hx).1
    have himp : ∀ t ∈ S, ∃ r, improper m pts c t = some r ∧ ∀ k ∈ r, k ≤ 4 := fun t ht => by
      obtain ⟨T, hT, -⟩ := (hS t).1 ht
      exact c90_improper hD c hc.lt1 hc.lt2 hc.lt3 t T hT
    obtain ⟨marks1, e2, hm1⟩ := improperLoop_ok (cid := cid) S marks fun t ht => (himp t ht).imp fun _ h => h.1
    obtain ⟨⟨s', marks2⟩, e3⟩ := c90_interior hD c hc.lt1 hc.lt2 hc.lt3 cid S V nd hlS (fun t ht => (hV t).2 ht) marks1 fuel hf
    have hex := interiorLoop_exact hV e3
    have conv : ∀ {A B C}, Vertices pts c A B C → ∀ t, t ∈ S ↔ TouchedBy pts m A B C t := fun hv t => by
      obtain ⟨rfl, rfl, rfl⟩ := vtx hv
      exact hS t
    refine ⟨marks2, fun k t => t ∈ S ∧ improper m pts c t = some (some k) ∨ Spread m (· ∈ S) (Hit m pts c) t ∧ tetType m pts c t = some k, ?_, ?_, ?_⟩
    · unfold insertOne
      rw [er, some_bind]
      dsimp only
      rw [e1, some_bind, e2, some_bind, e3, some_bind]
      rfl
    · constructor
      · rintro k t (⟨h1, h2⟩ | ⟨h1, h2⟩)
        · obtain ⟨r, e, hr⟩ := himp t h1
          rw [h2, Option.some.injEq] at e
          subst e
          exact ⟨hr k rfl, hlS t h1⟩
        · obtain ⟨k', h5, e'⟩ := h1.not_seed.2
          rw [h2, Option.some.injEq] at e'
          subst e'
          refine ⟨by omega, ?_⟩
          cases h : m.tets[t]? with
          | none => simp [tetType, Tet.Mesh.isHull, h] at h2
          | some x => exact (List.getElem?_eq_some_iff.1 h).1
      · intro A B C hv hn t T hT ht k hk
        have ht' : ∀ T', SolidTet pts m t T' → ¬ Touched T' A B C := fun T' hT' h => ht (by rwa [solid_unique hT hT'])
        rcases hk with ⟨h1, -⟩ | ⟨h1, h2⟩
        · obtain ⟨T', hT', h⟩ := (conv hv t).1 h1
          exact absurd h (ht' T' hT')
        · obtain ⟨k', h5, e'⟩ := h1.not_seed.2
          rw [h2, Option.some.injEq] at e'
          subst e'
          obtain ⟨T', hT', h⟩ := hit_iff hD hv hn ht' h5 h2
          rwa [solid_unique hT hT']
      · intro A B C hv hn t T hT sp
        have sp' : Spread m (· ∈ S) (Meets pts m A B C) t := by
          have : (· ∈ S) = TouchedBy pts m A B C := funext fun t => propext (conv hv t)
          rw [this]
          exact sp
        have far : ∀ {t}, t ∉ S → ∀ c, SolidTet pts m t c → ¬ Touched c A B C := fun ht c hc h => ht ((conv hv _).2 ⟨c, hc, h⟩)
        have sph : Spread m (· ∈ S) (Hit m pts c) t := by
          clear hT sp
          induction sp' with
          | first h1 h2 h3 h4 h5 => exact .first h1 h2 h3 h4 (meets_hit hD hv hn (far h4) h5)
          | next _ h2 h3 h4 h5 ih => exact .next ih h2 h3 h4 (meets_hit hD hv hn (far h4) h5)
        obtain ⟨k, e', -, h4, hfc⟩ := c87_tet_type m pts c hD.num hv hn t hT (hD.sphere t T hT).1.ne (far sp'.not_seed.1 T hT)
        refine ⟨fun h => .inr ⟨sph, ?_⟩, fun i h => .inr ⟨sph, ?_⟩⟩
        · rw [e', h4.2 h]
        · rw [e', (hfc i).2 h]
      · intro A B C hv hn t T hT i
        have hcv := conv hv t
        obtain ⟨rfl, rfl, rfl⟩ := vtx hv
        obtain ⟨x', hx', h3, hp⟩ := id hT
        have X : Sol pts m t x' := ⟨hx', h3⟩
        obtain rfl : T = fun i => pt pts (x'.data i) := funext fun i => Option.some.inj ((hp i).symm.trans (get_pt (X.lt hD i)))
        refine ⟨?_, fun ht h => .inl ⟨hcv.2 ⟨_, hT, ht⟩, (improper_complete hD hc hn X).2 i h⟩⟩
        rintro (⟨h1, h2⟩ | ⟨h1, h2⟩)
        · obtain ⟨T', hT', h⟩ := hcv.1 h1
          obtain rfl := solid_unique hT hT'
          exact (improper_sound hD hc hn X h h2).1 i rfl
        · obtain ⟨T', hT', -, h⟩ := hit_iff hD hv hn (fun T' hT' h => h1.not_seed.1 (hcv.2 ⟨T', hT', h⟩)) (by omega) h2
          obtain rfl := solid_unique hT hT'
          exact over_of_in hD X (h i rfl)
      · intro A B C hv hn t T hT
        have hcv := conv hv t
        obtain ⟨rfl, rfl, rfl⟩ := vtx hv
        obtain ⟨x', hx', h3, hp⟩ := id hT
        have X : Sol pts m t x' := ⟨hx', h3⟩
        obtain rfl : T = fun i => pt pts (x'.data i) := funext fun i => Option.some.inj ((hp i).symm.trans (get_pt (X.lt hD i)))
        refine ⟨?_, fun ht h hd => .inl ⟨hcv.2 ⟨_, hT, ht⟩, (improper_complete hD hc hn X).1 h hd⟩⟩
        rintro (⟨h1, h2⟩ | ⟨h1, h2⟩)
        · obtain ⟨T', hT', h⟩ := hcv.1 h1
          obtain rfl := solid_unique hT hT'
          obtain ⟨-, g1, g2⟩ := improper_sound hD hc hn X h h2
          exact ⟨(g1 rfl).1, (g1 rfl).2, g2 rfl⟩
        · obtain ⟨T', hT', h, -⟩ := hit_iff hD hv hn (fun T' hT' h => h1.not_seed.1 (hcv.2 ⟨T', hT', h⟩)) (by omega) h2
          obtain rfl := solid_unique hT hT'
          obtain ⟨g1, g2⟩ := sides_of_crossed hD X hn (h rfl)
          exact ⟨g1, g2, fun _ => h rfl⟩
    · intro k t i
      rw [hex, hm1]
      constructor
      · rintro ((h | ⟨h1, h2⟩) | ⟨h1, h2⟩)
        · exact .inl h
        · exact .inr ⟨h1, .inl h2⟩
        · exact .inr ⟨h1, .inr h2⟩
      · rintro (h | ⟨h1, h2 | h2⟩)
        · exact .inl (.inl h)
        · exact .inl (.inr ⟨h1, h2⟩)
        · exact .inr ⟨h1, h2⟩

theorem insertLoop_ok {fuel : Nat} (hf : m.tets.length < fuel) : ∀ (cs : List (Nat × Nat × Nat)), (∀ c ∈ cs, Proper pts.length c) → ∀ (i0 : Nat) (marks : List Mark),
    ∃ (marks' : List Mark) (N : Nat → Nat → Nat → Prop), insertLoop fuel pts cs i0 m marks = some (m, marks') ∧ (∀ j c, cs[j]? = some c → GoodMarks pts m c (N j)) ∧
      ∀ k t i, Mark.mk k t i ∈ marks' ↔ Mark.mk k t i ∈ marks ∨ ∃ j < cs.length, i = i0 + j ∧ N j k t
  | [], _, i0, marks => ⟨marks, fun _ _ _ => False, rfl, by simp, by simp⟩
  | c :: cs, h, i0, marks => by
    obtain ⟨marks1, N0, e1, g1, h1⟩ := insertOne_ok hD (h c (by simp)) hf i0 marks
    obtain ⟨marks2, N, e2, g2, h2⟩ := insertLoop_ok hf cs (fun c hc => h c (by simp [hc])) (i0 + 1) marks1
    refine ⟨marks2, fun j => match j with | 0 => N0 | j + 1 => N j, ?_, ?_, fun k t i => ?_⟩
    · unfold insertLoop
      rw [e1, some_bind]
      exact e2
    · intro j c' hj
      cases j with
      | zero =>
        simp only [List.getElem?_cons_zero, Option.some.injEq] at hj
        subst hj
        exact g1
      | succ j => exact g2 j c' (by simpa using hj)
    · rw [h2, h1]
      constructor
      · rintro ((h | ⟨h3, h4⟩) | ⟨j, hj, h3, h4⟩)
        · exact .inl h
        · exact .inr ⟨0, by simp, h3, h4⟩
        · exact .inr ⟨j + 1, by simpa using hj, by omega, h4⟩
      · rintro (h | ⟨j, hj, h3, h4⟩)
        · exact .inl (.inl h)
        · cases j with
          | zero => exact .inl (.inr ⟨h3, h4⟩)
          | succ j => exact .inr ⟨j, by simpa using hj, by omega, h4⟩

/-- C93. In a Delaunay tetrahedralization `insert_constraints` returns for all lists of constraints of three different vertices each - no panic, no endless walk -, leaves the mesh as it is,
and marks only faces (0 to 3) or insides (4) of existing tetrahedra with the number of a given constraint. -/
theorem c93_insert (cs : List (Nat × Nat × Nat)) (hc : ∀ c ∈ cs, Proper pts.length c) (fuel : Nat) (hf : m.tets.length < fuel) :
    ∃ marks, insertConstraints fuel pts m cs = some (m, marks) ∧ ∀ k t i, i ∈ marksAt marks k t → k ≤ 4 ∧ t < m.tets.length ∧ i < cs.length := by
  obtain ⟨marks, N, e, g, h⟩ := insertLoop_ok hD hf cs hc 0 []
  refine ⟨marks, e, fun k t i hi => ?_⟩
  rw [mem_marksAt, h] at hi
  rcases hi with hi | ⟨j, hj, rfl, hN⟩
  · cases hi
  · obtain ⟨g1, g2⟩ := (g j _ (List.getElem?_eq_getElem hj)).range k t hN
    exact ⟨g1, g2, by omega⟩

/-- C88, end to end. With any list of constraints, the `i`-th of which is not degenerate: every tetrahedron that no side of this constraint touches, that the constraint cuts through or that has a face in it, and that hangs
together by faces of such tetrahedra with those that a side touches, is marked. Missing: tetrahedra that hang together with these by edges or vertices only (`c88_hole`) and the ones that a side touches (`c88_quad`). -/
theorem c88_insert_partial (cs : List (Nat × Nat × Nat)) (hc : ∀ c ∈ cs, Proper pts.length c) (fuel : Nat) (hf : m.tets.length < fuel) (m' : Mesh) (marks : List Mark)
    (e : insertConstraints fuel pts m cs = some (m', marks)) (i : Nat) (c : Nat × Nat × Nat) (hi : cs[i]? = some c) (A B C : Pt K) (hv : Vertices pts c A B C) (hn : ¬ Collinear A B C)
    (t : Nat) (T : Fin 4 → Pt K) (hT : SolidTet pts m t T) (sp : Spread m (fun t => ∃ T, SolidTet pts m t T ∧ Touched T A B C) (Meets pts m A B C) t) :
    (Crossed T A B C → i ∈ marksAt marks 4 t) ∧ ∀ j : Fin 4, FaceIn T j A B C → i ∈ marksAt marks j t := by
  obtain ⟨marks', N, e', g, h⟩ := insertLoop_ok hD hf cs hc 0 []
  unfold insertConstraints at e
  rw [e', Option.some.injEq, Prod.mk.injEq] at e
  obtain ⟨-, rfl⟩ := e
  obtain ⟨h1, h2⟩ := (g i c hi).complete A B C hv hn t T hT sp
  have hl := (List.getElem?_eq_some_iff.1 hi).1
  refine ⟨fun hx => ?_, fun j hx => ?_⟩ <;> rw [mem_marksAt, h]
  · exact .inr ⟨i, hl, by omega, h1 hx⟩
  · exact .inr ⟨i, hl, by omega, h2 j hx⟩

/-- C89, end to end. With any list of constraints, the `i`-th of which is not degenerate: the marks of this constraint on tetrahedra that none of its sides touches are true. Missing: the marks of tetrahedra that a
side touches (`c89_beyond`). -/
theorem c89_insert_partial (cs : List (Nat × Nat × Nat)) (hc : ∀ c ∈ cs, Proper pts.length c) (fuel : Nat) (hf : m.tets.length < fuel) (m' : Mesh) (marks : List Mark)
    (e : insertConstraints fuel pts m cs = some (m', marks)) (i : Nat) (c : Nat × Nat × Nat) (hi : cs[i]? = some c) (A B C : Pt K) (hv : Vertices pts c A B C) (hn : ¬ Collinear A B C)
    (t : Nat) (T : Fin 4 → Pt K) (hT : SolidTet pts m t T) (ht : ¬ Touched T A B C) :
    (i ∈ marksAt marks 4 t → Crossed T A B C) ∧ ∀ j : Fin 4, i ∈ marksAt marks j t → FaceIn T j A B C := by
  obtain ⟨marks', N, e', g, h⟩ := insertLoop_ok hD hf cs hc 0 []
  unfold insertConstraints at e
  rw [e', Option.some.injEq, Prod.mk.injEq] at e
  obtain ⟨-, rfl⟩ := e
  have key : ∀ k, i ∈ marksAt marks' k t → N i k t := by
    intro k hk
    rw [mem_marksAt, h] at hk
    rcases hk with hk | ⟨j, -, hj, hN⟩
    · cases hk
    · rw [Nat.zero_add] at hj
      subst hj
      exact hN
  exact ⟨fun hx => ((g i c hi).sound A B C hv hn t T hT ht 4 (key 4 hx)).1 rfl, fun j hx => ((g i c hi).sound A B C hv hn t T hT ht j (key j hx)).2 j rfl⟩

/-- C94. With any list of constraints, the `i`-th of which is not degenerate. A mark on a face of a tetrahedron means that the face lies in the plane of this constraint and that the constraint holds a point of the inside
of the face; conversely every such face of a tetrahedron that a side of the constraint touches is marked. -/
theorem c94_faces (cs : List (Nat × Nat × Nat)) (hc : ∀ c ∈ cs, Proper pts.length c) (fuel : Nat) (hf : m.tets.length < fuel) (m' : Mesh) (marks : List Mark)
    (e : insertConstraints fuel pts m cs = some (m', marks)) (i : Nat) (c : Nat × Nat × Nat) (hi : cs[i]? = some c) (A B C : Pt K) (hv : Vertices pts c A B C) (hn : ¬ Collinear A B C)
    (t : Nat) (T : Fin 4 → Pt K) (hT : SolidTet pts m t T) (j : Fin 4) :
    (i ∈ marksAt marks j t → FaceOver T j A B C) ∧ (Touched T A B C → FaceOver T j A B C → i ∈ marksAt marks j t) := by
  obtain ⟨marks', N, e', g, h⟩ := insertLoop_ok hD hf cs hc 0 []
  unfold insertConstraints at e
  rw [e', Option.some.injEq, Prod.mk.injEq] at e
  obtain ⟨-, rfl⟩ := e
  have hl := (List.getElem?_eq_some_iff.1 hi).1
  obtain ⟨h1, h2⟩ := (g i c hi).faces A B C hv hn t T hT j
  rw [mem_marksAt, h]
  refine ⟨?_, fun ht ho => .inr ⟨i, hl, by omega, h2 ht ho⟩⟩
  rintro (hk | ⟨j', -, hj, hN⟩)
  · cases hk
  · rw [Nat.zero_add] at hj
    subst hj
    exact h1 hN

/-- C94. With any list of constraints, the `i`-th of which is not degenerate. Every tetrahedron that a side of this constraint touches and that the constraint cuts through is marked as cut, unless its section with the plane
is a quadrilateral along a diagonal of which a side runs. A mark as cut means that the plane of the constraint separates two corners and, if no corner lies in the plane, that the constraint cuts through the tetrahedron. -/
theorem c94_cut (cs : List (Nat × Nat × Nat)) (hc : ∀ c ∈ cs, Proper pts.length c) (fuel : Nat) (hf : m.tets.length < fuel) (m' : Mesh) (marks : List Mark)
    (e : insertConstraints fuel pts m cs = some (m', marks)) (i : Nat) (c : Nat × Nat × Nat) (hi : cs[i]? = some c) (A B C : Pt K) (hv : Vertices pts c A B C) (hn : ¬ Collinear A B C)
    (t : Nat) (T : Fin 4 → Pt K) (hT : SolidTet pts m t T) :
    (i ∈ marksAt marks 4 t → (∃ j, 0 < orient3d (T j) A B C) ∧ (∃ j, orient3d (T j) A B C < 0) ∧ ((∀ j, ¬ Coplanar (T j) A B C) → Crossed T A B C)) ∧
    (Touched T A B C → Crossed T A B C → ¬ Diagonal T A B C → i ∈ marksAt marks 4 t) := by
  obtain ⟨marks', N, e', g, h⟩ := insertLoop_ok hD hf cs hc 0 []
  unfold insertConstraints at e
  rw [e', Option.some.injEq, Prod.mk.injEq] at e
  obtain ⟨-, rfl⟩ := e
  have hl := (List.getElem?_eq_some_iff.1 hi).1
  obtain ⟨h1, h2⟩ := (g i c hi).inner A B C hv hn t T hT
  rw [mem_marksAt, h]
  refine ⟨?_, fun ht ho hd => .inr ⟨i, hl, by omega, h2 ht ho hd⟩⟩
  rintro (hk | ⟨j', -, hj, hN⟩)
  · cases hk
  · rw [Nat.zero_add] at hj
    subst hj
    exact h1 hN

end

/-- C93, from the points. `insert_constraints` does not panic on what `tetrahedralize` returns, unless the points are taken to be coplanar. -/
theorem c93_tetrahedralize (pts : List (Pt K)) (hd : pts.Nodup) (h4 : 4 ≤ pts.length) (h : pts.length ≤ 1021) (shuffled : List Nat) (hs : shuffled.Perm (List.range pts.length)) (fuel : Nat)
    (hf : 2 * pts.length * pts.length ≤ fuel) (cs : List (Nat × Nat × Nat)) (hc : ∀ c ∈ cs, Proper pts.length c) :
    ∃ m, Tet.tetrahedralize pts fuel shuffled = some m ∧ (m.tets ≠ [] → ∀ fuel' > m.tets.length, ∃ marks, insertConstraints fuel' pts m cs = some (m, marks)) := by
  obtain ⟨m, e, hD | ⟨h0, -⟩⟩ := Delaunay.c85_tetrahedralize_partial pts hd h4 shuffled hs fuel hf (Or.inl h)
  · refine ⟨m, e, fun _ fuel' hf' => ?_⟩
    obtain ⟨marks, e', -⟩ := c93_insert hD cs hc fuel' hf'
    exact ⟨marks, e'⟩
  · exact ⟨m, e, fun hne => absurd h0 hne⟩

omit [IsStrictOrderedRing K] in
/-- C93, flat points. `tetrahedralize` returns a mesh without tetrahedra if it takes the points for flat; on such a mesh `insert_constraints` panics for every constraint. -/
theorem c93_flat (pts : List (Pt K)) (m : Mesh) (h : m.tets = []) (c : Nat × Nat × Nat) (cs : List (Nat × Nat × Nat)) (fuel : Nat) : insertConstraints fuel pts m (c :: cs) = none := by
  have hmark : ∀ t, m.markTest t = none := fun t => by simp [Mesh.markTest, Mesh.modify, h]
  have htri : Poly.triangleAtTet fuel m c.1 c.2.1 c.2.2 = none := by
    unfold Poly.triangleAtTet
    cases m.p2t[c.1]? with
    | none => rfl
    | some o =>
      cases o with
      | none => rfl
      | some t =>
        rw [some_bind, some_bind, hmark]
        rfl
  unfold insertConstraints insertLoop insertOne
  rw [htri]
  rfl

/-! ### Concrete cases -/

/-- Four points in a plane and a triangle among them. -/
example : ((Tet.tetrahedralize ([⟨0, 0, 0⟩, ⟨4, 0, 0⟩, ⟨0, 4, 0⟩, ⟨5, 5, 0⟩] : List (Pt ℚ)) 32 [0, 1, 2, 3]).map fun m => (insertConstraints 50 ([⟨0, 0, 0⟩, ⟨4, 0, 0⟩, ⟨0, 4, 0⟩, ⟨5, 5, 0⟩] : List (Pt ℚ)) m [(0, 1, 2)]).isNone) = some true := by
  decide +kernel

/-- A side of the constraint 7, 8, 9 runs through the mesh of `holePts`. -/
example : ∃ m, IsDelaunay holePts m ∧ m.tets.length = 27 ∧
    (∃ S V, sides 28 m holePts (7, 8, 9) ⟨[], []⟩ = some (m, ⟨S, V⟩) ∧ S.Nodup ∧ ∀ t, t ∈ S ↔ ∃ T, SolidTet holePts m t T ∧ Touched T ⟨100, 7, 0⟩ ⟨-60, 80, 0⟩ ⟨-50, -90, 0⟩) ∧
    ∃ marks, insertConstraints 28 holePts m [(7, 8, 9), (0, 1, 2), (3, 4, 9)] = some (m, marks) := by
  obtain ⟨m, e, hD⟩ := delaunay_of_ne (pts := holePts) (n := 26) (by decide +kernel) (by decide) (by decide) (by decide +kernel)
  have hl : m.tets.length = 27 := by
    have : (Tet.tetrahedralize holePts (2 * holePts.length * holePts.length) (List.range holePts.length)).map (fun m => m.tets.length) = some 27 := by decide +kernel
    rw [e, Option.map_some, Option.some.injEq] at this
    exact this
  refine ⟨m, hD, hl, ?_, ?_⟩
  · obtain ⟨S, V, e, nd, -, h⟩ := c92_sides hD (7, 8, 9) (by decide) (by decide) (by decide) (by decide) (by decide) (by decide) (A := ⟨100, 7, 0⟩) (B := ⟨-60, 80, 0⟩) (C := ⟨-50, -90, 0⟩) rfl rfl rfl 28 (by omega)
    exact ⟨S, V, e, nd, h⟩
  · obtain ⟨marks, e, -⟩ := c93_insert hD [(7, 8, 9), (0, 1, 2), (3, 4, 9)] (by
      intro c hc
      simp only [List.mem_cons, List.not_mem_nil, or_false] at hc
      rcases hc with rfl | rfl | rfl <;> constructor <;> decide) 28 (by omega)
    exact ⟨marks, e⟩

/-- A side of the constraint 4, 5, 6 runs through the tetrahedron 0, 1, 2, 3, one corner of which lies above the constraint. -/
def cutPts : List (Pt ℚ) := [⟨0, 0, 3⟩, ⟨3, 0, -1⟩, ⟨-2, 3, -1⟩, ⟨-2, -3, -1⟩, ⟨20, 1, 0⟩, ⟨-20, 1, 0⟩, ⟨0, 30, 0⟩]

/-- C94 applies to the tetrahedron 0, 1, 2, 3 of `cutPts`. -/
example : ∃ m T, IsDelaunay cutPts m ∧ SolidTet cutPts m 9 T ∧ Touched T ⟨20, 1, 0⟩ ⟨-20, 1, 0⟩ ⟨0, 30, 0⟩ ∧ Crossed T ⟨20, 1, 0⟩ ⟨-20, 1, 0⟩ ⟨0, 30, 0⟩ ∧ ¬ Diagonal T ⟨20, 1, 0⟩ ⟨-20, 1, 0⟩ ⟨0, 30, 0⟩ ∧
    ∀ m' marks, insertConstraints 200 cutPts m [(4, 5, 6)] = some (m', marks) → 0 ∈ marksAt marks 4 9 := by
  obtain ⟨m, e, hD⟩ := delaunay_of_ne (pts := cutPts) (n := 15) (by decide +kernel) (by decide) (by decide) (by decide +kernel)
  have hl : m.tets.length = 16 := by
    have : (Tet.tetrahedralize cutPts (2 * cutPts.length * cutPts.length) (List.range cutPts.length)).map (fun m => m.tets.length) = some 16 := by decide +kernel
    rw [e, Option.map_some, Option.some.injEq] at this
    exact this
  obtain ⟨-, -, x, -, e2, e3, -⟩ := report_spec (v := (4, 5, 6)) (fuel := 200) (t := 9) (l := [2, 3, 1, 0]) (l' := [0]) e (by decide +kernel)
  simp only [corners, List.cons.injEq, and_true] at e3
  obtain ⟨x0, x1, x2, x3⟩ := e3
  have hT : SolidTet cutPts m 9 ![⟨-2, 3, -1⟩, ⟨-2, -3, -1⟩, ⟨3, 0, -1⟩, ⟨0, 0, 3⟩] := ⟨x, e2, by rw [x3]; decide, fun i => by fin_cases i <;> simp [x0, x1, x2, x3, cutPts]⟩
  have hc : Comb ![⟨-2, 3, -1⟩, ⟨-2, -3, -1⟩, ⟨3, 0, -1⟩, ⟨0, 0, 3⟩] ![11/24, 1/8, 1/6, 1/4] (⟨-2/3, 1, 0⟩ : Pt ℚ) := by
    constructor <;> simp [Fin.sum_univ_four] <;> norm_num
  have ht : Touched ![⟨-2, 3, -1⟩, ⟨-2, -3, -1⟩, ⟨3, 0, -1⟩, ⟨0, 0, 3⟩] (⟨20, 1, 0⟩ : Pt ℚ) ⟨-20, 1, 0⟩ ⟨0, 30, 0⟩ :=
    ⟨_, ⟨_, fun i => by fin_cases i <;> norm_num, hc⟩, .inl ⟨31/60, by norm_num, by norm_num, by norm_num [lerp]⟩⟩
  have hx : Crossed ![⟨-2, 3, -1⟩, ⟨-2, -3, -1⟩, ⟨3, 0, -1⟩, ⟨0, 0, 3⟩] (⟨20, 1, 0⟩ : Pt ℚ) ⟨-20, 1, 0⟩ ⟨0, 30, 0⟩ :=
    ⟨_, ⟨_, fun i => by fin_cases i <;> norm_num, hc⟩, 29/60, 31/60, 0, by norm_num, by norm_num, by norm_num, by norm_num, by norm_num [comb]⟩
  have hd : ¬ Diagonal ![⟨-2, 3, -1⟩, ⟨-2, -3, -1⟩, ⟨3, 0, -1⟩, ⟨0, 0, 3⟩] (⟨20, 1, 0⟩ : Pt ℚ) ⟨-20, 1, 0⟩ ⟨0, 30, 0⟩ := by
    rintro ⟨-, U, V, hUV, i, j, k, l, hnd, ⟨p, hp, hp'⟩, q, hq, hq'⟩
    have flat : ∀ p, InOpenSegment p U V → p.z = 0 := by
      rintro p ⟨_, s, -, -, rfl⟩
      rcases hUV with ⟨rfl, rfl⟩ | ⟨rfl, rfl⟩ | ⟨rfl, rfl⟩ <;> simp [lerp]
    have low : ∀ i : Fin 4, i ≠ 3 → ((![⟨-2, 3, -1⟩, ⟨-2, -3, -1⟩, ⟨3, 0, -1⟩, ⟨0, 0, 3⟩] : Fin 4 → Pt ℚ) i).z = -1 := by
      intro i hi
      fin_cases i <;> simp at hi ⊢
    have both : ∀ i j : Fin 4, i ≠ 3 → j ≠ 3 → ∀ p, InOpenSegment p ((![⟨-2, 3, -1⟩, ⟨-2, -3, -1⟩, ⟨3, 0, -1⟩, ⟨0, 0, 3⟩] : Fin 4 → Pt ℚ) i) ((![⟨-2, 3, -1⟩, ⟨-2, -3, -1⟩, ⟨3, 0, -1⟩, ⟨0, 0, 3⟩] : Fin 4 → Pt ℚ) j) → p.z = -1 := by
      rintro i j hi hj p ⟨_, s, -, -, rfl⟩
      simp only [lerp, low i hi, low j hj]
      ring
    have hcase : ∀ i j k l : Fin 4, [i, j, k, l].Nodup → (i ≠ 3 ∧ j ≠ 3) ∨ k ≠ 3 ∧ l ≠ 3 := by decide
    rcases hcase i j k l hnd with ⟨h1, h2⟩ | ⟨h1, h2⟩
    · have := both i j h1 h2 p hp
      rw [flat p hp'] at this
      norm_num at this
    · have := both k l h1 h2 q hq
      rw [flat q hq'] at this
      norm_num at this
  refine ⟨m, _, hD, hT, ht, hx, hd, fun m' marks e' => ?_⟩
  refine (c94_cut hD [(4, 5, 6)] (fun c hc => ?_) 200 (by omega) m' marks e' 0 (4, 5, 6) rfl _ _ _ ⟨rfl, rfl, rfl⟩ (by rw [collinear_iff_flat]; exact fun h => absurd h.1 (by decide +kernel)) 9 _ hT).2 ht hx hd
  rw [List.mem_singleton.1 hc]
  constructor <;> decide

/-- C94 applies to a face of `beyondPts` in the plane of the constraint 4, 5, 6: half of the constraint. -/
example : ∃ m T, IsDelaunay beyondPts m ∧ SolidTet beyondPts m 3 T ∧ Touched T ⟨-3, 0, 0⟩ ⟨3, 0, 0⟩ ⟨0, 5, 0⟩ ∧ FaceOver T 0 ⟨-3, 0, 0⟩ ⟨3, 0, 0⟩ ⟨0, 5, 0⟩ ∧
    ∀ m' marks, insertConstraints 200 beyondPts m [(4, 5, 6)] = some (m', marks) → 0 ∈ marksAt marks 0 3 := by
  obtain ⟨m, e, hD⟩ := delaunay_of_ne (pts := beyondPts) (n := 15) (by decide +kernel) (by decide) (by decide) (by decide +kernel)
  have hl : m.tets.length = 16 := by
    have : (Tet.tetrahedralize beyondPts (2 * beyondPts.length * beyondPts.length) (List.range beyondPts.length)).map (fun m => m.tets.length) = some 16 := by decide +kernel
    rw [e, Option.map_some, Option.some.injEq] at this
    exact this
  obtain ⟨-, -, x, -, e2, e3, -⟩ := report_spec (v := (4, 5, 6)) (fuel := 200) (t := 3) (l := [1, 6, 0, 4]) (l' := []) e (by decide +kernel)
  simp only [corners, List.cons.injEq, and_true] at e3
  obtain ⟨x0, x1, x2, x3⟩ := e3
  have hT : SolidTet beyondPts m 3 ![⟨0, -2, 2⟩, ⟨0, 5, 0⟩, ⟨0, 0, 0⟩, ⟨-3, 0, 0⟩] := ⟨x, e2, by rw [x3]; decide, fun i => by fin_cases i <;> simp [x0, x1, x2, x3, beyondPts]⟩
  have hflat : ¬ Collinear (⟨-3, 0, 0⟩ : Pt ℚ) ⟨3, 0, 0⟩ ⟨0, 5, 0⟩ := by rw [collinear_iff_flat]; exact fun h => absurd h.1 (by decide +kernel)
  have ht : Touched ![⟨0, -2, 2⟩, ⟨0, 5, 0⟩, ⟨0, 0, 0⟩, ⟨-3, 0, 0⟩] (⟨-3, 0, 0⟩ : Pt ℚ) ⟨3, 0, 0⟩ ⟨0, 5, 0⟩ := by
    refine ⟨⟨-3, 0, 0⟩, inTet_corner _ 3, .inl ⟨0, le_rfl, zero_le_one, (lerp_zero _ _).symm⟩⟩
  have ho : FaceOver ![⟨0, -2, 2⟩, ⟨0, 5, 0⟩, ⟨0, 0, 0⟩, ⟨-3, 0, 0⟩] 0 (⟨-3, 0, 0⟩ : Pt ℚ) ⟨3, 0, 0⟩ ⟨0, 5, 0⟩ := by
    have hf := hflat
    rw [collinear_iff_flat] at hf
    refine ⟨fun j hj => (coplanar_iff hf).2 ?_, ⟨-1, 5/3, 0⟩, ![0, 1/3, 1/3, 1/3], ?_, rfl, fun j hj => ?_, 1/2, 1/6, 1/3, by norm_num, by norm_num, by norm_num, by norm_num, by norm_num [comb]⟩
    · fin_cases j <;> first | exact absurd rfl hj | (simp [orient3d])
    · constructor <;> simp [Fin.sum_univ_four] <;> norm_num
    · fin_cases j <;> first | exact absurd rfl hj | norm_num
  refine ⟨m, _, hD, hT, ht, ho, fun m' marks e' => ?_⟩
  refine (c94_faces hD [(4, 5, 6)] (fun c hc => ?_) 200 (by omega) m' marks e' 0 (4, 5, 6) rfl _ _ _ ⟨rfl, rfl, rfl⟩ hflat 3 _ hT 0).2 ht ho
  rw [List.mem_singleton.1 hc]
  constructor <;> decide

end Verif.Constraint
