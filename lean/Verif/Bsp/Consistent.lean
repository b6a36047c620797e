import Verif.Bsp.KeptSolid
import Verif.Bsp.MergeAll
/-!
# The faces of a group do not overlap (`src/polygonlization/bsp_complex.rs` lines 842-898)

`merge_faces` joins faces over edges. Here the condition `Mergeable` of C79 and C110 is derived from the geometry of the complex.
-/
namespace Verif.Bsp
open InSphere (Pt)
open Geom (lerp)
open Constraint (Proper)
open InSphere (orient3d)

section
variable {K : Type} [Field K] [LinearOrder K] [IsStrictOrderedRing K]

/-- Specification: no point is inside of two cells, and beyond a face with one cell there is no cell. -/
structure Tiled (pl : Nat → Aff K) (cl : List (Nat × Option Nat)) (n : Nat) : Prop where
  cells : ∀ k < n, ∀ l < n, k ≠ l → ∀ q, ¬ (Core (Region pl cl k) q ∧ Core (Region pl cl l) q)
  outer : ∀ (i : Nat) (P : Nat × Option Nat), cl[i]? = some P → P.2 = none → ∀ k < n, ∀ q, Core (Region pl cl k) q → 0 ≤ (pl i).ev q

/-! ### Faces in one plane -/

theorem Apart.not_inside {pos : Nat → Pt K} {c d : Cycle} {A B : Aff K} (h : Apart pos c d) (f1 : FaceOk pos A c) (f2 : FaceOk pos B d) {q : Pt K} (h1 : InsideFace pos A c q) (h2 : InsideFace pos B d q) : False := by
  have key : ∀ {c : Cycle} {A : Aff K} (_ : FaceOk pos A c) (_ : InsideFace pos A c q) (ψ : Aff K), (∀ x ∈ c, 0 ≤ ψ.ev (pos x.1)) → 0 ≤ ψ.ev q := by
    intro c A f hq ψ h0
    by_cases hne : ∃ x ∈ c, ψ.ev (pos x.1) ≠ 0
    · exact (hq.pos f h0 hne).le
    · push Not at hne
      obtain ⟨μ, hμ⟩ := f.vanish hne
      rw [hμ, hq.1, mul_zero]
  obtain ⟨ψ, a, b, hne⟩ := h
  have a' : ∀ x ∈ c, 0 ≤ ψ.neg.ev (pos x.1) := fun x hx => by rw [Aff.neg_ev]; have := a x hx; linarith
  have k1 := key f1 h1 ψ.neg a'
  have k2 := key f2 h2 ψ b
  rw [Aff.neg_ev] at k1
  rcases hne with ⟨x, hx, e⟩ | ⟨x, hx, e⟩
  · have := h1.pos f1 a' ⟨x, hx, by rw [Aff.neg_ev]; linarith⟩
    rw [Aff.neg_ev] at this
    linarith
  · have := h2.pos f2 b ⟨x, hx, e.ne'⟩
    linarith

/-- Two faces of the complex in one plane have no common inner point. -/
theorem no_overlap {s : St} (gd : Good s) {pos : Nat → Pt K} {pl : Nat → Aff K} (g : Geo pos pl s.cl s.mesh.faces) (ht : Tiled pl s.cl s.cx.cells.length) {i j : Nat} (hij : i ≠ j) {c d : Cycle}
    (hc : s.mesh.faces[i]? = some c) (hd : s.mesh.faces[j]? = some d) {μ : K} (h0 : μ ≠ 0) (hμ : ∀ p, (pl j).ev p = μ * (pl i).ev p) {q : Pt K} (h1 : InsideFace pos (pl i) c q) (h2 : InsideFace pos (pl j) d q) : False := by
  have hF : ∀ {i : Nat} {c : Cycle}, s.mesh.faces[i]? = some c → ∃ P : Nat × Option Nat, s.cl[i]? = some P ∧ P.1 < s.cx.cells.length ∧ sg P P.1 = 1 ∧ ∀ k, P.2 = some k → k < s.cx.cells.length ∧ sg P k = -1 := by
    intro i c hc
    have hi : i < s.cl.length := by rw [St.cl, gd.mesh.len]; exact (List.getElem?_eq_some_iff.1 hc).1
    have hi' : i < s.cx.faces.length := by simpa [St.cl] using hi
    have hF := List.getElem?_eq_getElem hi'
    generalize s.cx.faces[i] = F at hF
    obtain ⟨l1, l2⟩ := gd.linked.cells i F hF
    refine ⟨F.cells, by simp [St.cl, hF], l1, ?_, fun k hk => ⟨(l2 k hk).1, ?_⟩⟩
    · unfold sg
      rw [if_pos rfl, if_neg fun e => (l2 _ e).2 rfl]; rfl
    · unfold sg
      rw [if_neg (l2 k hk).2.symm, if_pos hk]; rfl
  obtain ⟨P, hP, p1, ps, p2⟩ := hF hc
  obtain ⟨Q, hQ, q1, qs, q2⟩ := hF hd
  have f1 := g.face i c hc
  have f2 := g.face j d hd
  obtain ⟨W, hW⟩ : ∃ W, 0 < (pl i).ev W := by
    refine ⟨⟨q.x + (pl i).n.x, q.y + (pl i).n.y, q.z + (pl i).n.z⟩, ?_⟩
    have e : (pl i).ev ⟨q.x + (pl i).n.x, q.y + (pl i).n.y, q.z + (pl i).n.z⟩ = (pl i).ev q + vdot (pl i).n (pl i).n := by simp only [Aff.ev, vdot]; ring
    rw [e, h1.1, zero_add]
    have := f1.normal
    refine lt_of_le_of_ne ?_ this.symm
    simp only [vdot]
    nlinarith [mul_self_nonneg (pl i).n.x, mul_self_nonneg (pl i).n.y, mul_self_nonneg (pl i).n.z]
  obtain ⟨t, t0, -, ht1⟩ := enter g hP (by rw [ps]; decide) hc h1 (W := W) (by rw [ps]; simpa using hW)
  have same : ∀ l, l < s.cx.cells.length → sg Q l ≠ 0 → 0 < (sg Q l : K) * (pl j).ev W → False := by
    intro l hl hs hlW
    obtain ⟨t', t0', -, ht2⟩ := enter g hQ hs hd h2 hlW
    by_cases hkl : P.1 = l
    · subst hkl
      exact (g.apart P.1 i P j Q c d hP (by rw [ps]; decide) hQ hs hij hc hd).not_inside f1 f2 h1 h2
    · exact ht.cells P.1 p1 l hl hkl _ ⟨ht1 (min t t') (lt_min t0 t0') (min_le_left _ _), ht2 (min t t') (lt_min t0 t0') (min_le_right _ _)⟩
  rcases lt_or_gt_of_ne h0 with hneg | hpos
  · cases h : Q.2 with
    | none =>
      have := ht.outer j Q hQ h P.1 p1 _ (ht1 t t0 le_rfl)
      rw [hμ, ev_lerp, h1.1, mul_zero, zero_add] at this
      nlinarith [mul_pos t0 hW]
    | some l =>
      obtain ⟨q3, q4⟩ := q2 l h
      refine same l q3 (by rw [q4]; decide) ?_
      rw [q4, hμ]
      push_cast
      nlinarith [mul_pos (neg_pos.2 hneg) hW]
  · refine same Q.1 q1 (by rw [qs]; decide) ?_
    rw [qs, hμ]
    push_cast
    rw [one_mul]
    exact mul_pos hpos hW

/-! ### Faces beside an edge -/

/-- Each side of a polygon has a vertex of the polygon on its left. -/
theorem FaceOk.exists_left {pos : Nat → Pt K} {A : Aff K} {c : Cycle} (f : FaceOk pos A c) {h : HE} (hh : h ∈ hes c) : ∃ x ∈ c, 0 < area A.n (pos h.tail) (pos h.tip) (pos x.1) := by
  obtain ⟨z, hz, hz0⟩ := f.not_flat (f.ev_tail hh) (f.ev_tip hh) (f.pos_ne hh)
  exact ⟨z, hz, lt_of_le_of_ne (f.left h hh z hz) hz0.symm⟩

/-- From the middle of a side to the left one comes into the polygon. -/
theorem FaceOk.near_side {pos : Nat → Pt K} {A : Aff K} {c : Cycle} (f : FaceOk pos A c) {h : HE} (hh : h ∈ hes c) {X : Pt K} (hX : A.ev X = 0) (hl : 0 < area A.n (pos h.tail) (pos h.tip) X) :
    ∃ t : K, 0 < t ∧ ∀ u, 0 < u → u ≤ t → InsideFace pos A c (lerp (lerp (pos h.tail) (pos h.tip) (1 / 2)) X u) := by
  obtain ⟨t, t0, -, ht⟩ := go_in (lerp (pos h.tail) (pos h.tip) (1 / 2)) X ((hes c).map fun k => areaAff A.n (pos k.tail) (pos k.tip)) (by
    intro B hB
    obtain ⟨k, hk, rfl⟩ := List.mem_map.1 hB
    have e1 := f.left_tail hk hh
    have e2 := f.left_tip hk hh
    rw [← areaAff_ev] at e1 e2
    generalize hG : areaAff A.n (pos k.tail) (pos k.tip) = G at e1 e2
    rw [ev_lerp]
    by_cases h0 : G.ev (pos h.tail) = 0 ∧ G.ev (pos h.tip) = 0
    · refine .inr ⟨by rw [h0.1, h0.2]; ring, ?_⟩
      obtain ⟨x, hx, hx0⟩ := f.exists_left hk
      have hy := f.left h hh x hx
      have e := ev_ratio (G := G) f.normal (f.ev_tail hh) (f.ev_tip hh) hX (f.plane x hx) h0.1 h0.2
      rw [← areaAff_ev, hG] at hx0
      have : 0 < G.ev X * area A.n (pos h.tail) (pos h.tip) (pos x.1) := by rw [e]; exact mul_pos hx0 hl
      exact pos_of_mul_pos_left this hy
    · left
      rcases e1.lt_or_eq with e1' | e1'
      · nlinarith
      · rcases e2.lt_or_eq with e2' | e2'
        · nlinarith
        · exact absurd ⟨e1'.symm, e2'.symm⟩ h0)
  refine ⟨t, t0, fun u u0 u1 => ⟨?_, fun k hk => ?_⟩⟩
  · rw [ev_lerp, ev_lerp, hX, f.ev_tail hh, f.ev_tip hh]; ring
  · rw [← areaAff_ev]
    exact ht _ (List.mem_map.2 ⟨k, hk, rfl⟩) u u0 u1

/-- The plane of a face with the orientation that its sign gives it. -/
def signedPl (w : Int) (A : Aff K) : Aff K := if w > 0 then A else A.smul (-1)

theorem signedPl_eq (w : Int) (A : Aff K) : ∃ r : K, r * r = 1 ∧ signedPl w A = A.smul r := by
  unfold signedPl
  split
  · exact ⟨1, by ring, by cases A; simp [Aff.smul]⟩
  · exact ⟨-1, by ring, rfl⟩

/-- Beside a half-edge of a signed face. -/
theorem FaceOk.beside {pos : Nat → Pt K} {A : Aff K} {c : Cycle} (f : FaceOk pos A c) {w : Int} {h : HE} (hh : h ∈ oriented (w, c)) :
    (∃ X, A.ev X = 0 ∧ 0 < area (signedPl w A).n (pos h.tail) (pos h.tip) X) ∧
    ∀ X, A.ev X = 0 → 0 < area (signedPl w A).n (pos h.tail) (pos h.tip) X → ∃ t : K, 0 < t ∧ ∀ u, 0 < u → u ≤ t → InsideFace pos A c (lerp (lerp (pos h.tail) (pos h.tip) (1 / 2)) X u) := by
  unfold oriented at hh
  unfold signedPl
  split at hh
  · rename_i hw
    rw [if_pos hw]
    obtain ⟨x, hx, e⟩ := f.exists_left hh
    exact ⟨⟨_, f.plane x hx, e⟩, fun X hX hl => f.near_side hh hX hl⟩
  · rename_i hw
    obtain ⟨k, hk, rfl⟩ := List.mem_map.1 hh
    have hk := List.mem_reverse.1 hk
    have e : ∀ X, area (if w > 0 then A else A.smul (-1)).n (pos k.rev.tail) (pos k.rev.tip) X = area A.n (pos k.tail) (pos k.tip) X := by
      intro X
      rw [if_neg hw, smul_area, HE.rev, turn_swap]; ring
    simp only [e]
    obtain ⟨x, hx, e⟩ := f.exists_left hk
    refine ⟨⟨_, f.plane x hx, e⟩, fun X hX hl => ?_⟩
    obtain ⟨t, t0, ht⟩ := f.near_side hk hX hl
    refine ⟨t, t0, fun u u0 u1 => ?_⟩
    have := ht u u0 u1
    rw [lerp_symm (pos k.tail)] at this
    rw [show (1 : K) - 1 / 2 = 1 / 2 by norm_num] at this
    exact this

/-- Two faces in one plane are not on the same side of a half-edge. -/
theorem not_beside {s : St} (gd : Good s) {pos : Nat → Pt K} {pl : Nat → Aff K} (g : Geo pos pl s.cl s.mesh.faces) (ht : Tiled pl s.cl s.cx.cells.length) {i j : Nat} (hij : i ≠ j) {c d : Cycle}
    (hc : s.mesh.faces[i]? = some c) (hd : s.mesh.faces[j]? = some d) {μ : K} (h0 : μ ≠ 0) (hμ : pl j = (pl i).smul μ) {v w : Int} {h k : HE} (hh : h ∈ oriented (v, c)) (hk : k ∈ oriented (w, d))
    (hs : k = h ∧ (∃ r : K, 0 < r ∧ signedPl w (pl j) = (signedPl v (pl i)).smul r) ∨ k = h.rev ∧ ∃ r : K, r < 0 ∧ signedPl w (pl j) = (signedPl v (pl i)).smul r) : False := by
  have f1 := g.face i c hc
  have f2 := g.face j d hd
  obtain ⟨⟨X, hX, hl⟩, n1⟩ := f1.beside hh
  obtain ⟨-, n2⟩ := f2.beside hk
  obtain ⟨t, t0, e1⟩ := n1 X hX hl
  have hX2 : (pl j).ev X = 0 := by rw [hμ, Aff.smul_ev, hX, mul_zero]
  have hl2 : 0 < area (signedPl w (pl j)).n (pos k.tail) (pos k.tip) X := by
    rcases hs with ⟨rfl, r, r0, e⟩ | ⟨rfl, r, r0, e⟩
    · rw [e, smul_area]; exact mul_pos r0 hl
    · rw [e, smul_area, HE.rev, turn_swap]; nlinarith
  obtain ⟨t', t0', e2⟩ := n2 X hX2 hl2
  have e3 := e2 (min t t') (lt_min t0 t0') (min_le_right _ _)
  have e4 : lerp (pos k.tail) (pos k.tip) (1 / 2) = lerp (pos h.tail) (pos h.tip) (1 / 2) := by
    rcases hs with ⟨rfl, -⟩ | ⟨rfl, -⟩
    · rfl
    · rw [HE.rev, lerp_symm, show (1 : K) - 1 / 2 = 1 / 2 by norm_num]
  rw [e4] at e3
  exact no_overlap gd g ht hij hc hd h0 (fun p => by rw [hμ, Aff.smul_ev]) (e1 (min t t') (lt_min t0 t0') (min_le_left _ _)) e3

/-! ### Groups -/

theorem aff_ext {A B : Aff K} {μ : K} (h : ∀ p, B.ev p = μ * A.ev p) : B = A.smul μ := by
  have e0 := h ⟨0, 0, 0⟩
  have e1 := h ⟨1, 0, 0⟩
  have e2 := h ⟨0, 1, 0⟩
  have e3 := h ⟨0, 0, 1⟩
  obtain ⟨⟨a, b, c⟩, d⟩ := A
  obtain ⟨⟨a', b', c'⟩, d'⟩ := B
  simp only [Aff.ev, vdot, mul_zero, mul_one, add_zero, zero_add] at e0 e1 e2 e3
  simp only [Aff.smul, Aff.mk.injEq, Pt.mk.injEq]
  refine ⟨⟨?_, ?_, ?_⟩, ?_⟩ <;> linarith

theorem smul_smul (r t : K) (A : Aff K) : (A.smul r).smul t = A.smul (r * t) := by
  simp only [Aff.smul, Aff.mk.injEq, Pt.mk.injEq]
  refine ⟨⟨?_, ?_, ?_⟩, ?_⟩ <;> ring

/-- The planes of two signed faces are the same with the same orientation. -/
def SameSide (w : List Int) (pl : Nat → Aff K) (f g : Nat) : Prop := ∃ r : K, 0 < r ∧ signedPl (w.getD g 0) (pl g) = (signedPl (w.getD f 0) (pl f)).smul r

theorem SameSide.refl (w : List Int) (pl : Nat → Aff K) (f : Nat) : SameSide w pl f f := ⟨1, one_pos, by simp [Aff.smul]⟩

theorem SameSide.symm {w : List Int} {pl : Nat → Aff K} {f g : Nat} (h : SameSide w pl f g) : SameSide w pl g f := by
  obtain ⟨r, r0, e⟩ := h
  refine ⟨1 / r, by positivity, ?_⟩
  rw [e, smul_smul, mul_one_div_cancel r0.ne']
  simp [Aff.smul]

theorem SameSide.trans {w : List Int} {pl : Nat → Aff K} {f g h : Nat} (a : SameSide w pl f g) (b : SameSide w pl g h) : SameSide w pl f h := by
  obtain ⟨r, r0, e⟩ := a
  obtain ⟨t, t0, e'⟩ := b
  exact ⟨r * t, mul_pos r0 t0, by rw [e', e, smul_smul]⟩

theorem SameSide.plane {w : List Int} {pl : Nat → Aff K} {f g : Nat} (h : SameSide w pl f g) : ∃ μ : K, μ ≠ 0 ∧ pl g = (pl f).smul μ := by
  obtain ⟨r, r0, e⟩ := h
  obtain ⟨a, a1, ea⟩ := signedPl_eq (w.getD f 0) (pl f)
  obtain ⟨b, b1, eb⟩ := signedPl_eq (w.getD g 0) (pl g)
  rw [ea, eb, smul_smul] at e
  have e' := congrArg (fun A => Aff.smul b A) e
  simp only [smul_smul, b1] at e'
  refine ⟨a * r * b, ?_, ?_⟩
  · have : a ≠ 0 := by rintro rfl; simp at a1
    have : b ≠ 0 := by rintro rfl; simp at b1
    positivity
  · rw [← e']; simp [Aff.smul]

theorem mem_oriented_edge {w : Int} {c : Cycle} {e : Nat} (h : e ∈ c.map Prod.snd) : ∃ h ∈ oriented (w, c), h.edge = e := by
  obtain ⟨x, hx, rfl⟩ := List.mem_map.1 h
  obtain ⟨k, hk, -, e⟩ := mem_hes hx
  unfold oriented
  split
  · exact ⟨k, hk, e⟩
  · exact ⟨k.rev, List.mem_map_of_mem (List.mem_reverse.2 hk), e⟩

theorem edge_of_oriented {w : Int} {c : Cycle} {h : HE} (hh : h ∈ oriented (w, c)) : h.edge ∈ c.map Prod.snd := by
  unfold oriented at hh
  split at hh
  · exact List.mem_map.2 ⟨_, hes_tail hh, rfl⟩
  · obtain ⟨k, hk, rfl⟩ := List.mem_map.1 hh
    exact List.mem_map.2 ⟨_, hes_tail (List.mem_reverse.1 hk), rfl⟩

/-- A face does not pass an edge in both directions. -/
theorem FaceOk.oriented_one_way {pos : Nat → Pt K} {A : Aff K} {c : Cycle} (f : FaceOk pos A c) {w : Int} {h : HE} (h1 : h ∈ oriented (w, c)) (h2 : h.rev ∈ oriented (w, c)) : False := by
  unfold oriented at h1 h2
  split at h1
  · rw [if_pos ‹_›] at h2
    exact f.one_way h1 h2 rfl
  · rw [if_neg ‹_›] at h2
    obtain ⟨a, ha, rfl⟩ := List.mem_map.1 h1
    obtain ⟨b, hb, e⟩ := List.mem_map.1 h2
    refine f.one_way (List.mem_reverse.1 ha) (List.mem_reverse.1 hb) ?_
    have := congrArg HE.rev e
    rw [rev_rev, rev_rev] at this
    exact this

theorem FaceOk.oriented_nodup {pos : Nat → Pt K} {A : Aff K} {c : Cycle} (f : FaceOk pos A c) (w : Int) : (oriented (w, c)).Nodup := by
  have hn : (hes c).Nodup := by
    have := f.simple
    rw [← hes_map c, List.map_map] at this
    exact List.Nodup.of_map _ this
  unfold oriented
  split
  · exact hn
  · exact (List.nodup_reverse.2 hn).map fun a b e => by
      have := congrArg HE.rev e
      rwa [rev_rev, rev_rev] at this

variable {s : St} {pos : Nat → Pt K} {pl : Nat → Aff K}

/-- Two faces that are joined lie on the same side of the kept cells. -/
theorem adjacent_side (gd : Good s) (g : Geo pos pl s.cl s.mesh.faces) (ht : Tiled pl s.cl s.cx.cells.length) (kept : Nat → Bool) {sp : Nat → Nat → Bool}
    (hsp : ∀ f g, Used s.mesh (keptFaces kept s) f → Used s.mesh (keptFaces kept s) g → sp f g = true → ∀ x ∈ s.mesh.faces.getD g [], (pl f).ev (pos x.1) = 0) {i j : Nat}
    (h : Adjacent sp s.mesh (keptFaces kept s) i j) : SameSide (keptFaces kept s) pl i j := by
  obtain ⟨h1, e, hij, ui, uj, pi, pj, ho⟩ := h
  generalize hw : keptFaces kept s = w at *
  have hc := List.getElem?_eq_getElem ui.1
  have hd := List.getElem?_eq_getElem uj.1
  have ec : s.mesh.faces.getD i [] = s.mesh.faces[i]'ui.1 := by rw [List.getD_eq_getElem?_getD, hc]; rfl
  have ed : s.mesh.faces.getD j [] = s.mesh.faces[j]'uj.1 := by rw [List.getD_eq_getElem?_getD, hd]; rfl
  have hpl := hsp i j ui uj h1
  unfold passes at pi pj
  rw [ec] at pi
  rw [ed] at pj hpl
  generalize hC : s.mesh.faces[i]'ui.1 = c at *
  generalize hD : s.mesh.faces[j]'uj.1 = d at *
  have f1 := g.face i c hc
  have f2 := g.face j d hd
  obtain ⟨μ', hμ'⟩ := f2.vanish hpl
  have hμ0 : μ' ≠ 0 := by
    rintro rfl
    have e0 := aff_ext hμ'
    apply f1.normal
    rw [e0]
    simp [Aff.smul, vdot]
  have hμ : pl j = (pl i).smul (1 / μ') := by
    refine aff_ext fun p => ?_
    rw [hμ' p]; field_simp
  obtain ⟨a, a1, ea⟩ := signedPl_eq (w.getD i 0) (pl i)
  obtain ⟨b, b1, eb⟩ := signedPl_eq (w.getD j 0) (pl j)
  have hr : signedPl (w.getD j 0) (pl j) = (signedPl (w.getD i 0) (pl i)).smul (a * (1 / μ') * b) := by
    rw [ea, eb, smul_smul, hμ, smul_smul]
    congr 1
    linear_combination (-(1 / μ' * b)) * a1
  have hr0 : a * (1 / μ') * b ≠ 0 := by
    have : a ≠ 0 := by rintro rfl; simp at a1
    have : b ≠ 0 := by rintro rfl; simp at b1
    positivity
  rcases lt_or_gt_of_ne hr0 with hneg | hpos
  · exfalso
    obtain ⟨h, hh, he⟩ := mem_oriented_edge (w := w.getD i 0) (c := c) (e := e) (List.count_pos_iff.1 (by omega))
    have hcnt := kept_counts gd kept h
    rw [hw] at hcnt
    have hin : h ∈ allOriented (signedFaces s.mesh w (usedFaces s.mesh w)) :=
      List.mem_flatMap.2 ⟨_, List.mem_map.2 ⟨i, mem_usedFaces.2 ui, rfl⟩, by rw [ec]; exact hh⟩
    have hrev : h.rev ∈ allOriented (signedFaces s.mesh w (usedFaces s.mesh w)) := by
      rw [← List.count_pos_iff, ← hcnt, List.count_pos_iff]; exact hin
    obtain ⟨Q, hQ, hq⟩ := List.mem_flatMap.1 hrev
    obtain ⟨k, hk, rfl⟩ := List.mem_map.1 hQ
    have uk := mem_usedFaces.1 hk
    have hpk : passes s.mesh k e ≠ 0 := by
      have := edge_of_oriented hq
      rw [show h.rev.edge = e from he] at this
      unfold passes
      exact (List.count_pos_iff.2 this).ne'
    by_cases e1 : k = i
    · subst e1
      rw [ec] at hq
      exact f1.oriented_one_way hh hq
    · by_cases e2 : k = j
      · subst e2
        rw [ed] at hq
        exact not_beside gd g ht hij hc hd (by positivity) hμ hh hq (.inr ⟨rfl, _, hneg, hr⟩)
      · exact hpk (ho k uk e1 e2)
  · exact ⟨_, hpos, hr⟩

/-- **C110.** The condition on the groups that C79 and C110 need. If the faces that `on_the_same_plane` compares lie in one plane, the faces of a group all have their kept cells on the same side of their plane and no
two of them pass an edge in the same direction. -/
theorem c110_groups (gd : Good s) (g : Geo pos pl s.cl s.mesh.faces) (ht : Tiled pl s.cl s.cx.cells.length) (kept : Nat → Bool) {ids : List Nat} {tris : List (List Nat)}
    (hsp : ∀ f g, Used s.mesh (keptFaces kept s) f → Used s.mesh (keptFaces kept s) g → samePlane ids tris f g = true → ∀ x ∈ s.mesh.faces.getD g [], (pl f).ev (pos x.1) = 0) {fuel : Nat}
    (hf : Nat.log 2 (usedFaces s.mesh (keptFaces kept s)).length < fuel) {gs : List (Nat × List Nat)} (hg : mergeGroups fuel (samePlane ids tris) s.mesh (keptFaces kept s) = some gs) :
    ∀ kv ∈ gs, (∀ f ∈ kv.2, ∀ g ∈ kv.2, SameSide (keptFaces kept s) pl f g) ∧ Mergeable s.mesh.canon (signedFaces s.mesh (keptFaces kept s) kv.2) := by
  have hlt : ∀ c ∈ s.mesh.faces, ∀ x ∈ c, x.2 < s.mesh.nE := fun c hc x hx => (gd.mesh.lt c hc x hx).2
  obtain ⟨gs', e1, -, h2, -⟩ := c80_groups ids tris s.mesh (keptFaces kept s) hlt fuel hf
  rw [hg] at e1
  cases e1
  intro kv hkv
  obtain ⟨-, hnd, hmem⟩ := h2 kv hkv
  have hside : ∀ f ∈ kv.2, ∀ g ∈ kv.2, SameSide (keptFaces kept s) pl f g := by
    intro f hf g' hg'
    have key : ∀ a b, Relation.EqvGen (Adjacent (samePlane ids tris) s.mesh (keptFaces kept s)) a b → SameSide (keptFaces kept s) pl a b := by
      intro a b h
      induction h with
      | rel a b h => exact adjacent_side gd g ht kept hsp h
      | refl a => exact SameSide.refl _ _ _
      | symm a b _ ih => exact ih.symm
      | trans a b c _ _ i1 i2 => exact i1.trans i2
    exact key _ _ (((hmem f hf).2 g').1 hg').2
  have hcyc : ∀ f ∈ kv.2, ∃ c, s.mesh.faces[f]? = some c ∧ s.mesh.faces.getD f [] = c := by
    intro f hf
    have := List.getElem?_eq_getElem (hmem f hf).1.1
    exact ⟨_, this, by rw [List.getD_eq_getElem?_getD, this]; rfl⟩
  have hall : ∀ f ∈ kv.2, ∀ h ∈ hes (s.mesh.faces.getD f []), h ∈ s.mesh.all := by
    intro f hf h hh
    obtain ⟨c, hc, e⟩ := hcyc f hf
    rw [e] at hh
    exact List.mem_flatMap.2 ⟨_, List.mem_of_getElem? hc, hh⟩
  refine ⟨hside, ⟨fun p hp => ?_, fun p hp h hh => ?_, fun p hp h hh => ?_, ?_⟩⟩
  · obtain ⟨f, hf, rfl⟩ := List.mem_map.1 hp
    exact (hmem f hf).1.2
  · obtain ⟨f, hf, rfl⟩ := List.mem_map.1 hp
    have hm := hall f hf h hh
    have hcan : s.mesh.canon h.edge ∈ s.mesh.all := by
      unfold PMesh.canon
      cases hfi : s.mesh.all.find? fun k => k.edge = h.edge with
      | none =>
        rw [List.find?_eq_none] at hfi
        exact absurd (by simp) (hfi h hm)
      | some k => exact List.mem_of_find?_eq_some hfi
    exact gd.mesh.ends _ hcan h hm (canon_edge _ _)
  · obtain ⟨f, hf, rfl⟩ := List.mem_map.1 hp
    exact gd.mesh.proper h (hall f hf h hh)
  · unfold allOriented signedFaces
    rw [List.flatMap_map, List.nodup_flatMap]
    refine ⟨fun f hf => ?_, ?_⟩
    · obtain ⟨c, hc, e⟩ := hcyc f hf
      rw [e]
      exact (g.face f c hc).oriented_nodup _
    · refine hnd.imp_of_mem fun {a b} ha hb hab => ?_
      intro h h1 h2
      obtain ⟨c, hc, ec⟩ := hcyc a ha
      obtain ⟨d, hd, ed⟩ := hcyc b hb
      simp only [ec] at h1
      simp only [ed] at h2
      have hsd := hside a ha b hb
      obtain ⟨μ, μ0, hμ⟩ := hsd.plane
      exact not_beside gd g ht hab hc hd μ0 hμ h1 h2 (.inl ⟨rfl, hsd⟩)
/-! ### From the points to the groups -/

/-- Two planes through three points that are not on a line. -/
theorem plane_of_three {A B : Aff K} {a b c : Pt K} (h : ¬ Geom.Collinear a b c) (ha : A.ev a = 0) (hb : A.ev b = 0) (hc : A.ev c = 0) (hn : A.n ≠ ⟨0, 0, 0⟩) (ha' : B.ev a = 0) (hb' : B.ev b = 0) (hc' : B.ev c = 0) {p : Pt K}
    (hp : A.ev p = 0) : B.ev p = 0 := by
  rw [Geom.collinear_iff_flat] at h
  obtain ⟨⟨n1, n2, n3⟩, d⟩ := A
  obtain ⟨⟨m1, m2, m3⟩, e⟩ := B
  obtain ⟨a1, a2, a3⟩ := a
  obtain ⟨b1, b2, b3⟩ := b
  obtain ⟨c1, c2, c3⟩ := c
  obtain ⟨p1, p2, p3⟩ := p
  simp only [Aff.ev, vdot] at ha hb hc ha' hb' hc' hp ⊢
  have key : ∀ {l1 l2 l3 f : K}, l1 * a1 + l2 * a2 + l3 * a3 + f = 0 → l1 * b1 + l2 * b2 + l3 * b3 + f = 0 → l1 * c1 + l2 * c2 + l3 * c3 + f = 0 →
      l1 * ((b3 - a3) * (c1 - a1) - (b1 - a1) * (c3 - a3)) = l2 * ((b2 - a2) * (c3 - a3) - (b3 - a3) * (c2 - a2)) ∧
      l2 * ((b1 - a1) * (c2 - a2) - (b2 - a2) * (c1 - a1)) = l3 * ((b3 - a3) * (c1 - a1) - (b1 - a1) * (c3 - a3)) ∧
      l1 * ((b1 - a1) * (c2 - a2) - (b2 - a2) * (c1 - a1)) = l3 * ((b2 - a2) * (c3 - a3) - (b3 - a3) * (c2 - a2)) := by
    intro l1 l2 l3 f h1 h2 h3
    have u : l1 * (b1 - a1) + l2 * (b2 - a2) + l3 * (b3 - a3) = 0 := by linear_combination h2 - h1
    have v : l1 * (c1 - a1) + l2 * (c2 - a2) + l3 * (c3 - a3) = 0 := by linear_combination h3 - h1
    refine ⟨?_, ?_, ?_⟩
    · linear_combination (b3 - a3) * v - (c3 - a3) * u
    · linear_combination (b1 - a1) * v - (c1 - a1) * u
    · linear_combination (c2 - a2) * u - (b2 - a2) * v
  obtain ⟨k1, k2, k3⟩ := key ha hb hc
  obtain ⟨q1, q2, q3⟩ := key ha' hb' hc'
  generalize hN1 : (b2 - a2) * (c3 - a3) - (b3 - a3) * (c2 - a2) = N1 at *
  generalize hN2 : (b3 - a3) * (c1 - a1) - (b1 - a1) * (c3 - a3) = N2 at *
  generalize hN3 : (b1 - a1) * (c2 - a2) - (b2 - a2) * (c1 - a1) = N3 at *
  have hN : N1 ≠ 0 ∨ N2 ≠ 0 ∨ N3 ≠ 0 := by
    by_contra hno
    push Not at hno
    refine h ?_
    simp only [Geom.Flat, Geom.nXY, Geom.nYZ, Geom.nXZ, Geom.orient2d, Geom.xy, Geom.yz, Geom.xz]
    refine ⟨?_, ?_, ?_⟩
    · linear_combination hN3 + hno.2.2
    · linear_combination hN1 + hno.1
    · linear_combination -hN2 - hno.2.1
  have fin : ∀ {x y : K}, x ≠ 0 → x * y = 0 → y = 0 := fun hx hxy => (mul_eq_zero.1 hxy).resolve_left hx
  have w : n1 * (p1 - a1) + n2 * (p2 - a2) + n3 * (p3 - a3) = 0 := by linear_combination hp - ha
  have goal : m1 * p1 + m2 * p2 + m3 * p3 + e = m1 * (p1 - a1) + m2 * (p2 - a2) + m3 * (p3 - a3) := by linear_combination ha'
  rw [goal]
  rcases hN with hN | hN | hN
  · have hn1 : n1 ≠ 0 := by
      rintro rfl
      refine hn ?_
      rw [fin hN (y := n2) (by linear_combination -k1), fin hN (y := n3) (by linear_combination -k3)]
    refine fin (mul_ne_zero hN hn1) ?_
    linear_combination m1 * N1 * w - n1 * (p2 - a2) * q1 + m1 * (p2 - a2) * k1 - n1 * (p3 - a3) * q3 + m1 * (p3 - a3) * k3
  · have hn2 : n2 ≠ 0 := by
      rintro rfl
      refine hn ?_
      rw [fin hN (y := n1) (by linear_combination k1), fin hN (y := n3) (by linear_combination -k2)]
    refine fin (mul_ne_zero hN hn2) ?_
    linear_combination m2 * N2 * w + n2 * (p1 - a1) * q1 - m2 * (p1 - a1) * k1 - n2 * (p3 - a3) * q2 + m2 * (p3 - a3) * k2
  · have hn3 : n3 ≠ 0 := by
      rintro rfl
      refine hn ?_
      rw [fin hN (y := n1) (by linear_combination k3), fin hN (y := n2) (by linear_combination k2)]
    refine fin (mul_ne_zero hN hn3) ?_
    linear_combination m3 * N3 * w + n3 * (p1 - a1) * q3 - m3 * (p1 - a1) * k3 + n3 * (p2 - a2) * q2 - m3 * (p2 - a2) * k2

theorem General.line {pts : List (Pt K)} (hg : General pts) (h4 : 4 ≤ pts.length) {c : Nat × Nat × Nat} (hc : Proper pts.length c) : ¬ Geom.Collinear (posOf pts c.1) (posOf pts c.2.1) (posOf pts c.2.2) := by
  intro h
  obtain ⟨d, hd, hd'⟩ : ∃ d < 4, d ∉ [c.1, c.2.1, c.2.2] := by
    by_contra hno
    push Not at hno
    have h1 : Finset.range 4 ⊆ [c.1, c.2.1, c.2.2].toFinset := fun k hk => List.mem_toFinset.2 (hno k (Finset.mem_range.1 hk))
    have h2 := Finset.card_le_card h1
    have h3 := [c.1, c.2.1, c.2.2].toFinset_card_le
    simp only [Finset.card_range, List.length_cons, List.length_nil] at h2 h3
    omega
  simp only [List.mem_cons, List.not_mem_nil, or_false, not_or] at hd'
  exact hg c.2.2 hc.lt3 c.1 hc.lt1 c.2.1 hc.lt2 d (by omega) (nodup4 hc.ne3 (Ne.symm hc.ne2) (Ne.symm hd'.2.2) hc.ne1 (Ne.symm hd'.1) (Ne.symm hd'.2.1)) (off_plane h)

/-- The planes of the faces with a common triangle are the same. -/
theorem Listed.one_plane {pts : List (Pt K)} {cs : List (Nat × Nat × Nat)} {n : Nat} {g : GSt K} (hL : Listed (triAt pts cs) n g) (hn : n ≤ cs.length) (gg : Geo g.pos g.pl g.s.cl g.s.mesh.faces)
    (hnc : ∀ c ∈ cs, ¬ Geom.Collinear (posOf pts c.1) (posOf pts c.2.1) (posOf pts c.2.2)) {i j : Nat} {F G : Poly.Face} {c d : Cycle} (hF : g.s.cx.faces[i]? = some F) (hG : g.s.cx.faces[j]? = some G)
    (hc : g.s.mesh.faces[i]? = some c) (hd : g.s.mesh.faces[j]? = some d) {t : Nat} (h1 : t ∈ F.tris) (h2 : t ∈ G.tris) : ∀ x ∈ d, (g.pl i).ev (g.pos x.1) = 0 := by
  intro x hx
  obtain ⟨ht, hf⟩ := hL.flat i F hF t h1
  obtain ⟨-, hg⟩ := hL.flat j G hG t h2
  have hlt : t < cs.length := by omega
  simp only [triAt, List.getElem?_eq_getElem hlt, Option.getD_some, Tri3.corners, List.mem_cons, List.not_mem_nil, or_false, forall_eq_or_imp, forall_eq] at hf hg
  refine plane_of_three (hnc _ (List.getElem_mem hlt)) hg.1 hg.2.1 hg.2.2 ?_ hf.1 hf.2.1 hf.2.2 ((gg.face j d hd).plane x hx)
  obtain ⟨h, -, y, -, ha⟩ := (gg.face j d hd).fat
  intro h0
  rw [h0] at ha
  simp [area, vdet] at ha

/-- **C110.** The whole way of `make_mesh_for_triangles` up to the groups of `merge_faces`, for triangles in general position that bound solids. If faces with the same `id` lie in one plane, the groups are formed, all faces
of a group turn their front to the same side of one plane, and no edge is passed twice in the same direction by the faces of a group. -/
theorem c110_solid {T : Type} [Field T] [LinearOrder T] [IsStrictOrderedRing T] {norm : Pt K → T} (hN : IsNorm norm) (ch : Choices) (hch : ch.Good) (eps : K) (lead : K → K) (hl0 : ∀ x, lead x = 0 ↔ x = 0) (hl1 : ∀ x, 0 ≤ lead x)
    (pts : List (Pt K)) (h4 : 4 ≤ pts.length) (hn : pts.length ≤ 1021) (hg : General pts) (hflat : ∀ box s, Tet.boxOf pts = some box → Tet.boxSize box = some s → ¬ Delaunay.FlatPts pts s)
    (tris : List (Nat × Nat × Nat)) (hc : ∀ c ∈ tris, Proper pts.length c) (hd : Different tris) (hcl : ∀ c ∈ tris, ∀ i : Fin 3, ∃ d ∈ tris, ∃ j : Fin 3, toTri d j = toTri c (i + 1) ∧ toTri d (j + 1) = toTri c i)
    (shells : List Nat) (nShells : Nat) (In : Nat → Pt K → Prop) (hI : ∀ sh < nShells, SurfaceOf (triAt pts tris) (fun t => t < tris.length ∧ shells.getD t 0 = sh) (In sh))
    (hout : ∀ sh < nShells, ∀ p, ¬ InHull pts p → ¬ In sh p) :
    ∃ fuel g as kept w, makeProper ch eps lead fuel pts tris = some (tris, g) ∧ faceAreas norm g = some as ∧
      (∀ fuel ≥ 1, cellKept fuel (shellsOf (triAt pts tris) (axisAt eps lead pts tris) (fun i => as.getD i 0) (fun t => shells.getD t 0) nShells g) g.s.cx = some kept) ∧
      w = keptFaces (fun k => kept.getD k false) g.s ∧ Good g.s ∧ Geo g.pos g.pl g.s.cl g.s.mesh.faces ∧ Tiled g.pl g.s.cl g.s.cx.cells.length ∧
      ∀ ids : List Nat, (∀ f < g.s.mesh.faces.length, ∀ f' < g.s.mesh.faces.length, ids[f]? = ids[f']? → ∀ x ∈ g.s.mesh.faces.getD f' [], (g.pl f).ev (g.pos x.1) = 0) →
        ∀ fuelG, Nat.log 2 (usedFaces g.s.mesh w).length < fuelG → ∃ gs, mergeGroups fuelG (samePlane ids (g.s.cx.faces.map (·.tris))) g.s.mesh w = some gs ∧
          ∀ kv ∈ gs, (∀ f ∈ kv.2, ∀ f' ∈ kv.2, ∃ r : K, 0 < r ∧ ∀ p, ((w.getD f' 0 : Int) : K) * (g.pl f').ev p = r * (((w.getD f 0 : Int) : K) * (g.pl f).ev p)) ∧
            (allOriented (signedFaces g.s.mesh w kv.2)).Nodup := by
  obtain ⟨fuel, g, as, kept, e1, e2, gd, gg, hbd, e3, hlen, hull, hdis, hL, hk⟩ := c107_solid hN ch hch eps lead hl0 hl1 pts h4 hn hg hflat tris hc hd hcl shells nShells In hI hout
  have ht : Tiled g.pl g.s.cl g.s.cx.cells.length := ⟨hdis, fun i P hP hP2 k hk q hq => hbd i P hP hP2 q ((hull q).2 ⟨k, hk, hq.mem⟩)⟩
  refine ⟨fuel, g, as, kept, _, e1, e2, e3, rfl, gd, gg, ht, fun ids hid fuelG hfG => ?_⟩
  have hsp : ∀ f f', Used g.s.mesh (keptFaces (fun k => kept.getD k false) g.s) f → Used g.s.mesh (keptFaces (fun k => kept.getD k false) g.s) f' → samePlane ids (g.s.cx.faces.map (·.tris)) f f' = true →
      ∀ x ∈ g.s.mesh.faces.getD f' [], (g.pl f).ev (g.pos x.1) = 0 := by
    intro f f' hf hf' hs
    unfold samePlane at hs
    rw [Bool.or_eq_true] at hs
    rcases hs with hs | hs
    · exact hid f hf.1 f' hf'.1 (by simpa using hs)
    · simp only [List.any_eq_true, List.contains_iff_mem] at hs
      obtain ⟨t, h1, h2⟩ := hs
      have hlen' : g.s.mesh.faces.length = g.s.cx.faces.length := by simpa using gd.mesh.len.symm
      have e1 : g.s.cx.faces[f]? = some (g.s.cx.faces[f]'(hlen' ▸ hf.1)) := List.getElem?_eq_getElem _
      have e2 : g.s.cx.faces[f']? = some (g.s.cx.faces[f']'(hlen' ▸ hf'.1)) := List.getElem?_eq_getElem _
      have e3 := List.getElem?_eq_getElem hf.1
      have e4 := List.getElem?_eq_getElem hf'.1
      rw [List.getD_eq_getElem?_getD, List.getElem?_map, e1] at h1
      rw [List.getD_eq_getElem?_getD, List.getElem?_map, e2] at h2
      rw [List.getD_eq_getElem?_getD, e4]
      exact hL.one_plane le_rfl gg (fun c h => hg.line h4 (hc c h)) e1 e2 e3 e4 h1 h2
  obtain ⟨gs, h1, -⟩ := c80_groups ids (g.s.cx.faces.map (·.tris)) g.s.mesh (keptFaces (fun k => kept.getD k false) g.s) (fun c hc x hx => (gd.mesh.lt c hc x hx).2) fuelG hfG
  refine ⟨gs, h1, fun kv hkv => ?_⟩
  obtain ⟨k1, k2⟩ := c110_groups gd gg ht _ hsp hfG h1 kv hkv
  refine ⟨fun f hf f' hf' => ?_, k2.once⟩
  obtain ⟨r, r0, e⟩ := k1 f hf f' hf'
  have hsgn : ∀ f ∈ kv.2, (keptFaces (fun k => kept.getD k false) g.s).getD f 0 = 1 ∨ (keptFaces (fun k => kept.getD k false) g.s).getD f 0 = -1 := by
    intro f hf
    have h0 := k2.sign _ (List.mem_map_of_mem hf)
    dsimp only at h0
    rw [List.getD_eq_getElem?_getD, keptFaces, List.getElem?_map] at h0 ⊢
    cases hF : g.s.cx.faces[f]? with
    | none => rw [hF] at h0; exact absurd rfl h0
    | some F =>
      rw [hF] at h0
      simp only [Option.map_some, Option.getD_some] at h0 ⊢
      revert h0
      unfold keptFace
      split <;> (try split) <;> simp
  have hev : ∀ f ∈ kv.2, ∀ p, (signedPl ((keptFaces (fun k => kept.getD k false) g.s).getD f 0) (g.pl f)).ev p = (((keptFaces (fun k => kept.getD k false) g.s).getD f 0 : Int) : K) * (g.pl f).ev p := by
    intro f hf p
    unfold signedPl
    rcases hsgn f hf with h | h <;> rw [h]
    · simp
    · simp [Aff.smul_ev]
  refine ⟨r, r0, fun p => ?_⟩
  rw [← hev f' hf', ← hev f hf, e, Aff.smul_ev]
/-! ### The closed loops -/

/-- The faces of a group are flat seen along an axis that is not parallel to the plane of one of them. -/
theorem flatGroup_of_side {m : PMesh} {w : List Int} {pos : Nat → Pt K} {pl : Nat → Aff K} {cl : List (Nat × Option Nat)} (gg : Geo pos pl cl m.faces) {F : List Nat} {axis : Nat} (h : ∀ f ∈ F, ∀ f' ∈ F, SameSide w pl f f')
    (hax : ∃ f ∈ F, (if axis = 0 then (pl f).n.x else if axis = 1 then (pl f).n.y else (pl f).n.z) ≠ 0) : FlatGroup pos axis (signedFaces m w F) := by
  obtain ⟨f, hf, ha⟩ := hax
  have hon : ∀ f' ∈ F, ∀ x ∈ m.faces.getD f' [], (pl f).ev (pos x.1) = 0 := by
    intro f' hf' x hx
    rw [List.getD_eq_getElem?_getD] at hx
    cases hc : m.faces[f']? with
    | none => rw [hc] at hx; simp at hx
    | some c =>
      rw [hc] at hx
      obtain ⟨μ, -, e⟩ := (h f' hf' f hf).plane
      rw [e, Aff.smul_ev, (gg.face f' c hc).plane x hx, mul_zero]
  refine ⟨(pl f).n, -(pl f).d, fun k hk => ?_, ha⟩
  obtain ⟨p, hp, hk⟩ := List.mem_flatMap.1 hk
  obtain ⟨f', hf', rfl⟩ := List.mem_map.1 hp
  have h2 : ∀ y ∈ hes (m.faces.getD f' []), (pl f).ev (pos y.tail) = 0 ∧ (pl f).ev (pos y.tip) = 0 := fun y hy =>
    ⟨hon f' hf' _ (hes_tail hy), by
      obtain ⟨x, hx, e⟩ := hes_tip hy
      rw [← e]; exact hon f' hf' _ hx⟩
  have h3 : (pl f).ev (pos k.tail) = 0 ∧ (pl f).ev (pos k.tip) = 0 := by
    unfold oriented at hk
    split at hk
    · exact h2 k hk
    · obtain ⟨y, hy, rfl⟩ := List.mem_map.1 hk
      exact (h2 y (List.mem_reverse.1 hy)).symm
  simp only [Aff.ev, vdot] at h3
  exact ⟨by linear_combination h3.1, by linear_combination h3.2⟩

/-- **C110** for a complex whose cells do not overlap. That the faces of a group can be merged and are flat follows from the geometry; it remains that the edges of an original edge lie on a line and that the loops stop at the same vertices. -/
theorem c110_closed_geo_partial {s : St} {pos : Nat → Pt K} {pl : Nat → Aff K} (gd : Good s) (gg : Geo pos pl s.cl s.mesh.faces) (ht : Tiled pl s.cl s.cx.cells.length) (kept : Nat → Bool) {ids : List Nat} {tris : List (List Nat)}
    (hsp : ∀ f g, Used s.mesh (keptFaces kept s) f → Used s.mesh (keptFaces kept s) g → samePlane ids tris f g = true → ∀ x ∈ s.mesh.faces.getD g [], (pl f).ev (pos x.1) = 0) {fuelG : Nat}
    (hf : Nat.log 2 (usedFaces s.mesh (keptFaces kept s)).length < fuelG) {gs0 gs : List (Nat × List Nat)} (hg : mergeGroups fuelG (samePlane ids tris) s.mesh (keptFaces kept s) = some gs0) (hgs : gs.Perm gs0)
    {eid : Nat → Nat} {axis : List Nat → Nat} {fuel : Nat} {ord : List HE → List HE} (hord : ∀ l, (ord l).Perm l)
    (hax : ∀ kv ∈ gs, ∃ f ∈ kv.2, (if axis kv.2 = 0 then (pl f).n.x else if axis kv.2 = 1 then (pl f).n.y else (pl f).n.z) ≠ 0) (htr : ∀ kv ∈ gs, Traced s.mesh.canon ord (signedFaces s.mesh (keptFaces kept s) kv.2))
    (hid : ∀ a ∈ s.mesh.all, ∀ b ∈ s.mesh.all, eid a.edge = eid b.edge → ∀ v ∈ [b.tail, b.tip], Geom.Flat (pos a.tail) (pos a.tip) (pos v))
    (hn : NoBranch s.mesh.canon (fun F => colinear s.mesh.canon (edgeGroups s.mesh (keptFaces kept s) gs) eid pos (axis F)) (signedFaces s.mesh (keptFaces kept s)) gs)
    {r : List (List (List Nat) × Nat)} (hr : mergeFaces fuel ord s.mesh (keptFaces kept s) eid pos axis gs = some r) : ClosedLoops r := by
  have hgr := c110_groups gd gg ht kept hsp hf hg
  exact c110_closed_partial gd kept (fun c hc x hx => (gd.mesh.lt c hc x hx).2) hf hg hgs hord (fun kv hkv => (hgr kv (hgs.mem_iff.1 hkv)).2) htr (fun kv hkv => flatGroup_of_side gg (hgr kv (hgs.mem_iff.1 hkv)).1 (hax kv hkv)) hid hn hr
end
/-! ### Examples -/

/-- The planes of the faces of `midSt`. -/
def midPl (i : Nat) : Aff ℚ := [⟨⟨0, 0, -1⟩, 0⟩, ⟨⟨0, 0, -1⟩, 0⟩, ⟨⟨0, 2, 1⟩, 0⟩, ⟨⟨-12, -6, 5⟩, 48⟩, ⟨⟨12, -6, 5⟩, 48⟩].getD i ⟨⟨0, 0, 0⟩, 0⟩

def midBetween (i j : Nat) : Aff ℚ := if i = 0 ∧ j = 1 then ⟨⟨1, 0, 0⟩, 0⟩ else if i = 1 ∧ j = 0 then ⟨⟨-1, 0, 0⟩, 0⟩ else midPl i

theorem not_lerp {a b p : Pt ℚ} (h : ¬ (0 < vdot (vsub p a) (vsub b a) ∧ vdot (vsub p a) (vsub b a) < vdot (vsub b a) (vsub b a) ∧ vdot (vsub p a) (vsub b a) * vdot (vsub p a) (vsub b a) = vdot (vsub p a) (vsub p a) * vdot (vsub b a) (vsub b a)))
    (hab : vdot (vsub b a) (vsub b a) ≠ 0) (t : ℚ) (t0 : 0 < t) (t1 : t < 1) : p ≠ lerp a b t := by
  intro e
  have e1 : vsub p a = ⟨t * (vsub b a).x, t * (vsub b a).y, t * (vsub b a).z⟩ := by
    rw [e]; simp only [lerp, vsub, Pt.mk.injEq]
    refine ⟨?_, ?_, ?_⟩ <;> ring
  generalize vsub b a = w at *
  have e2 : vdot (vsub p a) w = t * vdot w w := by rw [e1]; simp only [vdot]; ring
  have e3 : vdot (vsub p a) (vsub p a) = t * t * vdot w w := by rw [e1]; simp only [vdot]; ring
  have hw : 0 < vdot w w := by
    refine lt_of_le_of_ne ?_ (Ne.symm hab)
    simp only [vdot]; nlinarith [mul_self_nonneg w.x, mul_self_nonneg w.y, mul_self_nonneg w.z]
  refine h ⟨?_, ?_, ?_⟩
  · rw [e2]; positivity
  · rw [e2]; nlinarith
  · rw [e2, e3]; ring

theorem mid_lt {α : Type} {l : List α} {n i : Nat} {a : α} (h : l[i]? = some a) (hl : l.length = n) : i < n := hl ▸ (List.getElem?_eq_some_iff.1 h).1

theorem mid_geo : Geo midPos midPl midSt.cl midSt.mesh.faces := by
  have hP : ∀ i P, midSt.cl[i]? = some P → i < 5 ∧ P = (0, none) := by
    intro i P h
    have : i < 5 := mid_lt h rfl
    refine ⟨this, ?_⟩
    have h2 : ∀ P ∈ midSt.cl, P = (0, none) := by decide
    exact h2 P (List.mem_of_getElem? h)
  have hk : ∀ k, sg (0, none) k ≠ 0 → k = 0 := by
    intro k h
    by_contra h0
    exact h (by simp [sg, Ne.symm h0])
  have hof : ∀ k x, OfCell midSt.cl midSt.mesh.faces k x → x < 5 := by
    rintro k x ⟨j, Q, d, -, -, hd, y, hy, rfl⟩
    have h2 : ∀ d ∈ midSt.mesh.faces, ∀ y ∈ d, y.1 < 5 := by decide
    exact h2 d (List.mem_of_getElem? hd) y hy
  have hon : ∀ x < 5, OfCell midSt.cl midSt.mesh.faces 0 x := by
    intro x hx
    have h2 : ∀ x < 5, ∃ j < 5, ∃ y ∈ midSt.mesh.faces.getD j [], y.1 = x := by decide
    obtain ⟨j, hj, y, hy, e⟩ := h2 x hx
    have h3 : midSt.mesh.faces[j]? = some (midSt.mesh.faces.getD j []) := by
      rw [List.getD_eq_getElem?_getD, List.getElem?_eq_getElem (show j < midSt.mesh.faces.length from hj)]; rfl
    have h4 : ∀ j < 5, midSt.cl[j]? = some (0, none) := by decide
    exact ⟨j, (0, none), _, h4 j hj, by decide, h3, y, hy, e⟩
  refine ⟨fun i c hc => ?_, fun k i P hi hs x hx => ?_, fun k i P hi hs => ?_, fun k i P j Q c d hi _ hj _ hij hc hd => ?_⟩
  · have hi : i < 5 := mid_lt hc rfl
    obtain rfl : c = midSt.mesh.faces.getD i [] := by rw [List.getD_eq_getElem?_getD, hc]; rfl
    clear hc
    refine ⟨?_, ?_, ?_, ?_, fun h hh x hx t t0 t1 => not_lerp ?_ ?_ t t0 t1, ?_⟩
    · revert i; decide +kernel
    · revert i; decide +kernel
    · revert i; decide +kernel
    · revert i; decide +kernel
    · revert hx; revert x; revert hh; revert h; revert i; decide +kernel
    · clear hx; revert hh; revert h; revert i; decide +kernel
    · revert i; decide +kernel
  · obtain ⟨hi5, rfl⟩ := hP i P hi
    obtain rfl := hk k hs
    have h2 : ∀ i < 5, ∀ x < 5, 0 ≤ ((sg (0, none) 0 : Int) : ℚ) * (midPl i).ev (midPos x) := by decide +kernel
    exact h2 i hi5 x (hof _ _ hx)
  · obtain ⟨hi5, rfl⟩ := hP i P hi
    obtain rfl := hk k hs
    have h2 : ∀ i < 5, ∃ x < 5, (midPl i).ev (midPos x) ≠ 0 := by decide +kernel
    obtain ⟨x, hx, h⟩ := h2 i hi5
    exact ⟨x, hon x hx, h⟩
  · have h2 : ∀ i < 5, ∀ j < 5, i ≠ j → (∀ x ∈ midSt.mesh.faces.getD i [], (midBetween i j).ev (midPos x.1) ≤ 0) ∧ (∀ x ∈ midSt.mesh.faces.getD j [], 0 ≤ (midBetween i j).ev (midPos x.1)) ∧
        ((∃ x ∈ midSt.mesh.faces.getD i [], (midBetween i j).ev (midPos x.1) < 0) ∨ ∃ x ∈ midSt.mesh.faces.getD j [], 0 < (midBetween i j).ev (midPos x.1)) := by decide +kernel
    have h3 := h2 i (mid_lt hc rfl) j (mid_lt hd rfl) hij
    rw [List.getD_eq_getElem?_getD, List.getD_eq_getElem?_getD, hc, hd] at h3
    exact ⟨midBetween i j, h3⟩

theorem mid_tiled : Tiled midPl midSt.cl midSt.cx.cells.length := by
  refine ⟨fun k hk l hl hne => absurd (show k = l by have : midSt.cx.cells.length = 1 := rfl; omega) hne, fun i P hP _ k hk q hq => ?_⟩
  obtain rfl : k = 0 := by have : midSt.cx.cells.length = 1 := rfl; omega
  have h2 : ∀ P ∈ midSt.cl, P = (0, none) := by decide
  obtain rfl := h2 P (List.mem_of_getElem? hP)
  have := hq.mem i _ hP (by decide)
  simpa [sg] using this

theorem mid_planes : ∀ f g, Used midSt.mesh (keptFaces (fun _ => true) midSt) f → Used midSt.mesh (keptFaces (fun _ => true) midSt) g → samePlane [0, 0, 1, 2, 3] [[], [], [], [], []] f g = true →
    ∀ x ∈ midSt.mesh.faces.getD g [], (midPl f).ev (midPos x.1) = 0 := by
  have h : ∀ f < 5, ∀ g < 5, samePlane [0, 0, 1, 2, 3] [[], [], [], [], []] f g = true → ∀ x ∈ midSt.mesh.faces.getD g [], (midPl f).ev (midPos x.1) = 0 := by decide +kernel
  exact fun f g hf hg => h f hf.1 g hg.1

/-- The tetrahedron with a vertex in the middle of an edge: the two triangles of the group have the same front. -/
example := c110_groups midSt_good mid_geo mid_tiled (fun _ => true) mid_planes (fuel := 4) (by decide +kernel) (gs := midGroups) (by decide +kernel)

example : ClosedLoops [([[1, 2, 0]], 2), ([[3, 1, 0]], 1), ([[3, 2, 1]], 1), ([[3, 0, 2]], 1)] :=
  c110_closed_geo_partial midSt_good mid_geo mid_tiled (fun _ => true) mid_planes (fuelG := 4) (by decide +kernel) (gs0 := midGroups) (gs := midGroups) (by decide +kernel) (.refl _)
    (eid := id) (axis := midAxis) (fuel := 20) (ord := id) (fun l => .refl l) (by decide +kernel) (by unfold Traced; decide +kernel) (by unfold Geom.Flat; decide +kernel) (.of (by decide +kernel)) (by decide +kernel)

/-- The whole way for the tetrahedron with a point inside and one outside; different numbers for all faces satisfy the condition on the numbers. -/
example : ∃ (g : GSt ℚ) (w : List Int) (gs : List (Nat × List Nat)), mergeGroups (Nat.log 2 (usedFaces g.s.mesh w).length + 1) (samePlane (List.range g.s.mesh.faces.length) (g.s.cx.faces.map (·.tris))) g.s.mesh w = some gs ∧
    ∀ kv ∈ gs, (allOriented (signedFaces g.s.mesh w kv.2)).Nodup := by
  obtain ⟨fuel, g, as, kept, w, -, -, -, -, -, gg, -, h⟩ := c110_solid euclid_norm plainChoices plain_good (1 / 1000000) (fun x => |x|) (fun _ => abs_eq_zero) (fun x => abs_nonneg x) genPts (by decide) (by decide) gen_general (by
    intro box s hb hs
    have : Tet.boxOf genPts = some [0, 0, 0, 5, 6, 7] := by decide +kernel
    rw [this, Option.some.injEq] at hb
    subst hb
    have : Tet.boxSize ([0, 0, 0, 5, 6, 7] : List ℚ) = some 110 := by decide +kernel
    rw [this, Option.some.injEq] at hs
    subst hs
    unfold Delaunay.FlatPts
    decide +kernel) genCs gen_proper (by unfold Different; decide +kernel) (by decide +kernel) [0, 0, 0, 0] 1 (fun _ => InTet) (fun sh hsh => by
    obtain rfl : sh = 0 := by omega
    have h := gen_surface
    have e : ∀ t, t < 4 → ([0, 0, 0, 0] : List Nat).getD t 0 = 0 := by decide
    exact ⟨fun p q hp => h.free p q fun t ht => hp t ⟨ht.1, e t ht.1⟩, fun t ht => h.front t ⟨ht.1, rfl⟩, fun t ht => h.back t ⟨ht.1, rfl⟩⟩) (fun _ _ p hp hin => hp (gen_hull p hin))
  obtain ⟨gs, h1, h2⟩ := h (List.range g.s.mesh.faces.length) (fun f hf f' hf' e x hx => by
    rw [List.getElem?_range hf, List.getElem?_range hf', Option.some.injEq] at e
    subst e
    rw [List.getD_eq_getElem?_getD, List.getElem?_eq_getElem hf] at hx
    exact (gg.face f _ (List.getElem?_eq_getElem hf)).plane x hx) _ (Nat.lt_succ_self _)
  exact ⟨g, w, gs, h1, fun kv hkv => (h2 kv hkv).2⟩

end Verif.Bsp
