import Verif.Bsp.GeoExamples
import Verif.Bsp.Solid
/-!
# C100-C102: a tetrahedron as a solid
-/
namespace Verif.Bsp
open InSphere (Pt)
open Geom (lerp)

/-- The four sides of the tetrahedron, seen from outside counter-clockwise. -/
def outTri (t : Nat) : Tri3 ℚ :=
  if t = 0 then ⟨⟨4, 0, 0⟩, ⟨0, 4, 0⟩, ⟨0, 0, 4⟩⟩ else if t = 1 then ⟨⟨0, 0, 0⟩, ⟨4, 0, 0⟩, ⟨0, 0, 4⟩⟩
  else if t = 2 then ⟨⟨0, 0, 0⟩, ⟨0, 4, 0⟩, ⟨4, 0, 0⟩⟩ else ⟨⟨0, 0, 0⟩, ⟨0, 0, 4⟩, ⟨0, 4, 0⟩⟩

/-- The complex of the tetrahedron, whose faces list these triangles. -/
def outSt : St := ((initial id tetMesh (fun k _ => if k < 4 then [k] else []) 4).map Prod.fst).getD ⟨⟨[], []⟩, ⟨0, 0, []⟩⟩

/-- Its inside. -/
def InTet (q : Pt ℚ) : Prop := 0 < q.x ∧ 0 < q.y ∧ 0 < q.z ∧ q.x + q.y + q.z < 4

theorem out_planes (q : Pt ℚ) : (outTri 0).plane.ev q = 16 * (q.x + q.y + q.z - 4) ∧ (outTri 1).plane.ev q = -16 * q.y ∧ (outTri 2).plane.ev q = -16 * q.z ∧ (outTri 3).plane.ev q = -16 * q.x := by
  refine ⟨?_, ?_, ?_, ?_⟩ <;> norm_num [outTri, Tri3.plane, through, Aff.ev, vsub, vdot] <;> ring

theorem inTet_iff (q : Pt ℚ) : InTet q ↔ ∀ t < 4, (outTri t).plane.ev q < 0 := by
  obtain ⟨h0, h1, h2, h3⟩ := out_planes q
  constructor
  · rintro ⟨a, b, c, d⟩ t ht
    interval_cases t
    · rw [h0]; linarith
    · rw [h1]; linarith
    · rw [h2]; linarith
    · rw [h3]; linarith
  · intro h
    have a0 := h 0 (by omega); have a1 := h 1 (by omega); have a2 := h 2 (by omega); have a3 := h 3 (by omega)
    rw [h0] at a0; rw [h1] at a1; rw [h2] at a2; rw [h3] at a3
    exact ⟨by linarith, by linarith, by linarith, by linarith⟩

theorem out_tri {q : Pt ℚ} (h : ∀ t < 4, (outTri t).plane.ev q ≤ 0) {t : Nat} (ht : t < 4) (h0 : (outTri t).plane.ev q = 0) : InTri (outTri t) q := by
  obtain ⟨p0, p1, p2, p3⟩ := out_planes q
  have a0 := h 0 (by omega); have a1 := h 1 (by omega); have a2 := h 2 (by omega); have a3 := h 3 (by omega)
  rw [p0] at a0; rw [p1] at a1; rw [p2] at a2; rw [p3] at a3
  interval_cases t
  · rw [p0] at h0
    exact ⟨q.x / 4, q.y / 4, q.z / 4, by linarith, by linarith, by linarith, by linarith, by norm_num [outTri], by norm_num [outTri], by norm_num [outTri]⟩
  · rw [p1] at h0
    exact ⟨1 - q.x / 4 - q.z / 4, q.x / 4, q.z / 4, by linarith, by linarith, by linarith, by ring, by norm_num [outTri], by norm_num [outTri]; linarith, by norm_num [outTri]⟩
  · rw [p2] at h0
    exact ⟨1 - q.x / 4 - q.y / 4, q.y / 4, q.x / 4, by linarith, by linarith, by linarith, by ring, by norm_num [outTri], by norm_num [outTri], by norm_num [outTri]; linarith⟩
  · rw [p3] at h0
    exact ⟨1 - q.z / 4 - q.y / 4, q.z / 4, q.y / 4, by linarith, by linarith, by linarith, by ring, by norm_num [outTri]; linarith, by norm_num [outTri], by norm_num [outTri]⟩

theorem out_inner {q : Pt ℚ} {t : Nat} (ht : t < 4) (h : InnerTri (outTri t) q) : (outTri t).plane.ev q = 0 ∧ ∀ t' < 4, t' ≠ t → (outTri t').plane.ev q < 0 := by
  obtain ⟨u, v, w, u0, v0, w0, h1, ex, ey, ez⟩ := h
  obtain ⟨p0, p1, p2, p3⟩ := out_planes q
  interval_cases t <;> simp [outTri] at ex ey ez <;> refine ⟨?_, fun t' h' hne => ?_⟩ <;> (try interval_cases t') <;> (try exact absurd rfl hne) <;>
    simp only [p0, p1, p2, p3] <;> rw [ex, ey, ez] at * <;> linarith

/-- The four triangles are the surface of the tetrahedron. -/
theorem out_surface : SurfaceOf outTri (fun t => t < 4 ∧ 0 = 0) InTet := by
  have key : ∀ p q, (∀ t, (t < 4 ∧ 0 = 0) → ∀ u, 0 ≤ u → u ≤ 1 → ¬ InTri (outTri t) (lerp p q u)) → InTet p → InTet q := by
    intro p q h hp
    rw [inTet_iff] at hp ⊢
    by_contra hq
    push Not at hq
    obtain ⟨j, hj, hqj⟩ := hq
    by_cases hneg : ∃ t < 4, 0 < (outTri t).plane.ev q
    · obtain ⟨s, s0, s1, hs, x, hx, e⟩ := first_zero ((List.range 4).map fun t => (-(outTri t).plane.ev p, -(outTri t).plane.ev q)) (by
        intro x hx
        obtain ⟨t, ht, rfl⟩ := List.mem_map.1 hx
        have := hp t (List.mem_range.1 ht)
        dsimp only; linarith) (by
        obtain ⟨t, ht, h0⟩ := hneg
        exact ⟨_, List.mem_map.2 ⟨t, List.mem_range.2 ht, rfl⟩, by dsimp only; linarith⟩)
      obtain ⟨t, ht, rfl⟩ := List.mem_map.1 hx
      refine h t ⟨List.mem_range.1 ht, rfl⟩ s s0 s1.le (out_tri (fun t' ht' => ?_) (List.mem_range.1 ht) ?_)
      · have := hs _ (List.mem_map.2 ⟨t', List.mem_range.2 ht', rfl⟩)
        rw [ev_lerp]; dsimp only at this; linarith
      · rw [ev_lerp]; dsimp only at e; linarith
    · push Not at hneg
      refine h j ⟨hj, rfl⟩ 1 zero_le_one (le_refl _) (out_tri (fun t' ht' => ?_) hj ?_)
      · rw [lerp_one]; exact hneg t' ht'
      · rw [lerp_one]; exact le_antisymm (hneg j hj) hqj
  refine ⟨fun p q h => ⟨key p q h, key q p fun t ht u u0 u1 hin => h t ht (1 - u) (by linarith) (by linarith) ?_⟩, ?_, ?_⟩
  · have : lerp p q (1 - u) = lerp q p u := by simp only [lerp, Pt.mk.injEq]; exact ⟨by ring, by ring, by ring⟩
    rw [this]; exact hin
  · rintro t ⟨ht, -⟩ q hq W hW
    refine ⟨1, one_pos, fun u u0 u1 h => ?_⟩
    have := (inTet_iff _).1 h t ht
    rw [ev_lerp, (out_inner ht hq).1] at this
    nlinarith
  · rintro t ⟨ht, -⟩ q hq W hW
    obtain ⟨e, e0, -, he⟩ := go_in q W ((List.range 4).map fun t => (outTri t).plane.neg) (by
      intro A hA
      obtain ⟨t', ht', rfl⟩ := List.mem_map.1 hA
      rw [Aff.neg_ev, Aff.neg_ev]
      by_cases e : t' = t
      · subst e
        right; rw [(out_inner ht hq).1]; exact ⟨neg_zero, by linarith⟩
      · left; have := (out_inner ht hq).2 t' (List.mem_range.1 ht') e; linarith)
    refine ⟨e, e0, fun u u0 u1 => (inTet_iff _).2 fun t' ht' => ?_⟩
    have := he _ (List.mem_map.2 ⟨t', List.mem_range.2 ht', rfl⟩) u u0 u1
    rw [Aff.neg_ev] at this
    linarith

theorem out_good : Good outSt ∧ Geo (posOf tetPts) (facePlane (posOf tetPts) outSt.mesh.faces) outSt.cl outSt.mesh.faces := by
  obtain ⟨s0, sm, e, h⟩ := c96_tiling id (fun l => List.Perm.refl l) _ _ tet_delaunay (fun k _ => if k < 4 then [k] else []) 4 (by decide +kernel)
  have e0 : outSt = s0 := by rw [outSt, e]; rfl
  obtain ⟨gd, g, -⟩ := h s0 _ _ Sliced.start
  rw [e0]; exact ⟨gd, g⟩

/-- The knowledge about the faces. -/
def outShells : Shells ℚ := { area := fun _ => 1 / 4, shell := fun _ => 0, nShells := 1, hits := fun i t => i == t, pos := fun _ _ => false }

theorem out_cl : outSt.cl = [(0, none), (0, none), (0, none), (0, none)] := by decide +kernel
theorem out_faces : outSt.cx.faces = [⟨(0, none), [0]⟩, ⟨(0, none), [1]⟩, ⟨(0, none), [2]⟩, ⟨(0, none), [3]⟩] := by decide +kernel

theorem out_pl : ∀ i < 4, ∀ q, (facePlane (posOf tetPts) outSt.mesh.faces i).ev q = -(outTri i).plane.ev q := by
  have h : ∀ i < 4, (facePlane (posOf tetPts) outSt.mesh.faces i).n = (outTri i).plane.neg.n ∧ (facePlane (posOf tetPts) outSt.mesh.faces i).d = (outTri i).plane.neg.d := by decide +kernel
  intro i hi q
  rw [← Aff.neg_ev]
  unfold Aff.ev
  rw [(h i hi).1, (h i hi).2]

theorem out_pass (k t : Nat) (ht : t < 4) (hk : ∃ P ∈ outSt.cl, sg P k ≠ 0) : ¬ Passes (outTri t) (Region (facePlane (posOf tetPts) outSt.mesh.faces) outSt.cl k) := by
  rintro ⟨q, hq, hcore⟩
  obtain ⟨P, hP, hs⟩ := hk
  have hall : ∀ P ∈ outSt.cl, P = (0, none) := by rw [out_cl]; simp
  obtain rfl := hall P hP
  have hk0 : k = 0 := by
    by_contra hk
    exact hs (by unfold sg; simp [Ne.symm hk])
  subst hk0
  have hcl : ∀ i < 4, outSt.cl[i]? = some (0, none) := by rw [out_cl]; decide
  have h1 := hcore.walls out_good.2 _ (mem_walls.2 ⟨t, _, hcl t ht, hs, rfl⟩)
  rw [Aff.smul_ev, show sg (0, none) 0 = 1 from by decide, Int.cast_one, one_mul, out_pl t ht] at h1
  obtain ⟨x, hx, h2⟩ := InTri.pos hq (A := (outTri t).plane.neg) (by rw [Aff.neg_ev]; exact h1)
  rw [Aff.neg_ev] at h2
  have h3 : ∀ t < 4, ∀ x ∈ (outTri t).corners, (outTri t).plane.ev x = 0 := by decide +kernel
  rw [h3 t ht x hx] at h2
  simp at h2

theorem out_tests (i : Nat) (F : Poly.Face) (c : Cycle) (hF : outSt.cx.faces[i]? = some F) (hc : outSt.mesh.faces[i]? = some c) :
    FaceTests outShells outTri 4 (posOf tetPts) (facePlane (posOf tetPts) outSt.mesh.faces) outSt.cl outSt.mesh.faces i F c := by
  have hi : i < 4 := by
    have := (List.getElem?_eq_some_iff.1 hF).1
    rw [out_faces] at this; exact this
  have h1 : ∀ i < 4, outSt.cx.faces[i]? = some ⟨(0, none), [i]⟩ := by rw [out_faces]; decide
  rw [h1 i hi] at hF; cases hF
  have h2 : ∀ i < 4, ∃ c ∈ outSt.mesh.faces[i]?, ∃ v < 4, (outTri i).plane.ev (posOf tetPts v) < 0 ∧ (∃ j < 4, ∃ d ∈ outSt.mesh.faces[j]?, ∃ y ∈ d, y.1 = v) ∧
      (facePlane (posOf tetPts) outSt.mesh.faces i).ev (lerp (lerp (outTri i).a (outTri i).b (1 / 2)) (outTri i).c (1 / 3)) = 0 ∧
      ∀ k ∈ hes c, 0 < area (facePlane (posOf tetPts) outSt.mesh.faces i).n (posOf tetPts k.tail) (posOf tetPts k.tip) (lerp (lerp (outTri i).a (outTri i).b (1 / 2)) (outTri i).c (1 / 3)) := by decide +kernel
  obtain ⟨c', hc', v, hv, h3, ⟨j, hj, d, hd, y, hy, rfl⟩, h4, h5⟩ := h2 i hi
  rw [hc] at hc'; cases hc'
  have hcor : ∀ t < 4, ∀ x ∈ (outTri t).corners, (outTri t).plane.ev x = 0 := by decide +kernel
  refine ⟨by simp [hi], fun t ht hh => ?_, fun t ht hh => ?_, fun sh hsh => ⟨_, ⟨h4, h5⟩, fun t ht e => ?_⟩⟩
  · rw [List.mem_singleton] at ht
    subst ht
    refine ⟨fun x hx => by rw [out_pl _ hi, hcor _ hi x hx, neg_zero], _, ⟨h4, h5⟩, ?_⟩
    exact ((InTri.corner (by simp [Tri3.corners])).lerp (InTri.corner (by simp [Tri3.corners])) (by norm_num) (by norm_num)).lerp (InTri.corner (by simp [Tri3.corners])) (by norm_num) (by norm_num)
  · rw [List.mem_singleton] at ht
    subst ht
    refine ⟨y.1, ⟨j, (0, none), d, ?_, by show sg (0, none) 0 ≠ 0; decide, hd, y, hy, rfl⟩, h3.ne, ?_⟩
    · have : ∀ j < 4, outSt.cl[j]? = some (0, none) := by rw [out_cl]; decide
      exact this j hj
    · exact iff_of_false (by simp [outShells]) (by linarith)
  · exfalso
    have := hsh i (by simp) (by rw [← e]; rfl)
    simp [outShells] at this

/-- C102 for the tetrahedron: the cell is kept. -/
example : cellKept 1 outShells outSt.cx = some [true] := by
  obtain ⟨kept, h1, h2, h3⟩ := c102_solid out_good.1 out_good.2 (I := outShells) (tri := outTri) (n := 4) ⟨fun _ => by norm_num [outShells], by rw [out_faces]; norm_num [outShells, List.range_succ]⟩ (fun _ _ => by norm_num [outShells])
    (by decide +kernel) out_pass (fun _ => InTet) (fun sh hsh => by
      have : sh = 0 := by simp [outShells] at hsh; exact hsh
      subst this; exact out_surface) (fun i P hP hP2 => by
      have hi : i < 4 := by
        have := (List.getElem?_eq_some_iff.1 hP).1
        rw [out_cl] at this; exact this
      refine ⟨fun t ht x hx => ?_, fun sh _ q hq h => ?_⟩
      · rw [out_pl i hi]
        have h3 : ∀ i < 4, ∀ t < 4, ∀ x ∈ (outTri t).corners, (outTri i).plane.ev x ≤ 0 := by decide +kernel
        have := h3 i hi t ht x hx
        linarith
      · rw [out_pl i hi] at hq
        have := (inTet_iff q).1 h i hi
        linarith) out_tests
  rw [h1 1 (le_refl _)]
  have hl : outSt.cx.cells.length = 1 := by decide +kernel
  rw [hl] at h2 h3
  have := (h3 0 (by omega) ⟨(0, none), by rw [out_cl]; simp, by decide⟩ ⟨1/2, 1/2, 1/2⟩ (core_region (by decide +kernel))).2 ⟨0, by simp [outShells], by norm_num [InTet]⟩
  match kept, h2, this with
  | [b], _, h => simp at h; rw [h]

/-- C101 for the tetrahedron: to keep it is the only choice that agrees with the triangles. -/
example (C : Nat → Bool) (h : Fits outShells outSt.cx 0 C) : C 0 = true := by
  have h' : Fits outShells outSt.cx 0 fun _ => true := by
    unfold Fits
    rw [out_faces]
    intro i F hF _
    have hi : i < 4 := (List.getElem?_eq_some_iff.1 hF).1
    interval_cases i <;> cases hF <;> simp [FitsFace, onFace, outShells]
  exact c101_unique out_good.1 out_good.2 (fun _ _ => by norm_num [outShells]) h h' 0 ⟨(0, none), by rw [out_cl]; simp, by decide⟩

/-- C100 for the tetrahedron: the triangle in the plane x + y + z = 4 covers a face. -/
example : ∃ c, outSt.mesh.faces[0]? = some c ∧ ∀ x, InFace (posOf tetPts) (facePlane (posOf tetPts) outSt.mesh.faces 0) c x → InTri (outTri 0) x := by
  have h2 : ∃ c ∈ outSt.mesh.faces[0]?, (facePlane (posOf tetPts) outSt.mesh.faces 0).ev (lerp (lerp (outTri 0).a (outTri 0).b (1 / 2)) (outTri 0).c (1 / 3)) = 0 ∧
      ∀ k ∈ hes c, 0 < area (facePlane (posOf tetPts) outSt.mesh.faces 0).n (posOf tetPts k.tail) (posOf tetPts k.tip) (lerp (lerp (outTri 0).a (outTri 0).b (1 / 2)) (outTri 0).c (1 / 3)) := by decide +kernel
  obtain ⟨c, hc, h3, h4⟩ := h2
  refine ⟨c, hc, c100_whole_faces out_good.2 outTri 4 (fun k t ht hk => out_pass k t ht hk) 0 (0, none) c (by rw [out_cl]; rfl) hc 0 (by decide +kernel) (by decide +kernel) (fun e he => ?_) _ ⟨h3, h4⟩ ?_⟩
  · have h5 : ∀ e ∈ (outTri 0).sides, ∃ t' < 4, e.1 ∈ (outTri t').corners ∧ e.2 ∈ (outTri t').corners ∧ ∃ W ∈ (outTri t').corners, 0 < (facePlane (posOf tetPts) outSt.mesh.faces 0).ev W := by decide +kernel
    obtain ⟨t', h1, h2, h3, W, h4, h5⟩ := h5 e he
    exact ⟨t', h1, h2, h3, W, h4, 0, by decide, by rw [show sg (0, none) 0 = 1 from by decide, Int.cast_one, one_mul]; exact h5⟩
  · exact ((InTri.corner (by simp [Tri3.corners])).lerp (InTri.corner (by simp [Tri3.corners])) (by norm_num) (by norm_num)).lerp (InTri.corner (by simp [Tri3.corners])) (by norm_num) (by norm_num)

end Verif.Bsp
