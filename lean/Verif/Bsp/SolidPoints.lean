import Verif.Bsp.FaceHits
import Verif.Bsp.SolidExamples
/-!
# C104: from the points and the triangles to the kept cells
-/
namespace Verif.Bsp
open InSphere (Pt Ori)
open Geom (lerp orient2dByAxis Collinear)
open Delaunay (Comb IsDelaunay SolidTet)
open Constraint (insertConstraints marksAt Proper)

variable {K : Type} [Field K] [LinearOrder K] [IsStrictOrderedRing K]

/-- The points are in their hull. -/
theorem inHull_point {pts : List (Pt K)} {v : Nat} (h : v < pts.length) : InHull pts (posOf pts v) := by
  refine ⟨fun i => if i = ⟨v, h⟩ then 1 else 0, fun i => by dsimp only; split <;> simp, ⟨by simp, ?_, ?_, ?_⟩⟩ <;> simp [posOf, h]

/-- The hull is bounded. -/
theorem exists_not_hull (pts : List (Pt K)) : ∃ p, ¬ InHull pts p := by
  refine ⟨⟨(∑ i : Fin pts.length, |pts[i].x|) + 1, 0, 0⟩, ?_⟩
  rintro ⟨w, w0, h1, hx, -⟩
  have hle : ∑ i, w i * pts[i].x ≤ ∑ i : Fin pts.length, |pts[i].x| := by
    refine Finset.sum_le_sum fun i _ => ?_
    have hw : w i ≤ 1 := by rw [← h1]; exact Finset.single_le_sum (fun j _ => w0 j) (Finset.mem_univ i)
    calc w i * pts[i].x ≤ w i * |pts[i].x| := mul_le_mul_of_nonneg_left (le_abs_self _) (w0 i)
      _ ≤ 1 * |pts[i].x| := mul_le_mul_of_nonneg_right hw (abs_nonneg _)
      _ = |pts[i].x| := one_mul _
  dsimp only at hx
  linarith

/-- **C104.** From the points and the constraints to the kept cells, in exact arithmetic. If the triangles of each shell are the surface of a bounded solid, exactly the cells inside one of the solids are kept. -/
theorem c104_from_points_partial {T : Type} [Field T] [LinearOrder T] [IsStrictOrderedRing T] (order : List Nat → List Nat) (ho : ∀ l, (order l).Perm l) (pts : List (Pt K)) (m : Tet.Mesh) (hD : IsDelaunay pts m)
    (hs : ∃ x ∈ m.tets, x.data 3 ≠ pts.length) (cs : List (Nat × Nat × Nat)) (hc : ∀ c ∈ cs, Proper pts.length c) (hnc : ∀ c ∈ cs, ¬ Collinear (posOf pts c.1) (posOf pts c.2.1) (posOf pts c.2.2))
    (eps : K) (lead : K → K) (hl0 : ∀ x, lead x = 0 ↔ x = 0) (hl1 : ∀ x, 0 ≤ lead x) (keep : Nat → Nat → Bool) (nOri : Nat) (hle : nOri ≤ cs.length) (hr : AllReached pts m cs) (hfc : AllFaced pts m cs nOri)
    (hal : Aligned (triAt pts cs) cs.length) (shell : Nat → Nat) (nShells : Nat) (In : Nat → Pt K → Prop) (hI : ∀ sh < nShells, SurfaceOf (triAt pts cs) (fun t => t < nOri ∧ shell t = sh) (In sh))
    (hout : ∀ sh < nShells, ∀ p, ¬ InHull pts p → ¬ In sh p) :
    ∃ marks s0 sm fuel' g, insertConstraints (m.tets.length + 1) pts m cs = some (m, marks) ∧ initial order m (marksAt marks) nOri = some (s0, sm) ∧
      geoLoop (triAt pts cs) (axisAt eps lead pts cs) keep nOri fuel' 0 (startOf pts s0) = .done g ∧
      Good g.s ∧ Geo g.pos g.pl g.s.cl g.s.mesh.faces ∧ (∀ (i : Nat) (P : Nat × Option Nat), g.s.cl[i]? = some P → P.2 = none → ∀ p, InHull pts p → 0 ≤ (g.pl i).ev p) ∧
      (∀ p, InHull pts p ↔ ∃ k < g.s.cx.cells.length, Region g.pl g.s.cl k p) ∧
      (∀ k < g.s.cx.cells.length, ∀ l < g.s.cx.cells.length, k ≠ l → ∀ q, ¬ (Core (Region g.pl g.s.cl k) q ∧ Core (Region g.pl g.s.cl l) q)) ∧
      Listed (triAt pts cs) nOri g ∧
      ∀ area : Nat → T, Normal (shellsOf (triAt pts cs) (axisAt eps lead pts cs) area shell nShells g) g.s.cx → (∀ i < g.s.cx.faces.length, 0 < area i) →
        ∃ kept, (∀ fuel ≥ 1, cellKept fuel (shellsOf (triAt pts cs) (axisAt eps lead pts cs) area shell nShells g) g.s.cx = some kept) ∧ kept.length = g.s.cx.cells.length ∧
          ∀ k < g.s.cx.cells.length, ∀ q, Core (Region g.pl g.s.cl k) q → (kept[k]? = some true ↔ ∃ sh < nShells, In sh q) := by
  obtain ⟨marks, s0, sm, e1, e2, gd, gg, hcut, hlt, hrec, htile⟩ := start_spec order ho pts m hD hs cs hc hnc nOri _ (Nat.lt_succ_self _)
  obtain ⟨hL0, hO0⟩ := c103_start_lists order ho pts m hD hs cs hc hnc nOri hle _ (Nat.lt_succ_self _) marks s0 sm e1 e2
  obtain ⟨g, e3, hS, gd', gg', hin, -, hR⟩ := geoLoop_spec (tri := triAt pts cs) (axis := axisAt eps lead pts cs) (keep := keep) (nOri := nOri) _ 0 (startOf pts s0) gd gg hcut (Nat.lt_succ_self _)
    (fun k hk => absurd hk (by omega))
  have hax : ∀ i < cs.length, orient2dByAxis (triAt pts cs i).a (triAt pts cs i).b (triAt pts cs i).c (axisAt eps lead pts cs i) ≠ .zero := by
    intro i hi
    refine (Geom.c64_axis eps lead hl0 hl1 _ _ _ ?_).2
    simp only [triAt, List.getElem?_eq_getElem hi, Option.getD_some]
    exact hnc _ (List.getElem_mem hi)
  obtain ⟨hL, hO⟩ := c103_loop_lists hle hax hal _ 0 _ g gd gg hcut hlt (hrec hr) (hL0 hfc) hO0 e3
  have hull := (htile _ _ _ (hS _ _ _ .start)).1
  refine ⟨marks, s0, sm, _, g, e1, e2, e3, gd', gg', fun i P hP hP2 => by
      simp only [St.cl, List.getElem?_map, Option.map_eq_some_iff] at hP
      obtain ⟨F, hF, rfl⟩ := hP
      exact hO i F hF hP2, hull, (htile _ _ _ (hS _ _ _ .start)).2, hL, fun area hN hA => ?_⟩
  have hcor : ∀ t < cs.length, ∀ x ∈ (triAt pts cs t).corners, InHull pts x := by
    intro t ht x hx
    have hp := hc _ (List.getElem_mem ht)
    simp only [triAt, List.getElem?_eq_getElem ht, Option.getD_some, Tri3.corners, List.mem_cons, List.not_mem_nil, or_false] at hx
    rcases hx with rfl | rfl | rfl
    · exact inHull_point hp.lt1
    · exact inHull_point hp.lt2
    · exact inHull_point hp.lt3
  have hpass : ∀ k, ∀ t < nOri, (∃ P ∈ g.s.cl, sg P k ≠ 0) → ¬ Passes (triAt pts cs t) (Region g.pl g.s.cl k) := by
    rintro k t ht ⟨P, hP, hP0⟩ hp
    have hkl : k < g.s.cx.cells.length := by
      obtain ⟨F, hF, rfl⟩ := List.mem_map.1 hP
      obtain ⟨i, hi⟩ := List.getElem?_of_mem hF
      obtain ⟨l1, l2⟩ := gd'.linked.cells i F hi
      unfold sg at hP0
      by_cases h1 : F.cells.1 = k
      · rw [← h1]; exact l1
      · by_cases h2 : F.cells.2 = some k
        · exact (l2 k h2).1
        · simp [h1, h2] at hP0
    have := hR cs.length hlt hax hal (hrec hr) k hkl t (by omega) hp
    rw [hin k] at this; simp at this
  obtain ⟨kept, h1, h2, h3⟩ := c102_solid gd' gg' hN hA (tri := triAt pts cs) (n := nOri) (fun t ht => tri_normal (hax t (by omega))) hpass In hI (fun i P hP hP2 => by
      simp only [St.cl, List.getElem?_map, Option.map_eq_some_iff] at hP
      obtain ⟨F, hF, rfl⟩ := hP
      refine ⟨fun t ht x hx => hO i F hF hP2 x (hcor t (by omega) x hx), fun sh hsh q hq => hout sh hsh q fun hin => ?_⟩
      exact absurd (hO i F hF hP2 q hin) (not_le.2 hq)) (fun i F c hF hc' => (c103_face_tests gd' gg' (fun t ht => hax t (by omega)) hL i F c hF hc').2)
  refine ⟨kept, h1, h2, fun k hk => h3 k hk ?_⟩
  by_contra hno
  obtain ⟨p, hp⟩ := exists_not_hull pts
  refine hp ((hull p).2 ⟨k, hk, fun i P hP hs => absurd ⟨P, List.mem_of_getElem? hP, hs⟩ hno⟩)

/-- The triangles of a convex polyhedron are the surface of its inside. -/
theorem convex_surface {tri : Nat → Tri3 K} {n : Nat} (h1 : ∀ q, (∀ t < n, (tri t).plane.ev q ≤ 0) → ∀ t < n, (tri t).plane.ev q = 0 → ∃ t' < n, InTri (tri t') q)
    (h2 : ∀ t < n, ∀ q, InnerTri (tri t) q → ∀ t' < n, (tri t').plane.ev q < 0 ∨ ((tri t').plane.ev q = 0 ∧ ∀ W, (tri t).plane.ev W < 0 → (tri t').plane.ev W < 0)) :
    SurfaceOf tri (fun t => t < n) fun q => ∀ t < n, (tri t).plane.ev q < 0 := by
  have key : ∀ p q, (∀ t, t < n → ∀ u, 0 ≤ u → u ≤ 1 → ¬ InTri (tri t) (lerp p q u)) → (∀ t < n, (tri t).plane.ev p < 0) → ∀ t < n, (tri t).plane.ev q < 0 := by
    intro p q h hp
    by_contra hq
    push Not at hq
    obtain ⟨j, hj, hqj⟩ := hq
    by_cases hneg : ∃ t < n, 0 < (tri t).plane.ev q
    · obtain ⟨s, s0, s1, hs, x, hx, e⟩ := first_zero ((List.range n).map fun t => (-(tri t).plane.ev p, -(tri t).plane.ev q)) (by
        intro x hx
        obtain ⟨t, ht, rfl⟩ := List.mem_map.1 hx
        have := hp t (List.mem_range.1 ht)
        dsimp only; linarith) (by
        obtain ⟨t, ht, h0⟩ := hneg
        exact ⟨_, List.mem_map.2 ⟨t, List.mem_range.2 ht, rfl⟩, by dsimp only; linarith⟩)
      obtain ⟨t, ht, rfl⟩ := List.mem_map.1 hx
      obtain ⟨t', ht', hin⟩ := h1 (lerp p q s) (fun t' ht' => by
        have := hs _ (List.mem_map.2 ⟨t', List.mem_range.2 ht', rfl⟩)
        rw [ev_lerp]; dsimp only at this; linarith) t (List.mem_range.1 ht) (by rw [ev_lerp]; dsimp only at e; linarith)
      exact h t' ht' s s0 s1.le hin
    · push Not at hneg
      obtain ⟨t', ht', hin⟩ := h1 q hneg j hj (le_antisymm (hneg j hj) hqj)
      exact h t' ht' 1 zero_le_one (le_refl _) (by rw [lerp_one]; exact hin)
  refine ⟨fun p q h => ⟨key p q h, key q p fun t ht u u0 u1 hin => h t ht (1 - u) (by linarith) (by linarith) ?_⟩, ?_, ?_⟩
  · have : lerp p q (1 - u) = lerp q p u := by simp only [lerp, Pt.mk.injEq]; exact ⟨by ring, by ring, by ring⟩
    rw [this]; exact hin
  · intro t ht q hq W hW
    refine ⟨1, one_pos, fun u u0 u1 h => ?_⟩
    have := h t ht
    have h0 : (tri t).plane.ev q = 0 := by
      obtain ⟨a, b, c, -, -, -, e1, ex, ey, ez⟩ := hq
      cases q
      dsimp only at ex ey ez
      subst ex ey ez
      obtain rfl : a = 1 - b - c := by linarith
      simp only [Tri3.plane, through, Aff.ev, vdot, vsub]; ring
    rw [ev_lerp, h0] at this
    nlinarith
  · intro t ht q hq W hW
    obtain ⟨e, e0, -, he⟩ := go_in q W ((List.range n).map fun t => (tri t).plane.neg) (by
      intro A hA
      obtain ⟨t', ht', rfl⟩ := List.mem_map.1 hA
      rw [Aff.neg_ev, Aff.neg_ev]
      rcases h2 t ht q hq t' (List.mem_range.1 ht') with h | ⟨h, h'⟩
      · left; linarith
      · right; exact ⟨by rw [h, neg_zero], by have := h' W hW; linarith⟩)
    refine ⟨e, e0, fun u u0 u1 t' ht' => ?_⟩
    have := he _ (List.mem_map.2 ⟨t', List.mem_range.2 ht', rfl⟩) u u0 u1
    rw [Aff.neg_ev] at this
    linarith

/-- C103 for the tetrahedron: its faces list the triangles on them, so the tests on the faces are right. -/
def outG : GSt ℚ := startOf tetPts outSt
def outAxis : Nat → Nat := axisAt (1 / 1000000) (fun x => |x|) tetPts [(1, 2, 3), (0, 1, 3), (0, 2, 1), (0, 3, 2)]

example (i : Nat) (hi : i < 4) : (∃ v, offVertex outTri outG ⟨(0, none), [i]⟩ i = some v) ∧ 
    ∃ c, outSt.mesh.faces[i]? = some c ∧ FaceTests (shellsOf outTri outAxis (fun _ => (1 / 4 : ℚ)) (fun _ => 0) 1 outG) outTri 4 outG.pos outG.pl outG.s.cl outG.s.mesh.faces i ⟨(0, none), [i]⟩ c := by
  have h1 : ∀ i < 4, outSt.cx.faces[i]? = some ⟨(0, none), [i]⟩ := by rw [out_faces]; decide
  have h2 : ∀ i < 4, ∃ c, outSt.mesh.faces[i]? = some c := by
    intro i hi
    exact ⟨_, List.getElem?_eq_getElem (by have : outSt.mesh.faces.length = 4 := by decide +kernel
                                           omega)⟩
  have hL : Listed outTri 4 outG := by
    refine ⟨fun i F hF t ht => ?_, fun i F c hF hc t ht hco _ => ?_⟩
    · have hi : i < 4 := by
        have := (List.getElem?_eq_some_iff.1 hF).1
        rw [show outG.s.cx.faces = _ from out_faces] at this; exact this
      rw [show outG.s.cx.faces[i]? = _ from h1 i hi] at hF; cases hF
      rw [List.mem_singleton] at ht; subst ht
      refine ⟨hi, fun x hx => ?_⟩
      have hcor : ∀ t < 4, ∀ x ∈ (outTri t).corners, (outTri t).plane.ev x = 0 := by decide +kernel
      show (facePlane (posOf tetPts) outSt.mesh.faces t).ev x = 0
      rw [out_pl _ hi, hcor _ hi x hx, neg_zero]
    · have hi : i < 4 := by
        have := (List.getElem?_eq_some_iff.1 hF).1
        rw [show outG.s.cx.faces = _ from out_faces] at this; exact this
      rw [show outG.s.cx.faces[i]? = _ from h1 i hi] at hF; cases hF
      have h3 : ∀ i < 4, ∀ t < 4, (∀ x ∈ (outTri t).corners, (facePlane (posOf tetPts) outSt.mesh.faces i).ev x = 0) → t = i := by decide +kernel
      rw [h3 i hi t ht hco]; simp
  have hax : ∀ t < 4, orient2dByAxis (outTri t).a (outTri t).b (outTri t).c (outAxis t) ≠ .zero := by decide +kernel
  obtain ⟨c, hc⟩ := h2 i hi
  obtain ⟨h4, h5⟩ := c103_face_tests (area := fun _ => (1 / 4 : ℚ)) (shell := fun _ => 0) (nShells := 1) out_good.1 out_good.2 hax hL i _ c (h1 i hi) hc
  exact ⟨h4 i [] rfl, c, hc, h5⟩

example : (List.range 4).map (fun i => (shellsOf outTri outAxis (fun _ => (1 / 4 : ℚ)) (fun _ => 0) 1 outG).hits i i) = [true, true, true, true] := by decide +kernel

/-! ### A pyramid whose base cuts the tetrahedra -/

/-- The base in two triangles and the four sides of the pyramid over the square, seen from outside counter-clockwise. -/
def pyrCs : List (Nat × Nat × Nat) := [(0, 3, 1), (1, 3, 2), (0, 1, 4), (1, 2, 4), (2, 3, 4), (3, 0, 4)]

/-- The corners of the square, the tip of the pyramid and a point below. -/
def pyrPts : List (Pt ℚ) := [⟨0, 0, 0⟩, ⟨2, 0, 0⟩, ⟨2, 2, 0⟩, ⟨0, 2, 0⟩, ⟨1, 1, 1 / 2⟩, ⟨1, 1, -1 / 2⟩]
def pyrMesh : Tet.Mesh := (Tet.tetrahedralize pyrPts 72 [0, 1, 2, 3, 4, 5]).getD (Tet.Mesh.new 0)

theorem pyr_delaunay : IsDelaunay pyrPts pyrMesh := by
  obtain ⟨m, e, h | ⟨h, -⟩⟩ := Delaunay.c85_tetrahedralize_partial pyrPts (by decide +kernel) (by decide) [0, 1, 2, 3, 4, 5] (by decide) 72 (by decide) (Or.inl (by decide))
  · rw [pyrMesh, e]; exact h
  · exfalso
    have : (Tet.tetrahedralize pyrPts 72 [0, 1, 2, 3, 4, 5]).map (fun m => decide (m.tets.length = 0)) = some false := by decide +kernel
    rw [e, Option.map_some, h] at this
    cases this

def pyrTri : Nat → Tri3 ℚ := triAt pyrPts pyrCs

theorem pyr_planes (q : Pt ℚ) : (pyrTri 0).plane.ev q = -4 * q.z ∧ (pyrTri 1).plane.ev q = -4 * q.z ∧ (pyrTri 2).plane.ev q = 2 * (q.z - q.y / 2) ∧ (pyrTri 3).plane.ev q = 2 * (q.z - (2 - q.x) / 2) ∧
    (pyrTri 4).plane.ev q = 2 * (q.z - (2 - q.y) / 2) ∧ (pyrTri 5).plane.ev q = 2 * (q.z - q.x / 2) := by
  refine ⟨?_, ?_, ?_, ?_, ?_, ?_⟩ <;> norm_num [pyrTri, pyrCs, triAt, posOf, pyrPts, Tri3.plane, through, Aff.ev, vsub, vdot] <;> ring

theorem pyr_surface : SurfaceOf pyrTri (fun t => t < 6) fun q => ∀ t < 6, (pyrTri t).plane.ev q < 0 := by
  refine convex_surface (fun q h t ht h0 => ?_) fun t ht q hq t' ht' => ?_
  · obtain ⟨p0, p1, p2, p3, p4, p5⟩ := pyr_planes q
    have a0 := h 0 (by omega); have a2 := h 2 (by omega); have a3 := h 3 (by omega); have a4 := h 4 (by omega); have a5 := h 5 (by omega)
    rw [p0] at a0; rw [p2] at a2; rw [p3] at a3; rw [p4] at a4; rw [p5] at a5
    have base : q.z = 0 → ∃ t' < 6, InTri (pyrTri t') q := by
      intro hz
      by_cases hxy : q.x + q.y ≤ 2
      · exact ⟨0, by omega, 1 - q.x / 2 - q.y / 2, q.y / 2, q.x / 2, by linarith, by linarith, by linarith, by ring, by simp [pyrTri, pyrCs, triAt, posOf, pyrPts],
          by simp [pyrTri, pyrCs, triAt, posOf, pyrPts], by simp [pyrTri, pyrCs, triAt, posOf, pyrPts, hz]⟩
      · exact ⟨1, by omega, 1 - q.y / 2, 1 - q.x / 2, q.x / 2 + q.y / 2 - 1, by linarith, by linarith, by linarith, by ring, by simp [pyrTri, pyrCs, triAt, posOf, pyrPts]; ring,
          by simp [pyrTri, pyrCs, triAt, posOf, pyrPts]; ring, by simp [pyrTri, pyrCs, triAt, posOf, pyrPts, hz]⟩
    interval_cases t
    · rw [p0] at h0; exact base (by linarith)
    · rw [p1] at h0; exact base (by linarith)
    · rw [p2] at h0
      exact ⟨2, by omega, 1 - (q.x - 2 * q.z) / 2 - 2 * q.z, (q.x - 2 * q.z) / 2, 2 * q.z, by linarith, by linarith, by linarith, by ring, by simp [pyrTri, pyrCs, triAt, posOf, pyrPts]; try linarith,
        by simp [pyrTri, pyrCs, triAt, posOf, pyrPts]; try linarith, by simp [pyrTri, pyrCs, triAt, posOf, pyrPts]; try ring⟩
    · rw [p3] at h0
      exact ⟨3, by omega, 1 - (q.y - 2 * q.z) / 2 - 2 * q.z, (q.y - 2 * q.z) / 2, 2 * q.z, by linarith, by linarith, by linarith, by ring, by simp [pyrTri, pyrCs, triAt, posOf, pyrPts]; try linarith,
        by simp [pyrTri, pyrCs, triAt, posOf, pyrPts]; try linarith, by simp [pyrTri, pyrCs, triAt, posOf, pyrPts]; try ring⟩
    · rw [p4] at h0
      exact ⟨4, by omega, (q.x - 2 * q.z) / 2, 1 - (q.x - 2 * q.z) / 2 - 2 * q.z, 2 * q.z, by linarith, by linarith, by linarith, by ring, by simp [pyrTri, pyrCs, triAt, posOf, pyrPts]; try linarith,
        by simp [pyrTri, pyrCs, triAt, posOf, pyrPts]; try linarith, by simp [pyrTri, pyrCs, triAt, posOf, pyrPts]; try ring⟩
    · rw [p5] at h0
      exact ⟨5, by omega, (q.y - 2 * q.z) / 2, 1 - (q.y - 2 * q.z) / 2 - 2 * q.z, 2 * q.z, by linarith, by linarith, by linarith, by ring, by simp [pyrTri, pyrCs, triAt, posOf, pyrPts]; try linarith,
        by simp [pyrTri, pyrCs, triAt, posOf, pyrPts]; try linarith, by simp [pyrTri, pyrCs, triAt, posOf, pyrPts]; try ring⟩
  · obtain ⟨u, v, w, u0, v0, w0, h1, ex, ey, ez⟩ := hq
    have e0 : ∀ W, (pyrTri 0).plane.ev W = (pyrTri 1).plane.ev W := fun W => by rw [(pyr_planes W).1, (pyr_planes W).2.1]
    obtain ⟨p0, p1, p2, p3, p4, p5⟩ := pyr_planes q
    interval_cases t <;> simp [pyrTri, pyrCs, triAt, posOf, pyrPts] at ex ey ez <;> interval_cases t' <;>
      first
        | (left; simp only [p0, p1, p2, p3, p4, p5]; rw [ex, ey, ez] at *; linarith)
        | (left; simp only [p0, p1, p2, p3, p4, p5]; rw [ex, ez] at *; linarith)
        | (right; refine ⟨?_, fun W hW => ?_⟩
           · simp only [p0, p1, p2, p3, p4, p5]; linarith
           · first | exact hW | (rw [e0]; exact hW) | (rw [← e0]; exact hW))

theorem pyr_hull (q : Pt ℚ) (h : ∀ t < 6, (pyrTri t).plane.ev q < 0) : InHull pyrPts q := by
  obtain ⟨p0, p1, p2, p3, p4, p5⟩ := pyr_planes q
  have a0 := h 0 (by omega); have a2 := h 2 (by omega); have a3 := h 3 (by omega); have a4 := h 4 (by omega); have a5 := h 5 (by omega)
  rw [p0] at a0; rw [p2] at a2; rw [p3] at a3; rw [p4] at a4; rw [p5] at a5
  have key : ∀ w : Fin 6 → ℚ, (∀ i, 0 ≤ w i) → w 0 + w 1 + w 2 + w 3 + w 4 + w 5 = 1 → q.x = 2 * w 1 + 2 * w 2 + w 4 + w 5 → q.y = 2 * w 2 + 2 * w 3 + w 4 + w 5 → q.z = w 4 / 2 - w 5 / 2 → InHull pyrPts q := by
    intro w w0 h1 hx hy hz
    refine ⟨w, w0, ⟨?_, ?_, ?_, ?_⟩⟩
    · refine Eq.trans ?_ h1
      exact Fin.sum_univ_six w
    · rw [hx]; refine Eq.trans ?_ (Fin.sum_univ_six fun i : Fin 6 => w i * (pyrPts[i]).x).symm
      simp [pyrPts]; ring
    · rw [hy]; refine Eq.trans ?_ (Fin.sum_univ_six fun i : Fin 6 => w i * (pyrPts[i]).y).symm
      simp [pyrPts]; ring
    · rw [hz]; refine Eq.trans ?_ (Fin.sum_univ_six fun i : Fin 6 => w i * (pyrPts[i]).z).symm
      simp [pyrPts]; ring
  by_cases hxy : q.x + q.y ≤ 2
  · refine key ![1 - q.x / 2 - q.y / 2, (q.x - 2 * q.z) / 2, 0, (q.y - 2 * q.z) / 2, 2 * q.z, 0] (fun i => ?_) ?_ ?_ ?_ ?_
    · fin_cases i <;> simp <;> linarith
    all_goals simp; try ring
  · refine key ![0, 1 - q.y / 2 - q.z, q.x / 2 + q.y / 2 - 1, 1 - q.x / 2 - q.z, 2 * q.z, 0] (fun i => ?_) ?_ ?_ ?_ ?_
    · fin_cases i <;> simp <;> linarith
    all_goals simp; try ring

theorem pyrCs_proper : (∀ c ∈ pyrCs, Proper pyrPts.length c) ∧ ∀ c ∈ pyrCs, ¬ Collinear (posOf pyrPts c.1) (posOf pyrPts c.2.1) (posOf pyrPts c.2.2) := by
  refine ⟨fun c hc => ?_, fun c hc => ?_⟩
  · have h : ∀ c ∈ pyrCs, c.1 < pyrPts.length ∧ c.2.1 < pyrPts.length ∧ c.2.2 < pyrPts.length ∧ c.1 ≠ c.2.1 ∧ c.2.1 ≠ c.2.2 ∧ c.2.2 ≠ c.1 := by decide +kernel
    obtain ⟨h1, h2, h3, h4, h5, h6⟩ := h c hc
    exact ⟨h1, h2, h3, h4, h5, h6⟩
  · rw [Geom.collinear_iff_flat]
    revert c
    unfold Geom.Flat
    decide +kernel

/-- Every tetrahedron with a vertex of the constraint is touched by it. -/
theorem faced_of_vertices {pts : List (Pt ℚ)} {m : Tet.Mesh} {cs : List (Nat × Nat × Nat)} (nOri : Nat) (h : ∀ c ∈ cs, ∀ x ∈ m.tets, x.data 3 ≠ pts.length → ∃ j, x.data j = c.1 ∨ x.data j = c.2.1 ∨ x.data j = c.2.2) :
    AllFaced pts m cs nOri := by
  rintro i c A B C - hi ⟨ha, hb, hc⟩ t T ⟨x, hx, h3, hT⟩ -
  obtain ⟨j, hj⟩ := h c (List.mem_of_getElem? hi) x (List.mem_of_getElem? hx) h3
  have hTj : T j = A ∨ T j = B ∨ T j = C := by
    have h0 := hT j
    rcases hj with e | e | e <;> rw [e] at h0
    · left; rw [ha] at h0; exact (Option.some.inj h0).symm
    · right; left; rw [hb] at h0; exact (Option.some.inj h0).symm
    · right; right; rw [hc] at h0; exact (Option.some.inj h0).symm
  refine fun _ => Or.inl ⟨T j, ⟨fun l => if l = j then 1 else 0, fun l => by dsimp only; split <;> norm_num, ⟨by simp, by simp, by simp, by simp⟩⟩, ?_⟩
  rcases hTj with e | e | e <;> rw [e]
  · exact Or.inl ⟨0, le_refl _, by norm_num, by cases A; simp [lerp]⟩
  · exact Or.inr (Or.inl ⟨0, le_refl _, by norm_num, by cases B; simp [lerp]⟩)
  · exact Or.inr (Or.inr ⟨0, le_refl _, by norm_num, by cases C; simp [lerp]⟩)

/-- C104 for the pyramid. -/
example := c104_from_points_partial (T := ℚ) id (fun _ => List.Perm.refl _) pyrPts pyrMesh pyr_delaunay (by decide +kernel) pyrCs pyrCs_proper.1 pyrCs_proper.2 (1 / 1000000) (fun x => |x|) (fun _ => abs_eq_zero)
  (fun x => abs_nonneg x) (fun _ _ => true) 6 (by decide) (reached_of_vertices (by decide +kernel)) (faced_of_vertices 6 (by decide +kernel)) (by unfold Aligned; decide +kernel) (fun _ => 0) 1
  (fun _ q => ∀ t < 6, (pyrTri t).plane.ev q < 0) (fun sh hsh => by
    obtain rfl : sh = 0 := by omega
    have h := pyr_surface
    exact ⟨fun p q hp => h.free p q fun t ht => hp t ⟨ht, rfl⟩, fun t ht => h.front t ht.1, fun t ht => h.back t ht.1⟩) (fun _ _ p hp hin => hp (pyr_hull p hin))

/-- The whole way for the pyramid: of the eight cells the four above the base are kept. -/
def pyrRun : Option (List Bool × List (Pt ℚ)) := do
  let (_, marks) ← insertConstraints 13 pyrPts pyrMesh pyrCs
  let (s, _) ← initial id pyrMesh (marksAt marks) 6
  let g ← endOf (geoLoop pyrTri (axisAt (1 / 1000000) (fun x => |x|) pyrPts pyrCs) (fun _ _ => true) 6 60 0 (startOf pyrPts s))
  let kept ← cellKept 1 (shellsOf pyrTri (axisAt (1 / 1000000) (fun x => |x|) pyrPts pyrCs) (fun _ => 1 / (g.s.cx.faces.length : ℚ)) (fun _ => 0) 1 g) g.s.cx
  pure (kept, (List.range g.s.cx.cells.length).map fun k => faceCenter ((g.s.cx.cells[k]?.getD ⟨[], []⟩).faces.map fun f => faceCenter ((g.s.mesh.faces[f]?.getD []).map fun x => g.pos x.1)))

example : pyrRun.map (fun r => (r.1.length, (r.1.zip r.2).map fun x => x.1 == decide (0 < x.2.z))) = some (8, List.replicate 8 true) := by decide +kernel

end Verif.Bsp
