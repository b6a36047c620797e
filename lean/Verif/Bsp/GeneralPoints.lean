import Verif.Bsp.General
import Verif.Bsp.SolidPoints

/-!
# From points in general position and closed shells to the kept cells

C105: for points no four of which lie in one plane the hypotheses of C104 on the search for the tetrahedra and on the planes of the constraints always hold.
-/

namespace Verif.Bsp

open InSphere (Pt Ori orient3d)
open Geom (Collinear Coplanar)
open Delaunay (IsDelaunay SolidTet)
open Constraint (insertConstraints marksAt Proper Vertices)

variable {K : Type} [Field K] [LinearOrder K] [IsStrictOrderedRing K]

/-- Specification: no two constraints have the same three vertices. -/
def Different (cs : List (Nat × Nat × Nat)) : Prop :=
  ∀ p < cs.length, ∀ t < cs.length, ∀ c ∈ cs[p]?, ∀ d ∈ cs[t]?, [d.1, d.2.1, d.2.2] ⊆ [c.1, c.2.1, c.2.2] → p = t

theorem vertices_of (pts : List (Pt K)) {c : Nat × Nat × Nat} (hp : Proper pts.length c) : Vertices pts c (posOf pts c.1) (posOf pts c.2.1) (posOf pts c.2.2) := ⟨posOf_some hp.lt1, posOf_some hp.lt2, posOf_some hp.lt3⟩

/-- C105: in general position no two constraints lie in one plane. -/
theorem c105_aligned (pts : List (Pt K)) (m : Tet.Mesh) (hD : IsDelaunay pts m) (hs : ∃ x ∈ m.tets, x.data 3 ≠ pts.length) (hg : General pts) (cs : List (Nat × Nat × Nat)) (hc : ∀ c ∈ cs, Proper pts.length c) (hd : Different cs) :
    Aligned (triAt pts cs) cs.length := by
  intro p hp t ht hco
  have hcp := hc _ (List.getElem_mem hp)
  have hct := hc _ (List.getElem_mem ht)
  have hn := hg.not_collinear hD hs hcp
  have ep : triAt pts cs p = ⟨posOf pts cs[p].1, posOf pts cs[p].2.1, posOf pts cs[p].2.2⟩ := by simp [triAt, hp]
  have et : triAt pts cs t = ⟨posOf pts cs[t].1, posOf pts cs[t].2.1, posOf pts cs[t].2.2⟩ := by simp [triAt, ht]
  rw [ep, et] at hco
  have hin : ∀ v < pts.length, posOf pts v ∈ (⟨posOf pts cs[t].1, posOf pts cs[t].2.1, posOf pts cs[t].2.2⟩ : Tri3 K).corners → v ∈ [cs[p].1, cs[p].2.1, cs[p].2.2] := by
    intro v hv hmem
    have := hg.alone hcp hn (vertices_of pts hcp) hv ((coplanar_plane hn _).2 (hco _ hmem))
    simpa using this
  have hpt : p = t := hd p hp t ht cs[p] (by simp [hp]) cs[t] (by simp [ht]) (by
    intro v hv
    simp only [List.mem_cons, List.not_mem_nil, or_false] at hv
    rcases hv with rfl | rfl | rfl
    · exact hin _ hct.lt1 (by simp [Tri3.corners])
    · exact hin _ hct.lt2 (by simp [Tri3.corners])
    · exact hin _ hct.lt3 (by simp [Tri3.corners]))
  subst hpt
  rw [ep]
  have hnn := normal_of_flat (t := ⟨posOf pts cs[p].1, posOf pts cs[p].2.1, posOf pts cs[p].2.2⟩) hn
  have e : area (Tri3.plane ⟨posOf pts cs[p].1, posOf pts cs[p].2.1, posOf pts cs[p].2.2⟩).n (posOf pts cs[p].1) (posOf pts cs[p].2.1) (posOf pts cs[p].2.2) = vdot (Tri3.plane ⟨posOf pts cs[p].1, posOf pts cs[p].2.1, posOf pts cs[p].2.2⟩).n (Tri3.plane ⟨posOf pts cs[p].1, posOf pts cs[p].2.1, posOf pts cs[p].2.2⟩).n := by
    simp only [Tri3.plane, through, area, vdet, vdot, vsub]
  rw [e]
  exact normal_pos hnn

/-- C105: for points in general position and closed shells whose triangles are among the constraints, the whole way ends without panic, the cells tile the convex hull, and the kept cells are those inside a shell. -/
theorem c105_from_points {T : Type} [Field T] [LinearOrder T] [IsStrictOrderedRing T] (order : List Nat → List Nat) (ho : ∀ l, (order l).Perm l) (pts : List (Pt K)) (m : Tet.Mesh) (hD : IsDelaunay pts m)
    (hs : ∃ x ∈ m.tets, x.data 3 ≠ pts.length) (hg : General pts) (cs : List (Nat × Nat × Nat)) (hc : ∀ c ∈ cs, Proper pts.length c) (hd : Different cs)
    (eps : K) (lead : K → K) (hl0 : ∀ x, lead x = 0 ↔ x = 0) (hl1 : ∀ x, 0 ≤ lead x) (keep : Nat → Nat → Bool) (nOri : Nat) (hle : nOri ≤ cs.length)
    (shell : Nat → Nat) (nShells : Nat) (In : Nat → Pt K → Prop) (hI : ∀ sh < nShells, SurfaceOf (triAt pts cs) (fun t => t < nOri ∧ shell t = sh) (In sh))
    (hout : ∀ sh < nShells, ∀ p, ¬ InHull pts p → ¬ In sh p) :
    ∃ marks s0 sm fuel' g, insertConstraints (m.tets.length + 1) pts m cs = some (m, marks) ∧ initial order m (marksAt marks) nOri = some (s0, sm) ∧
      geoLoop (triAt pts cs) (axisAt eps lead pts cs) keep nOri fuel' 0 (startOf pts s0) = .done g ∧
      Good g.s ∧ Geo g.pos g.pl g.s.cl g.s.mesh.faces ∧ (∀ (i : Nat) (P : Nat × Option Nat), g.s.cl[i]? = some P → P.2 = none → ∀ p, InHull pts p → 0 ≤ (g.pl i).ev p) ∧
      (∀ p, InHull pts p ↔ ∃ k < g.s.cx.cells.length, Region g.pl g.s.cl k p) ∧
      (∀ k < g.s.cx.cells.length, ∀ l < g.s.cx.cells.length, k ≠ l → ∀ q, ¬ (Core (Region g.pl g.s.cl k) q ∧ Core (Region g.pl g.s.cl l) q)) ∧
      Listed (triAt pts cs) nOri g ∧
      ∀ area : Nat → T, Normal (shellsOf (triAt pts cs) (axisAt eps lead pts cs) area shell nShells g) g.s.cx → (∀ i < g.s.cx.faces.length, 0 < area i) →
        ∃ kept, (∀ fuel ≥ 1, cellKept fuel (shellsOf (triAt pts cs) (axisAt eps lead pts cs) area shell nShells g) g.s.cx = some kept) ∧ kept.length = g.s.cx.cells.length ∧
          ∀ k < g.s.cx.cells.length, ∀ q, Core (Region g.pl g.s.cl k) q → (kept[k]? = some true ↔ ∃ sh < nShells, In sh q) :=
  c104_from_points_partial order ho pts m hD hs cs hc (fun c h => hg.not_collinear hD hs (hc c h)) eps lead hl0 hl1 keep nOri hle (c105_reached pts m hD hs hg cs hc) (c105_faced pts m hD hs hg cs hc nOri)
    (c105_aligned pts m hD hs hg cs hc hd) shell nShells In hI hout

theorem General.nodup {pts : List (Pt K)} (hg : General pts) (h4 : 4 ≤ pts.length) : pts.Nodup := by
  rw [List.nodup_iff_injective_get]
  intro a b e
  by_contra hne
  have hab : a.1 ≠ b.1 := fun h => hne (Fin.ext h)
  have third : ∀ l : List Nat, l.length < 4 → ∃ k < 4, k ∉ l := by
    intro l hl
    by_contra hno
    push Not at hno
    have h1 : Finset.range 4 ⊆ l.toFinset := fun k hk => List.mem_toFinset.2 (hno k (Finset.mem_range.1 hk))
    have h2 := Finset.card_le_card h1
    have h3 := l.toFinset_card_le
    simp only [Finset.card_range] at h2
    omega
  obtain ⟨c, hc, hc'⟩ := third [a.1, b.1] (by simp)
  obtain ⟨d, hd, hd'⟩ := third [a.1, b.1, c] (by simp)
  simp only [List.mem_cons, List.not_mem_nil, or_false, not_or] at hc' hd'
  refine hg a.1 a.2 b.1 b.2 c (by omega) d (by omega) (nodup4 hab (Ne.symm hc'.1) (Ne.symm hd'.1) (Ne.symm hc'.2) (Ne.symm hd'.2.1) (Ne.symm hd'.2.2)) ?_
  have ea : posOf pts a.1 = pts.get a := by simp [posOf]
  have eb : posOf pts b.1 = pts.get b := by simp [posOf]
  rw [ea, eb, e]
  simp only [orient3d]; ring

/-- C105 with the tetrahedralization: up to 1021 points in general position that `choose_first_points` does not take for flat. -/
theorem c105_tetrahedralize {T : Type} [Field T] [LinearOrder T] [IsStrictOrderedRing T] (order : List Nat → List Nat) (ho : ∀ l, (order l).Perm l) (pts : List (Pt K)) (h4 : 4 ≤ pts.length) (hmax : pts.length ≤ 1021)
    (shuffled : List Nat) (hsh : shuffled.Perm (List.range pts.length)) (fuel : Nat) (hf : 2 * pts.length * pts.length ≤ fuel) (hg : General pts) (cs : List (Nat × Nat × Nat)) (hc : ∀ c ∈ cs, Proper pts.length c) (hd : Different cs)
    (eps : K) (lead : K → K) (hl0 : ∀ x, lead x = 0 ↔ x = 0) (hl1 : ∀ x, 0 ≤ lead x) (keep : Nat → Nat → Bool) (nOri : Nat) (hle : nOri ≤ cs.length)
    (shell : Nat → Nat) (nShells : Nat) (In : Nat → Pt K → Prop) (hI : ∀ sh < nShells, SurfaceOf (triAt pts cs) (fun t => t < nOri ∧ shell t = sh) (In sh))
    (hout : ∀ sh < nShells, ∀ p, ¬ InHull pts p → ¬ In sh p) :
    ∃ m, Tet.tetrahedralize pts fuel shuffled = some m ∧
      ((m.tets = [] ∧ ∃ box s, Tet.boxOf pts = some box ∧ Tet.boxSize box = some s ∧ Delaunay.FlatPts pts s) ∨
      ∃ marks s0 sm fuel' g, insertConstraints (m.tets.length + 1) pts m cs = some (m, marks) ∧ initial order m (marksAt marks) nOri = some (s0, sm) ∧
        geoLoop (triAt pts cs) (axisAt eps lead pts cs) keep nOri fuel' 0 (startOf pts s0) = .done g ∧
        Good g.s ∧ Geo g.pos g.pl g.s.cl g.s.mesh.faces ∧ (∀ (i : Nat) (P : Nat × Option Nat), g.s.cl[i]? = some P → P.2 = none → ∀ p, InHull pts p → 0 ≤ (g.pl i).ev p) ∧
        (∀ p, InHull pts p ↔ ∃ k < g.s.cx.cells.length, Region g.pl g.s.cl k p) ∧
        (∀ k < g.s.cx.cells.length, ∀ l < g.s.cx.cells.length, k ≠ l → ∀ q, ¬ (Core (Region g.pl g.s.cl k) q ∧ Core (Region g.pl g.s.cl l) q)) ∧
        Listed (triAt pts cs) nOri g ∧
        ∀ area : Nat → T, Normal (shellsOf (triAt pts cs) (axisAt eps lead pts cs) area shell nShells g) g.s.cx → (∀ i < g.s.cx.faces.length, 0 < area i) →
          ∃ kept, (∀ fuel ≥ 1, cellKept fuel (shellsOf (triAt pts cs) (axisAt eps lead pts cs) area shell nShells g) g.s.cx = some kept) ∧ kept.length = g.s.cx.cells.length ∧
            ∀ k < g.s.cx.cells.length, ∀ q, Core (Region g.pl g.s.cl k) q → (kept[k]? = some true ↔ ∃ sh < nShells, In sh q)) := by
  obtain ⟨m, e, hD | hflat⟩ := Delaunay.c85_tetrahedralize_partial pts (hg.nodup h4) h4 shuffled hsh fuel hf (Or.inl hmax)
  · refine ⟨m, e, Or.inr ?_⟩
    obtain ⟨w, w0, hw⟩ := inHull_point (pts := pts) (v := 0) (by omega)
    obtain ⟨t, c, -, ⟨x, hx, h3, -⟩, -⟩ := hD.cover _ w w0 hw
    exact c105_from_points order ho pts m hD ⟨x, List.mem_of_getElem? hx, h3⟩ hg cs hc hd eps lead hl0 hl1 keep nOri hle shell nShells In hI hout
  · exact ⟨m, e, Or.inl hflat⟩

instance (pts : List (Pt ℚ)) (a b c d : Nat) : Decidable ([a, b, c, d].Nodup → orient3d (posOf pts a) (posOf pts b) (posOf pts c) (posOf pts d) ≠ 0) := inferInstance
instance (pts : List (Pt ℚ)) (a b : Nat) : Decidable (∀ c < pts.length, ∀ d < pts.length, [a, b, c, d].Nodup → orient3d (posOf pts a) (posOf pts b) (posOf pts c) (posOf pts d) ≠ 0) := inferInstance
instance (pts : List (Pt ℚ)) : Decidable (General pts) := by unfold General; infer_instance

/-- The corners of the tetrahedron of `outTri`, a point inside and a point outside of it. -/
def genPts : List (Pt ℚ) := [⟨0, 0, 0⟩, ⟨4, 0, 0⟩, ⟨0, 4, 0⟩, ⟨0, 0, 4⟩, ⟨1, 1, 1⟩, ⟨5, 6, 7⟩]
def genMesh : Tet.Mesh := (Tet.tetrahedralize genPts 72 [0, 1, 2, 3, 4, 5]).getD (Tet.Mesh.new 0)

theorem gen_delaunay : IsDelaunay genPts genMesh := by
  obtain ⟨m, e, h | ⟨h, -⟩⟩ := Delaunay.c85_tetrahedralize_partial genPts (by decide +kernel) (by decide) [0, 1, 2, 3, 4, 5] (by decide) 72 (by decide) (Or.inl (by decide))
  · rw [genMesh, e]; exact h
  · exfalso
    have : (Tet.tetrahedralize genPts 72 [0, 1, 2, 3, 4, 5]).map (fun m => decide (m.tets.length = 0)) = some false := by decide +kernel
    rw [e] at this
    simp [h] at this

/-- The four sides of the tetrahedron. -/
def genCs : List (Nat × Nat × Nat) := [(1, 2, 3), (0, 1, 3), (0, 2, 1), (0, 3, 2)]

theorem gen_proper : ∀ c ∈ genCs, Proper genPts.length c := by
  intro c hc
  have h : ∀ c ∈ genCs, c.1 < genPts.length ∧ c.2.1 < genPts.length ∧ c.2.2 < genPts.length ∧ c.1 ≠ c.2.1 ∧ c.2.1 ≠ c.2.2 ∧ c.2.2 ≠ c.1 := by decide +kernel
  obtain ⟨h1, h2, h3, h4, h5, h6⟩ := h c hc
  exact ⟨h1, h2, h3, h4, h5, h6⟩

theorem gen_general : General genPts := by decide +kernel

theorem gen_surface : SurfaceOf (triAt genPts genCs) (fun t => t < 4 ∧ 0 = 0) InTet := by
  have e : ∀ t < 4, triAt genPts genCs t = outTri t := by
    intro t ht
    interval_cases t <;> simp [triAt, genCs, genPts, posOf, outTri]
  have h := out_surface
  refine ⟨fun p q hp => h.free p q fun t ht u u0 u1 => ?_, fun t ht => ?_, fun t ht => ?_⟩
  · rw [← e t ht.1]; exact hp t ht u u0 u1
  · rw [e t ht.1]; exact h.front t ht
  · rw [e t ht.1]; exact h.back t ht

theorem gen_hull (q : Pt ℚ) (h : InTet q) : InHull genPts q := by
  obtain ⟨hx, hy, hz, hs⟩ := h
  have key : ∀ w : Fin 6 → ℚ, (∀ i, 0 ≤ w i) → w 0 + w 1 + w 2 + w 3 + w 4 + w 5 = 1 → q.x = 4 * w 1 + w 4 + 5 * w 5 → q.y = 4 * w 2 + w 4 + 6 * w 5 → q.z = 4 * w 3 + w 4 + 7 * w 5 → InHull genPts q := by
    intro w w0 h1 hx hy hz
    refine ⟨w, w0, ⟨?_, ?_, ?_, ?_⟩⟩
    · refine Eq.trans ?_ h1
      exact Fin.sum_univ_six w
    · rw [hx]; refine Eq.trans ?_ (Fin.sum_univ_six fun i : Fin 6 => w i * (genPts[i]).x).symm
      simp [genPts]; ring
    · rw [hy]; refine Eq.trans ?_ (Fin.sum_univ_six fun i : Fin 6 => w i * (genPts[i]).y).symm
      simp [genPts]; ring
    · rw [hz]; refine Eq.trans ?_ (Fin.sum_univ_six fun i : Fin 6 => w i * (genPts[i]).z).symm
      simp [genPts]; ring
  refine key ![1 - q.x / 4 - q.y / 4 - q.z / 4, q.x / 4, q.y / 4, q.z / 4, 0, 0] (fun i => ?_) ?_ ?_ ?_ ?_
  · fin_cases i <;> simp <;> linarith
  all_goals simp; try ring

/-- C105 for the tetrahedron with a point inside and a point outside: the edge between them meets the side (1, 2, 3). -/
example := c105_from_points (T := ℚ) id (fun _ => List.Perm.refl _) genPts genMesh gen_delaunay (by decide +kernel) gen_general genCs gen_proper (by unfold Different; decide +kernel) (1 / 1000000) (fun x => |x|) (fun _ => abs_eq_zero)
  (fun x => abs_nonneg x) (fun _ _ => true) 4 (by decide) (fun _ => 0) 1 (fun _ => InTet) (fun _ _ => by
    have h := gen_surface
    exact ⟨fun p q hp => h.free p q fun t ht => hp t ⟨ht.1, by omega⟩, fun t ht => h.front t ⟨ht.1, rfl⟩, fun t ht => h.back t ⟨ht.1, rfl⟩⟩) (fun _ _ p hp hin => hp (gen_hull p hin))

/-- A large triangle around a small tetrahedron. -/
def farPts : List (Pt ℚ) := [⟨-30, -31, 0⟩, ⟨33, -30, 0⟩, ⟨1, 41, 0⟩, ⟨0, 0, 2⟩, ⟨2, 0, -1⟩, ⟨-1, 2, -2⟩, ⟨-3 / 2, -1, -3⟩]
def farMesh : Tet.Mesh := (Tet.tetrahedralize farPts 98 [0, 1, 2, 3, 4, 5, 6]).getD (Tet.Mesh.new 0)

theorem far_delaunay : IsDelaunay farPts farMesh := by
  obtain ⟨m, e, h | ⟨h, -⟩⟩ := Delaunay.c85_tetrahedralize_partial farPts (by decide +kernel) (by decide) [0, 1, 2, 3, 4, 5, 6] (by decide) 98 (by decide) (Or.inl (by decide))
  · rw [farMesh, e]; exact h
  · exfalso
    have : (Tet.tetrahedralize farPts 98 [0, 1, 2, 3, 4, 5, 6]).map (fun m => decide (m.tets.length = 0)) = some false := by decide +kernel
    rw [e] at this
    simp [h] at this

/-- C105 where the search has to leave the tetrahedra of the sides. -/
example := c105_marks farPts farMesh far_delaunay (by decide +kernel) (by decide +kernel) [(0, 1, 2)] (by
  intro c hc
  obtain rfl := List.mem_singleton.1 hc
  exact ⟨by decide, by decide, by decide, by decide, by decide, by decide⟩) (farMesh.tets.length + 1) (by omega)

/-- The small tetrahedron has no vertex of the triangle and is found. -/
example : (farMesh.tets[15]?.map fun x => [x.data 0, x.data 1, x.data 2, x.data 3]) = some [5, 6, 4, 3] ∧ (insertConstraints 17 farPts farMesh [(0, 1, 2)]).map (fun r => marksAt r.2 4 15) = some [0] := by decide +kernel

end Verif.Bsp
