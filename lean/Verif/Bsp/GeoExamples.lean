import Verif.Bsp.Pipeline
import Verif.Bsp.Inside
/-!
# C97-C99: examples, and the orientation of coplanar triangles
-/
namespace Verif.Bsp
open InSphere (Pt)
open Geom (lerp orient2dByAxis)
open Delaunay (IsDelaunay)

/-- A tetrahedron. -/
def tetPts : List (Pt ℚ) := [⟨0, 0, 0⟩, ⟨4, 0, 0⟩, ⟨0, 4, 0⟩, ⟨0, 0, 4⟩]
def tetMesh : Tet.Mesh := (Tet.tetrahedralize tetPts 32 [0, 1, 2, 3]).getD (Tet.Mesh.new 0)
def tetSt : St := ((initial id tetMesh (fun k _ => if k = 4 then [0, 1] else []) 2).map Prod.fst).getD ⟨⟨[], []⟩, ⟨0, 0, []⟩⟩
/-- Triangle 0 lies in the tetrahedron, triangle 1 in the same plane outside of it, the other way around. -/
def tetTri (i : Nat) : Tri3 ℚ := if i = 0 then ⟨⟨1/2, 1/2, 1⟩, ⟨1, 1/2, 1⟩, ⟨1/2, 1, 1⟩⟩ else ⟨⟨10, 10, 1⟩, ⟨10, 11, 1⟩, ⟨11, 10, 1⟩⟩
/-- The same with the same orientation. -/
def tetTri' (i : Nat) : Tri3 ℚ := if i = 0 then ⟨⟨1/2, 1/2, 1⟩, ⟨1/2, 1, 1⟩, ⟨1, 1/2, 1⟩⟩ else ⟨⟨10, 10, 1⟩, ⟨10, 11, 1⟩, ⟨11, 10, 1⟩⟩

theorem tet_delaunay : IsDelaunay tetPts tetMesh := by
  obtain ⟨m, e, h | ⟨h, -⟩⟩ := Delaunay.c85_tetrahedralize_partial tetPts (by decide +kernel) (by decide) [0, 1, 2, 3] (by decide) 32 (by decide) (Or.inl (by decide))
  · rw [tetMesh, e]; exact h
  · exfalso
    have : (Tet.tetrahedralize tetPts 32 [0, 1, 2, 3]).map (fun m => m.tets.length) = some 5 := by decide +kernel
    rw [e, Option.map_some, h] at this
    cases this

def endOf : GOut ℚ → Option (GSt ℚ)
  | .done g => some g
  | _ => none

/-- The hypotheses of C97 and C99 for the tetrahedron. -/
theorem tet_good : Good tetSt ∧ Geo (posOf tetPts) (facePlane (posOf tetPts) tetSt.mesh.faces) tetSt.cl tetSt.mesh.faces := by
  obtain ⟨s0, sm, e, h⟩ := c96_tiling id (fun l => List.Perm.refl l) _ _ tet_delaunay (fun k _ => if k = 4 then [0, 1] else []) 2 (by decide +kernel)
  have e0 : tetSt = s0 := by rw [tetSt, e]; rfl
  obtain ⟨gd, g, -⟩ := h s0 _ _ Sliced.start
  rw [e0]; exact ⟨gd, g⟩

theorem tet_inner (k : Nat) : innerOf tetSt k = if k = 0 then [0, 1] else [] := by
  have h : tetSt.cx.cells.map Poly.Cell.inner = [[0, 1]] := by decide +kernel
  rw [innerOf_eq, h]
  match k with
  | 0 => rfl
  | k + 1 => rfl

theorem tet_verts (v : Nat) (hv : v < 4) : OfCell tetSt.cl tetSt.mesh.faces 0 v := by
  have h : ∀ v < 4, ∃ j < 4, ∃ Q ∈ tetSt.cl[j]?, sg Q 0 ≠ 0 ∧ ∃ d ∈ tetSt.mesh.faces[j]?, ∃ y ∈ d, y.1 = v := by decide +kernel
  obtain ⟨j, -, Q, hQ, hs, d, hd, hy⟩ := h v hv
  exact ⟨j, Q, d, hQ, hs, hd, hy⟩

theorem tet_cutting : Cutting tetTri (startOf tetPts tetSt) ∧ Cutting tetTri' (startOf tetPts tetSt) := by
  have h : ∀ t ∈ [0, 1], (∃ v < 4, 0 < (tetTri t).plane.ev (posOf tetPts v)) ∧ (∃ v < 4, (tetTri t).plane.ev (posOf tetPts v) < 0) ∧ (∃ v < 4, 0 < (tetTri' t).plane.ev (posOf tetPts v)) ∧
      ∃ v < 4, (tetTri' t).plane.ev (posOf tetPts v) < 0 := by decide +kernel
  have hk : ∀ {k t}, t ∈ innerOf tetSt k → k = 0 ∧ t ∈ [0, 1] := by
    intro k t ht
    rw [tet_inner] at ht
    split at ht
    · exact ⟨‹_›, ht⟩
    · simp at ht
  constructor <;> intro k t ht <;> obtain ⟨rfl, ht'⟩ := hk ht <;> obtain ⟨⟨a, a1, a2⟩, ⟨b, b1, b2⟩, ⟨c, c1, c2⟩, d, d1, d2⟩ := h t ht'
  · exact ⟨⟨a, tet_verts a a1, a2⟩, b, tet_verts b b1, b2⟩
  · exact ⟨⟨c, tet_verts c c1, c2⟩, d, tet_verts d d1, d2⟩

theorem tet_recorded (tri : Nat → Tri3 ℚ) : Recorded tri 2 (startOf tetPts tetSt) := by
  intro k hk t ht _
  have hk' : k < 1 := by
    have : tetSt.cx.cells.length = 1 := by decide +kernel
    rw [← this]; exact hk
  show t ∈ innerOf tetSt k
  rw [tet_inner, if_pos (by omega)]
  have : t = 0 ∨ t = 1 := by omega
  simpa using this

/-- **C98 fails for coplanar triangles of opposite orientation.** The plane of triangle 1 cuts the tetrahedron; triangle 0 lies in this plane and inside the tetrahedron, but `is_triangle_intersects_poly` denies
that it meets the section. -/
theorem c98_orientation_refuted : ∃ (pos : Nat → Pt ℚ) (pl : Nat → Aff ℚ) (s : St) (C : Poly.Cell) (vs : List Nat) (p t : Tri3 ℚ), Good s ∧ Geo pos pl s.cl s.mesh.faces ∧ s.cx.cells[0]? = some C ∧
    sectionVerts (triSgn pos p) s 0 C = some vs ∧ (∀ x ∈ t.corners, p.plane.ev x = 0) ∧ orient2dByAxis t.a t.b t.c 2 ≠ .zero ∧ Passes t (Region pl s.cl 0) ∧
    triPoly t (vs.map (slicePos p.plane (triSgn pos p) pos s C)) (orient2dByAxis t.a t.b t.c 2) 2 = false := by
  have h : ∃ C ∈ tetSt.cx.cells[0]?, ∃ vs ∈ sectionVerts (triSgn (posOf tetPts) (tetTri 1)) tetSt 0 C,
      triPoly (tetTri 0) (vs.map (slicePos (tetTri 1).plane (triSgn (posOf tetPts) (tetTri 1)) (posOf tetPts) tetSt C)) (orient2dByAxis (tetTri 0).a (tetTri 0).b (tetTri 0).c 2) 2 = false := by decide +kernel
  obtain ⟨C, hC, vs, hvs, e⟩ := h
  refine ⟨posOf tetPts, _, tetSt, C, vs, tetTri 1, tetTri 0, tet_good.1, tet_good.2, hC, hvs, by decide +kernel, by decide +kernel, ⟨⟨5/8, 5/8, 1⟩, ?_, ?_⟩, e⟩
  · exact ⟨1/2, 1/4, 1/4, by norm_num, by norm_num, by norm_num, by norm_num, by norm_num [tetTri], by norm_num [tetTri], by norm_num [tetTri]⟩
  · exact core_region (by decide +kernel)

/-- **C99 fails for coplanar triangles of opposite orientation.** Without `Aligned` the claim of `c99_resolved_partial` does not hold: the tetrahedron is not cut though triangle 0 passes through its inside. -/
theorem c99_orientation_refuted : ¬ ∀ (tri : Nat → Tri3 ℚ) (axis : Nat → Nat) (keep : Nat → Nat → Bool) (nOri n : Nat) (g : GSt ℚ), Good g.s → Geo g.pos g.pl g.s.cl g.s.mesh.faces → Cutting tri g →
    (∀ k, ∀ t ∈ innerOf g.s k, t < n) → (∀ t < n, orient2dByAxis (tri t).a (tri t).b (tri t).c (axis t) ≠ .zero) → Recorded tri n g →
    ∃ g', geoLoop tri axis keep nOri (2 * Poly.weight (g.s.cx.cells.map Poly.Cell.inner) + g.s.cx.cells.length + 1) 0 g = .done g' ∧
      ∀ k < g'.s.cx.cells.length, ∀ t < n, ¬ Passes (tri t) (Region g'.pl g'.s.cl k) := by
  intro H
  obtain ⟨g, e, h⟩ := H tetTri (fun _ => 2) (fun _ _ => true) 2 2 (startOf tetPts tetSt) tet_good.1 tet_good.2 tet_cutting.1 (fun k t ht => by
    rw [show (startOf tetPts tetSt).s = tetSt from rfl, tet_inner] at ht
    split at ht
    · simp only [List.mem_cons, List.not_mem_nil, or_false] at ht; omega
    · simp at ht) (by decide +kernel) (tet_recorded _)
  have h1 : ∃ g ∈ endOf (geoLoop tetTri (fun _ => 2) (fun _ _ => true) 2 (2 * Poly.weight ((startOf tetPts tetSt).s.cx.cells.map Poly.Cell.inner) + (startOf tetPts tetSt).s.cx.cells.length + 1) 0 (startOf tetPts tetSt)),
      0 < g.s.cx.cells.length ∧ ∀ i ∈ List.range g.s.cl.length, ∀ P ∈ g.s.cl[i]?, sg P 0 ≠ 0 → 0 < (sg P 0 : ℚ) * (g.pl i).ev ⟨5/8, 5/8, 1⟩ := by decide +kernel
  obtain ⟨g1, e1, h1, h2⟩ := h1
  rw [e] at e1
  cases e1
  exact h 0 h1 0 (by omega) ⟨⟨5/8, 5/8, 1⟩, ⟨1/2, 1/4, 1/4, by norm_num, by norm_num, by norm_num, by norm_num, by norm_num [tetTri], by norm_num [tetTri], by norm_num [tetTri]⟩, core_region h2⟩

/-- C97 and C99 for the tetrahedron and two triangles of the same orientation: it is cut in two cells, and no triangle passes through the inside of one of them. -/
example : ∃ g', geoLoop tetTri' (fun _ => 2) (fun _ _ => true) 2 20 0 (startOf tetPts tetSt) = .done g' ∧ g'.s.cx.cells.length = 2 ∧ Geo g'.pos g'.pl g'.s.cl g'.s.mesh.faces ∧
    ∀ k < 2, ∀ t < 2, ¬ Passes (tetTri' t) (Region g'.pl g'.s.cl k) := by
  have e8 : 2 * Poly.weight ((startOf tetPts tetSt).s.cx.cells.map Poly.Cell.inner) + (startOf tetPts tetSt).s.cx.cells.length + 1 = 20 := by decide +kernel
  obtain ⟨g, e, -, gg, -⟩ := c97_subdivide tetTri' (fun _ => 2) (fun _ _ => true) 2 (startOf tetPts tetSt) tet_good.1 tet_good.2 tet_cutting.2
  obtain ⟨g1, e1, h⟩ := c99_resolved_partial tetTri' (fun _ => 2) (fun _ _ => true) 2 2 (startOf tetPts tetSt) tet_good.1 tet_good.2 tet_cutting.2 (fun k t ht => by
    rw [show (startOf tetPts tetSt).s = tetSt from rfl, tet_inner] at ht
    split at ht
    · simp only [List.mem_cons, List.not_mem_nil, or_false] at ht; omega
    · simp at ht) (by decide +kernel) (by unfold Aligned; decide +kernel) (tet_recorded _)
  rw [e8] at e e1
  rw [e] at e1
  cases e1
  have h2 : ∃ g ∈ endOf (geoLoop tetTri' (fun _ => 2) (fun _ _ => true) 2 20 0 (startOf tetPts tetSt)), g.s.cx.cells.length = 2 := by decide +kernel
  obtain ⟨g2, e2, h2⟩ := h2
  rw [e] at e2
  cases e2
  rw [h2] at h
  exact ⟨g, e, h2, gg, h⟩

/-- Two constraints between six points; each cuts two of the four tetrahedra. -/
def sixCs : List (Nat × Nat × Nat) := [(1, 3, 4), (1, 5, 3)]
/-- A tetrahedron with a vertex of the constraint is touched, but not along a diagonal. -/
theorem reached_of_vertices {pts : List (Pt ℚ)} {m : Tet.Mesh} {cs : List (Nat × Nat × Nat)} (h : ∀ c ∈ cs, ∀ x ∈ m.tets, x.data 3 ≠ pts.length → ∃ j, x.data j = c.1 ∨ x.data j = c.2.1 ∨ x.data j = c.2.2) :
    AllReached pts m cs := by
  rintro i c A B C hi ⟨ha, hb, hc⟩ t T ⟨x, hx, h3, hT⟩ -
  obtain ⟨j, hj⟩ := h c (List.mem_of_getElem? hi) x (List.mem_of_getElem? hx) h3
  have hTj : T j = A ∨ T j = B ∨ T j = C := by
    have h0 := hT j
    rcases hj with e | e | e <;> rw [e] at h0
    · left; rw [ha] at h0; exact (Option.some.inj h0).symm
    · right; left; rw [hb] at h0; exact (Option.some.inj h0).symm
    · right; right; rw [hc] at h0; exact (Option.some.inj h0).symm
  refine Or.inl ⟨⟨T j, ⟨fun l => if l = j then 1 else 0, fun l => by dsimp only; split <;> norm_num, ⟨by simp, by simp, by simp, by simp⟩⟩, ?_⟩, fun hd => hd.1 j ?_⟩
  · rcases hTj with e | e | e <;> rw [e]
    · exact Or.inl ⟨0, le_refl _, by norm_num, by cases A; simp [lerp]⟩
    · exact Or.inr (Or.inl ⟨0, le_refl _, by norm_num, by cases B; simp [lerp]⟩)
    · exact Or.inr (Or.inr ⟨0, le_refl _, by norm_num, by cases C; simp [lerp]⟩)
  · rcases hTj with e | e | e <;> rw [e]
    · exact ⟨1, 0, 0, by norm_num, by cases A; simp [Geom.comb]⟩
    · exact ⟨0, 1, 0, by norm_num, by cases B; simp [Geom.comb]⟩
    · exact ⟨0, 0, 1, by norm_num, by cases C; simp [Geom.comb]⟩

/-- The whole way: each of the four tetrahedra is cut once. -/
def sixRun : Option (GSt ℚ) := do
  let (_, marks) ← Constraint.insertConstraints 13 Delaunay.sixPts sixMesh sixCs
  let (s, _) ← initial id sixMesh (Constraint.marksAt marks) 2
  endOf (geoLoop (triAt Delaunay.sixPts sixCs) (axisAt (1 / 1000000) (fun x => |x|) Delaunay.sixPts sixCs) (fun _ _ => true) 2 60 0 (startOf Delaunay.sixPts s))

example : sixRun.map (fun g => (g.s.cx.cells.length, g.s.mesh.nV, g.pos 6)) = some (8, 7, ⟨1, 1, 0⟩) := by decide +kernel

theorem sixCs_proper : (∀ c ∈ sixCs, Constraint.Proper Delaunay.sixPts.length c) ∧ ∀ c ∈ sixCs, ¬ Geom.Collinear (posOf Delaunay.sixPts c.1) (posOf Delaunay.sixPts c.2.1) (posOf Delaunay.sixPts c.2.2) := by
  refine ⟨fun c hc => ?_, fun c hc => ?_⟩
  · have h : ∀ c ∈ sixCs, c.1 < Delaunay.sixPts.length ∧ c.2.1 < Delaunay.sixPts.length ∧ c.2.2 < Delaunay.sixPts.length ∧ c.1 ≠ c.2.1 ∧ c.2.1 ≠ c.2.2 ∧ c.2.2 ≠ c.1 := by decide +kernel
    obtain ⟨h1, h2, h3, h4, h5, h6⟩ := h c hc
    exact ⟨h1, h2, h3, h4, h5, h6⟩
  · rw [Geom.collinear_iff_flat]
    revert c
    unfold Geom.Flat
    decide +kernel

example := c97_from_points Delaunay.sixPts (by decide +kernel) (by decide) (by decide) [0, 1, 2, 3, 4, 5] (by decide) 72 (by decide) sixCs sixCs_proper.1 sixCs_proper.2 id (fun _ => List.Perm.refl _)
  (axisAt (1 / 1000000) (fun x => |x|) Delaunay.sixPts sixCs) (fun _ _ => true) 2

example := c99_from_points_partial id (fun _ => List.Perm.refl _) Delaunay.sixPts sixMesh six_delaunay (by decide +kernel) sixCs sixCs_proper.1 sixCs_proper.2 (1 / 1000000) (fun x => |x|) (fun x => abs_eq_zero)
  (fun x => abs_nonneg x) (fun _ _ => true) 2 (reached_of_vertices (by decide +kernel)) (by unfold Aligned; decide +kernel)

end Verif.Bsp
