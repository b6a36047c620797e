import Verif.Constraint.Around
import Verif.Delaunay.Props
/-!
# C91: the tetrahedra form a simplicial complex and the queries find all of it
-/
namespace Verif.Constraint
open InSphere (Pt)
open Tet (Mesh TriFace tetrahedralize)
open Delaunay (SolidTet IsDelaunay Comb)

variable {K : Type} [Field K] [LinearOrder K] [IsStrictOrderedRing K]

/-- C91. For all distinct points (four to 1021) and every shuffle, in the mesh that `tetrahedralize` returns: two solid tetrahedra meet in a common face (the corners that carry a common point are corners of
both), no face occurs twice with the same orientation, `incident` lists the solid tetrahedra with the given corner - all of them and each once -, and turning around an edge meets every tetrahedron with this edge,
each once. -/
theorem c91_complex (pts : List (Pt K)) (hd : pts.Nodup) (h4 : 4 ≤ pts.length) (h : pts.length ≤ 1021) (shuffled : List Nat) (hs : shuffled.Perm (List.range pts.length)) (fuel : Nat)
    (hf : 2 * pts.length * pts.length ≤ fuel) :
    ∃ m, tetrahedralize pts fuel shuffled = some m ∧
      (∀ s t (x y : Tet.Tet) c c' w w' p, m.tets[s]? = some x → m.tets[t]? = some y → SolidTet pts m s c → SolidTet pts m t c' → (∀ i, 0 ≤ w i) → (∀ i, 0 ≤ w' i) →
        Comb c w p → Comb c' w' p → ∀ i, 0 < w i → ∃ j, y.data j = x.data i) ∧
      (∀ h g : TriFace, h.tet < m.tets.length → g.tet < m.tets.length → m.org h = m.org g → m.dest h = m.dest g → m.apex h = m.apex g → h = g) ∧
      (m.tets ≠ [] → ∀ v < pts.length, ∀ k > m.tets.length, ∃ r, m.incident k v = some (m, r) ∧ r.Nodup ∧
        ∀ t, t ∈ r ↔ ∃ x : Tet.Tet, m.tets[t]? = some x ∧ x.data 3 ≠ pts.length ∧ ∃ i, x.data i = v) ∧
      ∀ edge : TriFace, edge.tet < m.tets.length → ∀ a b, m.org edge = some a → m.dest edge = some b → ∀ k ≥ m.tets.length, ∃ spin r, m.fnext edge = some spin ∧
        edgeRing m edge.tet k spin = some r ∧ ((edge :: r).map TriFace.tet).Nodup ∧
        ∀ t, t ∈ (edge :: r).map TriFace.tet ↔ ∃ x : Tet.Tet, m.tets[t]? = some x ∧ (∃ i, x.data i = a) ∧ ∃ i, x.data i = b := by
  obtain ⟨m, e, hD | ⟨h0, -⟩⟩ := Delaunay.c85_tetrahedralize_partial pts hd h4 shuffled hs fuel hf (Or.inl h)
  · refine ⟨m, e, hD.meet, hD.side, fun _ v hv k hk => incident_all hD hv hk, fun edge hl a b ho hdt k hk => ?_⟩
    obtain ⟨spin, r, e1, er, hnd, -, hall, hcov⟩ := edgeRing_all hD hl ho hdt hk
    refine ⟨spin, r, e1, er, hnd, fun t => ⟨fun ht => ?_, ?_⟩⟩
    · obtain ⟨g, hg, rfl⟩ := List.mem_map.1 ht
      obtain ⟨gl, go, gd⟩ := hall g hg
      obtain ⟨x, hx, -⟩ := hD.whole.corners _ gl
      exact ⟨x, hx, ⟨Tet.orgPivot g.ver, by simpa [Mesh.org, hx] using go⟩, ⟨Tet.destPivot g.ver, by simpa [Mesh.dest, hx] using gd⟩⟩
    · rintro ⟨x, hx, ha, hb⟩
      obtain ⟨g, hg, rfl⟩ := hcov t x hx ha hb
      exact List.mem_map.2 ⟨g, hg, rfl⟩
  · refine ⟨m, e, ?_, ?_, ?_, ?_⟩
    · intro s t x y c c' w w' p hx
      simp [h0] at hx
    · intro h g hl
      simp [h0] at hl
    · intro hne
      exact absurd h0 hne
    · intro edge hl
      simp [h0] at hl

/-! ### Concrete case: six points, twelve tetrahedra, eight of them ghosts -/

example := c91_complex Delaunay.sixPts (by decide +kernel) (by decide) (by decide) [0, 1, 2, 3, 4, 5] (by decide) 72 (by decide)

end Verif.Constraint
