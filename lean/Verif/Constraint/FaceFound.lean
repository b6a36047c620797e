import Verif.Constraint.Around
import Verif.Bsp.GeoExamples
/-!
# C58: `triangle_at_tet` in a Delaunay tetrahedralization (`src/polygonlization/conforming_mesh.rs` lines 349-409)
-/
namespace Verif.Constraint
open InSphere (Pt)
open Tet (Mesh TriFace)
open Delaunay (IsDelaunay)

variable {K : Type} [Field K] [LinearOrder K] {m : Mesh} {pts : List (Pt K)}

/-- C58 for Delaunay tetrahedralizations: `triangle_at_tet` ends without panic and leaves the mesh as it was, a handle that it returns belongs to the face with the three given points, and a face of the mesh is
found if one of the tetrahedra that the search looks at has one of the other two corners. Missing: the search does not look at all tetrahedra with the corner `a`; see `Poly.c58_found_refuted`. -/
theorem c58_delaunay_partial (hD : IsDelaunay pts m) {a b c fuel : Nat} (ha : a < pts.length) (hab : a ≠ b) (hac : a ≠ c) (hf : m.tets.length < fuel) :
    ∃ res t0, Poly.triangleAtTet fuel m a b c = some (m, res) ∧ m.p2t[a]? = some (some t0) ∧ (∀ h, res = some h → h.tet < m.tets.length ∧ Poly.FaceIs m h a b c) ∧
      ((∃ k : TriFace, k.tet < m.tets.length ∧ Poly.FaceIs m k a b c) → (∃ u x q, Poly.Scan m a t0 u ∧ m.tets[u]? = some x ∧ (x.data q = b ∨ x.data q = c)) → res ≠ none) := by
  obtain ⟨t0, x0, hp, hx0, ⟨i, hi⟩, -⟩ := hD.vertex a ha
  have hl := (List.getElem?_eq_some_iff.1 hx0).1
  obtain ⟨res, e, hs⟩ := Poly.c58_sound m _ hD.whole (fun j x _ hx => hD.clean j x hx) a b c t0 hab hac hp hl ⟨x0, i, hx0, hi⟩ fuel hf
  refine ⟨res, t0, e, hp, hs, fun ⟨k, kl, hk⟩ hscan => ?_⟩
  obtain ⟨h, e', -⟩ := Poly.c58_found_partial m _ hD.whole (fun j x _ hx => hD.clean j x hx) a b c t0 hab hac hp hl ⟨x0, i, hx0, hi⟩ fuel hf (oneRing hD) k kl hk hscan
  rw [e] at e'
  simp only [Option.some.injEq, Prod.mk.injEq, true_and] at e'
  rw [e']
  exact Option.some_ne_none _

/-- The tetrahedralization of four points: the face 1, 2, 3 is found. -/
example : ∃ h, Poly.triangleAtTet 50 Bsp.tetMesh 1 2 3 = some (Bsp.tetMesh, some h) ∧ Poly.FaceIs Bsp.tetMesh h 1 2 3 := by
  obtain ⟨res, t0, e, e0, h1, h2⟩ := c58_delaunay_partial Bsp.tet_delaunay (a := 1) (b := 2) (c := 3) (fuel := 50) (by decide) (by decide) (by decide) (by decide +kernel)
  cases res with
  | some h => exact ⟨h, e, (h1 h rfl).2⟩
  | none =>
    have e1 : Bsp.tetMesh.p2t[1]? = some (some 0) := by decide +kernel
    rw [e1] at e0
    cases e0
    refine absurd rfl (h2 ⟨⟨1, 7⟩, by decide +kernel, ?_⟩ ?_)
    · unfold Poly.FaceIs; decide +kernel
    · have h3 : ∃ x ∈ Bsp.tetMesh.tets[0]?, x.data 1 = 2 := by decide +kernel
      obtain ⟨x, hx, h⟩ := h3
      exact ⟨0, x, 1, .base, hx, .inl h⟩

end Verif.Constraint
