import Verif.Bsp.Close
import Verif.Surface.NewSpec
/-!
# The faces of a `SurfaceMesh` as cycles

`Verif.Bsp` describes a mesh by the cycles of its faces (`PMesh`), `Verif.Surface` by its arrays. This file reads the cycles from the arrays.
-/
namespace Verif.Bsp
open Surface (get tip faceHalfedges Chain Valid)

/-- `he_vertex(h)` (`src/mesh/mesh.rs` lines 108-110). -/
def vertOf (m : Surface.Mesh) (h : Nat) : Nat := (get m.heVertex h).getD 0

/-- `he_edge(h)` (`src/mesh/surface_mesh.rs` lines 553-555). -/
def edgeOf (m : Surface.Mesh) (h : Nat) : Nat := (get m.heEdge h).getD 0

/-- `he_tip_vertex(h)` (`src/mesh/mesh.rs` lines 112-114). -/
def tipOf (m : Surface.Mesh) (h : Nat) : Nat := (tip m h).getD 0

/-- A half-edge with its ends. -/
def heOf (m : Surface.Mesh) (h : Nat) : HE := ⟨vertOf m h, edgeOf m h, tipOf m h⟩

/-- `face(f).halfedges()`. -/
def loopOf (m : Surface.Mesh) (f : Nat) : List Nat := (faceHalfedges m f).getD []

/-- The cycles of all faces, as `face(f).halfedges()`, `he_vertex` and `he_edge` show them. -/
def readMesh (m : Surface.Mesh) : PMesh where
  nV := m.nV
  nE := m.nE
  faces := (List.range m.nF).map fun f => (loopOf m f).map fun h => (vertOf m h, edgeOf m h)

theorem valid_loop {m : Surface.Mesh} (hm : Valid m) {f : Nat} (hf : f < m.nF) :
    ∃ h t, loopOf m f = h :: t ∧ Chain m.heNext h t h ∧ (h :: t).Nodup ∧ ∀ x, x ∈ h :: t ↔ get m.heFace x = some f := by
  obtain ⟨h, h1, h2⟩ := hm.fhe f hf
  obtain ⟨t, t1, t2, t3, t4⟩ := (hm.faces h f h2).iter
  refine ⟨h, t, ?_, t2, t3, t4⟩
  rw [loopOf, faceHalfedges, h1]
  show (Surface.ringIter m.heNext h).getD [] = _
  rw [t1]; rfl

theorem path_loop {m : Surface.Mesh} : ∀ (t : List Nat) (h z : Nat), Chain m.heNext h t z →
    path ((h :: t).map fun h => (vertOf m h, edgeOf m h)) (vertOf m z) = (h :: t).map (heOf m)
  | [], h, z, hc => by
    have hc : get m.heNext h = some z := hc
    simp only [List.map_cons, List.map_nil, path, firstTail, heOf, tipOf, tip, hc]
    rfl
  | y :: t, h, z, hc => by
    have h1 : get m.heNext h = some y := hc.1
    have ih := path_loop t y z hc.2
    rw [List.map_cons, path, ih]
    simp only [List.map_cons, firstTail, List.head?_cons, Option.map_some, Option.getD_some, List.cons.injEq, and_true, heOf, tipOf, tip, h1]
    rfl

theorem hes_loop {m : Surface.Mesh} {t : List Nat} {h : Nat} (hc : Chain m.heNext h t h) :
    hes ((h :: t).map fun h => (vertOf m h, edgeOf m h)) = (h :: t).map (heOf m) := by
  exact path_loop t h h hc

theorem readMesh_face {m : Surface.Mesh} {f : Nat} (hf : f < m.nF) : (readMesh m).faces[f]? = some ((loopOf m f).map fun h => (vertOf m h, edgeOf m h)) := by
  simp [readMesh, List.getElem?_range hf]

theorem hes_face {m : Surface.Mesh} (hm : Valid m) {f : Nat} (hf : f < m.nF) : hes ((loopOf m f).map fun h => (vertOf m h, edgeOf m h)) = (loopOf m f).map (heOf m) := by
  obtain ⟨h, t, e, c, -, -⟩ := valid_loop hm hf
  rw [e, hes_loop c]

theorem mem_loopOf {m : Surface.Mesh} (hm : Valid m) {f : Nat} (hf : f < m.nF) {x : Nat} : x ∈ loopOf m f ↔ get m.heFace x = some f := by
  obtain ⟨h, t, e, c, -, q⟩ := valid_loop hm hf
  rw [e, q]

/-- The half-edges of the cycles are the half-edges of the mesh. -/
theorem mem_readMesh {m : Surface.Mesh} (hm : Valid m) {h : HE} : h ∈ (readMesh m).all ↔ ∃ x < m.nH, h = heOf m x := by
  unfold PMesh.all readMesh
  simp only [List.flatMap_map, List.mem_flatMap, List.mem_range]
  constructor
  · rintro ⟨f, hf, h1⟩
    rw [hes_face hm hf] at h1
    obtain ⟨x, x1, rfl⟩ := List.mem_map.1 h1
    refine ⟨x, ?_, rfl⟩
    rw [← hm.sFace]
    exact Surface.get_lt ((mem_loopOf hm hf).1 x1)
  · rintro ⟨x, hx, rfl⟩
    obtain ⟨f, hf, hx'⟩ := hm.hasF x hx
    refine ⟨f, hf, ?_⟩
    rw [hes_face hm hf]
    exact List.mem_map.2 ⟨x, (mem_loopOf hm hf).2 hx', rfl⟩

theorem Valid.vert {m : Surface.Mesh} (hm : Valid m) {x : Nat} (hx : x < m.nH) : get m.heVertex x = some (vertOf m x) ∧ vertOf m x < m.nV := by
  obtain ⟨v, hv, e⟩ := hm.hasV x hx
  rw [vertOf, e]; exact ⟨rfl, hv⟩

theorem Valid.edge {m : Surface.Mesh} (hm : Valid m) {x : Nat} (hx : x < m.nH) : get m.heEdge x = some (edgeOf m x) ∧ edgeOf m x < m.nE := by
  obtain ⟨v, hv, e⟩ := hm.hasE x hx
  rw [edgeOf, e]; exact ⟨rfl, hv⟩

theorem Valid.tip {m : Surface.Mesh} (hm : Valid m) {x : Nat} (hx : x < m.nH) : Surface.tip m x = some (tipOf m x) ∧ tipOf m x < m.nV := by
  obtain ⟨f, hf, hx'⟩ := hm.hasF x hx
  obtain ⟨n, n1, n2⟩ := (hm.faces x f hx').get hx'
  have hn : n < m.nH := by rw [← hm.sFace]; exact Surface.get_lt n2
  obtain ⟨v, hv, e⟩ := hm.hasV n hn
  have : Surface.tip m x = some v := by rw [Surface.tip, n1]; exact e
  rw [tipOf, this]; exact ⟨rfl, hv⟩

/-- The cycles of a valid mesh: the numbers are in range, and the half-edges on an edge have the same two ends. -/
theorem readMesh_lt {m : Surface.Mesh} (hm : Valid m) : ∀ c ∈ (readMesh m).faces, ∀ x ∈ c, x.1 < m.nV ∧ x.2 < m.nE := by
  intro c hc x hx
  obtain ⟨f, hf, rfl⟩ := List.mem_map.1 hc
  obtain ⟨h, h1, rfl⟩ := List.mem_map.1 hx
  have := (mem_loopOf hm (List.mem_range.1 hf)).1 h1
  have hn : h < m.nH := by rw [← hm.sFace]; exact Surface.get_lt this
  exact ⟨(Valid.vert hm hn).2, (Valid.edge hm hn).2⟩

theorem readMesh_ends {m : Surface.Mesh} (hm : Valid m) : ∀ h ∈ (readMesh m).all, ∀ k ∈ (readMesh m).all, h.edge = k.edge → k = h ∨ k = h.rev := by
  intro h hh k hk he
  obtain ⟨x, hx, rfl⟩ := (mem_readMesh hm).1 hh
  obtain ⟨y, hy, rfl⟩ := (mem_readMesh hm).1 hk
  have he : edgeOf m x = edgeOf m y := he
  have h1 := (Valid.edge hm hx).1
  have h2 := (Valid.edge hm hy).1
  rw [← he] at h2
  have := hm.ends x y _ h1 h2
  unfold Surface.SameEnds at this
  rw [(Valid.vert hm hx).1, (Valid.vert hm hy).1, (Valid.tip hm hx).1, (Valid.tip hm hy).1] at this
  simp only [Option.some.injEq] at this
  simp only [heOf, HE.rev, HE.mk.injEq, he, true_and, and_true]
  exact this

end Verif.Bsp
