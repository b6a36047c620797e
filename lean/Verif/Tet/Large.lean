import Verif.Tet.Insert
import Verif.Tet.Props
/-!
# The large-cavity branch of `insert_vertex_bw` (lines 1036-1094), and the link of the inserted vertex
-/
namespace Verif.Tet
namespace Mesh

/-- Lines 1036-1063: as the first filling loop of the small branch, without the map. -/
def fillLoopLarge (pid : Nat) : List (Nat × Fin 4) → Mesh → Option Mesh
  | [], m => some m
  | b :: bs, m => do
    let (m, _, _) ← fillStep pid b m []
    fillLoopLarge pid bs m

/-- The inner `loop` (lines 1080-1085), on fuel: rotate about the edge until leaving the infected tetrahedra. -/
def spinOut : Nat → Mesh → TriFace → Option TriFace
  | 0, _, _ => none
  | fuel + 1, m, t => do
    let t ← m.fnext t
    if ← m.infected t.tet then spinOut fuel m t else some t

/-- One pass of `for _ in 0..3` (lines 1075-1092). -/
def connectSpin (fuel : Nat) (oldtet newtet : TriFace) (m : Mesh) : Option Mesh := do
  let neightet := newtet.esym
  let x ← m.tets[neightet.tet]?
  match x.nei (face neightet.ver) with
  | some _ => some m
  | none =>
    let spintet ← spinOut fuel m oldtet
    let nn ← m.fsym spintet
    m.bond neightet nn.esym

/-- The second loop of the large branch (lines 1069-1093). -/
def connectLoopLarge (fuel : Nat) : List TriFace → Mesh → Option Mesh
  | [], m => some m
  | o :: os, m => do
    let neightet ← m.fsym o
    let newtet ← m.fsym neightet
    let m ← connectSpin fuel o newtet m
    let m ← connectSpin fuel o.enext newtet.enext m
    let m ← connectSpin fuel o.enext.enext newtet.enext.enext m
    connectLoopLarge fuel os m

/-- The branch for `v_out >= 1024` (lines 1036-1094). `cave_bdry_list` is not overwritten here, so line 1066 picks one of
the *old* tetrahedra. -/
def fillLarge (fuel pid : Nat) (s : Cavity) : Option (Mesh × TriFace) := do
  let m ← fillLoopLarge pid s.bdry s.mesh
  let b ← s.bdry[s.bdry.length / 2]?
  let search : TriFace := ⟨b.1, verOfFace b.2⟩
  let m ← m.setP2t pid search.tet
  let m ← connectLoopLarge fuel (s.bdry.map fun b => ⟨b.1, verOfFace b.2⟩) m
  return (m, search)

/-- `insert_vertex_bw` from the cavity seeds on (lines 905-1101); `limit` is the constant 1024 of line 964. -/
def insertVertex (limit fuel : Nat) (test : Nat → Bool) (seed : List Nat) (pid : Nat) (m : Mesh) : Option (Mesh × TriFace) := do
  let m ← infectAll seed m
  let s ← cavityLoop test fuel 0 { mesh := m, old := seed, bdry := [] }
  let (m, search) ← if (s.bdry.length + 4) / 2 < limit then fillSmall pid s else fillLarge fuel pid s
  let m ← killAll s.old m
  return (m, search)

end Mesh

/-- The tetrahedron is marked dead (`mask == !0`). -/
def Dead (m : Mesh) (t : Nat) : Prop := ∃ x, m.tets[t]? = some x ∧ x.infected = true ∧ x.marked = true ∧ x.dead = true

theorem setP2t_spec {m m' : Mesh} {i t : Nat} (h : m.setP2t i t = some m') :
    m'.tets = m.tets ∧ m'.p2t = m.p2t.set i (some t) ∧ i < m.p2t.length := by
  unfold Mesh.setP2t at h
  split at h
  · cases h; exact ⟨rfl, rfl, ‹_›⟩
  · cases h

theorem connectSpin_p2t {fuel : Nat} {o n : TriFace} {m m' : Mesh} (h : Mesh.connectSpin fuel o n m = some m') :
    m'.p2t = m.p2t := by
  unfold Mesh.connectSpin at h
  simp only [Option.bind_eq_bind, Option.bind_eq_some_iff] at h
  obtain ⟨x, -, h⟩ := h
  split at h
  · cases h; rfl
  · simp only [Option.bind_eq_some_iff] at h
    obtain ⟨_, -, _, -, h⟩ := h
    exact (Mesh.bond_spec h).2.2.2.1

theorem connectLoopLarge_p2t {fuel : Nat} : ∀ (os : List TriFace) {m m' : Mesh},
    Mesh.connectLoopLarge fuel os m = some m' → m'.p2t = m.p2t := by
  intro os
  induction os with
  | nil => intro m m' h; simp [Mesh.connectLoopLarge] at h; rw [h]
  | cons o os ih =>
    intro m m' h
    simp only [Mesh.connectLoopLarge, Option.bind_eq_bind, Option.bind_eq_some_iff] at h
    obtain ⟨_, -, _, -, m1, h1, m2, h2, m3, h3, h4⟩ := h
    rw [ih h4, connectSpin_p2t h3, connectSpin_p2t h2, connectSpin_p2t h1]

theorem killAll_succ : ∀ (r : List Nat) {m m' : Mesh}, Mesh.killAll r m = some m' → ∀ u ∈ r, u < m.tets.length := by
  intro r
  induction r with
  | nil => intro _ _ _ u hu; cases hu
  | cons t r ih =>
    intro m m' h u hu
    simp only [Mesh.killAll, Option.bind_eq_bind, Option.bind_eq_some_iff] at h
    obtain ⟨m1, h1, h2⟩ := h
    obtain ⟨-, -, l, hl⟩ := Mesh.modify_frame h1
    rcases List.mem_cons.1 hu with rfl | hu
    · exact hl
    · have := ih h2 u hu; omega

/-- The two branches of the code, seen through the model of the small one. -/
theorem insertVertex_small {limit fuel : Nat} {test : Nat → Bool} {seed : List Nat} {pid : Nat} {m m' : Mesh} {search : TriFace}
    (hlim : ∀ m1 s, Mesh.infectAll seed m = some m1 →
      Mesh.cavityLoop test fuel 0 { mesh := m1, old := seed, bdry := [] } = some s → (s.bdry.length + 4) / 2 < limit)
    (h : m.insertSmall fuel test seed pid = some (m', search)) :
    m.insertVertex limit fuel test seed pid = some (m', search) := by
  simp only [Mesh.insertSmall, Option.bind_eq_bind, Option.bind_eq_some_iff] at h
  obtain ⟨m1, h1, s, h2, h3⟩ := h
  simp only [Mesh.insertVertex, h1, h2, Option.bind_eq_bind, Option.bind_some, if_pos (hlim m1 s h1 h2)]
  simpa [Option.bind_eq_some_iff] using h3

/-- C45, refuted for large cavities: whenever the large branch is taken on a consistent mesh and the insertion succeeds,
the link of the inserted vertex names a dead tetrahedron that does not have the vertex as a corner in the mesh the insertion
started from, and so does the handle handed to the next point location. -/
theorem c45_large_cavity_link_dead (m : Mesh) (live : Nat → Prop) (hc : Consistent m live)
    (hclean : ∀ j x, live j → m.tets[j]? = some x → x.infected = false ∧ x.marked = false)
    (pid : Nat) (test : Nat → Bool) (seed : List Nat) (hsn : seed.Nodup) (hsl : ∀ c ∈ seed, live c)
    (limit fuel : Nat) (hf : m.tets.length < fuel) (m' : Mesh) (search : TriFace)
    (hlarge : ∀ m1 s, Mesh.infectAll seed m = some m1 →
      Mesh.cavityLoop test fuel 0 { mesh := m1, old := seed, bdry := [] } = some s → limit ≤ (s.bdry.length + 4) / 2)
    (h : m.insertVertex limit fuel test seed pid = some (m', search)) :
    m'.p2t[pid]? = some (some search.tet) ∧ Dead m' search.tet ∧ live search.tet ∧ CavityReach m test seed search.tet := by
  obtain ⟨m1, s, e1, e2, hinv, hS, hB⟩ := Mesh.cavity_spec hc hclean test seed hsn hsl fuel hf
  simp only [Mesh.insertVertex, e1, e2, Option.bind_eq_bind, Option.bind_some,
    if_neg (by have := hlarge m1 s e1 e2; omega : ¬ (s.bdry.length + 4) / 2 < limit)] at h
  simp only [Mesh.fillLarge, Option.bind_eq_bind, Option.bind_eq_some_iff, Option.pure_def, Option.some.injEq] at h
  obtain ⟨⟨m5, s5⟩, ⟨m2, h2, b, hb, m3, h3, m4, h4, h5⟩, m6, h6, h7⟩ := h
  simp only [Prod.mk.injEq] at h5 h7
  obtain ⟨rfl, rfl⟩ := h5
  obtain ⟨rfl, rfl⟩ := h7
  simp only at h6 ⊢
  obtain ⟨m7, e7, -, p7, g7⟩ := Mesh.killAll_spec s.old m4 (killAll_succ _ h6)
  rw [h6] at e7; cases e7
  obtain ⟨-, p3, hp3⟩ := setP2t_spec h3
  have hbm : b ∈ s.bdry := List.mem_of_getElem? hb
  have hbo : b.1 ∈ s.old := ((hB b.1 b.2).1 hbm).1
  refine ⟨?_, ?_, hinv.alive _ hbo, (hS _).1 hbo⟩
  · rw [p7, connectLoopLarge_p2t _ h4, p3, List.getElem?_set_self hp3]
  · have hlt := killAll_succ _ h6 _ hbo
    refine ⟨_, by rw [g7, List.getElem?_eq_getElem hlt]; rfl, ?_⟩
    simp [hbo]

/-- The concrete run with the limit lowered to 0, so that the large branch is taken on the five initial tetrahedra:
the insertion succeeds and the link of the inserted point 4 names the dead tetrahedron 0. -/
example : ((exMesh.insertVertex 0 9 (fun _ => false) [0] 4).bind fun r => r.1.p2t[4]?) = some (some 0) ∧
    ((exMesh.insertVertex 0 9 (fun _ => false) [0] 4).bind fun r => (r.1.tets[0]?).map (·.dead)) = some true := by
  decide +kernel

/-- With the limit of the code the same insertion takes the small branch and names a live one. -/
example : ((exMesh.insertVertex 1024 9 (fun _ => false) [0] 4).bind fun r => r.1.p2t[4]?) = some (some 7) ∧
    ((exMesh.insertVertex 1024 9 (fun _ => false) [0] 4).bind fun r => (r.1.tets[7]?).map fun t => (t.dead, t.data 2)) =
      some (false, 4) := by
  decide +kernel

/-- C45 for cavities below the limit: the link of the inserted vertex, and the search handle, name a live tetrahedron having
the vertex as a corner. What is missing from the full claim (this conclusion without `hlim`) is false, see
`c45_large_cavity_link_dead`. -/
theorem c45_link_live_partial (m : Mesh) (live : Nat → Prop) (hc : Consistent m live) (hg : GhostLast m live)
    (hclean : ∀ j x, live j → m.tets[j]? = some x → x.infected = false ∧ x.marked = false)
    (hlink : ∀ t x i, live t → m.tets[t]? = some x → ∃ t' x', m.p2t[x.data i]? = some (some t') ∧ m.tets[t']? = some x')
    (pid : Nat) (hpid : pid < m.p2t.length) (hpn : pid ≠ m.nPoints)
    (hfresh : ∀ (j : Nat) (x : Tet) (i : Fin 4), m.tets[j]? = some x → x.data i ≠ pid)
    (test : Nat → Bool) (seed : List Nat) (hsn : seed.Nodup) (hsl : ∀ c ∈ seed, live c)
    (hman : EdgeManifold m live (CavityReach m test seed)) (hne : ∃ H, Outer m live (CavityReach m test seed) H)
    (fuel : Nat) (hf : m.tets.length < fuel)
    (hlim : ∀ m1 s, Mesh.infectAll seed m = some m1 →
      Mesh.cavityLoop test fuel 0 { mesh := m1, old := seed, bdry := [] } = some s → (s.bdry.length + 4) / 2 < 1024) :
    ∃ m' search, m.insertVertex 1024 fuel test seed pid = some (m', search) ∧
      m'.p2t[pid]? = some (some search.tet) ∧
      LinkOk m' (liveAfter m m' live (CavityReach m test seed)) pid := by
  obtain ⟨m', search, e, hcons, -, -, h4, -, -, -, h8, -, h10, h11, h12⟩ :=
    c60_insert_vertex m live hc hg hclean hlink pid hpid hpn hfresh test seed hsn hsl hman hne fuel hf
  refine ⟨m', search, insertVertex_small hlim e, h12, ?_⟩
  obtain ⟨v, H, -, g, ho⟩ := h4 _ h10 h11
  obtain ⟨x, hx, -⟩ := hcons.corners search.tet (.inr ⟨h10, h11⟩)
  simp only [Mesh.oppo, hx, Option.map_some, Option.some.injEq] at ho
  rw [← ho]
  exact h8 search.tet x _ h10 hx

/-- The hypotheses of `c60_insert_vertex` hold for the initial mesh on five points, the point 4 and the cavity `{0}`. -/
theorem exMesh_hyps : ∃ live, Consistent exMesh live ∧ GhostLast exMesh live ∧
    (∀ j x, live j → exMesh.tets[j]? = some x → x.infected = false ∧ x.marked = false) ∧
    (∀ t x i, live t → exMesh.tets[t]? = some x →
      ∃ t' x', exMesh.p2t[x.data i]? = some (some t') ∧ exMesh.tets[t']? = some x') ∧
    (∀ (j : Nat) (x : Tet) (i : Fin 4), exMesh.tets[j]? = some x → x.data i ≠ 4) ∧
    EdgeManifold exMesh live (CavityReach exMesh (fun _ => false) [0]) ∧
    ∃ H, Outer exMesh live (CavityReach exMesh (fun _ => false) [0]) H := by
  obtain ⟨m', e, hl, -, hc, hg, -⟩ := c41_initial_delaunay 5 0 1 2 3 (List.replicate 6 none) (by decide) (by decide) (by decide)
    (by decide) (by decide) (by decide) (by decide) (by decide) (by decide) (by decide) (by decide)
  have he : m' = exMesh := by
    have := e.symm.trans exMesh_eq
    simp only [Option.some.injEq, Prod.mk.injEq, and_true] at this
    exact this
  subst he
  have h1 : ∀ x ∈ exMesh.tets, x.infected = false ∧ x.marked = false := by decide +kernel
  have h2 : ∀ x ∈ exMesh.tets, ∀ i, x.data i ≠ 4 := by decide +kernel
  have h3 : ∀ x ∈ exMesh.tets, ∀ i, ∃ t' : Fin 5, exMesh.p2t[x.data i]? = some (some t'.val) := by decide +kernel
  have h4 : ∀ (a b : Fin 5) (v w : Ver), (exMesh.fsym ⟨a, v⟩).map (·.tet) = some 0 → (exMesh.fsym ⟨b, w⟩).map (·.tet) = some 0 →
      exMesh.org ⟨a, v⟩ = exMesh.org ⟨b, w⟩ → exMesh.dest ⟨a, v⟩ = exMesh.dest ⟨b, w⟩ → a = b ∧ v = w := by decide +kernel
  refine ⟨(· < 5), hc, hg, fun j x _ hx => h1 x (List.mem_of_getElem? hx), ?_,
    fun j x i hx => h2 x (List.mem_of_getElem? hx) i, ?_, ⟨4, 11⟩, by decide, by rw [exReach]; decide, ⟨0, 11⟩, by decide +kernel,
    by rw [exReach]⟩
  · intro t x i _ hx
    obtain ⟨t', h⟩ := h3 x (List.mem_of_getElem? hx) i
    exact ⟨t', _, h, List.getElem?_eq_getElem (by rw [hl]; exact t'.2)⟩
  · rintro ⟨a, v⟩ ⟨b, w⟩ ⟨ha, -, c, hc1, hc2⟩ ⟨hb, -, d, hd1, hd2⟩ ho hd
    rw [exReach] at hc2 hd2
    obtain ⟨h5, h6⟩ := h4 ⟨a, ha⟩ ⟨b, hb⟩ v w (by simp [hc1, hc2]) (by simp [hd1, hd2]) ho hd
    simp only [Fin.mk.injEq] at h5
    rw [h5, h6]

/-- Hence the conclusions of C60 hold for it. -/
example : ∃ m' search, exMesh.insertSmall 9 (fun _ => false) [0] 4 = some (m', search) ∧ m'.tets.length = 9 := by
  obtain ⟨live, h1, h2, h3, h4, h5, h6, h7⟩ := exMesh_hyps
  obtain ⟨m', search, e, -⟩ := c60_insert_vertex exMesh live h1 h2 h3 h4 4 (by decide +kernel) (by decide +kernel) h5
    (fun _ => false) [0] (by simp)
    (by obtain ⟨H, hHl, -, c, hc, hS⟩ := h7
        rw [exReach] at hS
        intro c' hc'
        simp only [List.mem_singleton] at hc'
        subst hc'
        exact hS ▸ (h1.glued_of_fsym hHl hc).1) h6 h7 9 (by decide +kernel)
  refine ⟨m', search, e, ?_⟩
  have : (exMesh.insertSmall 9 (fun _ => false) [0] 4).map (fun r => r.1.tets.length) = some 9 := by decide +kernel
  rw [e] at this
  exact Option.some.inj this

/-- `incident` on a mesh with an interior vertex: the star of vertex 4 has four tetrahedra. -/
example : ((exMesh.insertSmall 9 (fun _ => false) [0] 4).bind fun r => (r.1.incident 20 4).map (·.2)) = some [7, 5, 6, 8] := by
  decide +kernel

end Verif.Tet
