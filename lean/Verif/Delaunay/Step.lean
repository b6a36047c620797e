import Verif.Delaunay.Walk
import Verif.Delaunay.Keep
import Verif.Tet.Large
/-!
# One insertion keeps the complex Delaunay
-/
namespace Verif.Delaunay
open Tet
open InSphere (Pt orient3d)

variable {K : Type} [Field K] [LinearOrder K] [IsStrictOrderedRing K]

/-- The state of `tetrahedralize` between two insertions: `F` are the inserted points and the ghost vertex, `s` is the search handle. -/
structure State (pts : List (Pt K)) (V : Nat → Vec K) (p0 p1 p2 p3 : Nat) (m : Mesh) (live : Nat → Prop) (F : Finset Nat) (s : TriFace) : Prop where
  dt : Dt pts V p0 p1 p2 p3 m live (· ∈ F)
  ghost : pts.length ∈ F
  clean : ∀ j x, live j → m.tets[j]? = some x → x.infected = false ∧ x.marked = false
  ghostLink : ∃ t x, m.p2t[pts.length]? = some (some t) ∧ m.tets[t]? = some x
  link : ∀ v ∈ F, v < pts.length → LinkOk m live v
  plen : m.p2t.length = pts.length + 1
  only : ∀ (j : Nat) (x : Tet.Tet) (i : Fin 4), m.tets[j]? = some x → x.data i ∈ F
  gone : ∀ j, j < m.tets.length → ¬ live j → AllSet m j
  search : live s.tet

/-- The cavity of the insertion of `pid` takes the branch for small cavities (fewer than 2044 boundary faces). -/
def SmallStep (m : Mesh) (pts : List (Pt K)) (fuel pid : Nat) (s : TriFace) : Prop :=
  ∀ loc t seed m1 c, m.locateDt pts fuel pid s = some (loc, t) → m.seeds fuel loc t = some (some seed) → Mesh.infectAll seed m = some m1 →
    Mesh.cavityLoop (m.cavityTest pts pid) fuel 0 { mesh := m1, old := seed, bdry := [] } = some c → (c.bdry.length + 4) / 2 < 1024

variable {pts : List (Pt K)} {V : Nat → Vec K} {p0 p1 p2 p3 : Nat} {m : Mesh} {live : Nat → Prop} {F : Finset Nat} {s : TriFace}

set_option maxHeartbeats 800000 in
theorem State.step (S : State pts V p0 p1 p2 p3 m live F s) {pid : Nat} (hp : pid < pts.length) (hpF : pid ∉ F) {fuel : Nat}
    (hf : m.tets.length < fuel) (hlim : F.card ≤ 1021 ∨ SmallStep m pts fuel pid s) :
    ∃ m' s' live', m.insertVertexBw pts fuel pid s = some (m', s', true) ∧ State pts V p0 p1 p2 p3 m' live' (insert pid F) s' ∧
      m'.tets.length ≤ m.tets.length + 2 * F.card := by
  have D := S.dt
  have R := D.reg
  obtain ⟨loc, r, eloc, hrl, hans⟩ := D.locate hp S.search hf
  obtain ⟨N, hN, hseed⟩ := D.seeds hp hpF hrl hans
  obtain ⟨seed, eseed, hnd, hne, hconf⟩ := hseed fuel (by omega)
  have htest : ∀ t, live t → (m.cavityTest pts pid t = true ↔ InConflict V m live (V pid) t) := by
    intro t hl
    obtain ⟨x, hx, -⟩ := R.cons.corners _ hl
    rw [(D.test hl hx hp hpF).1]
    constructor
    · intro h; exact ⟨hl, x, hx, h⟩
    · rintro ⟨-, x', hx', h⟩
      rw [hx] at hx'; cases hx'; exact h
  have hgen : ∀ t x, live t → m.tets[t]? = some x → phi V x (V pid) ≠ 0 := fun t x hl hx => (D.test hl hx hp hpF).2
  have hcav : CavityReach m (m.cavityTest pts pid) seed = InConflict V m live (V pid) := by
    funext t; exact propext (R.cavity_eq htest hconf hne t)
  obtain ⟨t0, ht0⟩ := List.exists_mem_of_ne_nil _ hne
  obtain ⟨l, hl⟩ := D.lift.half
  have hout := R.exists_outer (hconf t0 ht0) l (fun q hq => hl q (D.le q hq)) (hl pid hp.le)
  have hpn : pid ≠ m.nPoints := by rw [D.num]; omega
  have hlink : ∀ t x i, live t → m.tets[t]? = some x → ∃ t' x', m.p2t[x.data i]? = some (some t') ∧ m.tets[t']? = some x' := by
    intro t x i hl hx
    have hm := R.mem t x i hl hx
    rcases Nat.lt_or_ge (x.data i) pts.length with h | h
    · obtain ⟨t', x', h1, -, h2, -⟩ := S.link _ hm h
      exact ⟨t', x', h1, h2⟩
    · have : x.data i = pts.length := le_antisymm (D.le _ hm) h
      rw [this]; exact S.ghostLink
  obtain ⟨m', search, e, hcons, hghost, hcl, hnew, hface, hdata, hkill, hlinkN, hlinkO, hs1, hs2, hps, hnP, hpl, hset, hcount⟩ :=
    insert_vertex_all m live R.cons D.last S.clean hlink pid (by rw [S.plen]; omega) hpn
      (fun j x i hx h => hpF (h ▸ S.only j x i hx)) (m.cavityTest pts pid) seed hnd (fun c hc => (hconf c hc).1)
      (by rw [hcav]; exact R.edgeManifold hgen) (by rw [hcav]; exact hout) fuel hf
  rw [hcav] at hcons hghost hcl hnew hface hkill hlinkN
  have I : Inserted m m' live (InConflict V m live (V pid)) pid := ⟨hcons, hnew, hdata⟩
  have R' := R.insert hpF hgen I
  have live_lt : ∀ t, live t → t < m.tets.length := fun t ht => by
    obtain ⟨x, hx, -⟩ := R.cons.corners _ ht; exact (List.getElem?_eq_some_iff.1 hx).1
  have hge : m.tets.length ≤ m'.tets.length := by omega
  have hU : ∀ q, ((q ∈ F) ∨ q = pid) ↔ q ∈ insert pid F := fun q => by rw [Finset.mem_insert, or_comm]
  -- the number of new tetrahedra
  have hnum : m'.tets.length ≤ m.tets.length + 2 * F.card := by
    have h1 := R'.star_card pid (insert pid F) hU (Finset.Ico m.tets.length m'.tets.length) (by
      intro t ht
      rw [Finset.mem_Ico] at ht
      refine ⟨.inr ht, _, List.getElem?_eq_getElem ht.2, ?_⟩
      obtain ⟨v, H, -, -, ho⟩ := hnew t ht.1 ht.2
      simp only [Mesh.oppo, List.getElem?_eq_getElem ht.2, Option.map_some, Option.some.injEq] at ho
      exact ⟨_, ho⟩)
    rw [Nat.card_Ico, Finset.erase_insert hpF] at h1
    omega
  have eV : m.insertVertex 1024 fuel (m.cavityTest pts pid) seed pid = some (m', search) := by
    refine insertVertex_small ?_ e
    intro m1 c h1 h2
    rcases hlim with h | h
    · have := hcount m1 c h1 h2
      omega
    · exact h loc r seed m1 c eloc eseed h1 h2
  refine ⟨m', search, liveAfter m m' live (InConflict V m live (V pid)), ?_, ?_, hnum⟩
  · simp [Mesh.insertVertexBw, eloc, eseed, eV]
  have oldT : ∀ {j : Nat} {x : Tet.Tet}, j < m.tets.length → m'.tets[j]? = some x → ∃ y, m.tets[j]? = some y ∧ x.data = y.data :=
    fun hj hx => I.old hj hx
  refine
    { dt :=
        { reg := ?_, lift := D.lift, dist := D.dist, num := by rw [hnP, D.num], le := ?_
          base0 := ⟨Finset.mem_insert_of_mem D.base0.1, D.base0.2⟩, base1 := ⟨Finset.mem_insert_of_mem D.base1.1, D.base1.2⟩
          base2 := ⟨Finset.mem_insert_of_mem D.base2.1, D.base2.2⟩, base3 := ⟨Finset.mem_insert_of_mem D.base3.1, D.base3.2⟩
          base := D.base, last := hghost, solid := ?_ }
      ghost := Finset.mem_insert_of_mem S.ghost
      clean := hcl, ghostLink := ?_, link := ?_, plen := by rw [hpl, S.plen], only := ?_, gone := ?_, search := .inr ⟨hs1, hs2⟩ }
  · exact (funext fun q => propext (hU q)) ▸ R'
  · intro q hq
    rcases Finset.mem_insert.1 hq with h | h
    · omega
    · exact D.le q h
  · rintro t x (⟨h1, h2⟩ | ⟨h1, h2⟩) hx h3
    · obtain ⟨y, hy, e⟩ := oldT (live_lt t h1) hx
      have := D.solid t y h1 hy (by rw [← e]; exact h3)
      rw [phi_congr e]; exact this
    · obtain ⟨v, H, h, x1, y1, a, b, c, d, e', l1, l2, -, -, s1, s2, q1, q2, s3, -⟩ := I.sees R hgen h1 hx
      have hnn : ∀ i, x.data i ≠ pts.length := by
        intro i hi
        rw [← D.num, ← hnP] at hi
        have := hghost t (.inr ⟨h1, h2⟩) x hx i hi
        rw [this, hnP, D.num] at hi
        exact h3 hi
      rw [s3.phi]
      exact D.new_solid l1 l2 s1 s2 q1 q2 (by rw [← s3.org]; exact hnn _) (by rw [← s3.dest]; exact hnn _) (by rw [← s3.apex]; exact hnn _) hp
  · -- the ghost's link
    by_cases h : ∃ t x i, m.tets.length ≤ t ∧ m'.tets[t]? = some x ∧ x.data i = pts.length
    · obtain ⟨t, x, i, h1, hx, hi⟩ := h
      obtain ⟨t', x', h2, -, h3, -⟩ := hlinkN t x i h1 hx
      rw [hi] at h2
      exact ⟨t', x', h2, h3⟩
    · obtain ⟨t, x, h1, h2⟩ := S.ghostLink
      obtain ⟨y, hy, -⟩ := I.old' h2
      refine ⟨t, y, ?_, hy⟩
      rw [hlinkO _ (fun t x i a b c => h ⟨t, x, i, a, b, c⟩)]; exact h1
  · intro v hv hvn
    by_cases h : ∃ t x i, m.tets.length ≤ t ∧ m'.tets[t]? = some x ∧ x.data i = v
    · obtain ⟨t, x, i, h1, hx, hi⟩ := h
      rw [← hi]; exact hlinkN t x i h1 hx
    · have hvF : v ∈ F := by
        rcases Finset.mem_insert.1 hv with hvp | hv
        · exfalso
          apply h
          obtain ⟨w, H, -, -, ho⟩ := hnew _ hs1 hs2
          simp only [Mesh.oppo, List.getElem?_eq_getElem hs2, Option.map_some, Option.some.injEq] at ho
          exact ⟨_, _, _, hs1, List.getElem?_eq_getElem hs2, ho.trans hvp.symm⟩
        · exact hv
      obtain ⟨t, x, h1, h2, h3, h4⟩ := S.link v hvF hvn
      obtain ⟨y, hy, hyd⟩ := I.old' h3
      refine ⟨t, y, ?_, .inl ⟨h2, ?_⟩, hy, by rw [hyd]; exact h4⟩
      · rw [hlinkO _ (fun t x i a b c => h ⟨t, x, i, a, b, c⟩)]; exact h1
      · intro hS
        obtain ⟨g, hg0, hg⟩ := D.lift.ext v hvn
        obtain ⟨H, y1, a, b, c, d, ho, hsee, habc⟩ := R.keeps F (fun q => Iff.rfl) g hg0 (fun q hq hne => hg q (D.le q hq) hne)
          (hg pid hp.le (fun e => hpF (e ▸ hvF))) hS h3 h4 hvF
        -- the new tetrahedron on this face
        obtain ⟨k, ⟨G, k1, k2, -⟩, -⟩ := hface H ho
        obtain ⟨y2, hy2, ey⟩ := I.old' hsee.get
        have g1 := G.org
        have g2 := G.dest
        have g3 := G.apex
        simp only [Mesh.org, Mesh.dest, Mesh.apex, hy2, List.getElem?_eq_getElem k2, Option.map_some, Option.some.injEq, ey, hsee.org, hsee.dest, hsee.apex] at g1 g2 g3
        rcases habc with e | e | e
        · exact h ⟨_, _, _, k1, List.getElem?_eq_getElem k2, g2.trans e.symm⟩
        · exact h ⟨_, _, _, k1, List.getElem?_eq_getElem k2, g1.trans e.symm⟩
        · exact h ⟨_, _, _, k1, List.getElem?_eq_getElem k2, g3.trans e.symm⟩
  · intro j x i hx
    rcases Nat.lt_or_ge j m.tets.length with h | h
    · obtain ⟨y, hy, e⟩ := oldT h hx
      rw [e]; exact Finset.mem_insert_of_mem (S.only j y i hy)
    · rw [← hU]
      exact R'.mem j x i (.inr ⟨h, (List.getElem?_eq_some_iff.1 hx).1⟩) hx
  · intro j hj hn
    rcases Nat.lt_or_ge j m.tets.length with h | h
    · by_cases hlj : live j
      · have hS : InConflict V m live (V pid) j := by
          by_contra hS; exact hn (.inl ⟨hlj, hS⟩)
        obtain ⟨x, hx, a, b, c⟩ := hkill j hS
        exact ⟨x, hx, a, b, c⟩
      · exact hset j hlj (S.gone j h hlj)
    · exact absurd (.inr ⟨h, hj⟩) hn

end Verif.Delaunay
