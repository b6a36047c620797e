import Verif.Delaunay.First
/-!
# Properties of the Delaunay construction
-/
namespace Verif.Delaunay
open Tet
open InSphere (Pt orient3d)

variable {K : Type} [Field K] [LinearOrder K] [IsStrictOrderedRing K]

/-- Insertion of the points with the given indices, one after the other; all insertions succeed. -/
def insertAll (pts : List (Pt K)) (fuel : Nat) : List Nat → Mesh → TriFace → Option (Mesh × TriFace)
  | [], m, s => some (m, s)
  | p :: ps, m, s => do
    let (m, s, ok) ← m.insertVertexBw pts fuel p s
    if ok then insertAll pts fuel ps m s else none

variable {pts : List (Pt K)}

theorem State.run {V : Nat → Vec K} {p0 p1 p2 p3 : Nat} {fuel : Nat} : ∀ (l : List Nat) (m : Mesh) (live : Nat → Prop) (F : Finset Nat) (s : TriFace),
    State pts V p0 p1 p2 p3 m live F s → l.Nodup → (∀ q ∈ l, q < pts.length ∧ q ∉ F) → m.tets.length + 2 * pts.length * l.length ≤ fuel →
    0 < pts.length → pts.length ≤ 1021 →
    ∃ m' s' live', insertAll pts fuel l m s = some (m', s') ∧ State pts V p0 p1 p2 p3 m' live' (l.foldl (fun F p => insert p F) F) s' ∧
      m'.tets.length ≤ m.tets.length + 2 * pts.length * l.length
  | [], m, live, F, s, S, _, _, _, _, _ => ⟨m, s, live, rfl, S, by simp⟩
  | p :: l, m, live, F, s, S, hnd, hq, hf, hn, hlim => by
    obtain ⟨hp, hpF⟩ := hq p (by simp)
    have hcard := S.card hp hpF
    simp only [List.length_cons, Nat.mul_add, Nat.mul_one] at hf
    obtain ⟨m', s', live', e, S', hlen⟩ := S.step hp hpF (fuel := fuel) (by omega) (Or.inl (by omega))
    rw [List.nodup_cons] at hnd
    obtain ⟨m'', s'', live'', e', S'', hlen'⟩ := State.run (fuel := fuel) l m' live' (insert p F) s' S' hnd.2 (fun q hqr => by
      obtain ⟨a, b⟩ := hq q (by simp [hqr])
      refine ⟨a, ?_⟩
      rw [Finset.mem_insert, not_or]
      exact ⟨fun h => hnd.1 (h ▸ hqr), b⟩) (by omega) hn hlim
    refine ⟨m'', s'', live'', ?_, S'', by simp only [List.length_cons, Nat.mul_add, Nat.mul_one]; omega⟩
    simp only [insertAll, e, Option.bind_eq_bind, Option.bind_some, if_true]
    exact e'

/-- The setting of C83 and C84: distinct points, an order of all of them whose first four are negatively oriented. -/
structure Setting (pts : List (Pt K)) (p0 p1 p2 p3 : Nat) (rest : List Nat) : Prop where
  nodup : pts.Nodup
  perm : (p0 :: p1 :: p2 :: p3 :: rest).Perm (List.range pts.length)
  orient : ∀ a b c d, pts[p0]? = some a → pts[p1]? = some b → pts[p2]? = some c → pts[p3]? = some d → orient3d a b c d < 0

theorem Setting.start {p0 p1 p2 p3 : Nat} {rest : List Nat} (T : Setting pts p0 p1 p2 p3 rest) :
    ∃ V m, initialDelaunay (Mesh.new pts.length) p0 p1 p2 p3 = some (m, ⟨0, 11⟩) ∧ m.tets.length = 5 ∧
      State pts V p0 p1 p2 p3 m (· < 5) {p0, p1, p2, p3, pts.length} ⟨0, 11⟩ ∧ rest.Nodup ∧
      (∀ q ∈ rest, q < pts.length ∧ q ∉ ({p0, p1, p2, p3, pts.length} : Finset Nat)) ∧ rest.length + 4 = pts.length := by
  have hmem : ∀ q, q ∈ (p0 :: p1 :: p2 :: p3 :: rest) ↔ q < pts.length := fun q => by rw [T.perm.mem_iff, List.mem_range]
  have hnd := T.perm.nodup_iff.2 List.nodup_range
  have hlen := T.perm.length_eq
  simp only [List.length_cons, List.length_range] at hlen
  have h0 := (hmem p0).1 (by simp)
  have h1 := (hmem p1).1 (by simp)
  have h2 := (hmem p2).1 (by simp)
  have h3 := (hmem p3).1 (by simp)
  simp only [List.nodup_cons, List.mem_cons, not_or] at hnd
  obtain ⟨⟨n01, n02, n03, r0⟩, ⟨n12, n13, r1⟩, ⟨n23, r2⟩, r3, hrest⟩ := hnd
  have hd' : ∀ i < pts.length, ∀ j < pts.length, i ≠ j → pt pts i ≠ pt pts j := by
    intro i hi j hj hij e
    apply hij
    have : pts[i] = pts[j] := by simpa [pt, hi, hj] using e
    exact (List.Nodup.getElem_inj_iff T.nodup).1 this
  obtain ⟨V, L⟩ := exists_lift (pt pts) pts.length p0 p1 p2 p3 hd' h0 h1 h2 h3
  obtain ⟨m, e, hl, S⟩ := initial_state hd' L h0 h1 h2 h3 n01 n02 n03 n12 n13 n23
    (T.orient _ _ _ _ (get_pt h0) (get_pt h1) (get_pt h2) (get_pt h3))
  refine ⟨V, m, e, hl, S, hrest, ?_, by omega⟩
  intro q hq
  have hqn := (hmem q).1 (by simp [hq])
  refine ⟨hqn, ?_⟩
  simp only [Finset.mem_insert, Finset.mem_singleton, not_or]
  exact ⟨fun h => r0 (h ▸ hq), fun h => r1 (h ▸ hq), fun h => r2 (h ▸ hq), fun h => r3 (h ▸ hq), by omega⟩

/-- C83. During the construction on at most 1021 distinct points, in every complex reached by inserting some of them (`done`), for every query point and every start in a tetrahedron of the
complex, point location stops after at most as many rounds as there are tetrahedra, and its answer is right (`Answer`). -/
theorem c83_locate_stops {p0 p1 p2 p3 : Nat} {done todo : List Nat} (T : Setting pts p0 p1 p2 p3 (done ++ todo)) (hn : pts.length ≤ 1021)
    {fuel : Nat} (hf : 2 * pts.length * pts.length ≤ fuel) :
    ∃ m0 s0 m s live, initialDelaunay (Mesh.new pts.length) p0 p1 p2 p3 = some (m0, s0) ∧ insertAll pts fuel done m0 s0 = some (m, s) ∧
      (∀ t, live t ↔ Alive m t) ∧ live s.tet ∧
      ∀ pid p, pts[pid]? = some p → ∀ s', live s'.tet → ∀ fuel', m.tets.length < fuel' →
        ∃ loc r, m.locateDt pts fuel' pid s' = some (loc, r) ∧ live r.tet ∧ Answer m live pts p r loc := by
  obtain ⟨V, m0, e0, hl0, S, hnd, hq, hlen⟩ := T.start
  rw [List.length_append] at hlen
  have hmul : 2 * pts.length * pts.length = 2 * pts.length * done.length + 2 * pts.length * todo.length + 2 * pts.length * 4 := by rw [← hlen]; ring
  obtain ⟨m, s, live, e, S', -⟩ := S.run done m0 _ _ _ (List.nodup_append.1 hnd).1 (fun q h => hq q (by simp [h])) (fuel := fuel) (by omega) (by omega) hn
  refine ⟨m0, _, m, s, live, e0, e, fun t => by rw [S'.alive], S'.search, ?_⟩
  intro pid p hp s' hl' fuel' hf'
  obtain ⟨hp1, rfl⟩ := get_eq_pt hp
  exact S'.dt.locate hp1 hl' hf'

theorem mem_done (p0 p1 p2 p3 n : Nat) (done : List Nat) (q : Nat) :
    q ∈ done.foldl (fun F p => insert p F) ({p0, p1, p2, p3, n} : Finset Nat) ↔ q ∈ p0 :: p1 :: p2 :: p3 :: done ∨ q = n := by
  rw [mem_foldl_insert]
  simp only [Finset.mem_insert, Finset.mem_singleton, List.mem_cons]
  tauto

theorem mem_done' (p0 p1 p2 p3 n p : Nat) (done : List Nat) (q : Nat) :
    q ∈ insert p (done.foldl (fun F p => insert p F) ({p0, p1, p2, p3, n} : Finset Nat)) ↔ q ∈ p :: p0 :: p1 :: p2 :: p3 :: done ∨ q = n := by
  rw [Finset.mem_insert, mem_done, List.mem_cons (a := q) (b := p), or_assoc]

theorem mem_sub (p0 p1 p2 p3 p : Nat) (done todo : List Nat) {q : Nat} (h : q ∈ p0 :: p1 :: p2 :: p3 :: done ∨ q ∈ p :: p0 :: p1 :: p2 :: p3 :: done) :
    q ∈ p0 :: p1 :: p2 :: p3 :: (done ++ p :: todo) := by
  simp only [List.mem_cons, List.mem_append] at h ⊢
  tauto

/-- C84. During the construction on at most 1021 distinct points, the insertion of the next point succeeds; the complex it is inserted into, and so the next one, is
Delaunay: consistent, every solid tetrahedron is negatively oriented and no inserted point lies inside its circumsphere, and every inserted point is linked to a live tetrahedron having
it as a corner.  The insertion creates at most twice as many tetrahedra as there are inserted points (counting the ghost vertex). -/
theorem c84_insert_next {p0 p1 p2 p3 p : Nat} {done todo : List Nat} (T : Setting pts p0 p1 p2 p3 (done ++ p :: todo)) (hn : pts.length ≤ 1021)
    {fuel : Nat} (hf : 2 * pts.length * pts.length ≤ fuel) :
    ∃ m0 s0 m s m' s', initialDelaunay (Mesh.new pts.length) p0 p1 p2 p3 = some (m0, s0) ∧ insertAll pts fuel done m0 s0 = some (m, s) ∧
      m.insertVertexBw pts fuel p s = some (m', s', true) ∧ m'.tets.length ≤ m.tets.length + 2 * (done.length + 5) ∧
      ∀ M D, (M = m ∧ D = p0 :: p1 :: p2 :: p3 :: done ∨ M = m' ∧ D = p :: p0 :: p1 :: p2 :: p3 :: done) →
        Consistent M (Alive M) ∧ HullBased M ∧ (∀ v ∈ D, LinkOk M (Alive M) v) ∧
        ∀ (t : Nat) (x : Tet.Tet) (c : Fin 4 → Pt K), Alive M t → M.tets[t]? = some x → x.data 3 ≠ pts.length → (∀ i, pts[x.data i]? = some (c i)) →
          (∀ i, x.data i ∈ D) ∧ orient3d (c 0) (c 1) (c 2) (c 3) < 0 ∧
          ∃ o r, (∀ i, dist2 o (c i) = r) ∧ ∀ q ∈ D, ∀ e, pts[q]? = some e → r ≤ dist2 o e := by
  obtain ⟨V, m0, e0, hl0, S, hnd, hq, hlen⟩ := T.start
  rw [List.length_append, List.length_cons] at hlen
  have hmul : 2 * pts.length * pts.length = 2 * pts.length * done.length + 2 * pts.length * (todo.length + 1) + 2 * pts.length * 4 := by rw [← hlen]; ring
  obtain ⟨m, s, live, e, S1, hl1⟩ := S.run done m0 _ _ _ (List.nodup_append.1 hnd).1 (fun q h => hq q (by simp [h])) (fuel := fuel) (by omega) (by omega) hn
  obtain ⟨hp, hpF⟩ := hq p (by simp)
  have hpF' : p ∉ done.foldl (fun F p => insert p F) ({p0, p1, p2, p3, pts.length} : Finset Nat) := by
    rw [mem_foldl_insert, not_or]
    refine ⟨hpF, fun h => ?_⟩
    exact (List.nodup_append.1 hnd).2.2 p h p (by simp) rfl
  have hcard : (done.foldl (fun F p => insert p F) ({p0, p1, p2, p3, pts.length} : Finset Nat)).card ≤ done.length + 5 := by
    have : done.foldl (fun F p => insert p F) ({p0, p1, p2, p3, pts.length} : Finset Nat) = (p0 :: p1 :: p2 :: p3 :: pts.length :: done).toFinset := by
      ext q
      rw [mem_foldl_insert]
      simp only [Finset.mem_insert, Finset.mem_singleton, List.mem_toFinset, List.mem_cons, or_assoc]
    rw [this]
    exact (List.toFinset_card_le _).trans (by simp)
  obtain ⟨m', s', live', e', S2, hl2⟩ := S1.step hp hpF' (fuel := fuel) (by rw [hl0] at hl1; omega) (Or.inl (by omega))
  refine ⟨m0, _, m, s, m', s', e0, e, e', by omega, ?_⟩
  have key : ∀ (M : Mesh) (live : Nat → Prop) (F : Finset Nat) (s : TriFace) (D : List Nat), State pts V p0 p1 p2 p3 M live F s → (∀ q, q ∈ F ↔ q ∈ D ∨ q = pts.length) →
      (∀ q ∈ D, q < pts.length) →
      Consistent M (Alive M) ∧ HullBased M ∧ (∀ v ∈ D, LinkOk M (Alive M) v) ∧
        ∀ (t : Nat) (x : Tet.Tet) (c : Fin 4 → Pt K), Alive M t → M.tets[t]? = some x → x.data 3 ≠ pts.length → (∀ i, pts[x.data i]? = some (c i)) →
          (∀ i, x.data i ∈ D) ∧ orient3d (c 0) (c 1) (c 2) (c 3) < 0 ∧
          ∃ o r, (∀ i, dist2 o (c i) = r) ∧ ∀ q ∈ D, ∀ e, pts[q]? = some e → r ≤ dist2 o e := by
    intro M live F s D S hF hD
    rw [S.alive]
    refine ⟨S.dt.reg.cons, ?_, fun v hv => S.link v ((hF v).2 (.inl hv)) (hD v hv), ?_⟩
    · intro t x hx ha h3
      have hl : live t := by rw [← S.alive]; exact ⟨x, hx, ha⟩
      obtain ⟨h, h1, h2, h3⟩ := S.dt.embedded.hull t x hl hx h3
      exact ⟨h, h1, h3⟩
    · intro t x c hl hx h3 hc
      obtain ⟨ho, o, r, hr, hall⟩ := S.dt.sphere hl hx h3
      have hc' : ∀ i, pt pts (x.data i) = c i := fun i => (get_eq_pt (hc i)).2
      simp only [hc'] at ho hr
      refine ⟨?_, ho, o, r, hr, ?_⟩
      · intro i
        have h1 := S.dt.solid_lt hl hx h3 i
        rcases (hF _).1 (S.dt.reg.mem t x i hl hx) with h | h
        · exact h
        · omega
      · intro q hq e he
        obtain ⟨hq1, rfl⟩ := get_eq_pt he
        exact hall q hq1 ((hF q).2 (.inl hq))
  have hmem : ∀ q, q ∈ (p0 :: p1 :: p2 :: p3 :: (done ++ p :: todo)) → q < pts.length := fun q h => by
    rw [T.perm.mem_iff, List.mem_range] at h; exact h
  rintro M D (⟨rfl, rfl⟩ | ⟨rfl, rfl⟩)
  · exact key _ live _ s _ S1 (mem_done _ _ _ _ _ _) (fun q h => hmem q (mem_sub _ _ _ _ _ _ _ (Or.inl h)))
  · exact key _ live' _ s' _ S2 (mem_done' _ _ _ _ _ _ _) (fun q h => hmem q (mem_sub _ _ _ _ _ _ _ (Or.inr h)))

theorem flat_length (pts : List (Pt K)) : (flat pts).length = pts.length * 3 := by
  induction pts with
  | nil => rfl
  | cons p l ih => simp only [flat, List.flatMap_cons, List.length_append, List.length_cons] at ih ⊢; rw [ih]; simp; ring

/-- The spatial sort of the shuffled indices returns a permutation of the indices. -/
theorem sort_ok (pts : List (Pt K)) {box : List K} (hb : box.length = 6) {shuffled : List Nat} (hs : shuffled.Perm (List.range pts.length)) :
    ∃ l g, Hilbert.brioSort (fun a b : K => (a + b) / 2) (flat pts) Hilbert.sortOption Hilbert.sortOption.hilbertOrder (pts.length + 1) shuffled box 1 = some (l, g) ∧
      l.Perm (List.range pts.length) := by
  have hlen := hs.length_eq
  rw [List.length_range] at hlen
  obtain ⟨l, g, e, hl⟩ := Hilbert.c43_brio_sort (fun a b : K => (a + b) / 2) (flat pts) Hilbert.sortOption (by decide)
    (fun n hn => by simp only [Hilbert.sortOption] at hn ⊢; omega) box hb (pts.length + 1) shuffled 1 (by omega) (by
      intro x hx
      rw [hs.mem_iff, List.mem_range] at hx
      rw [flat_length]
      omega)
  exact ⟨l, g, e, hl.trans hs⟩

/-- C85 (partial). Full statement: "for distinct points that are not coplanar, `tetrahedralize` returns their Delaunay tetrahedralization".  That is false for two reasons:
points that are not coplanar can be taken for flat (`c85_taken_for_flat`), and insertions with large cavities are wrong (C45).  What holds, for all
distinct points and all shuffles: the call returns; either the result is a Delaunay tetrahedralization of the points, or it has no tetrahedra and the points are flat in the sense of the
tests.  The points are at most 1021, or no cavity reaches the size where the other branch starts. -/
theorem c85_tetrahedralize_partial (pts : List (Pt K)) (hd : pts.Nodup) (h4 : 4 ≤ pts.length) (shuffled : List Nat) (hs : shuffled.Perm (List.range pts.length)) (fuel : Nat)
    (hf : 2 * pts.length * pts.length ≤ fuel)
    (hlim : pts.length ≤ 1021 ∨ ∀ p0 p1 p2 p3 rest m s, (p0 :: p1 :: p2 :: p3 :: rest).Perm (List.range pts.length) →
      initialDelaunay (Mesh.new pts.length) p0 p1 p2 p3 = some (m, s) → SmallRun pts fuel rest m s) :
    ∃ m, tetrahedralize pts fuel shuffled = some m ∧
      (IsDelaunay pts m ∨ m.tets = [] ∧ ∃ box s, boxOf pts = some box ∧ boxSize box = some s ∧ FlatPts pts s) := by
  obtain ⟨box, s, eb, hb, es, hmax⟩ := boxOf_spec (pts := pts) (by rintro rfl; simp at h4)
  obtain ⟨l, g, el, hl⟩ := sort_ok pts hb hs
  have hspos : 0 < s := by
    have hne : pts[0]'(by omega) ≠ pts[1]'(by omega) := fun e => by
      have := (List.Nodup.getElem_inj_iff hd).1 e
      omega
    have h1 := hmax _ (List.getElem_mem (by omega : 1 < pts.length)) _ (List.getElem_mem (by omega : 0 < pts.length))
    have h2 := dist_pos hne
    simp only [norm2, diff] at h1
    refine lt_of_lt_of_le ?_ h1
    convert h2 using 1
    ring
  unfold tetrahedralize
  simp only [eb, el, es, Option.bind_eq_bind, Option.bind_some]
  rcases firstFour_spec hspos hl h4 with ⟨e, hflat⟩ | ⟨p0, p1, p2, p3, rest, e, hp, ho⟩
  · refine ⟨Mesh.new pts.length, by rw [e]; rfl, Or.inr ⟨rfl, box, s, rfl, es, hflat⟩⟩
  · obtain ⟨m, em, hm⟩ := tetrahedralizeFrom_delaunay hd p0 p1 p2 p3 rest hp ho fuel hf (hlim.imp id (fun h m s e => h p0 p1 p2 p3 rest m s hp e))
    exact ⟨m, by rw [e]; exact em, Or.inl hm⟩

/-- The corners of a cube of side 1000000 and a point near one of them. -/
def nearPts : List (Pt ℚ) :=
  [⟨0, 0, 0⟩, ⟨4, 0, 0⟩, ⟨1000000, 0, 0⟩, ⟨0, 1000000, 0⟩, ⟨1000000, 1000000, 0⟩, ⟨0, 0, 1000000⟩, ⟨1000000, 0, 1000000⟩, ⟨0, 1000000, 1000000⟩,
    ⟨1000000, 1000000, 1000000⟩]

/-- C85 is violated: for the corners of a cube and one more point close to a corner the result has no tetrahedra. -/
theorem c85_taken_for_flat : nearPts.Nodup ∧ (∃ a ∈ nearPts, ∃ b ∈ nearPts, ∃ c ∈ nearPts, ∃ d ∈ nearPts, orient3d a b c d ≠ 0) ∧
    ∀ fuel, ∃ m, tetrahedralize nearPts fuel [0, 1, 2, 3, 4, 5, 6, 7, 8] = some m ∧ m.tets = [] := by
  refine ⟨by decide +kernel, ⟨_, List.getElem_mem (n := 0) (by decide), _, List.getElem_mem (n := 2) (by decide), _, List.getElem_mem (n := 3) (by decide),
    _, List.getElem_mem (n := 5) (by decide), by decide +kernel⟩, fun fuel => ⟨Mesh.new 9, ?_, rfl⟩⟩
  have h1 : boxOf nearPts = some [0, 0, 0, 1000000, 1000000, 1000000] := by decide +kernel
  have h2 : Hilbert.brioSort (fun a b : ℚ => (a + b) / 2) (flat nearPts) Hilbert.sortOption Hilbert.sortOption.hilbertOrder (nearPts.length + 1) [0, 1, 2, 3, 4, 5, 6, 7, 8]
      [0, 0, 0, 1000000, 1000000, 1000000] 1 = some ([0, 1, 3, 7, 5, 6, 8, 4, 2], 1) := by decide +kernel
  have h3 : boxSize [(0 : ℚ), 0, 0, 1000000, 1000000, 1000000] = some 3000000000000 := by decide +kernel
  have h4 : firstFour nearPts 3000000000000 [0, 1, 3, 7, 5, 6, 8, 4, 2] = some none := by decide +kernel
  unfold tetrahedralize
  simp only [h1, h2, h3, h4, Option.bind_eq_bind, Option.bind_some]
  rfl

theorem minmax_sq (a b : K) : (max a b - min a b) * (max a b - min a b) = (a - b) * (a - b) := by
  rcases le_total a b with h | h
  · rw [max_eq_right h, min_eq_left h]; ring
  · rw [max_eq_left h, min_eq_right h]

/-- C86 (violation of "`tetrahedralize` returns for every set of points"): with fewer than three points it panics, whatever the points, the shuffle and the time given. -/
theorem c86_few_points (pts : List (Pt K)) (h : pts.length < 3) (fuel : Nat) (shuffled : List Nat) (hs : shuffled.Perm (List.range pts.length)) :
    tetrahedralize pts fuel shuffled = none := by
  by_cases h0 : pts = []
  · subst h0; rfl
  obtain ⟨box, s, eb, hb, es, hmax⟩ := boxOf_spec h0
  obtain ⟨l, g, el, hl⟩ := sort_ok pts hb hs
  unfold tetrahedralize
  simp only [eb, el, es, Option.bind_eq_bind, Option.bind_some]
  suffices hfirst : firstFour pts s l = none by rw [hfirst]; rfl
  match pts, h with
  | [], _ => exact absurd rfl h0
  | [p], _ =>
    have : l = [0] := List.perm_singleton.1 hl
    subst this
    rfl
  | [p, q], _ =>
    have hsq : s = norm2 (diff p q) := by
      simp only [boxOf, minOf, maxOf, List.map_cons, List.map_nil, List.foldl_cons, List.foldl_nil, Option.bind_eq_bind, Option.bind_some, Option.pure_def,
        Option.some.injEq] at eb
      subst eb
      simp only [boxSize, List.getElem?_cons_zero, List.getElem?_cons_succ, Option.bind_eq_bind, Option.bind_some, Option.pure_def, Option.some.injEq] at es
      rw [← es]
      simp only [minmax_sq, norm2, diff]
    have hnn : 0 ≤ norm2 (diff p q) := by
      simp only [norm2]
      have := mul_self_nonneg (diff p q).x
      have := mul_self_nonneg (diff p q).y
      have := mul_self_nonneg (diff p q).z
      linarith
    have hle : (eps2 : K) ≤ 1 := by
      unfold eps2
      rw [div_le_one (by norm_num)]
      norm_num
    have hnot : nearPoint s p q = false ∧ nearPoint s q p = false := by
      have hsym : norm2 (diff q p) = norm2 (diff p q) := by simp only [norm2, diff]; ring
      simp only [nearPoint, hsq, hsym, decide_eq_false_iff_not, not_lt, and_self]
      have := mul_le_mul_of_nonneg_right hle hnn
      linarith
    have hl2 : l = [0, 1] ∨ l = [1, 0] := by
      have : l ∈ [0, 1].permutations := List.mem_permutations.2 hl
      simpa [List.permutations, List.permutationsAux, List.permutationsAux.rec, List.permutationsAux2] using this
    rcases hl2 with rfl | rfl
    · simp [firstFour, pointAt, Hilbert.scanUp, bring, hnot]
    · simp [firstFour, pointAt, Hilbert.scanUp, bring, hnot]

/-- Three points that are not collinear make it panic, too. -/
theorem c86_three_points : ∀ fuel, tetrahedralize [(⟨0, 0, 0⟩ : Pt ℚ), ⟨1, 0, 0⟩, ⟨0, 1, 0⟩] fuel [0, 1, 2] = none := by
  intro fuel
  have h1 : boxOf [(⟨0, 0, 0⟩ : Pt ℚ), ⟨1, 0, 0⟩, ⟨0, 1, 0⟩] = some [0, 0, 0, 1, 1, 0] := by decide +kernel
  have h2 : (Hilbert.brioSort (fun a b : ℚ => (a + b) / 2) (flat [⟨0, 0, 0⟩, ⟨1, 0, 0⟩, ⟨0, 1, 0⟩]) Hilbert.sortOption Hilbert.sortOption.hilbertOrder 4 [0, 1, 2]
      [0, 0, 0, 1, 1, 0] 1).bind (fun r => firstFour [(⟨0, 0, 0⟩ : Pt ℚ), ⟨1, 0, 0⟩, ⟨0, 1, 0⟩] 2 r.1) = none := by decide +kernel
  have h3 : boxSize [(0 : ℚ), 0, 0, 1, 1, 0] = some 2 := by decide +kernel
  unfold tetrahedralize
  simp only [h1, h3, Option.bind_eq_bind, Option.bind_some, List.length_cons, List.length_nil]
  simp only [Option.bind_eq_none_iff] at h2 ⊢
  intro r hr x hx
  rw [h2 r hr] at hx
  cases hx

/-- C86 (partial). Full statement: "`tetrahedralize` returns for every set of points".  That is false for fewer than four points (`c86_few_points`, `c86_three_points`) and for
repeated points (`c44_duplicate_panics`).  What holds: for four or more, at most 1021, distinct points and every shuffle it returns, with a bound on the work (each loop runs at most `2 n * n` times). -/
theorem c86_returns_partial (pts : List (Pt K)) (hd : pts.Nodup) (h4 : 4 ≤ pts.length) (hn : pts.length ≤ 1021) (shuffled : List Nat)
    (hs : shuffled.Perm (List.range pts.length)) : ∃ m, tetrahedralize pts (2 * pts.length * pts.length) shuffled = some m := by
  obtain ⟨m, e, -⟩ := c85_tetrahedralize_partial pts hd h4 shuffled hs _ le_rfl (Or.inl hn)
  exact ⟨m, e⟩

/-- Six points, four of them coplanar and cocircular. -/
def sixPts : List (Pt ℚ) := [⟨0, 0, 0⟩, ⟨2, 0, 0⟩, ⟨2, 2, 0⟩, ⟨0, 2, 0⟩, ⟨1, 1, 3⟩, ⟨1, 1, -2⟩]

/-- The hypotheses of C83, C84 hold for six points in the order 0, 1, 2, 4, 3, 5. -/
theorem sixPts_setting : Setting sixPts 0 1 2 4 [3, 5] := by
  refine ⟨by decide +kernel, by decide, ?_⟩
  intro a b c d ha hb hc hd
  cases ha; cases hb; cases hc; cases hd
  norm_num [orient3d]

example := c83_locate_stops (done := [3]) (todo := [5]) sixPts_setting (by decide) (fuel := 72) (by decide)
example := c84_insert_next (done := [3]) (todo := []) sixPts_setting (by decide) (fuel := 72) (by decide)

/-- In the example the insertions do something: twelve tetrahedra, eight of them ghosts. -/
example : (tetrahedralize sixPts 72 [0, 1, 2, 3, 4, 5]).map (fun m => (m.tets.length, (m.tets.filter (·.data 3 == 6)).length)) = some (12, 8) := by decide +kernel

/-- For six points the result is the Delaunay tetrahedralization: the points are not flat. -/
example : ∃ m, tetrahedralize sixPts 72 [0, 1, 2, 3, 4, 5] = some m ∧ IsDelaunay sixPts m := by
  obtain ⟨m, e, h | ⟨h, -⟩⟩ := c85_tetrahedralize_partial sixPts (by decide +kernel) (by decide) [0, 1, 2, 3, 4, 5] (by decide) 72 (by decide) (Or.inl (by decide))
  · exact ⟨m, e, h⟩
  · exfalso
    have : (tetrahedralize sixPts 72 [0, 1, 2, 3, 4, 5]).map (fun m => m.tets.length) = some 12 := by decide +kernel
    rw [e, Option.map_some, h] at this
    cases this

end Verif.Delaunay
