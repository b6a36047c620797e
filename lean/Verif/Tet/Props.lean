import Verif.Tet.Lemmas
import Mathlib.GroupTheory.Perm.Sign
import Mathlib.Tactic.FinCases
/-! # Properties of the tetrahedral mesh structure (`src/triangle/tetrahedron.rs`) -/
namespace Verif.Tet

/-- The four corner labels of a version: origin, destination, apex, opposite. -/
def corner (v : Ver) : Fin 4 → Fin 4 := ![orgPivot v, destPivot v, apexPivot v, oppoPivot v]

/-- C39. For every tetrahedron and every handle, `enext`/`eprev` rotate the three corners of the face and keep the
opposite corner, `esym` flips the edge and exchanges apex and opposite corner, `fnext` is `fsym` after `esym`,
the composed tables are the compositions, and `vpivot`/`epivot` name the handle they promise. -/
theorem c39_handle_algebra (m : Mesh) (t : TriFace) :
    (m.org t.enext = m.dest t ∧ m.dest t.enext = m.apex t ∧ m.apex t.enext = m.org t ∧ m.oppo t.enext = m.oppo t) ∧
    (m.org t.eprev = m.apex t ∧ m.dest t.eprev = m.org t ∧ m.apex t.eprev = m.dest t ∧ m.oppo t.eprev = m.oppo t) ∧
    (m.org t.esym = m.dest t ∧ m.dest t.esym = m.org t ∧ m.apex t.esym = m.oppo t ∧ m.oppo t.esym = m.apex t) ∧
    t.enext.enext.enext = t ∧ t.enext.eprev = t ∧ t.eprev.enext = t ∧ t.esym.esym = t ∧
    t.enextEsym = t.enext.esym ∧ t.eprevEsym = t.eprev.esym ∧ m.fnext t = m.fsym t.esym := by
  have key : ∀ v : Ver,
    (orgPivot (enext v) = destPivot v ∧ destPivot (enext v) = apexPivot v ∧ apexPivot (enext v) = orgPivot v ∧
      oppoPivot (enext v) = oppoPivot v) ∧
    (orgPivot (eprev v) = apexPivot v ∧ destPivot (eprev v) = orgPivot v ∧ apexPivot (eprev v) = destPivot v ∧
      oppoPivot (eprev v) = oppoPivot v) ∧
    (orgPivot (esym v) = destPivot v ∧ destPivot (esym v) = orgPivot v ∧ apexPivot (esym v) = oppoPivot v ∧
      oppoPivot (esym v) = apexPivot v) ∧
    enext (enext (enext v)) = v ∧ eprev (enext v) = v ∧ enext (eprev v) = v ∧ esym (esym v) = v := by decide +kernel
  obtain ⟨tt, v⟩ := t
  obtain ⟨⟨a1, a2, a3, a4⟩, ⟨b1, b2, b3, b4⟩, ⟨c1, c2, c3, c4⟩, d1, d2, d3, d4⟩ := key v
  refine ⟨?_, ?_, ?_, ?_, ?_, ?_, ?_, rfl, rfl, Mesh.fnext_eq _⟩
  · simp [Mesh.org, Mesh.dest, Mesh.apex, Mesh.oppo, TriFace.enext, a1, a2, a3, a4]
  · simp [Mesh.org, Mesh.dest, Mesh.apex, Mesh.oppo, TriFace.eprev, b1, b2, b3, b4]
  · simp [Mesh.org, Mesh.dest, Mesh.apex, Mesh.oppo, TriFace.esym, c1, c2, c3, c4]
  · simp [TriFace.enext, d1]
  · simp [TriFace.enext, TriFace.eprev, d2]
  · simp [TriFace.enext, TriFace.eprev, d3]
  · simp [TriFace.esym, d4]

/-- C39, orientation: the twelve handles of a tetrahedron are exactly its twelve orientation-preserving labellings:
every version lists the four corners in an even order, every even order is the order of exactly one version, the face
index is the opposite corner, `vpivot i` starts at corner `i`, and `epivot` keeps the face and, unless the face is face 3,
moves corner 3 to the apex. -/
theorem c39_versions_even_permutations :
    (∀ v, ∃ σ : Equiv.Perm (Fin 4), (∀ i, σ i = corner v i) ∧ Equiv.Perm.sign σ = 1) ∧
    (∀ σ : Equiv.Perm (Fin 4), Equiv.Perm.sign σ = 1 → ∃! v, ∀ i, σ i = corner v i) ∧
    (∀ v, oppoPivot v = face v) ∧ (∀ i, orgPivot (vpivot i) = i) ∧
    (∀ v, face (epivot v) = face v ∧ (face v ≠ 3 → apexPivot (epivot v) = 3)) := by
  refine ⟨?_, ?_, ?_, ?_, ?_⟩
  · decide +kernel
  · have : ∀ σ : Equiv.Perm (Fin 4), Equiv.Perm.sign σ = 1 →
        ∃ v, (∀ i, σ i = corner v i) ∧ ∀ w, (∀ i, σ i = corner w i) → w = v := by decide +kernel
    exact fun σ h => this σ h
  all_goals decide +kernel

example : (Mesh.mk 4 [Tet.new 10 11 12 13] []).org ⟨0, 11⟩ = some 10 ∧
    (Mesh.mk 4 [Tet.new 10 11 12 13] []).apex ⟨0, esym 11⟩ = some 13 := by decide

/-- C40. `bond` glues two different faces of existing tetrahedra: `fsym` maps each bonded handle to the other, and the three
rotations of one face to the three opposite rotations of the other; corners, links and every other face are unchanged. -/
theorem c40_bond_fsym (m : Mesh) (t1 t2 : TriFace) (h1 : t1.tet < m.tets.length) (h2 : t2.tet < m.tets.length)
    (hne : t1.tet ≠ t2.tet ∨ face t1.ver ≠ face t2.ver) :
    ∃ m', m.bond t1 t2 = some m' ∧
      m'.fsym t1 = some t2 ∧ m'.fsym t2 = some t1 ∧
      m'.fsym t1.enext = some t2.eprev ∧ m'.fsym t1.eprev = some t2.enext ∧
      m'.fsym t2.enext = some t1.eprev ∧ m'.fsym t2.eprev = some t1.enext ∧
      (∀ h, ¬ (h.tet = t1.tet ∧ face h.ver = face t1.ver) → ¬ (h.tet = t2.tet ∧ face h.ver = face t2.ver) →
        m'.fsym h = m.fsym h) ∧
      (∀ h, m'.org h = m.org h ∧ m'.dest h = m.dest h ∧ m'.apex h = m.apex h ∧ m'.oppo h = m.oppo h) ∧
      m'.p2t = m.p2t ∧ m'.tets.length = m.tets.length := by
  obtain ⟨m1, e1⟩ := Mesh.setNei_some (m := m) (t := t1.tet) (f := face t1.ver) (x := ⟨t2.tet, bondTbl t1.ver t2.ver⟩) h1
  obtain ⟨m', e2⟩ := Mesh.setNei_some (m := m1) (t := t2.tet) (f := face t2.ver) (x := ⟨t1.tet, bondTbl t2.ver t1.ver⟩)
    (by rw [(Mesh.setNei_frame e1).2.2.1]; exact h2)
  have e : m.bond t1 t2 = some m' := by simp [Mesh.bond, e1, e2]
  obtain ⟨hs, hd, _, hp, hl, _, _⟩ := Mesh.bond_spec e
  have f1 : m'.fsym t1 = some t2 := by
    rw [Mesh.fsym_eq, hs, if_neg, if_pos ⟨rfl, rfl⟩]
    · simp [fsym_bond]
    · rintro ⟨a, b⟩; rcases hne with h | h
      · exact h a.symm
      · exact h b.symm
  have f2 : m'.fsym t2 = some t1 := by
    rw [Mesh.fsym_eq, hs, if_pos ⟨rfl, rfl⟩]; simp [fsym_bond]
  refine ⟨m', e, f1, f2, ?_, ?_, ?_, ?_, ?_, fun h => Mesh.org_of_data hd h, hp, hl⟩
  · rw [fsym_handle_enext, f1]; rfl
  · rw [fsym_handle_eprev, f1]; rfl
  · rw [fsym_handle_enext, f2]; rfl
  · rw [fsym_handle_eprev, f2]; rfl
  · intro h n1 n2
    rw [Mesh.fsym_eq, Mesh.fsym_eq, hs, if_neg, if_neg]
    · rintro ⟨a, b⟩; exact n1 ⟨a.symm, b.symm⟩
    · rintro ⟨a, b⟩; exact n2 ⟨a.symm, b.symm⟩

example : ((Mesh.mk 4 [Tet.new 0 1 2 3, Tet.new 1 0 2 4] []).bond ⟨0, 11⟩ ⟨1, 11⟩).bind (·.fsym ⟨0, 3⟩) = some ⟨1, 7⟩ := by
  decide +kernel

/-- Corner labels of the five initial tetrahedra: 0-3 for `a`-`d`, 4 for the ghost vertex. -/
def initialLabel : Fin 5 → Fin 4 → Fin 5 :=
  ![![0, 1, 2, 3], ![1, 2, 3, 4], ![2, 0, 3, 4], ![0, 1, 3, 4], ![1, 0, 2, 4]]

/-- Neighbour slots of the five initial tetrahedra. -/
def initialNei : Fin 5 → Fin 4 → Fin 5 × Ver :=
  ![![(1, 3), (2, 3), (3, 11), (4, 7)], ![(2, 9), (3, 8), (4, 5), (0, 0)], ![(3, 9), (1, 8), (4, 4), (0, 1)],
    ![(1, 9), (2, 8), (4, 2), (0, 10)], ![(2, 6), (1, 6), (3, 2), (0, 7)]]

set_option maxHeartbeats 2000000 in
/-- The state reached by the five `make_tet` and ten `bond` calls of `initial_delaunay`. -/
theorem initial_bonds (n a b c d : Nat) (p : List (Option Nat)) :
    ∃ T : List Tet,
      (initialDelaunay ⟨n, [], p⟩ a b c d = (do
        let m ← (Mesh.mk n T p).setP2t a 0
        let m ← m.setP2t b 0
        let m ← m.setP2t c 0
        let m ← m.setP2t d 0
        let m ← m.setP2t m.nPoints 1
        return (m, ⟨0, 11⟩))) ∧
      T.length = 5 ∧
      (∀ t : Fin 5, (T[t.val]?).map (·.data) = some fun i => (![a, b, c, d, n] : Fin 5 → Nat) (initialLabel t i)) ∧
      (∀ t : Fin 5, ∀ f : Fin 4, (T[t.val]?).bind (·.nei f) = some ⟨(initialNei t f).1, (initialNei t f).2⟩) := by
  refine ⟨_, rfl, rfl, ?_, ?_⟩
  · intro t
    match t with
    | 0 => exact congrArg some (funext fun i => by fin_cases i <;> rfl)
    | 1 => exact congrArg some (funext fun i => by fin_cases i <;> rfl)
    | 2 => exact congrArg some (funext fun i => by fin_cases i <;> rfl)
    | 3 => exact congrArg some (funext fun i => by fin_cases i <;> rfl)
    | 4 => exact congrArg some (funext fun i => by fin_cases i <;> rfl)
  · intro t f
    fin_cases t <;> fin_cases f <;> with_unfolding_all exact rfl

/-- The handle glued to version `v` of initial tetrahedron `t`. -/
def initialMate (t : Fin 5) (v : Ver) : Fin 5 × Ver :=
  ((initialNei t (face v)).1, fsymTbl v (initialNei t (face v)).2)

theorem initialMate_ok : ∀ t v, initialMate (initialMate t v).1 (initialMate t v).2 = (t, v) ∧
    initialLabel (initialMate t v).1 (orgPivot (initialMate t v).2) = initialLabel t (destPivot v) ∧
    initialLabel (initialMate t v).1 (destPivot (initialMate t v).2) = initialLabel t (orgPivot v) ∧
    initialLabel (initialMate t v).1 (apexPivot (initialMate t v).2) = initialLabel t (apexPivot v) := by
  decide +kernel

theorem setP2t_of_lt {m : Mesh} {i t : Nat} (h : i < m.p2t.length) :
    m.setP2t i t = some { m with p2t := m.p2t.set i (some t) } := if_pos h

/-- C41. From the empty mesh and four distinct points, `initial_delaunay` builds five mutually glued tetrahedra: the solid
one with corners `a,b,c,d` in this order, and four hull tetrahedra whose last corner is the ghost vertex; the links of the
four points and of the ghost vertex point to tetrahedra having them as corners, and no other link changes. -/
theorem c41_initial_delaunay (n a b c d : Nat) (p : List (Option Nat)) (hp : p.length = n + 1)
    (ha : a < n) (hb : b < n) (hc : c < n) (hd : d < n)
    (hab : a ≠ b) (hac : a ≠ c) (had : a ≠ d) (hbc : b ≠ c) (hbd : b ≠ d) (hcd : c ≠ d) :
    ∃ m', initialDelaunay ⟨n, [], p⟩ a b c d = some (m', ⟨0, 11⟩) ∧
      m'.tets.length = 5 ∧ m'.nPoints = n ∧
      Consistent m' (· < 5) ∧ GhostLast m' (· < 5) ∧
      (m'.org ⟨0, 11⟩ = some a ∧ m'.dest ⟨0, 11⟩ = some b ∧ m'.apex ⟨0, 11⟩ = some c ∧ m'.oppo ⟨0, 11⟩ = some d) ∧
      (∀ t < 5, m'.isHull t = some (decide (t ≠ 0))) ∧
      LinkOk m' (· < 5) a ∧ LinkOk m' (· < 5) b ∧ LinkOk m' (· < 5) c ∧ LinkOk m' (· < 5) d ∧ LinkOk m' (· < 5) n ∧
      ∀ v, v ≠ a → v ≠ b → v ≠ c → v ≠ d → v ≠ n → m'.p2t[v]? = p[v]? := by
  obtain ⟨T, e, hl, hdat, hnei⟩ := initial_bonds n a b c d p
  let q := ((((p.set a (some 0)).set b (some 0)).set c (some 0)).set d (some 0)).set n (some 1)
  have e' : initialDelaunay ⟨n, [], p⟩ a b c d = some (⟨n, T, q⟩, ⟨0, 11⟩) := by
    rw [e, setP2t_of_lt (by simp only; omega)]
    simp only [Option.bind_eq_bind, Option.bind_some]
    rw [setP2t_of_lt (by simp only [List.length_set]; omega)]
    simp only [Option.bind_some]
    rw [setP2t_of_lt (by simp only [List.length_set]; omega)]
    simp only [Option.bind_some]
    rw [setP2t_of_lt (by simp only [List.length_set]; omega)]
    simp only [Option.bind_some]
    rw [setP2t_of_lt (by simp only [List.length_set]; omega)]
    rfl
  let val : Fin 5 → Nat := ![a, b, c, d, n]
  have vinj : Function.Injective val := by
    intro i j h
    fin_cases i <;> fin_cases j <;> simp [val] at h ⊢ <;> omega
  have hget : ∀ t (ht : t < 5), ∃ x, T[t]? = some x ∧ ∀ i, x.data i = val (initialLabel ⟨t, ht⟩ i) := by
    intro t ht
    have := hdat ⟨t, ht⟩
    simp only [Option.map_eq_some_iff] at this
    obtain ⟨x, hx, hxd⟩ := this
    exact ⟨x, hx, fun i => by rw [hxd]⟩
  have hfs : ∀ (t : Fin 5) (v : Ver), (Mesh.mk n T q).fsym ⟨t, v⟩ = some ⟨(initialMate t v).1, (initialMate t v).2⟩ := by
    intro t v
    rw [Mesh.fsym_eq]
    simp only [Mesh.slot, hnei t (face v)]
    rfl
  have hcor : ∀ (t : Fin 5) (v : Ver), (Mesh.mk n T q).org ⟨t, v⟩ = some (val (initialLabel t (orgPivot v))) ∧
      (Mesh.mk n T q).dest ⟨t, v⟩ = some (val (initialLabel t (destPivot v))) ∧
      (Mesh.mk n T q).apex ⟨t, v⟩ = some (val (initialLabel t (apexPivot v))) ∧
      (Mesh.mk n T q).oppo ⟨t, v⟩ = some (val (initialLabel t (oppoPivot v))) := by
    intro t v
    obtain ⟨x, hx, hxd⟩ := hget t t.2
    simp [Mesh.org, Mesh.dest, Mesh.apex, Mesh.oppo, hx, hxd]
  have linj : ∀ t : Fin 5, Function.Injective (initialLabel t) := by decide +kernel
  have lghost : ∀ (t : Fin 5) i, initialLabel t i = 4 → i = 3 := by decide +kernel
  have lhull : ∀ (t : Fin 5), initialLabel t 3 = 4 ↔ t ≠ 0 := by decide +kernel
  have q_a : q[a]? = some (some 0) := by
    simp only [q, List.getElem?_set, List.length_set]; split_ifs <;> first | rfl | omega
  have q_b : q[b]? = some (some 0) := by
    simp only [q, List.getElem?_set, List.length_set]; split_ifs <;> first | rfl | omega
  have q_c : q[c]? = some (some 0) := by
    simp only [q, List.getElem?_set, List.length_set]; split_ifs <;> first | rfl | omega
  have q_d : q[d]? = some (some 0) := by
    simp only [q, List.getElem?_set, List.length_set]; split_ifs <;> first | rfl | omega
  have q_n : q[n]? = some (some 1) := by
    simp only [q, List.getElem?_set, List.length_set]; split_ifs <;> first | rfl | omega
  obtain ⟨x0, hx0, hxd0⟩ := hget 0 (by decide)
  obtain ⟨x1, hx1, hxd1⟩ := hget 1 (by decide)
  refine ⟨⟨n, T, q⟩, e', hl, rfl, ⟨?_, ?_⟩, ?_, hcor 0 11, ?_,
    ⟨0, x0, q_a, by decide, hx0, 0, hxd0 0⟩, ⟨0, x0, q_b, by decide, hx0, 1, hxd0 1⟩,
    ⟨0, x0, q_c, by decide, hx0, 2, hxd0 2⟩, ⟨0, x0, q_d, by decide, hx0, 3, hxd0 3⟩,
    ⟨1, x1, q_n, by decide, hx1, 3, hxd1 3⟩, ?_⟩
  · intro t ht
    obtain ⟨x, hx, hxd⟩ := hget t ht
    exact ⟨x, hx, fun i j h => linj ⟨t, ht⟩ (vinj (by rw [← hxd, ← hxd]; exact h))⟩
  · intro t ht v
    let s : Fin 5 := ⟨t, ht⟩
    obtain ⟨o1, o2, o3, o4⟩ := initialMate_ok s v
    obtain ⟨c1, c2, c3, _⟩ := hcor s v
    obtain ⟨d1, d2, d3, _⟩ := hcor (initialMate s v).1 (initialMate s v).2
    refine ⟨⟨(initialMate s v).1, (initialMate s v).2⟩, (initialMate s v).1.2, hfs s v, ?_, ?_, ?_, ?_⟩
    · rw [hfs, o1]
    · rw [d1, o2]; exact c2.symm
    · rw [d2, o3]; exact c1.symm
    · rw [d3, o4]; exact c3.symm
  · intro t ht x hx i hi
    obtain ⟨y, hy, hyd⟩ := hget t ht
    have : y = x := Option.some.inj (hy.symm.trans hx)
    subst this
    rw [hyd] at hi
    exact lghost _ _ (vinj hi)
  · intro t ht
    obtain ⟨y, hy, hyd⟩ := hget t ht
    have h3 : y.data 3 = n ↔ t ≠ 0 := by
      rw [hyd]
      constructor
      · intro h; have := (lhull _).1 (vinj h); simpa [Fin.ext_iff] using this
      · intro h
        have : initialLabel ⟨t, ht⟩ 3 = 4 := (lhull _).2 (by simpa [Fin.ext_iff] using h)
        rw [this]; rfl
    simp only [Mesh.isHull, hy, Option.map_some]
    by_cases h0 : t = 0
    · simp [h0, h3]
    · simp [h0, h3]
  · intro v va vb vc vd vn
    simp [q, Ne.symm va, Ne.symm vb, Ne.symm vc, Ne.symm vd, Ne.symm vn]

example : ∃ m', initialDelaunay (Mesh.new 6) 4 0 2 5 = some (m', ⟨0, 11⟩) ∧ Consistent m' (· < 5) := by
  obtain ⟨m', h, _, _, hc, _⟩ := c41_initial_delaunay 6 4 0 2 5 (List.replicate 7 none) (by decide) (by decide) (by decide)
    (by decide) (by decide) (by decide) (by decide) (by decide) (by decide) (by decide) (by decide)
  exact ⟨m', h, hc⟩

end Verif.Tet
