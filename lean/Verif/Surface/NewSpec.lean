import Verif.Surface.NewEdges
import Verif.Surface.NewCycle
/-!
# `SurfaceMesh::new`: the result
-/
namespace Verif.Surface

theorem max?_spec : ∀ {l : List Nat}, l ≠ [] → ∃ M, l.max? = some M ∧ M ∈ l ∧ ∀ x ∈ l, x ≤ M := by
  intro l hl
  cases h : l.max? with
  | none => exact absurd (List.max?_eq_none_iff.1 h) hl
  | some M =>
    obtain ⟨h1, h2⟩ := List.max?_eq_some_iff.1 h
    exact ⟨M, rfl, h1, h2⟩

theorem mapM_max : ∀ {ps : List (List Nat)}, (∀ p ∈ ps, p ≠ []) → ∃ L, ps.mapM List.max? = some L ∧ L.length = ps.length ∧
    (∀ M ∈ L, M ∈ ps.flatten) ∧ ∀ p ∈ ps, ∀ x ∈ p, ∃ M ∈ L, x ≤ M := by
  intro ps
  induction ps with
  | nil => intro _; exact ⟨[], rfl, rfl, by simp, by simp⟩
  | cons p ps ih =>
    intro h
    obtain ⟨L, l1, l2, l3, l4⟩ := ih fun q hq => h q (by simp [hq])
    obtain ⟨M, m1, m2, m3⟩ := max?_spec (h p (by simp))
    refine ⟨M :: L, by simp [List.mapM_cons, m1, l1], by simp [l2], ?_, ?_⟩
    · intro x hx
      rcases List.mem_cons.1 hx with rfl | hx
      · simp [m2]
      · rw [List.flatten_cons, List.mem_append]; exact Or.inr (l3 x hx)
    · intro q hq x hx
      rcases List.mem_cons.1 hq with rfl | hq
      · exact ⟨M, by simp, m3 x hx⟩
      · obtain ⟨M', a, b⟩ := l4 q hq x hx
        exact ⟨M', by simp [a], b⟩

theorem maxIndex_spec {ps : List (List Nat)} (h1 : ps ≠ []) (h2 : ∀ p ∈ ps, p ≠ []) :
    ∃ M, maxIndex ps = some M ∧ M ∈ ps.flatten ∧ ∀ v ∈ ps.flatten, v ≤ M := by
  obtain ⟨L, l1, l2, l3, l4⟩ := mapM_max h2
  obtain ⟨M, m1, m2, m3⟩ := max?_spec (l := L) (by
    intro hc; rw [hc] at l2; exact h1 (List.length_eq_zero_iff.1 l2.symm))
  refine ⟨M, ?_, l3 M m2, fun v hv => ?_⟩
  · rw [maxIndex]; exact (bind_of l1).trans m1
  · obtain ⟨p, hp, hv⟩ := List.mem_flatten.1 hv
    obtain ⟨M', a, b⟩ := l4 p hp v hv
    exact b.trans (m3 M' a)

theorem flatMap_windows_len (ps : List (List Nat)) : (ps.flatMap windows).length = ps.flatten.length := by
  induction ps with
  | nil => rfl
  | cons p ps ih => rw [List.flatMap_cons, List.length_append, windows_len, ih, List.flatten_cons, List.length_append]

/-- Every position lies in a polygon. -/
theorem find_block : ∀ {ps : List (List Nat)} {x : Nat}, x < ps.flatten.length →
    ∃ A p B i, ps = A ++ p :: B ∧ i < p.length ∧ x = A.flatten.length + i := by
  intro ps
  induction ps with
  | nil => intro x hx; simp at hx
  | cons p ps ih =>
    intro x hx
    by_cases h : x < p.length
    · exact ⟨[], p, ps, x, rfl, h, by simp⟩
    · rw [List.flatten_cons, List.length_append] at hx
      obtain ⟨A, q, B, i, rfl, h2, h3⟩ := ih (show x - p.length < ps.flatten.length by omega)
      exact ⟨p :: A, q, B, i, rfl, h2, by rw [List.flatten_cons, List.length_append]; omega⟩

theorem block_get {A B : List (List Nat)} {p : List Nat} {i : Nat} (hi : i < p.length) :
    (A ++ p :: B).flatten[A.flatten.length + i]? = some p[i] := by
  rw [List.flatten_append, List.getElem?_append_right (by omega), Nat.add_sub_cancel_left, List.flatten_cons, List.getElem?_append_left hi,
    List.getElem?_eq_getElem hi]

theorem block_windows {A B : List (List Nat)} {p : List Nat} {i : Nat} (hi : i < p.length) :
    ((A ++ p :: B).flatMap windows)[A.flatten.length + i]? = some (p[i], p[(i + 1) % p.length]'(Nat.mod_lt _ (by omega))) := by
  rw [List.flatMap_append, List.getElem?_append_right (by rw [flatMap_windows_len]; omega), flatMap_windows_len, Nat.add_sub_cancel_left,
    List.flatMap_cons, List.getElem?_append_left (by rw [windows_len]; exact hi), List.getElem?_eq_getElem (by rw [windows_len]; exact hi),
    windows_get hi]

theorem chain_range' {a : Ids} {z : Nat} : ∀ (k s : Nat), (∀ i < k, get a (s + i) = some (s + i + 1)) → get a (s + k) = some z →
    Chain a s (List.range' (s + 1) k) z := by
  intro k
  induction k with
  | zero => intro s _ h; exact h
  | succ k ih =>
    intro s h1 h2
    rw [List.range'_succ]
    refine ⟨h1 0 (by omega), ih (s + 1) (fun i hi => ?_) ?_⟩
    · have := h1 (i + 1) (by omega)
      rw [show s + 1 + i = s + (i + 1) by omega, this]
    · rw [← h2]; congr 1; omega

/-- The ring of a polygon. -/
theorem PolyInv.ring {nV nF : Nat} {ps : List (List Nat)} {m : Mesh} (c : PolyInv nV nF ps m) {A B : List (List Nat)} {p : List Nat}
    (h : ps = A ++ p :: B) (hp : p ≠ []) :
    ∃ t, A.flatten.length :: t = List.range' A.flatten.length p.length ∧ Chain m.heNext A.flatten.length t A.flatten.length ∧
      (A.flatten.length :: t).Nodup ∧ ∀ x, x ∈ A.flatten.length :: t ↔ get m.heFace x = some A.length := by
  obtain ⟨b1, b2, b3⟩ := c.block A p B h
  have hpos := List.length_pos_of_ne_nil hp
  have e : A.flatten.length :: List.range' (A.flatten.length + 1) (p.length - 1) = List.range' A.flatten.length p.length := by
    rw [← List.range'_succ]; congr 1; omega
  refine ⟨List.range' (A.flatten.length + 1) (p.length - 1), e, chain_range' _ _ (fun i hi => ?_) ?_, by rw [e]; exact List.nodup_range', fun x => ?_⟩
  · rw [b3 i (by omega), Nat.mod_eq_of_lt (by omega)]; rfl
  · rw [b3 _ (by omega), show p.length - 1 + 1 = p.length by omega, Nat.mod_self, Nat.add_zero]
  · rw [e, List.mem_range'_1, b2]

theorem PolyInv.vertex {nV nF : Nat} {ps : List (List Nat)} {m : Mesh} (c : PolyInv nV nF ps m) {x : Nat} : get m.heVertex x = ps.flatten[x]? := by
  rw [c.heVertex, get_map_some]

/-- The pairs of consecutive vertices are the ends of the halfedges. -/
theorem PolyInv.pair {nV nF : Nat} {ps : List (List Nat)} {m : Mesh} (c : PolyInv nV nF ps m) {x : Nat} (hx : x < ps.flatten.length) :
    ∃ u t, (ps.flatMap windows)[x]? = some (u, t) ∧ get m.heVertex x = some u ∧ tip m x = some t ∧ u ∈ ps.flatten ∧ t ∈ ps.flatten := by
  obtain ⟨A, p, B, i, h, hi, rfl⟩ := find_block hx
  obtain ⟨b1, b2, b3⟩ := c.block A p B h
  have hpos : 0 < p.length := by omega
  have e1 : ps.flatten[A.flatten.length + i]? = some p[i] := by rw [h, block_get hi]
  have e2 : ps.flatten[A.flatten.length + (i + 1) % p.length]? = some (p[(i + 1) % p.length]'(Nat.mod_lt _ hpos)) := by rw [h, block_get]
  refine ⟨p[i], p[(i + 1) % p.length]'(Nat.mod_lt _ hpos), by rw [h, block_windows hi], by rw [c.vertex, e1], ?_, List.mem_of_getElem? e1,
    List.mem_of_getElem? e2⟩
  rw [tip, b3 i hi]
  exact c.vertex.trans e2

theorem edgeKey_eq {u t u' t' : Nat} : edgeKey u t = edgeKey u' t' ↔ (u' = u ∧ t' = t) ∨ (u' = t ∧ t' = u) := by
  unfold edgeKey
  split_ifs <;> simp only [Prod.mk.injEq] <;> omega

theorem tip_congr {m m' : Mesh} (h1 : m'.heNext = m.heNext) (h2 : m'.heVertex = m.heVertex) (x : Nat) : tip m' x = tip m x := by
  rw [tip, tip, h1, h2]

/-- `SurfaceMesh::new` on non-empty polygons: it does not fail, the mesh is valid, the faces are the polygons, and two halfedges are on the same
edge iff they join the same vertices. -/
theorem new_spec {order : List Nat → List Nat} (ho : ∀ l, (order l).Perm l) {ps : List (List Nat)} (h1 : ps ≠ []) (h2 : ∀ p ∈ ps, p ≠ []) :
    ∃ m, new order ps = some m ∧ Valid m ∧ m.nF = ps.length ∧ m.nH = ps.flatten.length ∧ (∃ M, m.nV = M + 1 ∧ M ∈ ps.flatten ∧ ∀ v ∈ ps.flatten, v ≤ M) ∧
      (∀ A p B, ps = A ++ p :: B → faceHalfedges m A.length = some (List.range' A.flatten.length p.length) ∧ faceVertices m A.length = some p) ∧
      (∀ h < m.nH, ∀ h' < m.nH, get m.heEdge h' = get m.heEdge h ↔ SameEnds m h h') ∧
      (∀ x, get m.heVertex x = ps.flatten[x]?) := by
  obtain ⟨M, M1, M2, M3⟩ := maxIndex_spec h1 h2
  obtain ⟨m0, a1, c⟩ := addPolygons_spec (nV := M + 1) (nF := ps.length) ps [] _ (emptyMesh_inv (M + 1) ps.length)
    (fun p hp => ⟨h2 p hp, fun v hv => by have := M3 v (List.mem_flatten.2 ⟨p, hp, hv⟩); omega⟩) (by simp)
  rw [List.nil_append] at c
  have wl := flatMap_windows_len ps
  obtain ⟨m1, hist, S, e1, e2, e3, e4, e5⟩ := edges_spec (m0 := m0) (W := ps.flatMap windows) ho c.nE c.eHe (by rw [c.heEdge, wl])
    (by rw [c.sib, wl, List.length_replicate])
  have same := e4.same
  obtain ⟨N, hN⟩ : ∃ N, N = ps.flatten.length := ⟨_, rfl⟩
  rw [← hN] at wl
  set m2 : Mesh := { m1 with sib := S } with hm2
  have f_vHe : m2.vHe = m0.vHe := by rw [hm2, same]
  have f_next : m2.heNext = m0.heNext := by rw [hm2, same]
  have f_vertex : m2.heVertex = m0.heVertex := by rw [hm2, same]
  have f_fHe : m2.fHe = m0.fHe := by rw [hm2, same]
  have f_nV : m2.nV = M + 1 := by rw [hm2, same]; exact c.cV
  have f_nH : m2.nH = N := by rw [hm2, same, hN]; exact c.nH
  have f_nF : m2.nF = ps.length := by rw [hm2, same]; exact c.cF
  have f_face : m2.heFace = m0.heFace := by rw [hm2, same]
  have f_in : m2.vIn = m0.vIn := by rw [hm2, same]
  have f_out : m2.vOut = m0.vOut := by rw [hm2, same]
  have f_tip : ∀ x, tip m2 x = tip m0 x := tip_congr f_next f_vertex
  have pair : ∀ x < N, ∃ u t, (ps.flatMap windows)[x]? = some (u, t) ∧ get m2.heVertex x = some u ∧ tip m2 x = some t ∧ u ∈ ps.flatten ∧ t ∈ ps.flatten :=
    fun x hx => by simp only [f_tip, f_vertex]; exact c.pair (by omega)
  have le : ∀ v ∈ ps.flatten, v < m2.nV := fun v hv => by have := M3 v hv; omega
  have lenV : m2.heVertex.length = m2.nH := by rw [f_vertex, c.heVertex, List.length_map, f_nH, hN]
  have lenN : m2.heNext.length = m2.nH := by rw [f_next, c.nextLen, f_nH, hN]
  have lenW : m2.vHe.length = m2.nV := by rw [f_vHe, c.vHeLen, f_nV]
  have vx : ∀ x < m2.nH, ∃ v, get m2.heVertex x = some v := fun x hx => by
    obtain ⟨u, t, -, p2, -⟩ := pair x (by omega)
    exact ⟨u, p2⟩
  obtain ⟨vhI, sepI, i1, i2⟩ := vertexCycle_spec (m := m2) (inc := true) (fun x hx => by
    obtain ⟨u, t, -, -, p3, -, p5⟩ := pair x (by omega)
    exact ⟨t, le t p5, p3⟩) lenW lenN lenV vx
  obtain ⟨vhO, sepO, o1, o2⟩ := vertexCycle_spec (m := m2) (inc := false) (fun x hx => by
    obtain ⟨u, t, -, p2, -, p4, -⟩ := pair x (by omega)
    exact ⟨u, le u p4, p2⟩) lenW lenN lenV vx
  rw [f_nH] at i2 o2
  have vhe : ∀ v h, get m2.vHe v = some h → get m2.heVertex h = some v := by rw [f_vHe, f_vertex]; exact c.vhe
  have vhe' : ∀ v ∈ ps.flatten, ∃ h, get m2.vHe v = some h := by rw [f_vHe]; exact c.vhe'
  have faces : Rings m2.heNext (get m2.heFace) := by
    intro h f hf
    rw [f_face] at hf ⊢
    rw [f_next]
    have hlt := get_lt hf
    rw [c.faceLen] at hlt
    obtain ⟨A, p, B, i, e, hi, rfl⟩ := find_block hlt
    obtain ⟨b1, b2, b3⟩ := c.block A p B e
    have := (b2 (A.flatten.length + i)).2 ⟨by omega, by omega⟩
    rw [hf] at this; cases this
    obtain ⟨t, -, t2, t3, t4⟩ := c.ring e (List.ne_nil_of_length_pos (by omega))
    exact Ring.rebase ⟨t, t2, t3, t4⟩ hf
  have keyI : endOf m2 true = tip m2 := by funext x; rfl
  have keyO : endOf m2 false = get m2.heVertex := by funext x; rfl
  rw [keyI] at i2
  rw [keyO] at o2
  have oLt : ∀ x v, get m2.heVertex x = some v → x < N ∧ ∃ h, get m2.vHe v = some h := fun x v hx => by
    have := get_lt hx
    rw [lenV, f_nH] at this
    obtain ⟨u, t, -, p2, -, p4, -⟩ := pair x this
    rw [hx] at p2; cases p2
    exact ⟨this, vhe' v p4⟩
  have iLt : ∀ x v, tip m2 x = some v → x < N ∧ ∃ h, get m2.vHe v = some h := fun x v hx => by
    obtain ⟨n, n1, n2⟩ := tip_some.1 hx
    have := get_lt n1
    rw [lenN, f_nH] at this
    exact ⟨this, (oLt n v n2).2⟩
  obtain ⟨I, O, l1, l2, l3, l4, l5⟩ := linkVertices_spec (n := N) i2 o2 lenW iLt oLt
    (fun v h hv => by
      have q := vhe v h hv
      have hlt := get_lt q
      rw [lenV, f_nH] at hlt
      obtain ⟨f, -, hf⟩ := c.hasF h (by omega)
      rw [← f_face] at hf
      obtain ⟨p, p1, p2⟩ := (faces h f hf).pred
      exact ⟨p, tip_some.2 ⟨h, p2, q⟩⟩)
    (fun v h hv => ⟨h, vhe v h hv⟩) (List.range m2.nV) m2 (fun _ => False) (fun v hv => List.mem_range.1 hv) rfl
    (by rw [Len, f_in, c.vIn, List.length_replicate, hN]) (by rw [Len, f_out, c.vOut, List.length_replicate, hN]) (fun _ _ h => h.elim) (fun _ _ h => h.elim)
  have vlt : ∀ x v, get m2.heVertex x = some v → v < m2.nV := fun x v hx => by
    have := (oLt x v hx).1
    obtain ⟨u, t, -, p2, -, p4, -⟩ := pair x this
    rw [hx] at p2; cases p2
    exact le v p4
  have same_iff : ∀ h < N, ∀ h' < N, get m2.heEdge h' = get m2.heEdge h ↔ SameEnds m2 h h' := by
    intro h hh h' hh'
    obtain ⟨u, t, p1, p2, p3, -⟩ := pair h hh
    obtain ⟨u', t', q1, q2, q3, -⟩ := pair h' hh'
    obtain ⟨e, k1, k2⟩ := e4.edge h (edgeKey u t) (by rw [p1]; rfl)
    obtain ⟨e', k1', k2'⟩ := e4.edge h' (edgeKey u' t') (by rw [q1]; rfl)
    rw [SameEnds, p2, p3, q2, q3]
    simp only [Option.some.injEq, hm2, k2, k2']
    rw [← edgeKey_eq]
    constructor
    · rintro rfl
      rw [k1] at k1'
      exact Option.some.inj k1'
    · intro hk
      have lt := (List.getElem?_eq_some_iff.1 k1').1
      rw [← hk, ← k1] at k1'
      exact (List.getElem?_inj lt e4.keysNd).1 k1'
  set m3 : Mesh := { m2 with vIn := I, vOut := O } with hm3
  have hE : ∀ x, get m3.heEdge x = get m1.heEdge x := fun x => rfl
  have valid : Valid m3 :=
    { sV := lenW, sF := by rw [show m3.fHe = m2.fHe from rfl, f_fHe, c.fHeLen]; exact f_nF.symm, sE := e4.eLen, sNext := lenN, sVertex := lenV
      sEdge := by
        rw [show m3.heEdge = m1.heEdge from rfl, e4.edgeLen, c.heEdge, List.length_replicate, ← hN]; exact f_nH.symm
      sFace := by rw [show m3.heFace = m2.heFace from rfl, f_face, c.faceLen, ← hN]; exact f_nH.symm
      sIn := l2.trans f_nH.symm, sOut := l3.trans f_nH.symm, sSib := e3.trans (wl.trans f_nH.symm)
      hasV := fun h hh => by
        obtain ⟨v, hv⟩ := vx h hh
        exact ⟨v, vlt h v hv, hv⟩
      hasF := fun h hh => by
        obtain ⟨f, f1, f2⟩ := c.hasF h (by rw [← hN, ← f_nH]; exact hh)
        exact ⟨f, by rw [show m3.nF = m2.nF from rfl, f_nF]; exact f1, by rw [show m3.heFace = m2.heFace from rfl, f_face, f2]⟩
      hasE := fun h hh => by
        obtain ⟨u, t, p1, -⟩ := pair h (by rw [← f_nH]; exact hh)
        obtain ⟨e, k1, k2⟩ := e4.edge h (edgeKey u t) (by rw [p1]; rfl)
        refine ⟨e, ?_, k2⟩
        have := (List.getElem?_eq_some_iff.1 k1).1
        rw [e4.keyLen] at this
        exact this
      faces := faces
      edges := e5
      outs := fun h k hk => l5 h k (Or.inr (List.mem_range.2 (vlt h k hk))) hk
      ins := fun h k hk => l4 h k (Or.inr (List.mem_range.2 (by
        obtain ⟨n, -, n2⟩ := tip_some.1 hk
        exact vlt n k n2))) hk
      vhe := vhe
      vhe' := fun h v hv => (oLt h v hv).2
      fhe := fun f hf => by
        have hf : f < ps.length := by rw [← f_nF]; exact hf
        have e : ps = ps.take f ++ ps[f] :: ps.drop (f + 1) := by rw [← List.drop_eq_getElem_cons hf, List.take_append_drop]
        obtain ⟨b1, b2, -⟩ := c.block _ _ _ e
        rw [List.length_take, Nat.min_eq_left (by omega)] at b1 b2
        have hpos := List.length_pos_of_ne_nil (h2 ps[f] (List.getElem_mem hf))
        exact ⟨_, by rw [show m3.fHe = m2.fHe from rfl, f_fHe, b1], by
          rw [show m3.heFace = m2.heFace from rfl, f_face]; exact (b2 _).2 ⟨by omega, by omega⟩⟩
      ehe := fun e he => by
        have he : e < hist.keys.length := by rw [e4.keyLen]; exact he
        obtain ⟨x, x1, x2⟩ := e4.first e _ (List.getElem?_eq_getElem he)
        obtain ⟨e', k1, k2⟩ := e4.edge x _ x2
        refine ⟨x, x1, ?_⟩
        rw [hE, k2]
        congr 1
        exact ((List.getElem?_inj he e4.keysNd).1 ((List.getElem?_eq_getElem he).trans k1.symm)).symm
      ends := fun h h' e hh hh' => by
        have lt : ∀ x, get m3.heEdge x = some e → x < N := fun x hx => by
          by_contra hc
          rw [hE, e4.edge' x (by omega)] at hx; cases hx
        exact (same_iff h (lt h hh) h' (lt h' hh')).1 (hh'.trans hh.symm) }
  refine ⟨m3, ?_, valid, f_nF, f_nH.trans hN, ⟨M, f_nV, M2, M3⟩, fun A p B h => ?_, fun h hh h' hh' => ?_, fun x => ?_⟩
  · rw [new]
    refine (bind_of M1).trans ?_
    refine (bind_of a1).trans ?_
    refine (bind_of e1).trans ?_
    simp only
    refine (bind_of e2).trans ?_
    refine (bind_of i1).trans ?_
    refine (bind_of o1).trans ?_
    exact l1
  · have hp := h2 p (by rw [h]; simp)
    obtain ⟨b1, -, -⟩ := c.block A p B h
    obtain ⟨t, t1, t2, t3, -⟩ := c.ring h hp
    have e1 := ringIter_eq t2 t3
    have fh : faceHalfedges m3 A.length = some (List.range' A.flatten.length p.length) := by
      rw [faceHalfedges, show m3.fHe = m2.fHe from rfl, f_fHe]
      refine (bind_of b1).trans ?_
      rw [show m3.heNext = m2.heNext from rfl, f_next, e1, t1]
    refine ⟨fh, ?_⟩
    rw [faceVertices]
    refine (bind_of fh).trans ?_
    rw [show m3.heVertex = m2.heVertex from rfl, f_vertex]
    have gen : ∀ (q : List Nat) (s : Nat), (∀ i (hi : i < q.length), get m0.heVertex (s + i) = some q[i]) →
        (List.range' s q.length).mapM (get m0.heVertex) = some q := by
      intro q
      induction q with
      | nil => intro s _; rfl
      | cons u q ih =>
        intro s hs
        rw [List.length_cons, List.range'_succ, List.mapM_cons]
        refine (bind_of (hs 0 (by simp))).trans ?_
        refine (bind_of (ih (s + 1) fun i hi => ?_)).trans rfl
        have := hs (i + 1) (by simp; omega)
        rw [show s + 1 + i = s + (i + 1) by omega, this]
        simp
    exact gen p _ fun i hi => by rw [c.vertex, h, block_get hi]
  · exact same_iff h (by rw [← f_nH]; exact hh) h' (by rw [← f_nH]; exact hh')
  · rw [show m3.heVertex = m2.heVertex from rfl, f_vertex, c.vertex]

end Verif.Surface
