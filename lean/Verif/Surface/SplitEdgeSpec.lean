import Verif.Surface.SplitEdge
/-!
# `split_edge`: the result
-/
namespace Verif.Surface

section
variable {m : Mesh} {e va vb : Nat} {es : List Nat}

/-- What the arrays hold after the split. -/
structure SplitArrays (m : Mesh) (e va vb : Nat) (es : List Nat) (m' : Mesh) : Prop where
  nV : m'.nV = m.nV + 1
  nH : m'.nH = m.nH + es.length
  nF : m'.nF = m.nF
  nE : m'.nE = m.nE + 1
  fHe : m'.fHe = m.fHe
  sizes : Sizes m'
  vHe : ∀ j, get m'.vHe j = if j = m.nV then some m.nH else get m.vHe j
  eHe : ∃ h h', (∀ j, get m'.eHe j = if j = m.nE then some h' else if j = e then some h else get m.eHe j) ∧ get m'.heEdge h = some e ∧
    get m'.heEdge h' = some m.nE
  V : Key m es (get m.heVertex) (get m.heVertex) (fun _ => some m.nV) (get m'.heVertex)
  X : Key m es (get m.heNext) (fun x => some (nw es m.nH x)) (get m.heNext) (get m'.heNext)
  F : Key m es (get m.heFace) (get m.heFace) (get m.heFace) (get m'.heFace)
  E : Key m es (get m.heEdge) (fun x => if tip m x = some vb then some e else some m.nE)
    (fun x => if tip m x = some va then some e else some m.nE) (get m'.heEdge)

theorem SplitArrays.tip {m' : Mesh} (c : EdgeCtx m e va vb es) (a : SplitArrays m e va vb es m') :
    Key m es (tip m) (fun _ => some m.nV) (tip m) (tip m') := by
  have step : ∀ {y n}, get m'.heNext y = some n → Surface.tip m' y = get m'.heVertex n := fun h => by simp [Surface.tip, h]
  have oldV : ∀ n, n < m.nH → get m'.heVertex n = get m.heVertex n := fun n hn => by
    by_cases h : n ∈ es
    · exact a.V.onEdge n h
    · exact a.V.old n hn h
  refine ⟨fun x hx => ?_, fun x hx hx' => ?_, fun x hx => ?_, fun x hx => ?_⟩
  · rw [step (a.X.onEdge x hx), a.V.new x hx]
  · obtain ⟨n, n1, n2, -⟩ := c.v.next hx
    rw [step ((a.X.old x hx hx').trans n1), oldV n n2]
    simp [Surface.tip, n1]
  · obtain ⟨n, n1, n2, -⟩ := c.v.next (c.es_lt hx)
    rw [step ((a.X.new x hx).trans n1), oldV n n2]
    simp [Surface.tip, n1]
  · simp [Surface.tip, a.X.out x hx]

/-- The halfedges of a face after the split. -/
theorem SplitArrays.face {m' : Mesh} (c : EdgeCtx m e va vb es) (a : SplitArrays m e va vb es m') {f h : Nat} {t : List Nat}
    (hc : Chain m.heNext h t h) (hn : (h :: t).Nodup) (hm : ∀ x, x ∈ h :: t ↔ get m.heFace x = some f) :
    ∃ t', expand es m.nH (h :: t) = h :: t' ∧ Chain m'.heNext h t' h ∧ (h :: t').Nodup ∧ ∀ x, x ∈ h :: t' ↔ get m'.heFace x = some f := by
  have lt : ∀ x ∈ h :: t, x < m.nH := fun x hx => by have := get_lt ((hm x).1 hx); rwa [c.v.sFace] at this
  obtain ⟨t', h1, h2⟩ := chain_expand (b := m'.heNext) (es := es) (N := m.nH) hc (fun y hy => ⟨a.X.onEdge y hy, a.X.new y hy⟩)
    (fun y hy hy' => a.X.old y (lt y hy) hy')
  refine ⟨t', h1, h2, by rw [← h1]; exact nodup_expand hn lt, fun x => ?_⟩
  rw [← h1, mem_expand, hm]
  constructor
  · rintro (hx | ⟨y, hy, hy', rfl⟩)
    · by_cases hx' : x ∈ es
      · rw [a.F.onEdge x hx', hx]
      · have := get_lt hx; rw [c.v.sFace] at this
        rw [a.F.old x this hx', hx]
    · rw [a.F.new y hy', (hm y).1 hy]
  · intro hx
    rcases c.cases x with h | ⟨h1, h2⟩ | ⟨y, hy, rfl⟩ | h
    · rw [a.F.onEdge x h] at hx; exact Or.inl hx
    · rw [a.F.old x h1 h2] at hx; exact Or.inl hx
    · rw [a.F.new y hy] at hx; exact Or.inr ⟨y, (hm y).2 hx, hy, rfl⟩
    · rw [a.F.out x h] at hx; cases hx

theorem SplitArrays.valid {m' : Mesh} (c : EdgeCtx m e va vb es) (a : SplitArrays m e va vb es m')
    (outs : Rings m'.vOut (get m'.heVertex)) (ins : Rings m'.vIn (Surface.tip m')) (edges : Rings m'.sib (get m'.heEdge)) : Valid m' := by
  have v := c.v
  have ht := a.tip c
  have rangeH : ∀ x, x < m'.nH → (x ∈ es ∨ x < m.nH ∧ x ∉ es) ∨ ∃ y ∈ es, x = nw es m.nH y := by
    intro x hx
    rw [a.nH] at hx
    rcases c.cases x with h | h | h | h
    · exact Or.inl (Or.inl h)
    · exact Or.inl (Or.inr h)
    · exact Or.inr h
    · omega
  have keyOld : ∀ {key onN key'}, Key m es key key onN key' → ∀ x, x < m.nH → key' x = key x := fun k x hx => by
    by_cases h : x ∈ es
    · exact k.onEdge x h
    · exact k.old x hx h
  have oldLt : ∀ x, (x ∈ es ∨ x < m.nH ∧ x ∉ es) → x < m.nH := fun x hx => hx.elim c.es_lt And.left
  have tl : ∀ x ∈ es, Surface.tip m x = some va ∨ Surface.tip m x = some vb := fun x hx => (c.ends x hx).elim (fun h => Or.inr h.2) (fun h => Or.inl h.2)
  refine { a.sizes with hasV := ?_, hasF := ?_, hasE := ?_, faces := ?_, edges := edges, outs := outs, ins := ins, vhe := ?_, vhe' := ?_, fhe := ?_, ehe := ?_, ends := ?_ }
  · intro x hx
    rw [a.nV]
    rcases rangeH x hx with h | ⟨y, hy, rfl⟩
    · obtain ⟨u, u1, u2⟩ := v.hasV x (oldLt x h)
      exact ⟨u, by omega, (keyOld a.V x (oldLt x h)).trans u2⟩
    · exact ⟨m.nV, by omega, a.V.new y hy⟩
  · intro x hx
    rw [a.nF]
    rcases rangeH x hx with h | ⟨y, hy, rfl⟩
    · obtain ⟨u, u1, u2⟩ := v.hasF x (oldLt x h)
      exact ⟨u, u1, (keyOld a.F x (oldLt x h)).trans u2⟩
    · obtain ⟨u, u1, u2⟩ := v.hasF y (c.es_lt hy)
      exact ⟨u, u1, (a.F.new y hy).trans u2⟩
  · intro x hx
    rw [a.nE]
    have lt := c.lt
    rcases rangeH x hx with (h | ⟨h, h'⟩) | ⟨y, hy, rfl⟩
    · rw [a.E.onEdge x h]
      split_ifs
      · exact ⟨e, by omega, rfl⟩
      · exact ⟨m.nE, by omega, rfl⟩
    · obtain ⟨u, u1, u2⟩ := v.hasE x h
      exact ⟨u, by omega, (a.E.old x h h').trans u2⟩
    · rw [a.E.new y hy]
      split_ifs
      · exact ⟨e, by omega, rfl⟩
      · exact ⟨m.nE, by omega, rfl⟩
  · intro x f hx
    have hf : f < m.nF := by
      have : ∀ y, get m.heFace y = some f → f < m.nF := fun y hy => by
        have := get_lt hy; rw [v.sFace] at this
        obtain ⟨g, g1, g2⟩ := v.hasF y this
        rw [hy] at g2; cases g2; exact g1
      rcases c.cases x with h | ⟨h1, h2⟩ | ⟨y, hy, rfl⟩ | h
      · rw [a.F.onEdge x h] at hx; exact this x hx
      · rw [a.F.old x h1 h2] at hx; exact this x hx
      · rw [a.F.new y hy] at hx; exact this y hx
      · rw [a.F.out x h] at hx; cases hx
    obtain ⟨h, t, -, -, h3, h4, h5⟩ := v.faceHalfedges hf
    obtain ⟨t', -, q2, q3, q4⟩ := a.face c h3 h4 h5
    exact Ring.rebase ⟨t', q2, q3, q4⟩ hx
  · intro u h hu
    rw [a.vHe] at hu
    split_ifs at hu with hj
    · cases hu
      obtain ⟨x, hx⟩ : ∃ x, x ∈ es := c.some_b.imp fun _ h => h.1
      have hpos : 0 < es.length := List.length_pos_of_mem hx
      have := a.V.new es[0] (List.getElem_mem _)
      rw [nw_get c.nd hpos, Nat.add_zero] at this
      rw [this, hj]
    · have h1 := v.vhe u h hu
      have h2 := get_lt h1; rw [v.sVertex] at h2
      rw [keyOld a.V h h2, h1]
  · intro h u hu
    rcases c.cases h with h1 | ⟨h1, h2⟩ | ⟨y, hy, rfl⟩ | h1
    · rw [a.V.onEdge h h1] at hu
      obtain ⟨h', q⟩ := v.vhe' h u hu
      obtain ⟨u', q1, q2⟩ := v.hasV h (c.es_lt h1)
      rw [hu] at q2; cases q2
      exact ⟨h', by rw [a.vHe, if_neg (by omega), q]⟩
    · rw [a.V.old h h1 h2] at hu
      obtain ⟨h', q⟩ := v.vhe' h u hu
      obtain ⟨u', q1, q2⟩ := v.hasV h h1
      rw [hu] at q2; cases q2
      exact ⟨h', by rw [a.vHe, if_neg (by omega), q]⟩
    · rw [a.V.new y hy] at hu
      cases hu
      exact ⟨m.nH, by rw [a.vHe, if_pos rfl]⟩
    · rw [a.V.out h h1] at hu; cases hu
  · intro f hf
    rw [a.nF] at hf
    obtain ⟨h, h1, h2⟩ := v.fhe f hf
    have h3 := get_lt h2; rw [v.sFace] at h3
    exact ⟨h, by rw [a.fHe, h1], by rw [keyOld a.F h h3, h2]⟩
  · intro k hk
    rw [a.nE] at hk
    obtain ⟨h, h', q1, q2, q3⟩ := a.eHe
    have lt := c.lt
    by_cases k1 : k = m.nE
    · exact ⟨h', by rw [q1, if_pos k1], by rw [q3, k1]⟩
    · by_cases k2 : k = e
      · exact ⟨h, by rw [q1, if_neg k1, if_pos k2], by rw [q2, k2]⟩
      · obtain ⟨x, x1, x2⟩ := v.ehe k (by omega)
        have x3 := get_lt x2; rw [v.sEdge] at x3
        refine ⟨x, by rw [q1, if_neg k1, if_neg k2, x1], ?_⟩
        rw [a.E.old x x3, x2]
        rw [c.mem, x2]
        intro hc; cases hc; exact k2 rfl
  · -- what the ends of the halfedges of an edge are
    have cls : ∀ x k, get m'.heEdge x = some k →
        (k = e ∧ ((get m'.heVertex x = some va ∧ Surface.tip m' x = some m.nV) ∨ (get m'.heVertex x = some m.nV ∧ Surface.tip m' x = some va))) ∨
        (k = m.nE ∧ ((get m'.heVertex x = some vb ∧ Surface.tip m' x = some m.nV) ∨ (get m'.heVertex x = some m.nV ∧ Surface.tip m' x = some vb))) ∨
        (k ≠ e ∧ k < m.nE ∧ get m.heEdge x = some k ∧ get m'.heVertex x = get m.heVertex x ∧ Surface.tip m' x = Surface.tip m x) := by
      intro x k hx
      have hab : vb ≠ va := c.ne.symm
      rcases c.cases x with h1 | ⟨h1, h2⟩ | ⟨y, hy, rfl⟩ | h1
      · rw [a.E.onEdge x h1] at hx
        rcases c.ends x h1 with ⟨e1, e2⟩ | ⟨e1, e2⟩
        · rw [e2, if_pos rfl] at hx
          cases hx
          exact Or.inl ⟨rfl, Or.inl ⟨(a.V.onEdge x h1).trans e1, ht.onEdge x h1⟩⟩
        · rw [e2, if_neg (by simp only [Option.some.injEq]; exact c.ne)] at hx
          cases hx
          exact Or.inr (Or.inl ⟨rfl, Or.inl ⟨(a.V.onEdge x h1).trans e1, ht.onEdge x h1⟩⟩)
      · rw [a.E.old x h1 h2] at hx
        refine Or.inr (Or.inr ⟨?_, ?_, hx, a.V.old x h1 h2, ht.old x h1 h2⟩)
        · rintro rfl; exact h2 ((c.mem x).2 hx)
        · obtain ⟨k', k1, k2⟩ := v.hasE x h1
          rw [hx] at k2; cases k2; exact k1
      · rw [a.E.new y hy] at hx
        rcases tl y hy with e2 | e2
        · rw [e2, if_pos rfl] at hx
          cases hx
          exact Or.inl ⟨rfl, Or.inr ⟨a.V.new y hy, (ht.new y hy).trans e2⟩⟩
        · rw [e2, if_neg (by simp only [Option.some.injEq]; exact hab)] at hx
          cases hx
          exact Or.inr (Or.inl ⟨rfl, Or.inr ⟨a.V.new y hy, (ht.new y hy).trans e2⟩⟩)
      · rw [a.E.out x h1] at hx; cases hx
    have lt := c.lt
    intro h h' k hk hk'
    unfold SameEnds
    rcases cls h k hk with ⟨p1, p2⟩ | ⟨p1, p2⟩ | ⟨p1, p1', p2, p3, p4⟩ <;> rcases cls h' k hk' with ⟨r1, r2⟩ | ⟨r1, r2⟩ | ⟨r1, r1', r2, r3, r4⟩
    · rcases p2 with ⟨p2, p3⟩ | ⟨p2, p3⟩ <;> rcases r2 with ⟨r2, r3⟩ | ⟨r2, r3⟩ <;> rw [p2, p3, r2, r3] <;> simp
    · omega
    · exact absurd p1 r1
    · omega
    · rcases p2 with ⟨p2, p3⟩ | ⟨p2, p3⟩ <;> rcases r2 with ⟨r2, r3⟩ | ⟨r2, r3⟩ <;> rw [p2, p3, r2, r3] <;> simp
    · omega
    · exact absurd r1 p1
    · omega
    · rw [p3, p4, r3, r4]
      exact v.ends h h' k p2 r2

/-- The rings around the vertices and edges. -/
theorem splitEdge_arrays (c : EdgeCtx m e va vb es) (r1 : edgeHalfedges m e = some es) {h0 : Nat} (r2 : es[0]? = some h0)
    (r3 : get m.heVertex h0 = some va) (r4 : Surface.tip m h0 = some vb) :
    ∃ m', splitEdge m e = some (m.nV, m') ∧ SplitArrays m e va vb es m' ∧ Rings m'.vOut (get m'.heVertex) ∧ Rings m'.vIn (Surface.tip m') ∧
      Rings m'.sib (get m'.heEdge) := by
  have v := c.v
  have hpos : 0 < es.length := List.length_pos_of_mem (List.mem_of_getElem? r2)
  have Nlen : ∀ {a : Ids}, a.length = m.nH → Len (a ++ List.replicate es.length none) (m.nH + es.length) := fun h => by simp [Len, h]
  have memnh : ∀ j, j ∈ List.range' m.nH es.length ↔ ∃ x ∈ es, j = nw es m.nH x := fun j => mem_nh c.nd
  have nh_lt : ∀ j, j ∈ List.range' m.nH es.length → j < m.nH + es.length := fun j hj => (List.mem_range'_1.1 hj).2
  have nh_ge : ∀ j, j ∈ List.range' m.nH es.length → m.nH ≤ j := fun j hj => (List.mem_range'_1.1 hj).1
  have nw_nh : ∀ x ∈ es, nw es m.nH x ∈ List.range' m.nH es.length := fun x hx => (memnh _).2 ⟨x, hx, rfl⟩
  have old_nh : ∀ x, x < m.nH → x ∉ List.range' m.nH es.length := fun x hx hc => by have := nh_ge x hc; omega
  have out_nh : ∀ x, m.nH + es.length ≤ x → x ∉ List.range' m.nH es.length := fun x hx hc => by have := nh_lt x hc; omega
  -- vertices
  obtain ⟨W, w1, w2, w3⟩ := put_len (a := m.vHe ++ [none]) (i := m.nV) m.nH (n := m.nV + 1) (by simp [Len, v.sV]) (by omega)
  obtain ⟨V, v1, v2, v3⟩ := setAll_len (l := List.range' m.nH es.length) m.nV (Nlen v.sVertex) nh_lt
  have hV : Key m es (get m.heVertex) (get m.heVertex) (fun _ => some m.nV) (get V) := by
    refine ⟨fun x hx => ?_, fun x hx hx' => ?_, fun x hx => ?_, fun x hx => ?_⟩
    · rw [v3, if_neg (old_nh x (c.es_lt hx)), get_append]
    · rw [v3, if_neg (old_nh x hx), get_append]
    · rw [v3, if_pos (nw_nh x hx)]
    · rw [v3, if_neg (out_nh x hx), get_append]; exact out_none v.sVertex (by omega)
  -- next
  obtain ⟨X, x1, x2, x3, x4⟩ := insertAll_spec (es.zip (List.range' m.nH es.length)) _ (fresh_zip c.nd fun x hx => c.es_lt hx) (Nlen v.sNext)
    (fun w hw => by
      obtain ⟨n, n1, -⟩ := v.next (c.es_lt (zip_mem c.nd hw).1)
      exact ⟨n, by rw [get_append, n1]⟩)
  have zf : (es.zip (List.range' m.nH es.length)).map Prod.fst = es := List.map_fst_zip (by simp)
  have zs : (es.zip (List.range' m.nH es.length)).map Prod.snd = List.range' m.nH es.length := List.map_snd_zip (by simp)
  rw [zf, zs] at x4
  have hX : Key m es (get m.heNext) (fun x => some (nw es m.nH x)) (get m.heNext) (get X) := by
    refine ⟨fun x hx => ?_, fun x hx hx' => ?_, fun x hx => ?_, fun x hx => ?_⟩
    · exact (x3 _ (mem_zip_nh c.nd hx)).1
    · rw [x4 x hx' (old_nh x hx), get_append]
    · rw [(x3 _ (mem_zip_nh c.nd hx)).2, get_append]
    · rw [x4 x (fun hc => by have := c.es_lt hc; omega) (out_nh x hx), get_append]; exact out_none v.sNext (by omega)
  -- faces
  obtain ⟨F, f1, f2, f3, f4⟩ := copy_spec (es.zip (List.range' m.nH es.length)) _ (fresh_zip c.nd fun x hx => c.es_lt hx) (Nlen v.sFace)
    (fun w hw => by
      obtain ⟨n, -, n1⟩ := v.hasF _ (c.es_lt (zip_mem c.nd hw).1)
      exact ⟨n, by rw [get_append, n1]⟩)
  rw [zs] at f4
  have hF : Key m es (get m.heFace) (get m.heFace) (get m.heFace) (get F) := by
    refine ⟨fun x hx => ?_, fun x hx hx' => ?_, fun x hx => ?_, fun x hx => ?_⟩
    · rw [f4 x (old_nh x (c.es_lt hx)), get_append]
    · rw [f4 x (old_nh x hx), get_append]
    · rw [f3 _ (mem_zip_nh c.nd hx), get_append]
    · rw [f4 x (out_nh x hx), get_append]; exact out_none v.sFace (by omega)
  -- the incoming halfedges of the ends
  obtain ⟨m1, hm1⟩ : ∃ x : Mesh, x = { (newHalfedges (newVertices m 1).2 es.length).2 with vHe := W, heVertex := V } := ⟨_, rfl⟩
  have gN1 : ∀ j, get m1.heNext j = get m.heNext j := fun j => by rw [hm1]; exact get_append _ j
  have gV1 : ∀ j, get m1.heVertex j = get V j := fun j => by rw [hm1]
  have gW1 : ∀ j, get m1.vHe j = get W j := fun j => by rw [hm1]
  have gI1 : ∀ j, get m1.vIn j = get m.vIn j := fun j => by rw [hm1]; exact get_append _ j
  have oldV : ∀ n, n < m.nH → get V n = get m.heVertex n := fun n hn => by
    by_cases h : n ∈ es
    · exact hV.onEdge n h
    · exact hV.old n hn h
  have tip1 : ∀ j, Surface.tip m1 j = Surface.tip m j := fun j => by
    simp only [Surface.tip, gN1, gV1]
    cases hn : get m.heNext j with
    | none => rfl
    | some n =>
      have hj := get_lt hn; rw [v.sNext] at hj
      obtain ⟨n', n1, n2, -⟩ := v.next hj
      rw [hn] at n1; cases n1
      exact oldV n n2
  have inc : ∀ {u h : Nat}, get m.heVertex h = some u → ∃ l, incoming m1 u = some l ∧ l.Nodup ∧ l ≠ [] ∧ ∀ x, x ∈ l ↔ Surface.tip m x = some u := by
    intro u h hu
    obtain ⟨h', q1⟩ := v.vhe' h u hu
    have q2 := v.vhe u h' q1
    have q3 := get_lt q2; rw [v.sVertex] at q3
    obtain ⟨u', q4, q5⟩ := v.hasV h' q3
    rw [q2] at q5; cases q5
    obtain ⟨f, -, hf⟩ := v.hasF h' q3
    obtain ⟨l, l1, l2, l3, l4⟩ := incoming_spec (m := m1) (v := u) (h := h') (P := fun x => get m.heFace x = some f)
      (by rw [gW1, w3, if_neg (by omega), get_append1, q1]) (by rw [gV1, oldV h' q3, q2])
      ((v.faces h' f hf).congr fun y _ => gN1 y) (v.ins.congr tip1 fun j _ _ => gI1 j)
    exact ⟨l, l1, l2, l3, fun x => by rw [l4, tip1]⟩
  obtain ⟨nb, nb1, nb2⟩ := tip_some.1 r4
  obtain ⟨la, la1, la2, la3, la4⟩ := inc r3
  obtain ⟨lb, lb1, lb2, lb3, lb4⟩ := inc nb2
  -- the rings around the vertices
  let T := fun j => do get V (← get X j)
  have hT : Key m es (Surface.tip m) (fun _ => some m.nV) (Surface.tip m) T := by
    have step : ∀ {y n}, get X y = some n → T y = get V n := fun h => by simp [T, h]
    refine ⟨fun x hx => ?_, fun x hx hx' => ?_, fun x hx => ?_, fun x hx => ?_⟩
    · rw [step (hX.onEdge x hx), hV.new x hx]
    · obtain ⟨n, n1, n2, -⟩ := v.next hx
      rw [step ((hX.old x hx hx').trans n1), oldV n n2]
      simp [Surface.tip, n1]
    · obtain ⟨n, n1, n2, -⟩ := v.next (c.es_lt hx)
      rw [step ((hX.new x hx).trans n1), oldV n n2]
      simp [Surface.tip, n1]
    · simp [T, hX.out x hx]
  obtain ⟨A1, A2, A3, A4⟩ := c.in_class hT c.a_lt la4 la2 la3
  obtain ⟨B1, B2, B3, B4⟩ := c.in_class hT c.b_lt lb4 lb2 lb3
  have tl : ∀ x ∈ es, Surface.tip m x = some va ∨ Surface.tip m x = some vb := fun x hx => (c.ends x hx).elim (fun h => Or.inr h.2) (fun h => Or.inl h.2)
  have rI0 : RingsOn (m.vIn ++ List.replicate es.length none) T fun k => k ≠ va ∧ k ≠ vb ∧ k ≠ m.nV := by
    rintro h k ⟨k1, k2, k3⟩ hk
    have same : ∀ y, Surface.tip m y = some k ↔ T y = some k := by
      intro y
      rcases c.cases y with h1 | ⟨h1, h2⟩ | ⟨x, hx, rfl⟩ | h1
      · rw [hT.onEdge y h1]
        rcases tl y h1 with h | h <;> rw [h] <;> simp only [Option.some.injEq] <;> constructor <;> intro hc <;> omega
      · rw [hT.old y h1 h2]
      · have hlt := (nw_range (N := m.nH) hx).1
        rw [hT.new x hx]
        have : Surface.tip m (nw es m.nH x) = none := by simp [Surface.tip, out_none v.sNext hlt]
        rw [this]
        rcases tl x hx with h | h <;> rw [h] <;> simp only [Option.some.injEq, reduceCtorEq, false_iff] <;> omega
      · rw [hT.out y h1]
        have : Surface.tip m y = none := by simp [Surface.tip, out_none v.sNext (show m.nH ≤ y by omega)]
        rw [this]
    exact ((v.ins h k ((same h).2 hk)).congr fun y _ => get_append _ y).iff same
  obtain ⟨I1, i11, i12, i13⟩ := rI0.write (Nlen v.sIn) A1 A2 A3 A4
  obtain ⟨I2, i21, i22, i23⟩ := i13.write i12 B1 B2 B3 B4
  have es_ne : es ≠ [] := List.ne_nil_of_length_pos hpos
  obtain ⟨I, i31, i32, i33⟩ := i23.write (k0 := m.nV) (L := es) i22 es_ne c.nd (fun y => by
      constructor
      · exact fun hy => hT.onEdge y hy
      · intro hy
        have : ∀ x, Surface.tip m x ≠ some m.nV := by
          intro x hx
          obtain ⟨n, n1, n2⟩ := tip_some.1 hx
          have := get_lt n2; rw [v.sVertex] at this
          obtain ⟨u, u1, u2⟩ := v.hasV n this
          rw [n2] at u2; cases u2; omega
        rcases c.cases y with h1 | ⟨h1, h2⟩ | ⟨x, hx, rfl⟩ | h1
        · exact h1
        · rw [hT.old y h1 h2] at hy; exact absurd hy (this y)
        · rw [hT.new x hx] at hy; exact absurd hy (this x)
        · rw [hT.out y h1] at hy; cases hy) (fun y hy => by have := c.es_lt hy; omega)
  have nh0 : List.range' m.nH es.length ≠ [] := by simp; omega
  obtain ⟨O, o1, o2, o3, o4⟩ := ringSet_ring (a := m.vOut ++ List.replicate es.length none) nh0 List.nodup_range'
    (fun j hj => by have := nh_lt j hj; rw [Nlen v.sOut]; exact this)
  have rO : Rings O (get V) := by
    refine Rings.newClass (l := List.range' m.nH es.length) (k0 := m.nV) v.outs (fun x hx => out_none v.sVertex (nh_ge x hx)) (fun j k hj => ?_) o4
      (fun j => by rw [v3, get_append]) (fun j hj => ?_)
    · have := get_lt hj; rw [v.sVertex] at this
      rw [o3 j (old_nh j this), get_append]
    · have := get_lt hj; rw [v.sVertex] at this
      obtain ⟨u, u1, u2⟩ := v.hasV j this
      rw [hj] at u2; cases u2; omega
  -- the two halves
  obtain ⟨P1, P2, P3, P4⟩ := c.half (p := va) (q := vb) (Or.inl ⟨rfl, rfl⟩) la4 lb4 la2 lb2
  obtain ⟨Q1, Q2, Q3, Q4⟩ := c.half (p := vb) (q := va) (Or.inr ⟨rfl, rfl⟩) lb4 la4 lb2 la2
  obtain ⟨ea, hea⟩ : ∃ l, l = lb.filter (· ∈ es) ++ (la.filter (· ∈ es)).map (nw es m.nH) := ⟨_, rfl⟩
  obtain ⟨eb, heb⟩ : ∃ l, l = la.filter (· ∈ es) ++ (lb.filter (· ∈ es)).map (nw es m.nH) := ⟨_, rfl⟩
  rw [← hea] at P1 P2 P3 P4
  rw [← heb] at Q1 Q2 Q3 Q4
  have half_lt : ∀ y, (y ∈ es ∨ ∃ x ∈ es, y = nw es m.nH x) → y < m.nH + es.length := by
    rintro y (hy | ⟨x, hx, rfl⟩)
    · have := c.es_lt hy; omega
    · exact (nw_range hx).2
  obtain ⟨E1, e11, e12, e13⟩ := setAll_len (l := ea) e (Nlen v.sEdge) fun y hy => half_lt y (P4 y hy)
  obtain ⟨E, e21, e22, e23⟩ := setAll_len (l := eb) m.nE e12 fun y hy => half_lt y (Q4 y hy)
  have not_half : ∀ y, y ∉ es → (∀ x ∈ es, y ≠ nw es m.nH x) → y ∉ ea ∧ y ∉ eb := fun y h1 h2 =>
    ⟨fun h => (P4 y h).elim h1 fun ⟨x, hx, e⟩ => h2 x hx e, fun h => (Q4 y h).elim h1 fun ⟨x, hx, e⟩ => h2 x hx e⟩
  have hab : ¬ some va = some vb := by simp only [Option.some.injEq]; exact c.ne
  have hba : ¬ some vb = some va := by simp only [Option.some.injEq]; exact c.ne.symm
  have hE : Key m es (get m.heEdge) (fun x => if Surface.tip m x = some vb then some e else some m.nE)
      (fun x => if Surface.tip m x = some va then some e else some m.nE) (get E) := by
    refine ⟨fun x hx => ?_, fun x hx hx' => ?_, fun x hx => ?_, fun x hx => ?_⟩
    · rw [e23, e13]
      simp only [(P3 x hx).1, (Q3 x hx).1]
      rcases tl x hx with h | h <;> simp [h, hab, hba]
    · obtain ⟨n1, n2⟩ := not_half x hx' fun y hy e => by have := (nw_range (N := m.nH) hy).1; omega
      rw [e23, if_neg n2, e13, if_neg n1, get_append]
    · rw [e23, e13]
      simp only [(P3 x hx).2, (Q3 x hx).2]
      rcases tl x hx with h | h <;> simp [h, hab, hba]
    · obtain ⟨n1, n2⟩ := not_half x (fun hc => by have := c.es_lt hc; omega) fun y hy e => by have := (nw_range (N := m.nH) hy).2; omega
      rw [e23, if_neg n2, e13, if_neg n1, get_append]; exact out_none v.sEdge (by omega)
  have lt := c.lt
  have oldE : ∀ x, get m.heEdge x ≠ some m.nE := by
    intro x hx
    have := get_lt hx; rw [v.sEdge] at this
    obtain ⟨u, u1, u2⟩ := v.hasE x this
    rw [hx] at u2; cases u2; omega
  have neE : ¬ some m.nE = some e := by simp only [Option.some.injEq]; omega
  have enE : ¬ some e = some m.nE := by simp only [Option.some.injEq]; omega
  have mea : ∀ y, y ∈ ea ↔ get E y = some e := by
    intro y
    rcases c.cases y with h1 | ⟨h1, h2⟩ | ⟨x, hx, rfl⟩ | h1
    · rw [hE.onEdge y h1, (P3 y h1).1]
      split_ifs with h <;> simp [h, neE]
    · rw [hE.old y h1 h2, ← c.mem]
      exact ⟨fun h => absurd h (not_half y h2 fun x hx e => by have := (nw_range (N := m.nH) hx).1; omega).1, fun h => absurd h h2⟩
    · rw [hE.new x hx, (P3 x hx).2]
      split_ifs with h <;> simp [h, neE]
    · rw [hE.out y h1]
      simp only [reduceCtorEq, iff_false]
      exact fun h => by have := half_lt y (P4 y h); omega
  have meb : ∀ y, y ∈ eb ↔ get E y = some m.nE := by
    intro y
    rcases c.cases y with h1 | ⟨h1, h2⟩ | ⟨x, hx, rfl⟩ | h1
    · rw [hE.onEdge y h1, (Q3 y h1).1]
      rcases tl y h1 with h | h <;> simp [h, hab, hba, enE]
    · rw [hE.old y h1 h2]
      exact ⟨fun h => absurd h (not_half y h2 fun x hx e => by have := (nw_range (N := m.nH) hx).1; omega).2, fun h => absurd h (oldE y)⟩
    · rw [hE.new x hx, (Q3 x hx).2]
      rcases tl x hx with h | h <;> simp [h, hab, hba, enE]
    · rw [hE.out y h1]
      simp only [reduceCtorEq, iff_false]
      exact fun h => by have := half_lt y (Q4 y h); omega
  have rS0 : RingsOn (m.sib ++ List.replicate es.length none) (get E) fun k => k ≠ e ∧ k ≠ m.nE := by
    rintro h k ⟨k1, k2⟩ hk
    have same : ∀ y, get m.heEdge y = some k ↔ get E y = some k := by
      intro y
      have ke : ¬ some e = some k := by simp only [Option.some.injEq]; omega
      have kE : ¬ some m.nE = some k := by simp only [Option.some.injEq]; omega
      rcases c.cases y with h1 | ⟨h1, h2⟩ | ⟨x, hx, rfl⟩ | h1
      · rw [hE.onEdge y h1, (c.mem y).1 h1]
        simp only [ke, false_iff]
        split_ifs
        · exact ke
        · exact kE
      · rw [hE.old y h1 h2]
      · have hlt := (nw_range (N := m.nH) hx).1
        rw [hE.new x hx, out_none v.sEdge hlt]
        simp only [reduceCtorEq, false_iff]
        split_ifs
        · exact ke
        · exact kE
      · rw [hE.out y h1, out_none v.sEdge (show m.nH ≤ y by omega)]
    exact ((v.edges h k ((same h).2 hk)).congr fun y _ => get_append _ y).iff same
  obtain ⟨S1, s11, s12, s13⟩ := rS0.write (Nlen v.sSib) P1 P2 mea fun y hy => half_lt y (P4 y hy)
  obtain ⟨S, s21, s22, s23⟩ := s13.write s12 Q1 Q2 meb fun y hy => half_lt y (Q4 y hy)
  obtain ⟨a0, ra0⟩ : ∃ x, ea[0]? = some x := ⟨ea[0]'(List.length_pos_of_ne_nil P1), List.getElem?_eq_getElem _⟩
  obtain ⟨b0, rb0⟩ : ∃ x, eb[0]? = some x := ⟨eb[0]'(List.length_pos_of_ne_nil Q1), List.getElem?_eq_getElem _⟩
  obtain ⟨G1, g11, g12, g13⟩ := put_len (a := m.eHe ++ [none]) (i := e) a0 (n := m.nE + 1) (by simp [Len, v.sE]) (by omega)
  obtain ⟨G, g21, g22, g23⟩ := put_len (a := G1) (i := m.nE) b0 g12 (by omega)
  refine ⟨⟨W, X, V, m.fHe, m.nV + 1, m.nH + es.length, m.nF, m.nE + 1, E, F, I, O, S, G⟩, ?_, ?_, rO, ?_, ?_⟩
  · have sV := v.sV
    have sE := v.sE
    rw [← sV] at w1 v1
    rw [← sE] at e21 g21
    rw [hm1] at la1 lb1
    have r5 : (List.range' m.nH es.length)[0]? = some m.nH := by rw [range'_get hpos, Nat.add_zero]
    have run := splitEdge_run r1 r2 r3 r4 v.sNext r5 w1 v1 la1 lb1 (toNew_spec la) (toNew_spec lb) i11 i21 i31 o1 hea heb s11 s21 x1 e11 e21 ra0 rb0
      g11 g21 f1
    rw [run, sV]
  · exact
      { nV := rfl, nH := rfl, nF := rfl, nE := rfl, fHe := rfl,
        sizes := ⟨w2, v.sF, g22, x2, v2, e22, f2, i32, o2.trans (Nlen v.sOut), s22⟩
        vHe := fun j => by simp only; rw [w3, get_append1]
        eHe := ⟨a0, b0, fun j => by simp only; rw [g23, g13, get_append1], (mea a0).1 (List.mem_of_getElem? ra0), (meb b0).1 (List.mem_of_getElem? rb0)⟩
        V := hV, X := hX, F := hF, E := hE }
  · intro h k hk
    exact i33 h k (by simp only; omega) hk
  · intro h k hk
    exact s23 h k (by simp only; omega) hk

end

/-- `split_edge` on a valid mesh. -/
theorem splitEdge_spec {m : Mesh} (v : Valid m) {e : Nat} (he : e < m.nE) (hloop : ∀ h, get m.heEdge h = some e → get m.heVertex h ≠ tip m h) :
    ∃ es m', edgeHalfedges m e = some es ∧ splitEdge m e = some (m.nV, m') ∧ Valid m' ∧ m'.nV = m.nV + 1 ∧ m'.nE = m.nE + 1 ∧ m'.nF = m.nF ∧
      m'.nH = m.nH + es.length ∧
      (∀ f < m.nF, ∃ hs vs, faceHalfedges m f = some hs ∧ faceVertices m f = some vs ∧
        faceVertices m' f = some ((hs.zip vs).flatMap fun w => if get m.heEdge w.1 = some e then [w.2, m.nV] else [w.2])) ∧
      (∀ h < m.nH, get m.heEdge h ≠ some e → get m'.heEdge h = get m.heEdge h) := by
  obtain ⟨h0, t, r1, -, -, nd, mem⟩ := v.edgeHalfedges he
  have hh0 := (mem h0).1 (by simp)
  have lt0 := get_lt hh0; rw [v.sEdge] at lt0
  obtain ⟨va, a1, a2⟩ := v.hasV h0 lt0
  obtain ⟨vb, b1, b2⟩ := v.tip lt0
  have c : EdgeCtx m e va vb (h0 :: t) :=
    { v := v, lt := he, nd := nd, mem := mem, a_lt := a1, b_lt := b2
      ne := fun h => hloop h0 hh0 (by rw [a2, b1, h])
      some_b := ⟨h0, by simp, b1⟩
      ends := fun x hx => by
        have := v.ends h0 x e hh0 ((mem x).1 hx)
        unfold SameEnds at this
        rwa [a2, b1] at this }
  obtain ⟨m', q1, q2, q3, q4, q5⟩ := splitEdge_arrays c r1 (h0 := h0) rfl a2 b1
  refine ⟨_, m', r1, q1, q2.valid c q3 q4 q5, q2.nV, q2.nE, q2.nF, q2.nH, fun f hf => ?_, fun h hh hne => ?_⟩
  · obtain ⟨h, t', f1, f2, f3, f4, f5⟩ := v.faceHalfedges hf
    obtain ⟨t'', g1, g2, g3, g4⟩ := q2.face c f3 f4 f5
    have lt : ∀ x ∈ h :: t', x < m.nH := fun x hx => by have := get_lt ((f5 x).1 hx); rwa [v.sFace] at this
    obtain ⟨vs, hvs⟩ : ∃ vs, (h :: t').mapM (get m.heVertex) = some vs := by
      have : ∀ l : List Nat, (∀ x ∈ l, x < m.nH) → ∃ vs, l.mapM (get m.heVertex) = some vs := by
        intro l
        induction l with
        | nil => intro _; exact ⟨[], rfl⟩
        | cons x l ih =>
          intro hl
          obtain ⟨us, hus⟩ := ih fun y hy => hl y (List.mem_cons_of_mem _ hy)
          obtain ⟨u, -, hu⟩ := v.hasV x (hl x (by simp))
          exact ⟨u :: us, by simp [List.mapM_cons, hu, hus]⟩
      exact this _ lt
    have f0 : get m'.fHe f = some h := by rw [q2.fHe, f2]
    refine ⟨h :: t', vs, f1, by simp only [faceVertices, f1, Option.bind_eq_bind, Option.bind_some, hvs], ?_⟩
    have e1 := ringIter_eq g2 g3
    have e2 := mapM_expand (V' := m'.heVertex) (es := h0 :: t) (N := m.nH) (M := m.nV) hvs (fun x hx => by
      by_cases h : x ∈ h0 :: t
      · exact q2.V.onEdge x h
      · exact q2.V.old x (lt x hx) h) (fun x hx => q2.V.new x hx)
    simp only [faceVertices, Surface.faceHalfedges, f0, e1, Option.bind_eq_bind, Option.bind_some]
    rw [← g1, e2]
    congr 1
    refine List.flatMap_congr fun w _ => ?_
    simp only [mem]
  · exact q2.E.old h hh fun hc => hne ((mem h).1 hc)

end Verif.Surface
