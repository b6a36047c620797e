import Verif.Surface.Basic
/-!
# `add_face_by_halfedges`
-/
namespace Verif.Surface

theorem rings_insertHe {a : Ids} {key : Nat → Option Nat} (r : Rings a key) {s x k : Nat} (hs : key s = some k) (hx : key x = none)
    (hlt : x < a.length) : ∃ b, insertHe a s x = some b ∧ b.length = a.length ∧
      (∀ key' : Nat → Option Nat, (∀ j, key' j = if j = x then key s else key j) → Rings b key') ∧ ∀ j, j ≠ s → j ≠ x → get b j = get a j := by
  have hne : x ≠ s := by rintro rfl; rw [hs] at hx; cases hx
  obtain ⟨n, hn, -⟩ := (r s k hs).get hs
  obtain ⟨b, h1, h2, h3, h4, h5⟩ := insertHe_spec hn hlt hne
  exact ⟨b, h1, h2, fun key' hk => r.insert ⟨k, hs⟩ hx hk h3 h4 h5, h5⟩

theorem rings_insertHe_len {a : Ids} {key : Nat → Option Nat} {n : Nat} (r : Rings a key) {s x k : Nat} (hs : key s = some k) (hx : key x = none)
    (hl : Len a n) (hlt : x < n) : ∃ b, insertHe a s x = some b ∧ Len b n ∧
      (∀ key' : Nat → Option Nat, (∀ j, key' j = if j = x then key s else key j) → Rings b key') ∧ ∀ j, j ≠ s → j ≠ x → get b j = get a j := by
  obtain ⟨b, h1, h2, h3⟩ := rings_insertHe r hs hx (by rw [hl]; exact hlt)
  exact ⟨b, h1, h2.trans hl, h3⟩

/-- The loop over the halfedges. `inKey` gives the tips, of the new halfedges also. -/
theorem addHalfedges_spec (N : Nat) : ∀ (l : List (Nat × Nat)) (m : Mesh) (inKey : Nat → Option Nat),
    Rings m.sib (get m.heEdge) → Rings m.vOut (get m.heVertex) → Rings m.vIn inKey →
    m.heVertex.length = N → m.sib.length = N → m.vIn.length = N → m.vOut.length = N → m.heEdge.length = N →
    (∀ w ∈ l, w.2 < N ∧ get m.heVertex w.2 = none ∧ get m.heEdge w.2 = none ∧ inKey w.2 = none) →
    (∀ w ∈ l, (∃ k, get m.heVertex w.1 = some k) ∧ (∃ k, get m.heEdge w.1 = some k) ∧ ∃ k, inKey w.1 = some k) →
    (l.map Prod.snd).Nodup →
    ∃ (V S I O E : Ids) (inKey' : Nat → Option Nat),
      addHalfedges l m = some { m with heVertex := V, sib := S, vIn := I, vOut := O, heEdge := E } ∧
      V.length = N ∧ S.length = N ∧ I.length = N ∧ O.length = N ∧ E.length = N ∧
      Rings S (get E) ∧ Rings O (get V) ∧ Rings I inKey' ∧
      (∀ j, j ∉ l.map Prod.snd → get V j = get m.heVertex j ∧ get E j = get m.heEdge j ∧ inKey' j = inKey j) ∧
      ∀ w ∈ l, get V w.2 = get m.heVertex w.1 ∧ get E w.2 = get m.heEdge w.1 ∧ inKey' w.2 = inKey w.1 := by
  intro l
  induction l with
  | nil =>
    intro m inKey r1 r2 r3 l1 l2 l3 l4 l5 _ _ _
    exact ⟨m.heVertex, m.sib, m.vIn, m.vOut, m.heEdge, inKey, rfl, l1, l2, l3, l4, l5, r1, r2, r3, fun _ _ => ⟨rfl, rfl, rfl⟩, by simp⟩
  | cons w l ih =>
    obtain ⟨o, n⟩ := w
    intro m inKey r1 r2 r3 l1 l2 l3 l4 l5 hnew hold hnd
    obtain ⟨hnN, hnV, hnE, hnI⟩ := hnew (o, n) (by simp)
    obtain ⟨⟨kv, hkv⟩, ⟨ke, hke⟩, ⟨ki, hki⟩⟩ := hold (o, n) (by simp)
    simp only at hnN hnV hnE hnI hkv hke hki
    obtain ⟨V, v1, v2, v3⟩ := put_spec (a := m.heVertex) kv (by rw [l1]; exact hnN)
    obtain ⟨E, e1, e2, e3⟩ := put_spec (a := m.heEdge) ke (by rw [l5]; exact hnN)
    obtain ⟨S, s1, s2, s3, -⟩ := rings_insertHe r1 hke hnE (by rw [l2]; exact hnN)
    obtain ⟨I, i1, i2, i3, -⟩ := rings_insertHe r3 hki hnI (by rw [l3]; exact hnN)
    obtain ⟨O, o1, o2, o3, -⟩ := rings_insertHe r2 hkv hnV (by rw [l4]; exact hnN)
    set m1 : Mesh := { m with heVertex := V, sib := S, vIn := I, vOut := O, heEdge := E } with hm1
    have hnd' : n ∉ l.map Prod.snd ∧ (l.map Prod.snd).Nodup := by simpa using hnd
    have ne_o : ∀ w ∈ l, w.1 ≠ n := by
      rintro w hw rfl
      obtain ⟨⟨k, hk⟩, -⟩ := hold w (List.mem_cons_of_mem _ hw)
      rw [hnV] at hk; cases hk
    have ne_n : ∀ w ∈ l, w.2 ≠ n := by
      rintro w hw rfl
      exact hnd'.1 (List.mem_map.2 ⟨w, hw, rfl⟩)
    obtain ⟨V', S', I', O', E', inKey', h1, h2, h3, h4, h5, h6, h7, h8, h9, h10, h11⟩ :=
      ih m1 (fun j => if j = n then inKey o else inKey j)
        (s3 _ fun j => by rw [e3, hke]) (o3 _ fun j => by rw [v3, hkv]) (i3 _ fun j => rfl)
        (by simp [hm1, v2, l1]) (by simp [hm1, s2, l2]) (by simp [hm1, i2, l3]) (by simp [hm1, o2, l4]) (by simp [hm1, e2, l5])
        (fun w hw => by
          obtain ⟨a1, a2, a3, a4⟩ := hnew w (List.mem_cons_of_mem _ hw)
          have := ne_n w hw
          simp only [hm1]
          rw [v3, e3, if_neg this, if_neg this, if_neg this]
          exact ⟨a1, a2, a3, a4⟩)
        (fun w hw => by
          have := ne_o w hw
          simp only [hm1]
          rw [v3, e3, if_neg this, if_neg this, if_neg this]
          exact hold w (List.mem_cons_of_mem _ hw)) hnd'.2
    refine ⟨V', S', I', O', E', inKey', ?_, h2, h3, h4, h5, h6, h7, h8, h9, ?_, ?_⟩
    · simp only [addHalfedges, hkv, v1, s1, i1, o1, hke, e1, Option.bind_eq_bind, Option.bind_some]
      rw [← hm1, h1]
    · intro j hj
      simp only [List.map_cons, List.mem_cons, not_or] at hj
      obtain ⟨a1, a2, a3⟩ := h10 j hj.2
      rw [a1, a2, a3]
      simp only [hm1]
      rw [v3, e3, if_neg hj.1, if_neg hj.1, if_neg hj.1]
      exact ⟨rfl, rfl, rfl⟩
    · intro w hw
      rcases List.mem_cons.1 hw with rfl | hw
      · obtain ⟨a1, a2, a3⟩ := h10 n hnd'.1
        rw [a1, a2, a3]
        simp only [hm1]
        rw [v3, e3, if_pos rfl, if_pos rfl]
        exact ⟨hkv.symm, hke.symm, by simp⟩
      · obtain ⟨a1, a2, a3⟩ := h11 w hw
        have := ne_o w hw
        rw [a1, a2, a3]
        simp only [hm1]
        rw [v3, e3, if_neg this, if_neg this, if_neg this]
        exact ⟨rfl, rfl, rfl⟩

/-- The halfedges form a closed chain: each ends where the next one starts. -/
def Closed (m : Mesh) (hs : List Nat) : Prop :=
  ∀ i (hi : i < hs.length), tip m hs[i] = get m.heVertex (hs[(i + 1) % hs.length]'(Nat.mod_lt _ (by omega)))

theorem range'_get {s n i : Nat} (h : i < n) : (List.range' s n)[i]? = some (s + i) := by
  rw [List.getElem?_range' h]; simp

/-- The successors on a chain. -/
theorem chain_step {a : Ids} {x z y : Nat} {l : List Nat} (h : Chain a x l z) {i : Nat} (hi : (x :: l)[i]? = some y) :
    get a y = some (((x :: l)[i + 1]?).getD z) := by
  induction l generalizing x i with
  | nil =>
    cases i with
    | zero =>
      simp only [List.getElem?_cons_zero, Option.some.injEq] at hi
      subst hi
      exact h
    | succ i => simp at hi
  | cons w l ih =>
    cases i with
    | zero =>
      simp only [List.getElem?_cons_zero, Option.some.injEq] at hi
      subst hi
      exact h.1
    | succ i =>
      rw [List.getElem?_cons_succ] at hi ⊢
      exact ih h.2 hi

theorem addFace_spec {m : Mesh} (v : Valid m) {hs : List Nat} (hne : hs ≠ []) (hlt : ∀ h ∈ hs, h < m.nH) (hc : Closed m hs) :
    ∃ m', addFace m hs = some (m.nF, m') ∧ Valid m' ∧ m'.nV = m.nV ∧ m'.nE = m.nE ∧ m'.nF = m.nF + 1 ∧ m'.nH = m.nH + hs.length ∧
      faceHalfedges m' m.nF = some (List.range' m.nH hs.length) ∧
      (∀ i (hi : i < hs.length), get m'.heVertex (m.nH + i) = get m.heVertex hs[i] ∧ get m'.heEdge (m.nH + i) = get m.heEdge hs[i]) ∧
      (∀ h < m.nH, get m'.heVertex h = get m.heVertex h ∧ get m'.heEdge h = get m.heEdge h ∧ get m'.heNext h = get m.heNext h ∧
        get m'.heFace h = get m.heFace h) ∧ (∀ f < m.nF, get m'.fHe f = get m.fHe f) := by
  obtain ⟨k, hk⟩ : ∃ k, hs.length = k + 1 := ⟨hs.length - 1, by have := List.length_pos_of_ne_nil hne; omega⟩
  set nh := List.range' m.nH hs.length with hnh
  set m1 := (newHalfedges m hs.length).2 with hm1
  have zlen : (hs.zip nh).length = hs.length := by simp [hnh]
  have zmem : ∀ w, w ∈ hs.zip nh ↔ ∃ i, ∃ hi : i < hs.length, w = (hs[i], m.nH + i) := by
    intro w
    rw [List.mem_iff_getElem]
    constructor
    · rintro ⟨i, hi, rfl⟩
      rw [zlen] at hi
      exact ⟨i, hi, by simp [hnh]⟩
    · rintro ⟨i, hi, rfl⟩
      exact ⟨i, by rw [zlen]; exact hi, by simp [hnh]⟩
  have zsnd : (hs.zip nh).map Prod.snd = nh := by
    rw [List.map_snd_zip]; simp [hnh]
  have memnh : ∀ j, j ∈ nh ↔ m.nH ≤ j ∧ j < m.nH + hs.length := by intro j; simp [hnh, List.mem_range'_1]
  have ndnh : nh.Nodup := List.nodup_range'
  have gV : ∀ j, get m1.heVertex j = get m.heVertex j := fun j => by simp [hm1, newHalfedges, get_append]
  have gE : ∀ j, get m1.heEdge j = get m.heEdge j := fun j => by simp [hm1, newHalfedges, get_append]
  have gN : ∀ j, get m1.heNext j = get m.heNext j := fun j => by simp [hm1, newHalfedges, get_append]
  have gF : ∀ j, get m1.heFace j = get m.heFace j := fun j => by simp [hm1, newHalfedges, get_append]
  have out : ∀ {a : Ids} {j}, a.length = m.nH → m.nH ≤ j → get a j = none := by
    intro a j ha hj
    by_contra hcon
    obtain ⟨x, hx⟩ := Option.ne_none_iff_exists'.1 hcon
    have := get_lt hx
    omega
  have tipout : ∀ {j}, m.nH ≤ j → tip m j = none := by
    intro j hj
    simp [tip, out v.sNext hj]
  obtain ⟨V, S, I, O, E, inKey, q1, q2, q3, q4, q5, q6, q7, q8, q9, q10, q11⟩ :=
    addHalfedges_spec (m.nH + hs.length) (hs.zip nh) m1 (tip m)
      (v.edges.congr gE fun j _ _ => by simp [hm1, newHalfedges, get_append])
      (v.outs.congr gV fun j _ _ => by simp [hm1, newHalfedges, get_append])
      (v.ins.congr (fun _ => rfl) fun j _ _ => by simp [hm1, newHalfedges, get_append])
      (by simp [hm1, newHalfedges, v.sVertex]) (by simp [hm1, newHalfedges, v.sSib]) (by simp [hm1, newHalfedges, v.sIn])
      (by simp [hm1, newHalfedges, v.sOut]) (by simp [hm1, newHalfedges, v.sEdge])
      (fun w hw => by
        obtain ⟨i, hi, rfl⟩ := (zmem w).1 hw
        simp only [gV, gE]
        exact ⟨by omega, out v.sVertex (by omega), out v.sEdge (by omega), tipout (by omega)⟩)
      (fun w hw => by
        obtain ⟨i, hi, rfl⟩ := (zmem w).1 hw
        simp only [gV, gE]
        have hl := hlt hs[i] (List.getElem_mem _)
        obtain ⟨a, -, ha⟩ := v.hasV _ hl
        obtain ⟨b, -, hb⟩ := v.hasE _ hl
        obtain ⟨c, hc, -⟩ := v.tip hl
        exact ⟨⟨a, ha⟩, ⟨b, hb⟩, ⟨c, hc⟩⟩)
      (by rw [zsnd]; exact ndnh)
  rw [zsnd] at q10
  have nhcons : nh = m.nH :: List.range' (m.nH + 1) k := by rw [hnh, hk, List.range'_succ]
  have len1 : m1.heNext.length = m.nH + hs.length := by simp [hm1, newHalfedges, v.sNext]
  obtain ⟨X, x1, x2, x3, x4⟩ := ringSet_spec (a := m1.heNext) (h := m.nH) (t := List.range' (m.nH + 1) k) (by rw [← nhcons]; exact ndnh)
    (fun j hj => by rw [← nhcons, memnh] at hj; omega)
  rw [← nhcons] at x1 x3
  have lenF : m1.heFace.length = m.nH + hs.length := by simp [hm1, newHalfedges, v.sFace]
  obtain ⟨F, f1, f2, f3⟩ := setAll_spec (a := m1.heFace) (l := nh) m.nF (fun j hj => by rw [memnh] at hj; omega)
  obtain ⟨H, g1, g2, g3⟩ := put_spec (a := m.fHe ++ [none]) (i := m.nF) m.nH (by simp [v.sF])
  have g4 : ∀ j, get H j = if j = m.nF then some m.nH else get m.fHe j := by
    intro j
    rw [g3]
    have := get_append (a := m.fHe) 1 j
    simp only [List.replicate_one] at this
    rw [this]
  have e1 : m1.fHe = m.fHe := rfl
  have e2 : m1.vHe = m.vHe := rfl
  have e3 : m1.eHe = m.eHe := rfl
  refine ⟨{ m1 with heVertex := V, sib := S, vIn := I, vOut := O, heEdge := E, heNext := X, heFace := F, fHe := H, nF := m.nF + 1 }, ?_, ?_, rfl, rfl,
    rfl, rfl, ?_, ?_, ?_, ?_⟩
  · have n0 : nh[0]? = some m.nH := by rw [nhcons]; rfl
    have es : (newHalfedges m hs.length).1 = m.nH := v.sNext
    simp only [addFace]
    rw [es, ← hnh, ← hm1]
    simp only [q1, x1, newFaces, f1, n0, Option.bind_eq_bind, Option.bind_some, Option.pure_def, List.replicate_one, e1, v.sF, g1, e2, e3]
    rfl
  · -- the new successors
    have nx : ∀ j, j < m.nH → get X j = get m.heNext j := fun j hj => by rw [x3 j (by rw [memnh]; omega), gN]
    have nxn : ∀ i (hi : i < hs.length), get X (m.nH + i) = some (m.nH + (i + 1) % hs.length) := by
      intro i hi
      have := chain_step x4 (i := i) (y := m.nH + i) (by rw [← nhcons, hnh, range'_get hi])
      rw [this, ← nhcons]
      by_cases hl : i + 1 < hs.length
      · rw [hnh, range'_get hl, Nat.mod_eq_of_lt hl]; rfl
      · rw [List.getElem?_eq_none (by simp [hnh]; omega)]
        have : i + 1 = hs.length := by omega
        rw [this, Nat.mod_self]; rfl
    have Vo : ∀ j, j < m.nH → get V j = get m.heVertex j ∧ get E j = get m.heEdge j ∧ inKey j = tip m j := fun j hj => by
      have := q10 j (by rw [memnh]; omega)
      rwa [gV, gE] at this
    have Vn : ∀ i (hi : i < hs.length), get V (m.nH + i) = get m.heVertex hs[i] ∧ get E (m.nH + i) = get m.heEdge hs[i] ∧
        inKey (m.nH + i) = tip m hs[i] := fun i hi => by
      have := q11 (hs[i], m.nH + i) ((zmem _).2 ⟨i, hi, rfl⟩)
      rwa [gV, gE] at this
    have Fo : ∀ j, j < m.nH → get F j = get m.heFace j := fun j hj => by rw [f3, if_neg (by rw [memnh]; omega), gF]
    have Fn : ∀ i, i < hs.length → get F (m.nH + i) = some m.nF := fun i hi => by rw [f3, if_pos (by rw [memnh]; omega)]
    have cases3 : ∀ j, j < m.nH + hs.length → j < m.nH ∨ ∃ i, i < hs.length ∧ j = m.nH + i := fun j hj => by
      by_cases h : j < m.nH
      · exact Or.inl h
      · exact Or.inr ⟨j - m.nH, by omega, by omega⟩
    set m' : Mesh := { m1 with heVertex := V, sib := S, vIn := I, vOut := O, heEdge := E, heNext := X, heFace := F, fHe := H, nF := m.nF + 1 } with hm'
    have tipEq : ∀ j, tip m' j = inKey j := by
      intro j
      by_cases hj : j < m.nH + hs.length
      · rcases cases3 j hj with hj | ⟨i, hi, rfl⟩
        · obtain ⟨n, n1, n2, -⟩ := v.next hj
          rw [(Vo j hj).2.2]
          simp only [tip, hm', nx j hj, n1, Option.bind_eq_bind, Option.bind_some]
          exact (Vo n n2).1
        · rw [(Vn i hi).2.2, hc i hi]
          simp only [tip, hm', nxn i hi, Option.bind_eq_bind, Option.bind_some]
          exact (Vn _ (Nat.mod_lt _ (by omega))).1
      · have a1 : get X j = none := by rw [x3 j (by rw [memnh]; omega), gN]; exact out v.sNext (by omega)
        have a2 := (q10 j (by rw [memnh]; omega)).2.2
        rw [a2, tipout (by omega)]
        simp [tip, hm', a1]
    have hfaces : Rings X (get F) := by
      refine Rings.newClass (l := nh) (k0 := m.nF) v.faces (fun x hx => out v.sFace ((memnh x).1 hx).1) (fun j k hj => ?_) (fun h hh => ?_) (fun j => ?_) ?_
      · refine nx j ?_
        have := get_lt hj; rwa [v.sFace] at this
      · rw [nhcons] at hh ⊢
        exact Ring.rebase ⟨_, x4, by rw [← nhcons]; exact ndnh, fun _ => Iff.rfl⟩ hh
      · rw [f3, gF]
      · intro j hj
        have := get_lt hj; rw [v.sFace] at this
        obtain ⟨f, h1, h2⟩ := v.hasF j this
        rw [hj] at h2; cases h2; omega
    refine
      { sV := v.sV, sF := ?_, sE := v.sE, sNext := x2.trans len1, sVertex := q2, sEdge := q6, sFace := f2.trans lenF,
        sIn := q4, sOut := q5, sSib := q3, hasV := ?_, hasF := ?_, hasE := ?_, faces := hfaces, edges := q7, outs := q8,
        ins := q9.congr tipEq fun _ _ _ => rfl, vhe := ?_, vhe' := ?_, fhe := ?_, ehe := ?_, ends := ?_ }
    · simp only [hm', g2]; simp [v.sF]
    · intro h hh
      rcases cases3 h hh with hh | ⟨i, hi, rfl⟩
      · obtain ⟨a, a1, a2⟩ := v.hasV h hh
        exact ⟨a, a1, (Vo h hh).1.trans a2⟩
      · obtain ⟨a, a1, a2⟩ := v.hasV _ (hlt hs[i] (List.getElem_mem _))
        exact ⟨a, a1, (Vn i hi).1.trans a2⟩
    · intro h hh
      rcases cases3 h hh with hh | ⟨i, hi, rfl⟩
      · obtain ⟨a, a1, a2⟩ := v.hasF h hh
        exact ⟨a, Nat.lt_succ_of_lt a1, (Fo h hh).trans a2⟩
      · exact ⟨m.nF, Nat.lt_succ_self _, Fn i hi⟩
    · intro h hh
      rcases cases3 h hh with hh | ⟨i, hi, rfl⟩
      · obtain ⟨a, a1, a2⟩ := v.hasE h hh
        exact ⟨a, a1, (Vo h hh).2.1.trans a2⟩
      · obtain ⟨a, a1, a2⟩ := v.hasE _ (hlt hs[i] (List.getElem_mem _))
        exact ⟨a, a1, (Vn i hi).2.1.trans a2⟩
    · intro u h hu
      have h1 := v.vhe u h hu
      have h2 := get_lt h1; rw [v.sVertex] at h2
      exact (Vo h h2).1.trans h1
    · intro h u hu
      have h1 : h < m.nH + hs.length := by rw [← q2]; exact get_lt hu
      rcases cases3 h h1 with hh | ⟨i, hi, rfl⟩
      · exact v.vhe' h u ((Vo h hh).1.symm.trans hu)
      · exact v.vhe' hs[i] u ((Vn i hi).1.symm.trans hu)
    · intro f hf
      by_cases h0 : f = m.nF
      · exact ⟨m.nH, by simp only [hm', g4, if_pos h0], by subst h0; exact Fn 0 (by omega)⟩
      · obtain ⟨h, a1, a2⟩ := v.fhe f (by have : f < m.nF + 1 := hf; omega)
        have h2 := get_lt a2; rw [v.sFace] at h2
        exact ⟨h, by simp only [hm', g4, if_neg h0]; exact a1, (Fo h h2).trans a2⟩
    · intro e he
      obtain ⟨h, a1, a2⟩ := v.ehe e he
      have h2 := get_lt a2; rw [v.sEdge] at h2
      exact ⟨h, a1, (Vo h h2).2.1.trans a2⟩
    · -- each halfedge looks like an old one
      have rep : ∀ h e, get E h = some e → ∃ o, get m.heEdge o = some e ∧ get V h = get m.heVertex o ∧ inKey h = tip m o := by
        intro h e he
        have h1 : h < m.nH + hs.length := by rw [← q6]; exact get_lt he
        rcases cases3 h h1 with hh | ⟨i, hi, rfl⟩
        · exact ⟨h, (Vo h hh).2.1.symm.trans he, (Vo h hh).1, (Vo h hh).2.2⟩
        · exact ⟨hs[i], (Vn i hi).2.1.symm.trans he, (Vn i hi).1, (Vn i hi).2.2⟩
      intro h h' e he he'
      obtain ⟨o, o1, o2, o3⟩ := rep h e he
      obtain ⟨o', o1', o2', o3'⟩ := rep h' e he'
      have := v.ends o o' e o1 o1'
      unfold SameEnds at this ⊢
      rw [tipEq, tipEq]
      simp only [hm']
      rw [o2, o2', o3, o3']
      exact this
  · have : get H m.nF = some m.nH := by rw [g4, if_pos rfl]
    simp only [faceHalfedges, this, Option.bind_eq_bind, Option.bind_some]
    rw [ringIter_eq x4 (by rw [← nhcons]; exact ndnh), ← nhcons]
  · intro i hi
    have := q11 (hs[i], m.nH + i) ((zmem _).2 ⟨i, hi, rfl⟩)
    rw [gV, gE] at this
    exact ⟨this.1, this.2.1⟩
  · intro j hj
    have := q10 j (by rw [memnh]; omega)
    rw [gV, gE] at this
    exact ⟨this.1, this.2.1, by simp only; rw [x3 j (by rw [memnh]; omega), gN], by simp only; rw [f3, if_neg (by rw [memnh]; omega), gF]⟩
  · intro f hf
    simp only
    rw [g4, if_neg (by omega)]

end Verif.Surface
