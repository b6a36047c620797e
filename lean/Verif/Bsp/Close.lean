import Verif.Bsp.Loop
/-!
# The separating face closes both halves of the cell
-/
namespace Verif.Bsp

/-! ### One closed curve -/

theorem chain_snd : ∀ (l : List (Nat × Nat)) (p : Nat × Nat), (p :: l).IsChain (fun p q => p.2 = q.1) → ∃ z, (p :: l).getLast?.map Prod.snd = some z ∧ (p :: l).map Prod.snd = l.map Prod.fst ++ [z]
  | [], p, _ => ⟨p.2, by simp, by simp⟩
  | q :: l, p, h => by
    rw [List.isChain_cons_cons] at h
    obtain ⟨z, h1, h2⟩ := chain_snd l q h.2
    refine ⟨z, by rw [List.getLast?_cons_cons]; exact h1, ?_⟩
    rw [List.map_cons, h2, List.map_cons, List.cons_append, h.1]

theorem chain_forward {T : Nat × Nat → Prop} : ∀ (l : List (Nat × Nat)) (p : Nat × Nat), (p :: l).IsChain (fun p q => p.2 = q.1) → (∀ p q, q ∈ l → T p → q.1 = p.2 → T q) → T p →
    ∀ q ∈ p :: l, T q
  | [], p, _, _, hp => by simpa using hp
  | q :: l, p, h, hT, hp => by
    rw [List.isChain_cons_cons] at h
    intro r hr
    rcases List.mem_cons.1 hr with rfl | hr
    · exact hp
    · exact chain_forward l q h.2 (fun a b hb => hT a b (by simp [hb])) (hT p q (by simp) hp h.1.symm) r hr

/-- A set of pieces that contains with each piece the next one is everything. -/
theorem loop_all {T : Nat × Nat → Prop} {l : List (Nat × Nat)} (hc : l.IsChain (fun p q => p.2 = q.1)) (hl : l.getLast?.map Prod.snd = l.head?.map Prod.fst)
    (hT : ∀ p q, q ∈ l → T p → q.1 = p.2 → T q) {p : Nat × Nat} (hp : p ∈ l) (hTp : T p) : ∀ q ∈ l, T q := by
  obtain ⟨A, B, rfl⟩ := List.append_of_mem hp
  have h1 : ∀ q ∈ p :: B, T q := chain_forward B p (List.isChain_append.1 hc).2.1 (fun a b hb => hT a b (by simp [hb])) hTp
  obtain ⟨z, hz⟩ : ∃ z, (p :: B).getLast? = some z := ⟨_, List.getLast?_eq_some_getLast (by simp)⟩
  have hTz := h1 z (List.mem_of_getLast? hz)
  have hlast : (A ++ p :: B).getLast? = some z := by rw [List.getLast?_append, hz]; rfl
  rw [hlast] at hl
  cases hA : A ++ p :: B with
  | nil => simp at hA
  | cons h t =>
    rw [hA] at hc hl hT
    have e : h.1 = z.2 := by simpa using hl.symm
    exact chain_forward t h hc (fun a b hb => hT a b (by simp [hb])) (hT z h (by simp) hTz e)

/-- `make_loop` visits every piece once. -/
theorem loop_order {keys : List (Nat × Nat)} (h : OneLoop keys) : ∃ ids, Poly.loopFrom keys keys.length 0 [0] = some ids ∧ ids.Perm (List.range keys.length) ∧
    ids.IsChain (Poly.Fits keys) ∧ ∃ last, ids.getLast? = some last ∧ Poly.Fits keys last 0 ∧ ids.head? = some 0 := by
  obtain ⟨hnd, l, hp, hl0, hch, hcl⟩ := h
  obtain ⟨p0, t, rfl⟩ := List.exists_cons_of_ne_nil hl0
  obtain ⟨z, hz, hs⟩ := chain_snd t p0 hch
  have hz' : z = p0.1 := by rw [hz] at hcl; simpa using hcl
  subst hz'
  have hperm : (keys.map Prod.snd).Perm (keys.map Prod.fst) := by
    refine (hp.map Prod.snd).symm.trans (List.Perm.trans ?_ (hp.map Prod.fst))
    rw [hs, List.map_cons]
    exact List.perm_append_comm
  have hlen : 0 < keys.length := by rw [← hp.length_eq]; simp
  obtain ⟨ids, r, i1, i2, i3, i4, last, i5, i6⟩ := Poly.loopFrom_spec (hperm.nodup_iff.2 hnd) (fun p hp' => hperm.mem_iff.1 (List.mem_map_of_mem hp')) keys.length 0 [0]
    (by simp) (by simpa using hlen) (by simp) rfl rfl (by simp)
  refine ⟨ids, r, (List.perm_ext_iff_of_nodup i1 List.nodup_range).2 fun i => ⟨fun hi => List.mem_range.2 (i2 i hi), fun hi => ?_⟩, i4, last, i5, i6, i3⟩
  -- every piece is visited
  have hnext : ∀ i ∈ ids, ∃ j ∈ ids, Poly.Fits keys i j := by
    intro i hi
    obtain ⟨A, B, rfl⟩ := List.append_of_mem hi
    cases B with
    | nil =>
      have : last = i := by simpa using i5.symm
      subst this
      refine ⟨0, ?_, i6⟩
      exact List.mem_of_mem_head? i3
    | cons j B =>
      exact ⟨j, by simp, (List.isChain_cons_cons.1 (List.isChain_append.1 i4).2.1).1⟩
  have hinj : ∀ p q, p ∈ keys → q ∈ keys → p.1 = q.1 → p = q := fun p q hp hq e => List.inj_on_of_nodup_map hnd hp hq e
  have h0 : ∃ p, keys[0]? = some p := ⟨_, List.getElem?_eq_getElem hlen⟩
  obtain ⟨p, hp0⟩ := h0
  have hall := loop_all (T := fun q => ∃ j ∈ ids, keys[j]? = some q) hch hcl (fun a b hb ⟨j, hj, e⟩ hab => by
    obtain ⟨k, hk, p, q, f1, f2, f3⟩ := hnext j hj
    rw [e] at f1; cases f1
    refine ⟨k, hk, ?_⟩
    rw [f2, hinj q b (List.mem_of_getElem? f2) (hp.mem_iff.1 hb) (f3.symm.trans hab.symm)])
    (hp.mem_iff.2 (List.mem_of_getElem? hp0)) ⟨0, List.mem_of_mem_head? i3, hp0⟩
  have hi' := List.mem_range.1 hi
  obtain ⟨j, hj, e⟩ := hall keys[i] (hp.mem_iff.2 (List.getElem_mem hi'))
  obtain ⟨hjl, ej⟩ := List.getElem?_eq_some_iff.1 e
  have hk : keys.Nodup := List.Nodup.of_map _ hnd
  have : j = i := (List.Nodup.getElem_inj_iff hk).1 ej
  exact this ▸ hj

/-! ### The separating face -/

theorem segs_chain {segs : List (List HE)} {ks : List (Nat × Nat)} (h : List.Forall₂ Seg segs ks) (hc : ks.IsChain fun p q => p.2 = q.1) :
    segs.flatten.IsChain (fun h k => h.tip = k.tail) ∧ segs.flatten.head?.map HE.tail = ks.head?.map Prod.fst ∧ segs.flatten.getLast?.map HE.tip = ks.getLast?.map Prod.snd := by
  induction h with
  | nil => simp
  | @cons l k segs ks hl hf ih =>
    obtain ⟨l0, l1, l2, l3⟩ := hl
    obtain ⟨i1, i2, i3⟩ := ih (by
      rw [List.isChain_cons] at hc; exact hc.2)
    rw [List.flatten_cons]
    have hhead : (l ++ segs.flatten).head? = l.head? := by
      cases l with
      | nil => exact absurd rfl l0
      | cons x l => rfl
    refine ⟨?_, by rw [hhead, l2]; rfl, ?_⟩
    · rw [List.isChain_append]
      refine ⟨l1, i1, ?_⟩
      intro x hx y hy
      rw [Option.mem_def] at hx hy
      rw [hx] at l3; rw [hy] at i2
      cases ks with
      | nil => cases hf; simp at hy
      | cons k' ks =>
        have e1 : x.tip = k.2 := by simpa using l3
        have e2 : y.tail = k'.1 := by simpa using i2
        rw [e1, e2]
        exact (List.isChain_cons_cons.1 hc).1
    · cases hf with
      | nil => simpa using l3
      | @cons l' k' segs' ks' hl' hf' =>
        rw [List.getLast?_cons_cons, ← i3, List.getLast?_append]
        have : (l' :: segs').flatten ≠ [] := by
          rw [List.flatten_cons]
          intro h
          exact hl'.1 (List.append_eq_nil_iff.1 h).1
        rw [List.getLast?_eq_some_getLast this]; rfl

theorem path_of_chain : ∀ (l : List HE) (z : Nat), l.IsChain (fun h k => h.tip = k.tail) → l.getLast?.map HE.tip = some z → path (l.map fun h => (h.tail, h.edge)) z = l
  | [], _, _, h => by simp at h
  | [h], z, _, hz => by
    have : h.tip = z := by simpa using hz
    subst this; rfl
  | h :: k :: l, z, hc, hz => by
    rw [List.isChain_cons_cons] at hc
    have ih := path_of_chain (k :: l) z hc.2 (by rw [List.getLast?_cons_cons] at hz; exact hz)
    rw [List.map_cons, path, ih]
    show ⟨h.tail, h.edge, k.tail⟩ :: k :: l = h :: k :: l
    rw [← hc.1]

theorem hes_of_loop {l : List HE} (h0 : l ≠ []) (hc : l.IsChain (fun h k => h.tip = k.tail)) (hl : l.getLast?.map HE.tip = l.head?.map HE.tail) : hes (l.map fun h => (h.tail, h.edge)) = l := by
  obtain ⟨h, t, rfl⟩ := List.exists_cons_of_ne_nil h0
  exact path_of_chain (h :: t) h.tail hc (by rw [hl]; rfl)

/-! ### Both halves are closed -/

theorem bd_edge {l : List HE} {p : HE → Bool} {e : Nat} (h : ∀ x ∈ l, x.edge = e → p x = true) (u : Nat) : bd (l.filter p) e u = bd l e u := by
  rw [bd_filter l p e u, bd_zero (l := l.filter fun h => !p h), add_zero]
  intro x hx he
  rw [List.mem_filter] at hx
  have := h x hx.1 he
  rw [this] at hx; simp at hx

theorem sum_filter_nodup {n : Nat} {l : List Nat} (hnd : l.Nodup) (hlt : ∀ i ∈ l, i < n) {t : Nat → Int} (ht : ∀ i < n, i ∉ l → t i = 0) : ((Finset.range n).sum fun i => t i) = (l.map t).sum := by
  rw [← List.sum_toFinset t hnd]
  symm
  apply Finset.sum_subset
  · intro i hi
    exact Finset.mem_range.2 (hlt i (by simpa using hi))
  · intro i hi hil
    exact ht i (Finset.mem_range.1 hi) (by simpa using hil)

theorem sum_zero_of {l : List Nat} {t : Nat → Int} (h : ∀ i ∈ l, t i = 0) : (l.map t).sum = 0 := by
  induction l with
  | nil => rfl
  | cons i l ih => rw [List.map_cons, List.sum_cons, h i (by simp), ih fun j hj => h j (by simp [hj])]; rfl

theorem sum_neg_congr {l : List Nat} {t t' : Nat → Int} (h : ∀ i ∈ l, t i = t' i) : (l.map t).sum = (l.map t').sum := by
  rw [List.map_congr_left h]

/-- The faces on the positive side together with the separating face are closed. -/
theorem key_sum {σ : Nat → SignType} {cl : List (Nat × Option Nat)} {m : PMesh} {pos neg : List Nat} {cid : Nat} {zs : List HE} (g : MGood cl m)
    (hnd : (pos ++ neg).Nodup) (hlt : ∀ i ∈ pos ++ neg, i < m.faces.length) (hlink : ∀ (i : Nat) (P : Nat × Option Nat), cl[i]? = some P → i ∉ pos ++ neg → sg P cid = 0)
    (hpos : ∀ i ∈ pos, SideOk σ m.faces i 1) (hneg : ∀ i ∈ neg, SideOk σ m.faces i (-1))
    (hK : ∀ e u, (pos.map fun i => term0 σ cl m.faces cid e u i).sum + bd zs e u = 0) (e u : Nat) :
    (pos.map fun i => term cl m.faces cid e u i).sum + bd zs e u = 0 := by
  have hlen := g.len
  -- the whole cell
  have hwhole : (pos.map fun i => term cl m.faces cid e u i).sum + (neg.map fun i => term cl m.faces cid e u i).sum = 0 := by
    have := g.closed cid e u
    rw [sum_filter_nodup hnd hlt (t := fun i => term cl m.faces cid e u i)] at this
    · rwa [List.map_append, List.sum_append] at this
    · intro i hi hil
      unfold term
      cases hP : cl[i]? with
      | none => rfl
      | some P =>
        cases m.faces[i]? with
        | none => rfl
        | some c => simp only; rw [hlink i P hP hil, zero_mul]
  by_cases hex : ∃ h ∈ m.all, h.edge = e ∧ (σ h.tail = 1 ∨ σ h.tip = 1)
  · -- an edge with a positive end: nothing on the negative side and no half-edge in the plane
    have hall : ∀ k ∈ m.all, k.edge = e → σ k.tail = 1 ∨ σ k.tip = 1 := by
      intro k hk hke
      obtain ⟨h, hh, he, hs⟩ := hex
      rcases ends_on g hh hk (he.trans hke.symm) with ⟨t1, t2⟩ | ⟨t1, t2⟩
      · rw [t1, t2]; exact hs
      · rw [t1, t2]; exact hs.symm
    have hn : ∀ i ∈ neg, term cl m.faces cid e u i = 0 := by
      intro i hi
      obtain ⟨c, hc, hs⟩ := hneg i hi
      unfold term
      rw [hc]
      cases cl[i]? with
      | none => rfl
      | some P =>
        simp only
        rw [bd_zero, mul_zero]
        intro k hk hke
        rcases hall k (mem_all.2 ⟨c, List.mem_of_getElem? hc, hk⟩) hke with h | h
        · exact hs _ (hes_tail hk) (by simpa using h)
        · obtain ⟨x, hx, ex⟩ := hes_tip hk
          exact hs x hx (by rw [ex]; simpa using h)
    have h0 : ∀ i ∈ pos, term0 σ cl m.faces cid e u i = 0 := by
      intro i hi
      obtain ⟨c, hc, hs⟩ := hpos i hi
      unfold term0
      rw [hc]
      cases cl[i]? with
      | none => rfl
      | some P =>
        simp only
        rw [bd_zero, mul_zero]
        intro k hk hke
        rw [List.mem_filter] at hk
        have := hall k (mem_all.2 ⟨c, List.mem_of_getElem? hc, hk.1⟩) hke
        have h2 := hk.2
        simp only [inPlane, Bool.and_eq_true, decide_eq_true_eq] at h2
        rw [h2.1, h2.2] at this
        rcases this with h | h <;> cases h
    rw [sum_zero_of hn] at hwhole
    have hk := hK e u
    rw [sum_zero_of h0] at hk
    linarith
  · -- all half-edges of the positive side on this edge lie in the plane
    have h0 : ∀ i ∈ pos, term cl m.faces cid e u i = term0 σ cl m.faces cid e u i := by
      intro i hi
      obtain ⟨c, hc, hs⟩ := hpos i hi
      unfold term term0
      rw [hc]
      cases cl[i]? with
      | none => rfl
      | some P =>
        simp only
        rw [bd_edge]
        intro k hk hke
        have hn : ¬ (σ k.tail = 1 ∨ σ k.tip = 1) := fun h => hex ⟨k, mem_all.2 ⟨c, List.mem_of_getElem? hc, hk⟩, hke, h⟩
        have s1 := hs _ (hes_tail hk)
        obtain ⟨x, hx, ex⟩ := hes_tip hk
        have s2 := hs x hx
        rw [ex] at s2
        rw [not_or] at hn
        obtain ⟨n1, n2⟩ := hn
        simp only at s1
        have z1 : σ k.tail = 0 := by revert s1 n1; cases σ k.tail <;> decide
        have z2 : σ k.tip = 0 := by revert s2 n2; cases σ k.tip <;> decide
        simp [inPlane, z1, z2]
    rw [sum_neg_congr h0]
    exact hK e u

/-- `face_data[fid].cells` after the positive faces have been handed over (lines 523-529). -/
def renameCells (old new : Nat) (P : Nat × Option Nat) : Nat × Option Nat := (if P.1 = old then new else P.1, if P.2 = some old then some new else P.2)

theorem sg_rename_new {old new : Nat} {P : Nat × Option Nat} (h1 : P.1 ≠ new) (h2 : P.2 ≠ some new) : sg (renameCells old new P) new = sg P old := by
  unfold sg renameCells
  congr 1
  · by_cases e : P.1 = old <;> simp [e, h1]
  · by_cases e : P.2 = some old <;> simp [e, h2]

theorem sg_rename_old {old new : Nat} {P : Nat × Option Nat} (hne : new ≠ old) : sg (renameCells old new P) old = 0 := by
  unfold sg renameCells
  by_cases e : P.1 = old <;> by_cases e' : P.2 = some old <;> simp [e, e', hne]

theorem sg_rename_other {old new k : Nat} {P : Nat × Option Nat} (h1 : k ≠ old) (h2 : k ≠ new) : sg (renameCells old new P) k = sg P k := by
  unfold sg renameCells
  congr 1
  · by_cases e : P.1 = old
    · simp [e, h1.symm, h2.symm]
    · simp [e]
  · by_cases e : P.2 = some old
    · simp [e, h1.symm, h2.symm]
    · simp [e]

/-- Adding the separating face. -/
theorem close_up {σ : Nat → SignType} {cl : List (Nat × Option Nat)} {m : PMesh} {pos neg : List Nat} {cid new : Nat} {zs : List HE} (g : MGood cl m)
    (hnd : (pos ++ neg).Nodup) (hlt : ∀ i ∈ pos ++ neg, i < m.faces.length) (hlink : ∀ (i : Nat) (P : Nat × Option Nat), cl[i]? = some P → i ∉ pos ++ neg → sg P cid = 0)
    (hfresh : ∀ P ∈ cl, P.1 ≠ new ∧ P.2 ≠ some new) (hne : new ≠ cid)
    (hpos : ∀ i ∈ pos, SideOk σ m.faces i 1) (hneg : ∀ i ∈ neg, SideOk σ m.faces i (-1))
    (hK : ∀ e u, (pos.map fun i => term0 σ cl m.faces cid e u i).sum + bd zs e u = 0)
    (hz : ∀ z ∈ zs, z ∈ m.all) (hloop : hes (zs.map fun h => (h.tail, h.edge)) = zs) :
    MGood (cl.mapIdx (fun i P => if i ∈ pos then renameCells cid new P else P) ++ [(new, some cid)]) (m.addFace zs) := by
  have hlen := g.len
  have hall : ∀ h, h ∈ (m.addFace zs).all ↔ h ∈ m.all := by
    intro h
    simp only [mem_all, PMesh.addFace, List.mem_append, List.mem_singleton]
    constructor
    · rintro ⟨c, hc | rfl, hh⟩
      · exact ⟨c, hc, hh⟩
      · rw [hloop] at hh
        exact mem_all.1 (hz h hh)
    · rintro ⟨c, hc, hh⟩
      exact ⟨c, Or.inl hc, hh⟩
  refine ⟨by simp [PMesh.addFace, hlen], ?_, ?_, ?_, ?_, ?_⟩
  · intro c hc x hx
    simp only [PMesh.addFace, List.mem_append, List.mem_singleton] at hc
    rcases hc with hc | rfl
    · exact g.lt c hc x hx
    · obtain ⟨h, hh, rfl⟩ := List.mem_map.1 hx
      have := all_lt g (hz h hh)
      exact ⟨this.1, this.2.1⟩
  · intro h hh k hk
    exact g.ends h ((hall h).1 hh) k ((hall k).1 hk)
  · intro h hh
    exact (hall _).2 (g.sides h ((hall h).1 hh))
  · intro h hh
    exact g.proper h ((hall h).1 hh)
  · intro k e u
    have hsum := key_sum g hnd hlt hlink hpos hneg hK e u
    show ((Finset.range (m.faces ++ [zs.map fun h => (h.tail, h.edge)]).length).sum fun i => term _ (m.faces ++ [zs.map fun h => (h.tail, h.edge)]) k e u i) = 0
    rw [List.length_append, List.length_singleton, Finset.sum_range_succ]
    have hlast : term (cl.mapIdx (fun i P => if i ∈ pos then renameCells cid new P else P) ++ [(new, some cid)]) (m.faces ++ [zs.map fun h => (h.tail, h.edge)]) k e u m.faces.length =
        sg (new, some cid) k * bd zs e u := by
      rw [term_eq (p := (new, some cid)) (c := zs.map fun h => (h.tail, h.edge)), hloop]
      · rw [List.getElem?_append_right (by simp [hlen])]; simp [hlen]
      · rw [List.getElem?_append_right (by simp)]; simp
    have hterm : ∀ i ∈ Finset.range m.faces.length,
        term (cl.mapIdx (fun i P => if i ∈ pos then renameCells cid new P else P) ++ [(new, some cid)]) (m.faces ++ [zs.map fun h => (h.tail, h.edge)]) k e u i =
          if k = new then (if i ∈ pos then term cl m.faces cid e u i else 0)
          else if k = cid then (if i ∈ pos then 0 else term cl m.faces cid e u i) else term cl m.faces k e u i := by
      intro i hi
      have hi := Finset.mem_range.1 hi
      obtain ⟨P, hP⟩ : ∃ P, cl[i]? = some P := ⟨_, List.getElem?_eq_getElem (by omega)⟩
      obtain ⟨c, hc⟩ : ∃ c, m.faces[i]? = some c := ⟨_, List.getElem?_eq_getElem hi⟩
      have hPf := hfresh P (List.mem_of_getElem? hP)
      have h1 : (cl.mapIdx (fun i P => if i ∈ pos then renameCells cid new P else P) ++ [(new, some cid)])[i]? = some (if i ∈ pos then renameCells cid new P else P) := by
        rw [List.getElem?_append_left (by simp; omega), List.getElem?_mapIdx, hP]; rfl
      have h2 : (m.faces ++ [zs.map fun h => (h.tail, h.edge)])[i]? = some c := by
        rw [List.getElem?_append_left hi]; exact hc
      rw [term_eq h1 h2, term_eq hP hc, term_eq hP hc]
      by_cases k1 : k = new
      · rw [if_pos k1, k1]
        by_cases hip : i ∈ pos
        · rw [if_pos hip, if_pos hip, sg_rename_new hPf.1 hPf.2]
        · rw [if_neg hip, if_neg hip]
          have : sg P new = 0 := by simp [sg, hPf.1, hPf.2]
          rw [this, zero_mul]
      · rw [if_neg k1]
        by_cases k2 : k = cid
        · rw [if_pos k2, k2]
          by_cases hip : i ∈ pos
          · rw [if_pos hip, if_pos hip, sg_rename_old hne, zero_mul]
          · rw [if_neg hip, if_neg hip]
        · rw [if_neg k2]
          by_cases hip : i ∈ pos
          · rw [if_pos hip, sg_rename_other k2 k1]
          · rw [if_neg hip]
    rw [hlast, Finset.sum_congr rfl hterm]
    have hposlt : ∀ i ∈ pos, i < m.faces.length := fun i hi => hlt i (List.mem_append_left _ hi)
    have hposnd : pos.Nodup := (List.nodup_append.1 hnd).1
    have hS : ((Finset.range m.faces.length).sum fun i => if i ∈ pos then term cl m.faces cid e u i else 0) = (pos.map fun i => term cl m.faces cid e u i).sum := by
      rw [sum_filter_nodup hposnd hposlt (t := fun i => if i ∈ pos then term cl m.faces cid e u i else 0) (fun i _ h => if_neg h)]
      exact sum_neg_congr fun i hi => if_pos hi
    by_cases k1 : k = new
    · simp only [k1, if_true]
      rw [hS]
      have : sg (new, some cid) new = 1 := by simp [sg, hne.symm]
      rw [this, one_mul]; exact hsum
    · by_cases k2 : k = cid
      · subst k2
        simp only [k1, if_true, if_false]
        have hsplit : ((Finset.range m.faces.length).sum fun i => if i ∈ pos then 0 else term cl m.faces k e u i) = - (pos.map fun i => term cl m.faces k e u i).sum := by
          have h1 := g.closed k e u
          have h2 : ((Finset.range m.faces.length).sum fun i => term cl m.faces k e u i) =
              ((Finset.range m.faces.length).sum fun i => if i ∈ pos then term cl m.faces k e u i else 0) + ((Finset.range m.faces.length).sum fun i => if i ∈ pos then 0 else term cl m.faces k e u i) := by
            rw [← Finset.sum_add_distrib]
            apply Finset.sum_congr rfl
            intro i _
            split <;> simp
          rw [h1, hS] at h2
          linarith
        rw [hsplit]
        have : sg (new, some k) k = -1 := by simp [sg, hne]
        rw [this]
        linarith
      · simp only [k1, k2, if_false]
        rw [g.closed k e u]
        have : sg (new, some cid) k = 0 := by simp [sg, Ne.symm k1, Ne.symm k2]
        rw [this]; simp

end Verif.Bsp
