import Verif.Bsp.Close
/-!
# `split_cell` keeps the cells closed
-/
namespace Verif.Bsp

/-! ### Lists -/

theorem mapM_total {α β : Type} {f : α → Option β} : ∀ {l : List α}, (∀ x ∈ l, ∃ y, f x = some y) → ∃ ys, l.mapM f = some ys ∧ List.Forall₂ (fun x y => f x = some y) l ys
  | [], _ => ⟨[], rfl, List.Forall₂.nil⟩
  | x :: l, h => by
    obtain ⟨y, hy⟩ := h x (by simp)
    obtain ⟨ys, h1, h2⟩ := mapM_total (l := l) fun z hz => h z (by simp [hz])
    exact ⟨y :: ys, by rw [List.mapM_cons, hy, h1]; rfl, List.Forall₂.cons hy h2⟩

theorem forall₂_mem_right {α β : Type} {R : α → β → Prop} {l : List α} {r : List β} (h : List.Forall₂ R l r) : ∀ y ∈ r, ∃ x ∈ l, R x y := by
  induction h with
  | nil => simp
  | cons hxy _ ih =>
    intro y hy
    rcases List.mem_cons.1 hy with rfl | hy
    · exact ⟨_, by simp, hxy⟩
    · obtain ⟨x, hx, e⟩ := ih y hy
      exact ⟨x, by simp [hx], e⟩

theorem forall₂_map_eq {α β : Type} {R : α → β → Prop} {g : β → α} {l : List α} {r : List β} (h : List.Forall₂ R l r) (hg : ∀ x y, R x y → g y = x) : r.map g = l := by
  induction h with
  | nil => rfl
  | cons a _ b => rw [List.map_cons, b, hg _ _ a]

theorem forall₂_get {α β : Type} {R : α → β → Prop} {l : List α} {r : List β} (h : List.Forall₂ R l r) : ∀ {i : Nat} {x : α}, l[i]? = some x → ∃ y, r[i]? = some y ∧ R x y := by
  induction h with
  | nil => intro i x hx; simp at hx
  | @cons a b l r hxy _ ih =>
    intro i x hx
    cases i with
    | zero => simp at hx; subst hx; exact ⟨b, rfl, hxy⟩
    | succ i => simpa using ih (i := i) (by simpa using hx)

theorem forall₂_comp {α β γ δ : Type} {R : α → β → Prop} {S : β → γ → Prop} {Q : γ → δ → Prop} {g : α → δ} {l : List α} {r : List β} {t : List γ} (h : List.Forall₂ R l r)
    (h' : List.Forall₂ S r t) (hq : ∀ x y z, R x y → S y z → Q z (g x)) : List.Forall₂ Q t (l.map g) := by
  induction h generalizing t with
  | nil => cases h'; exact List.Forall₂.nil
  | cons hxy _ ih =>
    cases h' with
    | cons hs ht => exact List.Forall₂.cons (hq _ _ _ hxy hs) (ih ht)

/-- Picking elements by a permutation of the indices. -/
theorem pick_perm {α : Type} [Inhabited α] {l r : List α} {ids : List Nat} (hi : ids.Perm (List.range l.length)) (h : List.Forall₂ (fun i x => l[i]? = some x) ids r) : r.Perm l := by
  have h1 : r = ids.map fun i => l.getD i default := by
    clear hi
    induction h with
    | nil => rfl
    | cons hxy _ ih => rw [List.map_cons, ← ih]; simp [List.getD, hxy]
  have h2 : l = (List.range l.length).map fun i => l.getD i default := by
    apply List.ext_getElem?
    intro i
    rw [List.getElem?_map]
    by_cases hil : i < l.length
    · rw [List.getElem?_range hil]; simp [List.getD, hil]
    · rw [List.getElem?_eq_none (by omega), List.getElem?_eq_none (by simpa using hil)]; rfl
  rw [h1]
  refine (hi.map _).trans ?_
  rw [← h2]

theorem lookup_mem {β : Type} : ∀ {l : List (Nat × β)} {x : Nat × β}, (l.map Prod.fst).Nodup → x ∈ l → l.lookup x.1 = some x.2
  | [], _, _, h => by cases h
  | y :: l, x, hnd, h => by
    rw [List.map_cons, List.nodup_cons] at hnd
    rcases List.mem_cons.1 h with rfl | h
    · simp [List.lookup]
    · have : x.1 ≠ y.1 := fun e => hnd.1 (e ▸ List.mem_map_of_mem h)
      rw [List.lookup_cons, beq_false_of_ne this]
      exact lookup_mem hnd.2 h

instance : Inhabited Split := ⟨.isPos true⟩

/-! ### The complex -/

/-- The faces that `split_cell` collects for the two halves, and the cells of the faces after the cuts. -/
theorem cutFaces_parts {T : Poly.Tests} {cid : Nat} : ∀ (bs : List (Nat × Bool)) (a a' : Poly.Acc), (∀ b ∈ bs, T.newPos b.1 = b.2) → (∀ b ∈ bs, b.1 < a.s.faces.length) →
    (bs.map Prod.fst).foldlM (Poly.cutFace T cid) a = some a' →
    a'.pos = a.pos ++ (parts a.s.faces.length bs).map Prod.fst ∧ a'.neg = a.neg ++ (parts a.s.faces.length bs).map Prod.snd ∧
      a'.s.faces.map Poly.Face.cells = a.s.faces.map Poly.Face.cells ++ bs.map fun b => (a.s.faces.map Poly.Face.cells).getD b.1 (0, none)
  | [], a, a', _, _, h => by
    simp only [List.map_nil, List.foldlM_nil] at h
    cases h
    simp [parts]
  | (f, b) :: bs, a, a', hT, hlt, h => by
    rw [List.map_cons, List.foldlM_cons] at h
    obtain ⟨a1, h1, h2⟩ := Option.bind_eq_some_iff.1 h
    unfold Poly.cutFace at h1
    obtain ⟨F, hF, h1⟩ := Option.bind_eq_some_iff.1 h1
    obtain ⟨cells, -, h1⟩ := Option.bind_eq_some_iff.1 h1
    cases h1
    have hTb : T.newPos f = b := hT (f, b) (by simp)
    have hfl : f < a.s.faces.length := hlt (f, b) (by simp)
    have hlen : (Poly.cutResult T a f F cells).s.faces.length = a.s.faces.length + 1 := by simp [Poly.cutResult]
    have hcl : (Poly.cutResult T a f F cells).s.faces.map Poly.Face.cells = a.s.faces.map Poly.Face.cells ++ [F.cells] := by
      simp only [Poly.cutResult, List.map_append, List.map_set, List.map_cons, List.map_nil]
      congr 1
      apply List.ext_getElem?
      intro i
      rw [List.getElem?_set]
      split
      · subst ‹f = i›
        rw [if_pos (by simpa using hfl), List.getElem?_map, hF]; rfl
      · rfl
    obtain ⟨i1, i2, i3⟩ := cutFaces_parts bs (Poly.cutResult T a f F cells) a' (fun b hb => hT b (by simp [hb])) (fun b hb => by have := hlt b (by simp [hb]); omega) h2
    rw [hlen] at i1 i2
    refine ⟨?_, ?_, ?_⟩
    · rw [i1, parts]
      simp only [Poly.cutResult, hTb, List.map_cons, List.append_assoc, List.singleton_append]
      cases b <;> rfl
    · rw [i2, parts]
      simp only [Poly.cutResult, hTb, List.map_cons, List.append_assoc, List.singleton_append]
      cases b <;> rfl
    · rw [i3, hcl, List.append_assoc, List.map_cons]
      congr 1
      have e1 : (a.s.faces.map Poly.Face.cells).getD f (0, none) = F.cells := by simp [List.getD, hF]
      rw [e1, List.singleton_append]
      congr 1
      apply List.map_congr_left
      intro p hp
      have := hlt p (by simp [hp])
      simp only [List.getD]
      rw [List.getElem?_append_left (by simpa using this)]

/-- The state of the links when `split_cell` begins to cut. -/
theorem mid_start {T : Poly.Tests} {s : Poly.Complex} {cid : Nat} {C : Poly.Cell} (h : Poly.Linked s) (hT : T.Ok) (hC : s.cells[cid]? = some C) :
    Poly.Mid cid s { s, pos := C.faces.filter fun f => decide (T.kind f = .pos ∨ T.kind f = .zero), neg := C.faces.filter fun f => decide (T.kind f = .neg) }
      (T.order (C.faces.filter fun f => decide (T.kind f = .cut))) := by
  have hkind : ∀ f, f ∈ C.faces ↔ f ∈ (C.faces.filter fun f => decide (T.kind f = .pos ∨ T.kind f = .zero)) ++ (C.faces.filter fun f => decide (T.kind f = .neg)) ++
      (C.faces.filter fun f => decide (T.kind f = .cut)) := by
    intro f
    simp only [List.mem_append, List.mem_filter, decide_eq_true_eq]
    cases T.kind f <;> simp
  have hnd := h.nodup cid C hC
  have hperm := hT.perm (C.faces.filter fun f => decide (T.kind f = .cut))
  refine ⟨rfl, fun _ => rfl, h.cells, fun c C' hc _ => h.nodup c C' hc, fun c C' hc _ => h.link c C' hc, ?_, fun f => ?_⟩
  · refine (List.Perm.append_left _ hperm).nodup_iff.2 ?_
    have dj : ∀ (P Q : Nat → Bool), (∀ f, P f = true → Q f = true → False) → (C.faces.filter P).Disjoint (C.faces.filter Q) :=
      fun P Q hPQ f h1 h2 => hPQ f (List.mem_filter.1 h1).2 (List.mem_filter.1 h2).2
    refine List.Nodup.append (List.Nodup.append (hnd.filter _) (hnd.filter _) (dj _ _ ?_)) (hnd.filter _) ?_
    · intro f h1 h2
      simp only [decide_eq_true_eq] at h1 h2
      rw [h2] at h1; simp at h1
    · refine List.disjoint_append_left.2 ⟨dj _ _ ?_, dj _ _ ?_⟩ <;> intro f h1 h2 <;> simp only [decide_eq_true_eq] at h1 h2 <;> rw [h2] at h1 <;> simp at h1
  · refine ((List.Perm.append_left _ hperm).mem_iff).trans ((hkind f).symm.trans (h.link cid C hC f))

/-- Face `i` after the faces `fl` of `N` faces have been cut is face `j` before, or the new part of it. -/
def Origin (N : Nat) (fl : List Nat) (i j : Nat) : Prop := (i < N ∧ j = i) ∨ (N ≤ i ∧ fl[i - N]? = some j)

theorem rename_none (F : Poly.Face) (cid n : Nat) : (F.rename cid n).cells.2 = none ↔ F.cells.2 = none := by
  rcases F with ⟨⟨a, _ | b⟩, t⟩
  · simp [Poly.Face.rename]
  · simp only [Poly.Face.rename, Option.map_some]
    split <;> simp

theorem rename_tris (F : Poly.Face) (cid n : Nat) : (F.rename cid n).tris = F.tris := by
  rfl

/-- Where the faces come from, and which triangles they list. -/
theorem cutFaces_trace {T : Poly.Tests} {cid : Nat} : ∀ (fl : List Nat) (a a' : Poly.Acc), fl.Nodup → (∀ f ∈ fl, f < a.s.faces.length) → fl.foldlM (Poly.cutFace T cid) a = some a' →
    a'.s.faces.length = a.s.faces.length + fl.length ∧ (∀ x ∈ a.pos, x ∈ a'.pos) ∧ (∀ x ∈ a.neg, x ∈ a'.neg) ∧
      ∀ (i : Nat) (F' : Poly.Face), a'.s.faces[i]? = some F' → ∃ (j : Nat) (F : Poly.Face), Origin a.s.faces.length fl i j ∧ a.s.faces[j]? = some F ∧ F'.cells = F.cells ∧
        ((j ∉ fl ∧ F'.tris = F.tris) ∨ (j ∈ fl ∧ ((i ∈ a'.pos ∧ F'.tris = F.tris.filter T.hasPos) ∨ (i ∈ a'.neg ∧ F'.tris = F.tris.filter T.hasNeg))))
  | [], a, a', _, _, h => by
    simp only [List.foldlM_nil] at h
    cases h
    refine ⟨by simp, fun _ h => h, fun _ h => h, fun i F' hF' => ⟨i, F', Or.inl ⟨(List.getElem?_eq_some_iff.1 hF').1, rfl⟩, hF', rfl, Or.inl ⟨by simp, rfl⟩⟩⟩
  | f :: fl, a, a', hnd, hlt, h => by
    rw [List.foldlM_cons] at h
    obtain ⟨a1, h1, h2⟩ := Option.bind_eq_some_iff.1 h
    unfold Poly.cutFace at h1
    obtain ⟨F, hF, h1⟩ := Option.bind_eq_some_iff.1 h1
    obtain ⟨cells, -, h1⟩ := Option.bind_eq_some_iff.1 h1
    cases h1
    have hfl : f < a.s.faces.length := hlt f (by simp)
    rw [List.nodup_cons] at hnd
    have hlen : (Poly.cutResult T a f F cells).s.faces.length = a.s.faces.length + 1 := by simp [Poly.cutResult]
    obtain ⟨l1, p1, n1, tr⟩ := cutFaces_trace fl (Poly.cutResult T a f F cells) a' hnd.2 (fun x hx => by have := hlt x (by simp [hx]); omega) h2
    rw [hlen] at l1 tr
    have hold : ∀ i, i ≠ f → i < a.s.faces.length → (Poly.cutResult T a f F cells).s.faces[i]? = a.s.faces[i]? := by
      intro i hi hil
      simp only [Poly.cutResult]
      rw [List.getElem?_append_left (by simpa using hil), List.getElem?_set_ne (Ne.symm hi)]
    refine ⟨by rw [l1, List.length_cons]; omega, fun x hx => p1 x (by simp [Poly.cutResult, hx]), fun x hx => n1 x (by simp [Poly.cutResult, hx]), fun i F' hF' => ?_⟩
    obtain ⟨j, F1, ho, hF1, hc, ht⟩ := tr i F' hF'
    rcases ho with ⟨hi, rfl⟩ | ⟨hi, hj⟩
    · by_cases hjf : j = f
      · subst hjf
        have hg : (Poly.cutResult T a j F cells).s.faces[j]? = some { F with tris := F.tris.filter fun t => if T.newPos j then T.hasNeg t else T.hasPos t } := by
          simp only [Poly.cutResult]
          rw [List.getElem?_append_left (by simpa using hfl), List.getElem?_set_self hfl]
        rw [hg] at hF1; cases hF1
        rcases ht with ⟨-, ht⟩ | ⟨hm, -⟩
        swap
        · exact absurd hm hnd.1
        refine ⟨j, F, Or.inl ⟨hfl, rfl⟩, hF, hc, Or.inr ⟨by simp, ?_⟩⟩
        cases hb : T.newPos j with
        | true =>
          rw [hb] at ht
          exact Or.inr ⟨n1 _ (by simp [Poly.cutResult, hb]), ht⟩
        | false =>
          rw [hb] at ht
          exact Or.inl ⟨p1 _ (by simp [Poly.cutResult, hb]), ht⟩
      · by_cases hjN : j < a.s.faces.length
        · rw [hold j hjf hjN] at hF1
          exact ⟨j, F1, Or.inl ⟨hjN, rfl⟩, hF1, hc, by simpa [hjf] using ht⟩
        · have hjN' : j = a.s.faces.length := by omega
          have hnot : j ∉ fl := fun hm => hjN (hlt j (by simp [hm]))
          have hg : (Poly.cutResult T a f F cells).s.faces[j]? = some { F with tris := F.tris.filter fun t => if T.newPos f then T.hasPos t else T.hasNeg t } := by
            simp only [Poly.cutResult]
            rw [hjN', List.getElem?_append_right (by simp)]; simp
          rw [hg] at hF1; cases hF1
          rcases ht with ⟨-, ht⟩ | ⟨hm, -⟩
          swap
          · exact absurd hm hnot
          refine ⟨f, F, Or.inr ⟨hjN'.ge, by rw [hjN']; simp⟩, hF, hc, Or.inr ⟨by simp, ?_⟩⟩
          cases hb : T.newPos f with
          | true =>
            rw [hb] at ht
            exact Or.inl ⟨p1 _ (by simp [Poly.cutResult, hb, hjN']), ht⟩
          | false =>
            rw [hb] at ht
            exact Or.inr ⟨n1 _ (by simp [Poly.cutResult, hb, hjN']), ht⟩
    · have hjm : j ∈ fl := List.mem_of_getElem? hj
      have hjf : j ≠ f := fun e => hnd.1 (e ▸ hjm)
      have hjN := hlt j (by simp [hjm])
      rw [hold j hjf hjN] at hF1
      refine ⟨j, F1, Or.inr ⟨by omega, ?_⟩, hF1, hc, by simpa [hjf, hjm] using ht⟩
      rw [show i - a.s.faces.length = (i - (a.s.faces.length + 1)) + 1 by omega, List.getElem?_cons_succ]; exact hj

theorem rename_cells (F : Poly.Face) (old new : Nat) : (F.rename old new).cells = renameCells old new F.cells := rfl

/-- The cells of the faces after `split_cell`. -/
theorem splitCell_faces {T : Poly.Tests} {nOri cid pivot : Nat} {s s' : Poly.Complex} {C : Poly.Cell} (hC : s.cells[cid]? = some C) (hpiv : C.inner.getLast? = some pivot)
    (hhit : ((C.inner.filter (T.coplanar pivot)).filter T.meets).isEmpty = false) (hs : Poly.splitCell T nOri s cid = some s') :
    ∃ a, (T.order (C.faces.filter fun f => decide (T.kind f = .cut))).foldlM (Poly.cutFace T cid)
        { s, pos := C.faces.filter fun f => decide (T.kind f = .pos ∨ T.kind f = .zero), neg := C.faces.filter fun f => decide (T.kind f = .neg) } = some a ∧
      s'.faces.map Poly.Face.cells = (a.s.faces.map Poly.Face.cells).mapIdx (fun i P => if i ∈ a.pos then renameCells cid a.s.cells.length P else P) ++ [(a.s.cells.length, some cid)] ∧
      (∃ i j, s'.cells = a.s.cells.set cid ⟨a.neg ++ [a.s.faces.length], i⟩ ++ [⟨a.pos ++ [a.s.faces.length], j⟩]) ∧
      s'.faces = a.s.faces.mapIdx (fun i F => if i ∈ a.pos then F.rename cid a.s.cells.length else F) ++
        [⟨(a.s.cells.length, some cid), ((C.inner.filter (T.coplanar pivot)).filter T.meets).filter (· < nOri)⟩] := by
  unfold Poly.splitCell at hs
  simp only [hC, hpiv, Option.bind_eq_bind, Option.bind_some] at hs
  obtain ⟨q, -, hs⟩ := Option.bind_eq_some_iff.1 hs
  split at hs
  · cases hs
  · rw [hhit] at hs
    simp only [Bool.false_eq_true, if_false] at hs
    obtain ⟨a, ha, hs⟩ := Option.bind_eq_some_iff.1 hs
    refine ⟨a, ha, ?_⟩
    cases hs
    refine ⟨?_, ⟨_, _, rfl⟩, rfl⟩
    simp only [List.map_append, List.map_cons, List.map_nil]
    congr 1
    apply List.ext_getElem?
    intro i
    simp only [List.getElem?_map, List.getElem?_mapIdx]
    cases a.s.faces[i]? with
    | none => rfl
    | some F =>
      simp only [Option.map_some]
      split <;> rfl

theorem splitCell_nohit {T : Poly.Tests} {nOri cid pivot : Nat} {s s' : Poly.Complex} {C : Poly.Cell} (hC : s.cells[cid]? = some C) (hpiv : C.inner.getLast? = some pivot)
    (hhit : ((C.inner.filter (T.coplanar pivot)).filter T.meets).isEmpty = true) (hs : Poly.splitCell T nOri s cid = some s') : s'.faces = s.faces ∧ s'.cells.map Poly.Cell.faces = s.cells.map Poly.Cell.faces := by
  unfold Poly.splitCell at hs
  simp only [hC, hpiv, Option.bind_eq_bind, Option.bind_some] at hs
  obtain ⟨q, -, hs⟩ := Option.bind_eq_some_iff.1 hs
  simp only [hhit, if_true] at hs
  split at hs
  · cases hs
  · cases hs
    refine ⟨rfl, ?_⟩
    apply List.ext_getElem?
    intro i
    simp only [List.getElem?_map, List.getElem?_set]
    split
    · subst ‹cid = i›
      split
      · rw [hC]; rfl
      · rw [List.getElem?_eq_none (by omega)]
    · rfl

theorem sg_bounds {F : Poly.Face} {cid : Nat} (h2 : ∀ c, F.cells.2 = some c → c ≠ F.cells.1) (hb : F.bounds cid) : sg F.cells cid = if decide (F.cells.1 = cid) = true then 1 else -1 := by
  unfold sg
  by_cases h1 : F.cells.1 = cid
  · have : F.cells.2 ≠ some cid := fun h => h2 _ h h1.symm
    simp [h1, this]
  · have : F.cells.2 = some cid := hb.resolve_left h1
    simp [h1, this]

theorem sg_zero {F : Poly.Face} {cid : Nat} (hb : ¬ F.bounds cid) : sg F.cells cid = 0 := by
  unfold Poly.Face.bounds at hb
  rw [not_or] at hb
  simp [sg, hb.1, hb.2]

/-- What a cut of cell `cid` does, step by step: its edges and faces are cut, the separating face is closed from the pieces `ord`, and the faces `pos` get the new cell. -/
structure Halved (G : Oracle) (nOri : Nat) (sgn : Nat → SignType) (keep : Nat → Bool) (s s' : St) (cid : Nat) (C : Poly.Cell) (cf : List (Nat × Poly.Face × Cycle)) (m1 m' : PMesh)
    (cl2 : List (Nat × Option Nat)) (ord : List (Nat × Split)) (segs : List (List HE)) (pos neg : List Nat) : Prop where
  hcf : cellFaces s C = some cf
  edges : (crossing sgn (cf.flatMap fun x => hes x.2.2)).foldlM (fun (m : PMesh) e => m.splitEdge (keep e) e) s.mesh = some m1
  cuts : FaceCuts (newSgn sgn s.mesh.nV) cid (s.cx.faces.map Poly.Face.cells) m1.faces ((ord.filter fun p => p.2.isTwo).map Prod.fst) cl2 m'.faces
  good : MGood cl2 m'
  hord : ∀ p ∈ ord, p ∈ cellSplits sgn s.mesh cid cf ∧ p.2.outline = true
  nodup : (ord.map Prod.fst).Nodup
  ne : ord ≠ []
  hsegs : List.Forall₂ (fun (p : Nat × Split) (l : List HE) => l.map (fun k => (k.tail, k.tip)) = p.2.arcs (crossing sgn (cf.flatMap fun x => hes x.2.2)) s.mesh.nV) ord segs
  loop : hes (segs.flatten.map fun k => (k.tail, k.edge)) = segs.flatten
  mesh : s'.mesh = m'.addFace segs.flatten
  cells : s'.cx.faces.map Poly.Face.cells = cl2.mapIdx (fun i P => if i ∈ pos then renameCells cid s.cx.cells.length P else P) ++ [(s.cx.cells.length, some cid)]
  hpos : ∀ i ∈ pos, SideOk (newSgn sgn s.mesh.nV) m'.faces i 1
  hneg : ∀ i ∈ neg, SideOk (newSgn sgn s.mesh.nV) m'.faces i (-1)
  own : (pos ++ neg).Nodup
  mem : ∀ (i : Nat) (P : Nat × Option Nat), cl2[i]? = some P → (i ∈ pos ++ neg ↔ sg P cid ≠ 0)
  fresh : ∀ P ∈ cl2, P.1 ≠ s.cx.cells.length ∧ P.2 ≠ some s.cx.cells.length
  pieces : sectionPieces sgn s cid C = some ord
  links : ∃ ks, List.Forall₂ (fun (p : Nat × Split) k => p.2.key (crossing sgn (cf.flatMap fun x => hes x.2.2)) s.mesh.nV = some k) ord ks ∧ ks.IsChain (fun p q => p.2 = q.1) ∧
    ks.getLast?.map Prod.snd = ks.head?.map Prod.fst
  traced : ∀ (i : Nat) (F' : Poly.Face), s'.cx.faces[i]? = some F' → i < cl2.length → ∃ (j : Nat) (F : Poly.Face), Origin s.cx.faces.length ((ord.filter fun p => p.2.isTwo).map Prod.fst) i j ∧
    s.cx.faces[j]? = some F ∧ (F'.cells.2 = none ↔ F.cells.2 = none) ∧
    (F'.tris = F.tris ∨ (j ∈ (ord.filter fun p => p.2.isTwo).map Prod.fst ∧ ((i ∈ pos ∧ F'.tris = F.tris.filter G.hasPos) ∨ (i ∈ neg ∧ F'.tris = F.tris.filter G.hasNeg))))
  newFace : ∃ p, C.inner.getLast? = some p ∧ s'.cx.faces[cl2.length]? = some ⟨(s.cx.cells.length, some cid), ((C.inner.filter (G.coplanar p)).filter G.meets).filter (· < nOri)⟩

theorem splitCell_full (G : Oracle) (sgn : Nat → SignType) (keep : Nat → Bool) (nOri : Nat) (s : St) (cid : Nat) (C : Poly.Cell) (h : Good s) (hG : ∀ t, G.coplanar t t = true)
    (hC : s.cx.cells[cid]? = some C) (hne : C.inner ≠ []) (ok : CutOk sgn s cid C) :
    ∃ s', splitCell G sgn keep nOri s cid = some s' ∧ Good s' ∧
      (∀ p, C.inner.getLast? = some p → s'.cx.cells.map Poly.Cell.inner = Poly.innersAfter (tests G true [] [] []) cid p C (s.cx.cells.map Poly.Cell.inner)) ∧
      ((s'.mesh = s.mesh ∧ s'.cx.faces = s.cx.faces ∧ s'.cx.cells.map Poly.Cell.faces = s.cx.cells.map Poly.Cell.faces) ∨
        (∃ neg pos, s'.cx.cells.length = s.cx.cells.length + 1 ∧ s'.cx.cells[cid]? = some neg ∧ s'.cx.cells[s.cx.cells.length]? = some pos ∧
          OnSide (newSgn sgn s.mesh.nV) s'.mesh neg 1 ∧ OnSide (newSgn sgn s.mesh.nV) s'.mesh pos (-1)) ∧
        ∃ cf m1 m' cl2 ord segs posL negL, Halved G nOri sgn keep s s' cid C cf m1 m' cl2 ord segs posL negL) := by
  have hg := h.mesh
  have hlen : s.cx.faces.length = s.mesh.faces.length := by simpa using hg.len
  have hlink := h.linked.link cid C hC
  have hnd := h.linked.nodup cid C hC
  -- the faces of the cell
  obtain ⟨cf, hcf, hf2⟩ : ∃ cf, cellFaces s C = some cf ∧ List.Forall₂ (fun f x => (do let F ← s.cx.faces[f]?; let c ← s.mesh.faces[f]?; some (f, F, c)) = some x) C.faces cf := by
    apply mapM_total
    intro f hf
    obtain ⟨F, hF, -⟩ := (hlink f).1 hf
    have hfl : f < s.mesh.faces.length := by rw [← hlen]; exact (List.getElem?_eq_some_iff.1 hF).1
    exact ⟨(f, F, s.mesh.faces[f]), by rw [hF, List.getElem?_eq_getElem hfl]; rfl⟩
  have hcfget : ∀ (f : Nat) (x : Nat × Poly.Face × Cycle), (do let F ← s.cx.faces[f]?; let c ← s.mesh.faces[f]?; some (f, F, c)) = some x →
      x.1 = f ∧ s.cx.faces[f]? = some x.2.1 ∧ s.mesh.faces[f]? = some x.2.2 := by
    intro f x hx
    obtain ⟨F, hF, hx⟩ := Option.bind_eq_some_iff.1 hx
    obtain ⟨c, hc, hx⟩ := Option.bind_eq_some_iff.1 hx
    cases hx
    exact ⟨rfl, hF, hc⟩
  have hcf1 : cf.map (fun x => x.1) = C.faces := forall₂_map_eq hf2 fun f x hx => (hcfget f x hx).1
  have hcfmem : ∀ x ∈ cf, x.1 ∈ C.faces ∧ s.cx.faces[x.1]? = some x.2.1 ∧ s.mesh.faces[x.1]? = some x.2.2 := by
    intro x hx
    obtain ⟨f, hf, e⟩ := forall₂_mem_right hf2 x hx
    obtain ⟨e1, e2, e3⟩ := hcfget f x e
    subst e1
    exact ⟨hf, e2, e3⟩
  have hcfmem' : ∀ f ∈ C.faces, ∃ x ∈ cf, x.1 = f := by
    intro f hf
    rw [← hcf1] at hf
    obtain ⟨x, hx, e⟩ := List.mem_map.1 hf
    exact ⟨x, hx, e⟩
  generalize hhs : (cf.flatMap fun x => hes x.2.2) = hs at *
  have hsub : ∀ h ∈ hs, h ∈ s.mesh.all := by
    intro h hh
    rw [← hhs] at hh
    obtain ⟨x, hx, hh⟩ := List.mem_flatMap.1 hh
    exact mem_all.2 ⟨_, List.mem_of_getElem? (hcfmem x hx).2.2, hh⟩
  have hch : ∀ x ∈ cf, ∀ h ∈ hes x.2.2, h ∈ hs := fun x hx h hh => by rw [← hhs]; exact List.mem_flatMap.2 ⟨x, hx, hh⟩
  generalize hLdef : crossing sgn hs = L at *
  have hLnd : L.Nodup := by rw [← hLdef]; exact crossing_nodup _ _
  obtain ⟨m1, E, rE, g1, v1, fE, ex, al⟩ := splitAll_good keep L hg hLnd (fun e he => by
    rw [← hLdef] at he
    obtain ⟨k, hk, e1, -⟩ := mem_crossing.1 he
    exact ⟨k, hsub k hk, e1⟩)
  generalize hσ : newSgn sgn s.mesh.nV = σ at *
  generalize hspdef : cellSplits sgn s.mesh cid cf = sp
  have hsp1 : sp.map Prod.fst = C.faces := by
    rw [← hcf1, ← hspdef, cellSplits, List.map_map]; rfl
  have hspnd : (sp.map Prod.fst).Nodup := by rw [hsp1]; exact hnd
  -- what the pieces are
  have hpiece : ∀ p ∈ sp, ∃ F c, s.cx.faces[p.1]? = some F ∧ m1.faces[p.1]? = some c ∧ PieceOk σ L s.mesh.nV m1.all (sg F.cells cid) c p.2 := by
    intro p hp
    rw [← hspdef, cellSplits] at hp
    obtain ⟨x, hx, rfl⟩ := List.mem_map.1 hp
    obtain ⟨x1, x2, x3⟩ := hcfmem x hx
    obtain ⟨F, hF, hb⟩ := (hlink x.1).1 x1
    rw [x2] at hF; cases hF
    refine ⟨_, x.2.2.flatMap E, x2, by rw [fE, List.getElem?_map, x3]; rfl, ?_⟩
    rw [sg_bounds (fun c hc => ((h.linked.cells x.1 _ x2).2 c hc).2) hb, ← hσ, ← hLdef]
    exact pieceOk hg hsub (List.mem_of_getElem? x3) (hch x hx) (ok.convex x.1 x1 _ x3) (by rw [hLdef]; exact ex) (by rw [hLdef]; exact al) _
  generalize hpsdef : (sp.filter fun p => p.2.outline) = ps
  have hpsmem : ∀ p ∈ ps, p ∈ sp ∧ p.2.outline = true := fun p hp => by rw [← hpsdef] at hp; exact List.mem_filter.1 hp
  -- their keys
  obtain ⟨keys, hkeys, hk2⟩ : ∃ keys, (ps.mapM fun p => p.2.key L s.mesh.nV) = some keys ∧ List.Forall₂ (fun p k => p.2.key L s.mesh.nV = some k) ps keys := by
    apply mapM_total
    intro p hp
    obtain ⟨hp1, hp2⟩ := hpsmem p hp
    obtain ⟨F, c, -, -, hok⟩ := hpiece p hp1
    obtain ⟨f, sx⟩ := p
    cases sx with
    | isPos b => simp [Split.outline] at hp2
    | zero l =>
      obtain ⟨l0, lch, -⟩ := hok
      obtain ⟨k, hk, -⟩ := seg_of_chain l0 lch
      exact ⟨k, hk⟩
    | two X Y =>
      obtain ⟨x, P, y, N, -, -, -, -, -, -, -, -, hid⟩ := hok
      rcases hid with ⟨-, a, b⟩ | ⟨-, a, b⟩
      · exact ⟨(x.1, y.1), by simp [Split.key, a, b]⟩
      · exact ⟨(y.1, x.1), by simp [Split.key, a, b]⟩
  have hone : OneLoop keys := ok.loop cf keys hcf (by rw [hspdef, hpsdef, hhs, hLdef]; exact hkeys)
  obtain ⟨ids, hids, hiperm, hich, last, hil, hifit, hihead⟩ := loop_order hone
  have hklen : keys.length = ps.length := (List.Forall₂.length_eq hk2).symm
  obtain ⟨ord, hord, ho2⟩ : ∃ ord, (ids.mapM fun i => ps[i]?) = some ord ∧ List.Forall₂ (fun i p => ps[i]? = some p) ids ord := by
    apply mapM_total
    intro i hi
    have : i < keys.length := List.mem_range.1 (hiperm.mem_iff.1 hi)
    exact ⟨_, List.getElem?_eq_getElem (by omega)⟩
  have hoperm : ord.Perm ps := pick_perm (by rw [← hklen]; exact hiperm) ho2
  have hosp : ∀ p ∈ ord, p ∈ sp ∧ p.2.outline = true := fun p hp => hpsmem p (hoperm.mem_iff.1 hp)
  have hond : (ord.map Prod.fst).Nodup := by
    rw [(hoperm.map Prod.fst).nodup_iff, ← hpsdef]
    exact hspnd.sublist (List.Sublist.map _ List.filter_sublist)
  -- signs on both sides
  have hproper : ((cf.flatMap fun x => x.2.2.map Prod.fst).any (fun v => decide (sgn v = 1)) && (cf.flatMap fun x => x.2.2.map Prod.fst).any (fun v => decide (sgn v = -1))) = true := by
    have hany : ∀ s0 : SignType, (∃ f ∈ C.faces, ∃ c, s.mesh.faces[f]? = some c ∧ ∃ x ∈ c, sgn x.1 = s0) → (cf.flatMap fun x => x.2.2.map Prod.fst).any (fun v => decide (sgn v = s0)) = true := by
      rintro s0 ⟨f, hf, c, hc, x, hx, e⟩
      obtain ⟨y, hy, rfl⟩ := hcfmem' f hf
      have := (hcfmem y hy).2.2
      rw [hc] at this; cases this
      rw [List.any_eq_true]
      exact ⟨x.1, List.mem_flatMap.2 ⟨y, hy, List.mem_map_of_mem hx⟩, by simpa using e⟩
    rw [hany 1 ok.pos, hany (-1) ok.neg]; rfl
  obtain ⟨pivot, hpiv⟩ : ∃ pivot, C.inner.getLast? = some pivot := ⟨_, List.getLast?_eq_some_getLast hne⟩
  -- the tests
  have hkindof : ∀ p ∈ sp, ∀ np, (tests G true sp ord np).kind p.1 = p.2.kind := by
    intro p hp np
    simp only [tests]
    rw [lookup_mem hspnd hp]; rfl
  have hfilt : ∀ (q : Poly.Kind → Bool) np, (C.faces.filter fun f => q ((tests G true sp ord np).kind f)) = (sp.filter fun p => q p.2.kind).map Prod.fst := by
    intro q np
    rw [← hsp1, List.filter_map]
    congr 1
    apply List.filter_congr
    intro p hp
    simp only [Function.comp]
    rw [hkindof p hp]
  have hcuts : ∀ np, (C.faces.filter fun f => decide ((tests G true sp ord np).kind f = .cut)) = (sp.filter fun p => p.2.isTwo).map Prod.fst := by
    intro np
    rw [hfilt (fun k => decide (k = .cut)) np]
    congr 1
    apply List.filter_congr
    intro p _
    rcases p with ⟨f, _ | _ | (_ | _)⟩ <;> rfl
  have htwoperm : ((ord.filter fun p => p.2.isTwo).map Prod.fst).Perm ((sp.filter fun p => p.2.isTwo).map Prod.fst) := by
    refine ((hoperm.filter _).map _).trans ?_
    rw [← hpsdef, List.filter_filter]
    refine List.Perm.of_eq ?_
    congr 1
    apply List.filter_congr
    intro p _
    rcases p with ⟨f, _ | _ | (_ | _)⟩ <;> rfl
  have hTok : ∀ np, (tests G true sp ord np).Ok := by
    intro np
    refine ⟨hG, fun l => ?_⟩
    simp only [tests]
    split
    · rename_i hl; rw [hl]; exact htwoperm
    · exact List.Perm.refl _
  unfold splitCell
  simp only [hC, Option.bind_eq_bind, Option.bind_some, hcf, hhs, hLdef, hspdef, hpsdef, hkeys, hids, hord, hpiv, hproper]
  by_cases hhit : ((C.inner.filter (G.coplanar pivot)).filter G.meets).isEmpty = true
  · rw [if_pos hhit]
    obtain ⟨cx, hcx, lk, hinn, -⟩ := Poly.splitCell_linked (T := tests G true sp ord []) (nOri := nOri) h.linked (hTok []) hC hne rfl
    have hfe := splitCell_nohit hC hpiv (T := tests G true sp ord []) hhit hcx
    rw [hcx]
    exact ⟨_, rfl, ⟨lk, by simpa [hfe.1] using hg⟩, hpiv ▸ hinn, Or.inl ⟨rfl, hfe⟩⟩
  · rw [if_neg hhit, rE]
    have hhit' : ((C.inner.filter (G.coplanar pivot)).filter G.meets).isEmpty = false := by simpa using hhit
    simp only [Option.bind_some]
    obtain ⟨m', bs, segs, r, e1, g', hall, hz, hun, hside, hK, hsegs, hfcuts⟩ := cutLoop (σ := σ) (L := L) (nV := s.mesh.nV) (cid := cid) (A := m1.all) ord ⟨m1, [], []⟩ _ g1 hond
      (fun p hp => by
        obtain ⟨F, c, q1, q2, q3⟩ := hpiece p (hosp p hp).1
        exact ⟨F.cells, c, by rw [List.getElem?_map, q1]; rfl, q2, q3⟩) (fun p hp => (hosp p hp).2) (fun _ hh => hh)
    rw [hσ, r]
    simp only [List.nil_append] at r hsegs ⊢
    simp only [Option.bind_some]
    obtain ⟨cx, hcx, lk, hinn, -⟩ := Poly.splitCell_linked (T := tests G true sp ord bs) (nOri := nOri) h.linked (hTok bs) hC hne rfl
    obtain ⟨a, ha, hfc, ⟨ii, jj, hcells⟩, hfaces⟩ := splitCell_faces hC hpiv (T := tests G true sp ord bs) hhit' hcx
    rw [hcx]
    -- the fold over the faces of the complex
    have horder : (tests G true sp ord bs).order (C.faces.filter fun f => decide ((tests G true sp ord bs).kind f = .cut)) = bs.map Prod.fst := by
      rw [hcuts, e1]
      simp only [tests, if_true]
    have m0 := mid_start h.linked (hTok bs) hC
    rw [horder] at m0 ha
    obtain ⟨a', ha', mid⟩ := Poly.cutFaces_mid (T := tests G true sp ord bs) _ m0
    rw [ha] at ha'; cases ha'
    have hbsnd : (bs.map Prod.fst).Nodup := by
      rw [e1]; exact hond.sublist (List.Sublist.map _ List.filter_sublist)
    have hnewpos : ∀ b ∈ bs, (tests G true sp ord bs).newPos b.1 = b.2 := by
      intro b hb
      simp only [tests]
      rw [lookup_mem hbsnd hb]; rfl
    have hm1len : m1.faces.length = s.cx.faces.length := by rw [fE, hlen]; simp
    have hblt : ∀ b ∈ bs, b.1 < s.cx.faces.length := by
      intro b hb
      have : b.1 ∈ bs.map Prod.fst := List.mem_map_of_mem hb
      rw [e1] at this
      obtain ⟨q, hq, e⟩ := List.mem_map.1 this
      obtain ⟨F, c, q1, -, -⟩ := hpiece q (hosp q (List.mem_filter.1 hq).1).1
      rw [← e]
      exact (List.getElem?_eq_some_iff.1 q1).1
    obtain ⟨hpos, hneg, hcl⟩ := cutFaces_parts bs _ a hnewpos hblt ha
    simp only at hpos hneg hcl
    have hown := mid.own
    have hol := mid.ownLink
    simp only [List.append_nil] at hown hol
    have g'' : MGood (a.s.faces.map Poly.Face.cells) m' := by rw [hcl]; exact g'
    have hlen' : a.s.faces.length = m'.faces.length := by simpa using g''.len
    -- faces that are not cut
    have hsame : ∀ p ∈ sp, p.2.isTwo = false → m'.faces[p.1]? = m1.faces[p.1]? := by
      intro p hp hp2
      obtain ⟨F, c, q1, q2, -⟩ := hpiece p hp
      refine hun p.1 (List.getElem?_eq_some_iff.1 q2).1 ?_
      rw [e1]
      intro hm
      obtain ⟨q, hq, e⟩ := List.mem_map.1 hm
      have hq' := List.mem_filter.1 hq
      have := List.inj_on_of_nodup_map hspnd (hosp q hq'.1).1 hp e
      rw [this, hp2] at hq'
      exact Bool.false_ne_true hq'.2
    have hposf : (C.faces.filter fun f => decide ((tests G true sp ord bs).kind f = .pos ∨ (tests G true sp ord bs).kind f = .zero)) =
        (sp.filter fun p => decide (p.2.kind = .pos ∨ p.2.kind = .zero)).map Prod.fst := hfilt (fun k => decide (k = .pos ∨ k = .zero)) bs
    have hnegf : (C.faces.filter fun f => decide ((tests G true sp ord bs).kind f = .neg)) = (sp.filter fun p => decide (p.2.kind = .neg)).map Prod.fst :=
      hfilt (fun k => decide (k = .neg)) bs
    rw [hposf] at hpos
    rw [hnegf] at hneg
    have hsideP : ∀ i ∈ a.pos, SideOk σ m'.faces i 1 := by
      intro i hi
      rw [hpos, List.mem_append] at hi
      rcases hi with hi | hi
      · obtain ⟨p, hp, rfl⟩ := List.mem_map.1 hi
        obtain ⟨hp1, hp2⟩ := List.mem_filter.1 hp
        obtain ⟨F, c, q1, q2, q3⟩ := hpiece p hp1
        have ht : p.2.isTwo = false := by
          rcases p with ⟨f, _ | _ | (_ | _)⟩ <;> first | rfl | simp [Split.kind] at hp2
        refine ⟨c, by rw [hsame p hp1 ht]; exact q2, ?_⟩
        rcases p with ⟨f, _ | _ | (_ | _)⟩
        · simp [Split.kind] at hp2
        · exact q3.2.2.1
        · simp [Split.kind] at hp2
        · exact q3.1
      · obtain ⟨p, hp, rfl⟩ := List.mem_map.1 hi
        rw [← hm1len] at hp
        exact (hside p hp).1
    have hsideN : ∀ i ∈ a.neg, SideOk σ m'.faces i (-1) := by
      intro i hi
      rw [hneg, List.mem_append] at hi
      rcases hi with hi | hi
      · obtain ⟨p, hp, rfl⟩ := List.mem_map.1 hi
        obtain ⟨hp1, hp2⟩ := List.mem_filter.1 hp
        obtain ⟨F, c, q1, q2, q3⟩ := hpiece p hp1
        have ht : p.2.isTwo = false := by
          rcases p with ⟨f, _ | _ | (_ | _)⟩ <;> first | rfl | simp [Split.kind] at hp2
        refine ⟨c, by rw [hsame p hp1 ht]; exact q2, ?_⟩
        rcases p with ⟨f, _ | _ | (_ | _)⟩
        · simp [Split.kind] at hp2
        · simp [Split.kind] at hp2
        · intro x hx; rw [neg_neg]; exact q3 x hx
        · simp [Split.kind] at hp2
      · obtain ⟨p, hp, rfl⟩ := List.mem_map.1 hi
        rw [← hm1len] at hp
        exact (hside p hp).2
    have hclen' := mid.len
    have hcidlt : cid < s.cx.cells.length := (List.getElem?_eq_some_iff.1 hC).1
    have hlastf : (m'.addFace segs.flatten).faces[a.s.faces.length]? = some (segs.flatten.map fun h => (h.tail, h.edge)) := by
      rw [hlen']; simp [PMesh.addFace]
    have holdf : ∀ (i : Nat) (c : Cycle), m'.faces[i]? = some c → (m'.addFace segs.flatten).faces[i]? = some c := fun i c hi => by
      rw [PMesh.addFace, List.getElem?_append_left (List.getElem?_eq_some_iff.1 hi).1]; exact hi
    have hsep : ∀ x ∈ segs.flatten.map (fun h => (h.tail, h.edge)), σ x.1 = 0 := by
      intro x hx
      obtain ⟨z, hz', rfl⟩ := List.mem_map.1 hx
      exact (hz z hz').2
    -- the separating face
    have hkget : ∀ (i : Nat) (p : Nat × Split), ps[i]? = some p → ∃ k, keys[i]? = some k ∧ p.2.key L s.mesh.nV = some k := fun i p hi => forall₂_get hk2 hi
    have hf2' : List.Forall₂ Seg segs (ids.map fun i => keys.getD i (0, 0)) := by
      refine forall₂_comp ho2 hsegs ?_
      rintro i p l hi ⟨k, hk, hl, -⟩
      obtain ⟨k', h1, h2⟩ := hkget i p hi
      rw [hk] at h2; cases h2
      simp only [List.getD, h1, Option.getD_some]
      exact hl
    have hgd : ∀ i j, Poly.Fits keys i j → (keys.getD i (0, 0)).2 = (keys.getD j (0, 0)).1 := by
      rintro i j ⟨p, q, h1, h2, h3⟩
      simp only [List.getD, h1, h2, Option.getD_some]; exact h3
    obtain ⟨z1, z2, z3⟩ := segs_chain hf2' (by rw [List.isChain_map]; exact hich.imp fun i j hij => hgd i j hij)
    have hloop : hes (segs.flatten.map fun h => (h.tail, h.edge)) = segs.flatten := by
      apply hes_of_loop _ z1
      · rw [z2, z3, List.getLast?_map, List.head?_map, hil, hihead]
        simp only [Option.map_some, Option.some.injEq]
        exact hgd _ _ hifit
      · intro h0
        rw [h0, List.head?_map, hihead] at z2
        simp at z2
    refine ⟨_, rfl, ⟨lk, ?_⟩, hpiv ▸ hinn, Or.inr ⟨⟨⟨a.neg ++ [a.s.faces.length], ii⟩, ⟨a.pos ++ [a.s.faces.length], jj⟩, by rw [hcells]; simp [hclen'],
      by rw [hcells, List.getElem?_append_left (by rw [List.length_set]; omega), List.getElem?_set_self (by omega)],
      by rw [hcells, List.getElem?_append_right (by simp [hclen'])]; simp [hclen'], ?_, ?_⟩, cf, m1, m', a.s.faces.map Poly.Face.cells, ord, segs, a.pos, a.neg, ?_⟩⟩
    rotate_left
    · intro f hf
      rcases List.mem_append.1 hf with hf | hf
      · obtain ⟨c, h1, h2⟩ := hsideN f hf
        exact ⟨c, holdf f c h1, by simpa using h2⟩
      · rw [List.mem_singleton] at hf
        subst hf
        exact ⟨_, hlastf, fun x hx => by rw [hsep x hx]; decide⟩
    · intro f hf
      rcases List.mem_append.1 hf with hf | hf
      · obtain ⟨c, h1, h2⟩ := hsideP f hf
        exact ⟨c, holdf f c h1, h2⟩
      · rw [List.mem_singleton] at hf
        subst hf
        exact ⟨_, hlastf, fun x hx => by rw [hsep x hx]; decide⟩
    · refine ⟨hcf, by rw [hhs, hLdef]; exact rE, by rw [hσ, hcl, ← e1]; exact hfcuts, g'', by rw [hspdef]; exact hosp, hond, ?_, by rw [hhs, hLdef]; exact hsegs.imp fun p l hp => hp.choose_spec.2.2, hloop, rfl,
        by rw [← hclen']; exact hfc, by rw [hσ]; exact hsideP, by rw [hσ]; exact hsideN, hown, ?_, ?_, by
          unfold sectionPieces
          simp only [hcf, Option.bind_eq_bind, Option.bind_some, hhs, hLdef, hspdef, hpsdef, hkeys, hids, hord],
        ⟨ids.map fun i => keys.getD i (0, 0), by
          rw [hhs, hLdef]
          refine forall₂_comp (S := fun p q : Nat × Split => p = q) ho2 (List.forall₂_same.2 fun _ _ => rfl) ?_
          rintro i p q hi rfl
          obtain ⟨k', h1, h2⟩ := hkget i p hi
          simp only [List.getD, h1, Option.getD_some]
          exact h2, by rw [List.isChain_map]; exact hich.imp fun i j hij => hgd i j hij, by
          rw [List.getLast?_map, List.head?_map, hil, hihead]
          simp only [Option.map_some, Option.some.injEq]
          exact hgd _ _ hifit⟩, ?_, pivot, hpiv, by
          rw [hfaces, List.getElem?_append_right (by simp)]; simp [hclen', tests]⟩
      · rintro rfl
        cases ho2
        simp at hil
      · intro i P hP
        rw [List.getElem?_map] at hP
        obtain ⟨F, hF, rfl⟩ := Option.map_eq_some_iff.1 hP
        constructor
        · intro hi
          obtain ⟨F', hF', hb⟩ := (hol i).1 hi
          rw [hF] at hF'; cases hF'
          rw [sg_bounds (fun c hc => ((mid.cells i F hF).2 c hc).2) hb]
          split <;> decide
        · intro h0
          by_contra hi
          exact h0 (sg_zero fun hb => hi ((hol i).2 ⟨F, hF, hb⟩))
      · intro P hP
        obtain ⟨F, hF, rfl⟩ := List.mem_map.1 hP
        obtain ⟨i, hi⟩ := List.mem_iff_getElem?.1 hF
        obtain ⟨b1, b2⟩ := mid.cells i F hi
        rw [← hclen']
        exact ⟨b1.ne, fun e => lt_irrefl _ (b2 _ e).1⟩
      · intro i F' hF' hi
        obtain ⟨-, -, -, tr⟩ := cutFaces_trace _ _ a hbsnd (fun f hf => by
          obtain ⟨b, hb, rfl⟩ := List.mem_map.1 hf
          exact hblt b hb) ha
        rw [List.length_map] at hi
        rw [hfaces, List.getElem?_append_left (by simpa using hi), List.getElem?_mapIdx, List.getElem?_eq_getElem hi, Option.map_some, Option.some.injEq] at hF'
        obtain ⟨j, F, ho, hF, hc, ht⟩ := tr i _ (List.getElem?_eq_getElem hi)
        rw [← e1]
        refine ⟨j, F, ho, hF, ?_, ?_⟩
        · rw [← hF', ← hc]
          split
          · exact rename_none _ _ _
          · exact Iff.rfl
        · have : F'.tris = (a.s.faces[i]).tris := by
            rw [← hF']
            split
            · exact rename_tris _ _ _
            · rfl
          rw [this]
          rcases ht with ⟨-, ht⟩ | ht
          · exact Or.inl ht
          · exact Or.inr ht
    simp only
    rw [hfc]
    have hclen : a.s.cells.length ≠ cid := by
      have := mid.len
      have := (List.getElem?_eq_some_iff.1 hC).1
      omega
    refine close_up g'' hown ?_ ?_ ?_ hclen hsideP hsideN ?_ (fun z hz' => (hz z hz').1) hloop
    · intro i hi
      obtain ⟨F, hF, -⟩ := (hol i).1 hi
      rw [← hlen']
      exact (List.getElem?_eq_some_iff.1 hF).1
    · intro i P hP hi
      rw [List.getElem?_map] at hP
      obtain ⟨F, hF, rfl⟩ := Option.map_eq_some_iff.1 hP
      exact sg_zero fun hb => hi ((hol i).2 ⟨F, hF, hb⟩)
    · intro P hP
      obtain ⟨F, hF, rfl⟩ := List.mem_map.1 hP
      obtain ⟨i, hi⟩ := List.mem_iff_getElem?.1 hF
      obtain ⟨b1, b2⟩ := mid.cells i F hi
      exact ⟨b1.ne, fun e => lt_irrefl _ (b2 _ e).1⟩
    · intro e u
      have hk := hK e u
      simp only [hm1len] at hk
      rw [hpos, List.map_append, List.sum_append]
      have hsum0 : (((sp.filter fun p => decide (p.2.kind = .pos ∨ p.2.kind = .zero)).map Prod.fst).map fun i => term0 σ (a.s.faces.map Poly.Face.cells) m'.faces cid e u i).sum =
          ((ord.filter fun p => !p.2.isTwo).map fun p => term0 σ (a.s.faces.map Poly.Face.cells) m'.faces cid e u p.1).sum := by
        have hperm2 : (ord.filter fun p => !p.2.isTwo).Perm (sp.filter fun p => decide (p.2.kind = .zero)) := by
          refine (hoperm.filter _).trans ?_
          rw [← hpsdef, List.filter_filter]
          refine List.Perm.of_eq ?_
          apply List.filter_congr
          intro p _
          rcases p with ⟨f, _ | _ | (_ | _)⟩ <;> rfl
        rw [(hperm2.map _).sum_eq, List.map_map]
        -- faces on the positive side without half-edge in the plane do not count
        have hzero : ∀ p ∈ sp, p.2.kind = .pos → term0 σ (a.s.faces.map Poly.Face.cells) m'.faces cid e u p.1 = 0 := by
          intro p hp hpk
          obtain ⟨F, c, q1, q2, q3⟩ := hpiece p hp
          have ht : p.2.isTwo = false := by
            rcases p with ⟨f, _ | _ | (_ | _)⟩ <;> first | rfl | simp [Split.kind] at hpk
          unfold term0
          rw [hsame p hp ht, q2]
          cases (a.s.faces.map Poly.Face.cells)[p.1]? with
          | none => rfl
          | some P =>
            simp only
            rcases p with ⟨f, _ | _ | (_ | _)⟩
            · simp [Split.kind] at hpk
            · simp [Split.kind] at hpk
            · simp [Split.kind] at hpk
            · rw [q3.2]; simp [bd]
        clear hinn hperm2 hpiece hkindof hosp hsame hpos hneg hposf hnegf hsideP hsideN hk hfilt hcuts htwoperm hpsmem hpsdef hsp1 hspnd hspdef hTok horder m0 ha hcx hfc hnewpos mid hfaces
        induction sp with
        | nil => rfl
        | cons p sp ih =>
          have ih := ih fun q hq => hzero q (by simp [hq])
          by_cases h1 : p.2.kind = .pos
          · rw [List.filter_cons_of_pos (by simp [h1]), List.filter_cons_of_neg (by simp [h1]), List.map_cons, List.sum_cons, ih]
            show term0 _ _ _ _ _ _ p.1 + _ = _
            rw [hzero p (by simp) h1, zero_add]
          · by_cases h2 : p.2.kind = .zero
            · rw [List.filter_cons_of_pos (by simp [h2]), List.filter_cons_of_pos (by simp [h2]), List.map_cons, List.sum_cons, List.map_cons, List.sum_cons, ih]; rfl
            · rw [List.filter_cons_of_neg (by simp [h1, h2]), List.filter_cons_of_neg (by simp [h2])]; exact ih
      rw [hsum0]
      have hpl : (((parts s.cx.faces.length bs).map Prod.fst).map fun i => term0 σ (a.s.faces.map Poly.Face.cells) m'.faces cid e u i).sum =
          ((parts s.cx.faces.length bs).map fun p => term0 σ (a.s.faces.map Poly.Face.cells) m'.faces cid e u p.1).sum := by rw [List.map_map]; rfl
      rw [hpl]
      rw [hcl]
      linarith

/-- **C75.** `split_cell` keeps every cell of the complex closed. Suppose the faces of each cell, with the signs given by the order of the two cells of a
face, form a closed surface in which every edge is passed as often in one direction as in the other. If the plane meets the faces of cell `cid` like convex
polygons and the pieces form one closed curve, then `split_cell` does not panic, and afterwards cells and faces refer to each other and the faces of each
cell form a closed surface again: the cell that was cut, the new cell, and all others, some of whose faces and edges were cut as well. If the cell is cut,
it keeps the part on the negative side of the plane, and the new cell is the part on the positive side. -/
theorem c75_split_cell (G : Oracle) (sgn : Nat → SignType) (keep : Nat → Bool) (nOri : Nat) (s : St) (cid : Nat) (C : Poly.Cell) (h : Good s) (hG : ∀ t, G.coplanar t t = true)
    (hC : s.cx.cells[cid]? = some C) (hne : C.inner ≠ []) (ok : CutOk sgn s cid C) :
    ∃ s', splitCell G sgn keep nOri s cid = some s' ∧ Good s' ∧
      ((s'.mesh = s.mesh ∧ s'.cx.faces = s.cx.faces ∧ s'.cx.cells.map Poly.Cell.faces = s.cx.cells.map Poly.Cell.faces) ∨
        ∃ neg pos, s'.cx.cells.length = s.cx.cells.length + 1 ∧ s'.cx.cells[cid]? = some neg ∧ s'.cx.cells[s.cx.cells.length]? = some pos ∧
          OnSide (newSgn sgn s.mesh.nV) s'.mesh neg 1 ∧ OnSide (newSgn sgn s.mesh.nV) s'.mesh pos (-1)) := by
  obtain ⟨s', h1, h2, -, h3⟩ := splitCell_full G sgn keep nOri s cid C h hG hC hne ok
  exact ⟨s', h1, h2, h3.imp_right And.left⟩

end Verif.Bsp
