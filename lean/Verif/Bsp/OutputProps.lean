import Verif.Bsp.Output
/-!
# C81: the output of `complex_partition`
-/
namespace Verif.Bsp.Output

variable {K : Type} [Field K] [LinearOrder K]

theorem mapM_some {α β : Type} (f : α → Option β) (g : α → β) : ∀ (l : List α), (∀ x ∈ l, f x = some (g x)) → l.mapM f = some (l.map g)
  | [], _ => rfl
  | x :: l, h => by
    rw [List.mapM_cons, h x (by simp), mapM_some f g l fun y hy => h y (by simp [hy])]
    rfl

structure VInv (pos : Nat → K × K × K) (s : Vars K) (vs : List Nat) : Prop where
  pts : s.pts = vs.map pos
  nodup : vs.Nodup
  map : ∀ v i, s.vmap.lookup v = some i ↔ vs[i]? = some v

structure LInv (pos : Nat → K × K × K) (axis : Nat) (s : Vars K) (vs cs : List Nat) : Prop where
  p2 : s.p2 = cs.map fun v => project axis (pos v)
  fnew : s.fnew.map (fun i => vs[i]?) = cs.map some
  map : ∀ v j, s.lmap.lookup v = some j → cs[j]? = some v

theorem prefix_get {l l' : List Nat} (h : l <+: l') {i v : Nat} (e : l[i]? = some v) : l'[i]? = some v := by
  obtain ⟨t, rfl⟩ := h
  rw [List.getElem?_append_left (List.getElem?_eq_some_iff.1 e).1]; exact e

theorem prefix_map {l l' is bs : List Nat} (h : l <+: l') (e : is.map (fun i => l[i]?) = bs.map some) : is.map (fun i => l'[i]?) = bs.map some := by
  induction is generalizing bs with
  | nil => simpa using e
  | cons i is ih =>
    cases bs with
    | nil => cases e
    | cons b bs =>
      simp only [List.map_cons, List.cons.injEq] at e ⊢
      exact ⟨prefix_get h e.1, ih e.2⟩

theorem newIndex_spec {pos : Nat → K × K × K} {s : Vars K} {vs : List Nat} (hv : VInv pos s vs) (v : Nat) : ∃ vs', VInv pos (newIndex pos s v).1 vs' ∧ vs <+: vs' ∧ vs'[(newIndex pos s v).2]? = some v ∧
    (∀ x, x ∈ vs' ↔ x ∈ vs ∨ x = v) ∧ (newIndex pos s v).1.lmap = s.lmap ∧ (newIndex pos s v).1.p2 = s.p2 ∧ (newIndex pos s v).1.fnew = s.fnew := by
  unfold newIndex
  cases h : s.vmap.lookup v with
  | some i =>
    have hi := (hv.map v i).1 h
    refine ⟨vs, hv, List.prefix_refl _, hi, fun x => ⟨Or.inl, ?_⟩, rfl, rfl, rfl⟩
    rintro (a | rfl)
    · exact a
    · exact List.mem_of_getElem? hi
  | none =>
    have hnot : v ∉ vs := by
      intro hm
      obtain ⟨i, hi⟩ := List.mem_iff_getElem?.1 hm
      rw [(hv.map v i).2 hi] at h; cases h
    have hlen : s.pts.length = vs.length := by rw [hv.pts, List.length_map]
    refine ⟨vs ++ [v], ⟨?_, ?_, fun x i => ?_⟩, List.prefix_append _ _, ?_, fun x => by simp, rfl, rfl, rfl⟩
    · simp [hv.pts]
    · rw [List.nodup_append]
      refine ⟨hv.nodup, by simp, ?_⟩
      rintro a ha b hb rfl
      rw [List.mem_singleton] at hb
      exact hnot (hb ▸ ha)
    · simp only [List.lookup_cons]
      by_cases hx : x = v
      · subst hx
        simp only [BEq.rfl, hlen]
        constructor
        · intro e; cases e; simp
        · intro e
          rcases Nat.lt_trichotomy i vs.length with hi | hi | hi
          · rw [List.getElem?_append_left hi] at e
            exact absurd (List.mem_of_getElem? e) hnot
          · rw [hi]
          · rw [List.getElem?_eq_none (by simp; omega)] at e; cases e
      · have hb : (x == v) = false := by simpa using hx
        simp only [hb, hv.map]
        constructor
        · intro e; exact prefix_get (List.prefix_append _ _) e
        · intro e
          rcases Nat.lt_trichotomy i vs.length with hi | hi | hi
          · rwa [List.getElem?_append_left hi] at e
          · rw [hi] at e; simp at e; exact absurd e.symm hx
          · rw [List.getElem?_eq_none (by simp; omega)] at e; cases e
    · simp [hlen]

theorem visit_spec {pos : Nat → K × K × K} {axis : Nat} {s : Vars K} {vs cs : List Nat} (hv : VInv pos s vs) (hl : LInv pos axis s vs cs) (v : Nat) :
    ∃ s' j vs' cs', visit pos axis s v = some (s', j) ∧ VInv pos s' vs' ∧ LInv pos axis s' vs' cs' ∧ vs <+: vs' ∧ cs <+: cs' ∧ cs'[j]? = some v ∧ (∀ x, x ∈ vs' ↔ x ∈ vs ∨ x = v) ∧
      (∀ x ∈ cs', x ∈ cs ∨ x = v) ∧ (s.lmap.lookup v = none → cs' = cs ++ [v]) ∧ ∀ x, s.lmap.lookup x = none → x ≠ v → s'.lmap.lookup x = none := by
  obtain ⟨vs', h1, h2, h3, h4, h5, h6, h7⟩ := newIndex_spec hv v
  unfold visit
  generalize hn : newIndex pos s v = r at *
  obtain ⟨t, i⟩ := r
  simp only at *
  rw [h5]
  cases hlk : s.lmap.lookup v with
  | some j =>
    refine ⟨t, j, vs', cs, rfl, h1, ⟨by rw [h6]; exact hl.p2, by rw [h7]; exact prefix_map h2 hl.fnew, by rw [h5]; exact hl.map⟩, h2, List.prefix_refl _, hl.map v j hlk, h4, fun x hx => Or.inl hx, ?_, ?_⟩
    · intro e; cases e
    · intro x e _; rw [h5]; exact e
  | none =>
    have hp : t.pts[i]? = some (pos v) := by rw [h1.pts, List.getElem?_map, h3]; rfl
    have hlen : t.p2.length = cs.length := by rw [h6, hl.p2, List.length_map]
    simp only [hp, Option.bind_eq_bind, Option.bind_some]
    refine ⟨_, _, vs', cs ++ [v], rfl, ⟨h1.pts, h1.nodup, h1.map⟩, ⟨?_, ?_, ?_⟩, h2, List.prefix_append _ _, by simp [hlen], h4, fun x hx => by simpa using hx, fun _ => rfl, ?_⟩
    · simp [h6, hl.p2]
    · simp only [List.map_append, h7, prefix_map h2 hl.fnew, List.map_cons, List.map_nil, h3]
    · intro x j e
      simp only [List.lookup_cons] at e
      by_cases hx : x = v
      · subst hx
        simp only [BEq.rfl, hlen] at e
        cases e; simp
      · have hb : (x == v) = false := by simpa using hx
        simp only [hb, h5] at e
        exact prefix_get (List.prefix_append _ _) (hl.map x j e)
    · intro x e hx
      have hb : (x == v) = false := by simpa using hx
      simp only [List.lookup_cons, hb, h5, e]

theorem visitAll_spec {pos : Nat → K × K × K} {axis : Nat} : ∀ (l : List Nat) {s : Vars K} {vs cs : List Nat}, VInv pos s vs → LInv pos axis s vs cs →
    ∃ s' js vs' cs', visitAll pos axis s l = some (s', js) ∧ VInv pos s' vs' ∧ LInv pos axis s' vs' cs' ∧ vs <+: vs' ∧ cs <+: cs' ∧ js.map (fun j => cs'[j]?) = l.map some ∧ (∀ x, x ∈ vs' ↔ x ∈ vs ∨ x ∈ l) ∧
      (∀ x ∈ cs', x ∈ cs ∨ x ∈ l) ∧ (l.Nodup → (∀ x ∈ l, s.lmap.lookup x = none) → cs' = cs ++ l)
  | [], s, vs, cs, hv, hl => ⟨s, [], vs, cs, rfl, hv, hl, List.prefix_refl _, List.prefix_refl _, rfl, by simp, by simp, by simp⟩
  | v :: l, s, vs, cs, hv, hl => by
    obtain ⟨s1, j, vs1, cs1, e1, a1, a2, a3, a4, a5, a6, a7, a8, a9⟩ := visit_spec hv hl v
    obtain ⟨s2, js, vs2, cs2, e2, b1, b2, b3, b4, b5, b6, b7, b8⟩ := visitAll_spec l a1 a2
    refine ⟨s2, j :: js, vs2, cs2, ?_, b1, b2, a3.trans b3, a4.trans b4, ?_, fun x => ?_, fun x hx => ?_, fun hn h => ?_⟩
    · rw [visitAll, e1]
      simp only [Option.bind_eq_bind, Option.bind_some, e2]
    · simp only [List.map_cons, b5, prefix_get b4 a5]
    · rw [b6, a6, List.mem_cons, or_assoc]
    · rcases b7 x hx with h | h
      · rcases a7 x h with h | h
        · exact Or.inl h
        · simp [h]
      · simp [h]
    · obtain ⟨n1, n2⟩ := List.nodup_cons.1 hn
      rw [b8 n2 fun x hx => a9 x (h x (by simp [hx])) fun e => n1 (e ▸ hx), a8 (h v (by simp))]
      simp

theorem visitLoops_spec {pos : Nat → K × K × K} {axis : Nat} : ∀ (ls : List (List Nat)) {s : Vars K} {vs cs : List Nat}, VInv pos s vs → LInv pos axis s vs cs → s.lmap = [] →
    ∃ s' jss vs' cs', visitLoops pos axis s ls = some (s', jss.flatMap circular) ∧ VInv pos s' vs' ∧ LInv pos axis s' vs' cs' ∧ vs <+: vs' ∧ cs <+: cs' ∧
      List.Forall₂ (fun js l => js.map (fun j => cs'[j]?) = l.map some) jss ls ∧ (∀ x, x ∈ vs' ↔ x ∈ vs ∨ ∃ l ∈ ls, x ∈ l) ∧
      (∀ x ∈ cs', x ∈ cs ∨ ∃ l ∈ ls, x ∈ l) ∧ ((∀ l ∈ ls, l.Nodup) → cs' = cs ++ ls.flatten)
  | [], s, vs, cs, hv, hl, _ => ⟨s, [], vs, cs, rfl, hv, hl, List.prefix_refl _, List.prefix_refl _, .nil, by simp, by simp, by simp⟩
  | l :: ls, s, vs, cs, hv, hl, h0 => by
    obtain ⟨s1, js, vs1, cs1, e1, a1, a2, a3, a4, a5, a6, a7, a8⟩ := visitAll_spec l hv hl
    obtain ⟨s2, jss, vs2, cs2, e2, b1, b2, b3, b4, b5, b6, b7, b8⟩ := visitLoops_spec ls (s := { s1 with lmap := [] }) ⟨a1.pts, a1.nodup, a1.map⟩ ⟨a2.p2, a2.fnew, fun v j e => by cases e⟩ rfl
    refine ⟨s2, js :: jss, vs2, cs2, ?_, b1, b2, a3.trans b3, a4.trans b4, .cons (prefix_map b4 a5) b5, fun x => ?_, fun x hx => ?_, fun h => ?_⟩
    · rw [visitLoops, e1]
      simp only [Option.bind_eq_bind, Option.bind_some, e2, List.flatMap_cons]
    · rw [b6, a6]
      simp [or_assoc]
    · rcases b7 x hx with h | h
      · rcases a7 x h with h | h
        · exact Or.inl h
        · exact Or.inr ⟨l, by simp, h⟩
      · obtain ⟨l', hl', h⟩ := h
        exact Or.inr ⟨l', by simp [hl'], h⟩
    · rw [b8 fun l' hl' => h l' (by simp [hl']), a8 (h l (by simp)) fun x _ => by rw [h0]; rfl]
      simp

/-! ### Areas -/

theorem circular_map (h : Nat → K × K) (l : List Nat) : (circular l).map (fun q => (h q.1, h q.2)) = (l.map h).zip ((l.map h).rotate 1) := by
  unfold circular
  rw [← List.map_rotate, List.zip_map]
  rfl

theorem polyArea_spec {g : Nat → K × K} {cs js l : List Nat} (h : js.map (fun j => cs[j]?) = l.map some) : polyArea (cs.map g) (circular js) = some (area2 (l.map g)) := by
  have hlt : ∀ j ∈ js, ∃ v, cs[j]? = some v := by
    intro j hj
    have : cs[j]? ∈ l.map some := by rw [← h]; exact List.mem_map.2 ⟨j, hj, rfl⟩
    obtain ⟨v, _, e⟩ := List.mem_map.1 this
    exact ⟨v, e.symm⟩
  have hval : js.map (fun j => g (cs.getD j 0)) = l.map g := by
    have := congrArg (List.map fun o : Option Nat => g (o.getD 0)) h
    rw [List.map_map, List.map_map] at this
    rw [show (fun j => g (cs.getD j 0)) = (fun o : Option Nat => g (o.getD 0)) ∘ fun j => cs[j]? from by
      funext j; simp [List.getD_eq_getElem?_getD], this]
    apply List.map_congr_left
    intro x _; rfl
  unfold polyArea
  rw [mapM_some _ (fun q : Nat × Nat => (g (cs.getD q.1 0)).1 * (g (cs.getD q.2 0)).2 - (g (cs.getD q.1 0)).2 * (g (cs.getD q.2 0)).1)]
  · rw [Option.map_some, area2, ← hval, ← circular_map (fun j => g (cs.getD j 0)), List.map_map]
    rfl
  · intro q hq
    have h1 : q.1 ∈ js := (List.of_mem_zip hq).1
    have h2 : q.2 ∈ js := List.mem_rotate.1 (List.of_mem_zip hq).2
    obtain ⟨a, ha⟩ := hlt _ h1
    obtain ⟨b, hb⟩ := hlt _ h2
    simp [List.getElem?_map, ha, hb]

theorem circular_length (l : List Nat) : (circular l).length = l.length := by simp [circular]

theorem loopAreas_spec {g : Nat → K × K} {cs : List Nat} : ∀ {jss ls : List (List Nat)} (pre : List (Nat × Nat)), List.Forall₂ (fun js l => js.map (fun j => cs[j]?) = l.map some) jss ls →
    loopAreas (cs.map g) (pre ++ jss.flatMap circular) pre.length ls = some (ls.map fun l => area2 (l.map g)) := by
  intro jss ls pre h
  induction h generalizing pre with
  | nil => rfl
  | @cons js l jss ls h _ ih =>
    have hlen : l.length = (circular js).length := by
      have := congrArg List.length h
      rw [circular_length]; simpa using this.symm
    have e1 : ((pre ++ (js :: jss).flatMap circular).drop pre.length).take l.length = circular js := by
      rw [List.drop_left, List.flatMap_cons, hlen, List.take_left]
    have := ih (pre ++ circular js)
    rw [List.append_assoc, List.length_append, ← hlen, ← List.flatMap_cons] at this
    rw [loopAreas, e1, polyArea_spec h, this]
    rfl

theorem largest_spec : ∀ (l : List K), l ≠ [] → ∃ a, largest l = some a ∧ IsLargest l a
  | [], h => absurd rfl h
  | a :: l, _ => by
    by_cases hl : l = []
    · subst hl
      exact ⟨a, rfl, by simp, by simp⟩
    · obtain ⟨b, e, h1, h2⟩ := largest_spec l hl
      rw [largest, e]
      by_cases hab : |b| < |a|
      · refine ⟨a, by simp only [hab, if_true], by simp, fun c hc => ?_⟩
        rcases List.mem_cons.1 hc with rfl | hc
        · exact le_rfl
        · exact (h2 c hc).trans hab.le
      · refine ⟨b, by simp only [hab, if_false], by simp [h1], fun c hc => ?_⟩
        rcases List.mem_cons.1 hc with rfl | hc
        · exact not_lt.1 hab
        · exact h2 c hc

/-! ### The faces -/

theorem segs_spec {cs : List Nat} {jss ls : List (List Nat)} (h : List.Forall₂ (fun js l => js.map (fun j => cs[j]?) = l.map some) jss ls) :
    ((jss.flatMap circular).map fun q => (cs[q.1]?, cs[q.2]?)) = (ls.flatMap circular).map (fun q => (some q.1, some q.2)) := by
  induction h with
  | nil => rfl
  | @cons js l jss ls h _ ih =>
    rw [List.flatMap_cons, List.map_append, ih, List.flatMap_cons, List.map_append]
    congr 1
    unfold circular
    have e1 : ((js.zip (js.rotate 1)).map fun q => (cs[q.1]?, cs[q.2]?)) = (js.map fun j => cs[j]?).zip ((js.map fun j => cs[j]?).rotate 1) := by
      rw [← List.map_rotate, List.zip_map]; rfl
    have e2 : ((l.zip (l.rotate 1)).map fun q => (some q.1, some q.2)) = (l.map some).zip ((l.map some).rotate 1) := by
      rw [← List.map_rotate, List.zip_map]; rfl
    rw [e1, e2, h]

theorem face_spec {tri : List (K × K) → List (Nat × Nat) → List Nat} (hT : ∀ p segs, ∀ i ∈ tri p segs, i < p.length) {pos : Nat → K × K × K} {s : Vars K} {vs : List Nat} (hv : VInv pos s vs)
    (f : List (List Nat) × Nat) (hf : f.1 ≠ []) : ∃ s' out vs' b, face tri pos s f = some (s', out) ∧ VInv pos s' vs' ∧ vs <+: vs' ∧ (∀ x, x ∈ vs' ↔ x ∈ vs ∨ ∃ l ∈ f.1, x ∈ l) ∧
      out.map (fun i => vs'[i]?) = b.map some ∧ FaceOut tri pos f b := by
  obtain ⟨s', jss, vs', cs, e, a1, a2, a3, -, a5, a6, a7, a8⟩ := visitLoops_spec (axis := f.2) f.1 (s := { s with lmap := [], p2 := [], fnew := [] }) (cs := []) ⟨hv.pts, hv.nodup, hv.map⟩ ⟨rfl, rfl, fun v j e => by cases e⟩ rfl
  have hcs : ∀ v, v ∈ cs ↔ ∃ l ∈ f.1, v ∈ l := by
    intro v
    refine ⟨fun h => by simpa using a7 v h, fun ⟨l, hl, hvl⟩ => ?_⟩
    have key : ∀ {jss ls : List (List Nat)}, List.Forall₂ (fun js l => js.map (fun j => cs[j]?) = l.map some) jss ls → l ∈ ls → v ∈ cs := by
      intro jss ls h
      induction h with
      | nil => intro h; cases h
      | @cons js l' _ _ h _ ih =>
        intro hm
        rcases List.mem_cons.1 hm with rfl | hm
        · have : some v ∈ js.map (fun j => cs[j]?) := by rw [h]; exact List.mem_map.2 ⟨v, hvl, rfl⟩
          obtain ⟨j, _, e⟩ := List.mem_map.1 this
          exact List.mem_of_getElem? e
        · exact ih hm
    exact key a5 hl
  unfold face
  rw [e]
  simp only [Option.bind_eq_bind, Option.bind_some]
  by_cases h3 : f.1.length = 1 ∧ (f.1.map List.length).headD 0 = 3
  · rw [if_pos h3]
    refine ⟨s', _, vs', cs, rfl, a1, a3, a6, a2.fnew, ⟨fun l hl hl3 hn => ?_, fun h => ?_⟩⟩
    · have := a8 (by rw [hl]; simpa using hn)
      rw [this, hl]; simp
    · exfalso
      obtain ⟨l, hl⟩ := List.length_eq_one_iff.1 h3.1
      have h4 := h3.2
      rw [hl] at h4
      exact h l hl (by simpa using h4)
  · rw [if_neg h3]
    obtain ⟨a, ha, ha'⟩ := largest_spec (f.1.map fun l => area2 (l.map fun v => project f.2 (pos v))) (by simpa using hf)
    have hareas := loopAreas_spec (g := fun v => project f.2 (pos v)) (cs := cs) [] a5
    simp only [List.nil_append, List.length_nil] at hareas
    rw [a2.p2, hareas]
    simp only [Option.bind_some, ha]
    have hp : (if a < 0 then (cs.map fun v => project f.2 (pos v)).map swap else cs.map fun v => project f.2 (pos v)) =
        cs.map fun v => if a < 0 then swap (project f.2 (pos v)) else project f.2 (pos v) := by
      split <;> simp
    rw [hp]
    generalize hP : (cs.map fun v => if a < 0 then swap (project f.2 (pos v)) else project f.2 (pos v)) = P
    have hPl : P.length = cs.length := by rw [← hP, List.length_map]
    have hfl : s'.fnew.length = cs.length := by have := congrArg List.length a2.fnew; simpa using this
    have hlt : ∀ i ∈ tri P (jss.flatMap circular), i < cs.length := fun i hi => hPl ▸ hT _ _ i hi
    rw [mapM_some _ (fun i => s'.fnew.getD i 0)]
    · refine ⟨s', _, vs', (tri P (jss.flatMap circular)).map fun i => cs.getD i 0, rfl, a1, a3, a6, ?_, ⟨?_, fun _ => ⟨cs, jss.flatMap circular, a, hcs, fun h => by simpa using a8 h, segs_spec a5, ha', ?_⟩⟩⟩
      · rw [List.map_map, List.map_map]
        apply List.map_congr_left
        intro i hi
        have hi' := hlt i hi
        have := congrArg (fun l => l[i]?) a2.fnew
        simp only [List.getElem?_map, List.getElem?_eq_getElem hi', List.getElem?_eq_getElem (show i < s'.fnew.length by omega), Option.map_some, Option.some.injEq] at this
        simp only [Function.comp, List.getD_eq_getElem?_getD, List.getElem?_eq_getElem hi', List.getElem?_eq_getElem (show i < s'.fnew.length by omega), Option.getD_some]
        exact this
      · intro l hl hl3
        exact absurd ⟨by rw [hl]; rfl, by rw [hl]; simpa using hl3⟩ h3
      · rw [hP, List.map_map]
        apply List.map_congr_left
        intro i hi
        have hi' := hlt i hi
        simp [List.getElem?_eq_getElem hi']
    · intro i hi
      have := hlt i hi
      simp [List.getElem?_eq_getElem (show i < s'.fnew.length by omega)]

theorem faces_spec {tri : List (K × K) → List (Nat × Nat) → List Nat} (hT : ∀ p segs, ∀ i ∈ tri p segs, i < p.length) {pos : Nat → K × K × K} : ∀ (fs : List (List (List Nat) × Nat)) {s : Vars K} {vs : List Nat}, VInv pos s vs →
    (∀ f ∈ fs, f.1 ≠ []) → ∃ s' out vs' bs, faces tri pos s fs = some (s', out) ∧ VInv pos s' vs' ∧ vs <+: vs' ∧ (∀ x, x ∈ vs' ↔ x ∈ vs ∨ ∃ f ∈ fs, ∃ l ∈ f.1, x ∈ l) ∧
      out.map (fun i => vs'[i]?) = bs.flatten.map some ∧ List.Forall₂ (FaceOut tri pos) fs bs
  | [], s, vs, hv, _ => ⟨s, [], vs, [], rfl, hv, List.prefix_refl _, by simp, rfl, .nil⟩
  | f :: fs, s, vs, hv, hf => by
    obtain ⟨s1, o1, vs1, b, e1, a1, a2, a3, a4, a5⟩ := face_spec hT hv f (hf f (by simp))
    obtain ⟨s2, o2, vs2, bs, e2, b1, b2, b3, b4, b5⟩ := faces_spec hT fs a1 fun g hg => hf g (by simp [hg])
    refine ⟨s2, o1 ++ o2, vs2, b :: bs, ?_, b1, a2.trans b2, fun x => ?_, ?_, .cons a5 b5⟩
    · rw [faces, e1]
      simp only [Option.bind_eq_bind, Option.bind_some, e2]
    · rw [b3, a3]; simp [or_assoc]
    · rw [List.map_append, prefix_map b2 a4, b4, List.flatten_cons, List.map_append]

/-- **C81.** The output of `complex_partition` for the loops of the merged faces: there is no panic, the points are those of the vertices of the loops, each vertex once, and the triangles are for each face
the ones that the triangulation finds for its loops, renamed to these points. The plane points and the segments given to the triangulation are those of the loops, with
the coordinates swapped iff the loop of greatest area runs clockwise. -/
theorem c81_output (tri : List (K × K) → List (Nat × Nat) → List Nat) (hT : ∀ p segs, ∀ i ∈ tri p segs, i < p.length) (pos : Nat → K × K × K) (fs : List (List (List Nat) × Nat)) (hf : ∀ f ∈ fs, f.1 ≠ []) :
    ∃ (vs tris : List Nat) (bs : List (List Nat)), output tri pos fs = some (vs.map pos, tris) ∧ vs.Nodup ∧ (∀ v, v ∈ vs ↔ ∃ f ∈ fs, ∃ l ∈ f.1, v ∈ l) ∧ tris.map (fun i => vs[i]?) = bs.flatten.map some ∧
      List.Forall₂ (FaceOut tri pos) fs bs := by
  obtain ⟨s, t, vs, bs, e, h1, -, h3, h4, h5⟩ := faces_spec hT (pos := pos) fs (s := ⟨[], [], [], [], []⟩) (vs := []) ⟨rfl, List.nodup_nil, fun v i => by simp⟩ hf
  refine ⟨vs, t, bs, ?_, h1.nodup, fun v => by simpa using h3 v, h4, h5⟩
  unfold output
  rw [e]
  simp only [Option.bind_eq_bind, Option.bind_some, h1.pts]

/-- The triangles of a list of corners. -/
def triples : List Nat → List (Nat × Nat × Nat)
  | a :: b :: c :: l => (a, b, c) :: triples l
  | _ => []

/-- Twice the signed area of a triangle. -/
def cross (p q r : K × K) : K := (q.1 - p.1) * (r.2 - p.2) - (q.2 - p.2) * (r.1 - p.1)

theorem triples_map {f : Nat → Option Nat} : ∀ {n : Nat} {l b : List Nat}, l.length ≤ n → b.map some = l.map f → triples b = [] ∧ triples l = [] ∨
    (triples b).map (fun t => (some t.1, some t.2.1, some t.2.2)) = (triples l).map fun t => (f t.1, f t.2.1, f t.2.2)
  | 0, l, b, hn, h => by
    have : l = [] := List.length_eq_zero_iff.1 (by omega)
    subst this
    simp at h; subst h
    exact Or.inr rfl
  | n + 1, l, b, hn, h => by
    match l, b with
    | [], [] => exact Or.inr rfl
    | [_], [_] => exact Or.inr rfl
    | [_, _], [_, _] => exact Or.inr rfl
    | x :: y :: z :: l, x' :: y' :: z' :: b =>
      simp only [List.map_cons, List.cons.injEq] at h
      obtain ⟨h1, h2, h3, h4⟩ := h
      simp only [List.length_cons] at hn
      rcases triples_map (n := n) (by omega) h4 with ⟨e1, e2⟩ | e
      · right; simp [triples, e1, e2, h1, h2, h3]
      · right; simp [triples, e, h1, h2, h3]
    | [], _ :: _ => simp at h
    | _ :: _, [] => simp at h
    | [_], _ :: _ :: _ => simp at h
    | _ :: _ :: _, [_] => simp at h
    | [_, _], _ :: _ :: _ :: _ => simp at h
    | _ :: _ :: _ :: _, [_, _] => simp at h

/-- **C81.** All triangles of a face turn like its outer loop (the one of greatest area) in the plane of projection, if those of the triangulation turn counterclockwise. So triangles
of the same merged face never disagree about the side on which the solid lies. -/
theorem c81_orientation [IsStrictOrderedRing K] (tri : List (K × K) → List (Nat × Nat) → List Nat) (hT : ∀ p segs, ∀ t ∈ triples (tri p segs), ∀ a b c, p[t.1]? = some a → p[t.2.1]? = some b → p[t.2.2]? = some c → 0 < cross a b c)
    (pos : Nat → K × K × K) (f : List (List Nat) × Nat) (b : List Nat) (h : FaceOut tri pos f b) (hn : ∀ l ∈ f.1, l.Nodup) (hf : f.1 ≠ []) : ∃ a, IsLargest (f.1.map fun l => area2 (l.map fun v => project f.2 (pos v))) a ∧
      ∀ t ∈ triples b, (a < 0 → cross (project f.2 (pos t.1)) (project f.2 (pos t.2.1)) (project f.2 (pos t.2.2)) < 0) ∧
        (0 < a → 0 < cross (project f.2 (pos t.1)) (project f.2 (pos t.2.1)) (project f.2 (pos t.2.2))) := by
  by_cases h3 : ∃ l, f.1 = [l] ∧ l.length = 3
  · obtain ⟨l, hl, hl3⟩ := h3
    have hb := h.single l hl hl3 (hn l (by simp [hl]))
    subst hb
    refine ⟨area2 (b.map fun v => project f.2 (pos v)), by rw [hl]; simp [IsLargest], ?_⟩
    match b, hl3 with
    | [x, y, z], _ =>
      intro t ht
      simp only [triples, List.mem_singleton] at ht
      subst ht
      have : area2 ([x, y, z].map fun v => project f.2 (pos v)) = cross (project f.2 (pos x)) (project f.2 (pos y)) (project f.2 (pos z)) := by
        simp [area2, cross, List.rotate, List.rotate]
        ring
      rw [this]
      exact ⟨id, id⟩
  · obtain ⟨cs, segs, a, -, -, -, h1, h2⟩ := h.other fun l hl hl3 => h3 ⟨l, hl, hl3⟩
    refine ⟨a, h1, fun t ht => ?_⟩
    generalize hP : (cs.map fun v => if a < 0 then swap (project f.2 (pos v)) else project f.2 (pos v)) = P at h2
    have hmem : (some t.1, some t.2.1, some t.2.2) ∈ (triples (tri P segs)).map fun t => (cs[t.1]?, cs[t.2.1]?, cs[t.2.2]?) := by
      rcases triples_map (f := fun i => cs[i]?) le_rfl h2 with ⟨e, -⟩ | e
      · rw [e] at ht; cases ht
      · rw [← e]; exact List.mem_map.2 ⟨t, ht, rfl⟩
    obtain ⟨u, hu, e⟩ := List.mem_map.1 hmem
    simp only [Prod.mk.injEq] at e
    have hP' : ∀ (i v : Nat), cs[i]? = some v → P[i]? = some (if a < 0 then swap (project f.2 (pos v)) else project f.2 (pos v)) := by
      intro i v hi; rw [← hP, List.getElem?_map, hi]; rfl
    have hpos := hT P segs u hu _ _ _ (hP' _ _ e.1) (hP' _ _ e.2.1) (hP' _ _ e.2.2)
    constructor
    · intro ha
      simp only [ha, if_true] at hpos
      unfold cross swap at hpos
      unfold cross
      simp only at hpos
      linarith
    · intro ha
      simp only [not_lt.2 ha.le, if_false] at hpos
      exact hpos

/-! ### Example -/

/-- A triangle, a square that runs clockwise in the plane of projection, and a stub of the triangulation for squares. -/
def exFaces : List (List (List Nat) × Nat) := [([[4, 2, 7]], 0), ([[7, 2, 9, 5]], 2)]

def exPos (v : Nat) : ℚ × ℚ × ℚ :=
  if v = 2 then (0, 0, 0) else if v = 4 then (0, 0, 1) else if v = 7 then (0, 1, 0) else if v = 9 then (-1, 0, 0) else (-1, 1, 0)

def fan (p : List (ℚ × ℚ)) (_ : List (Nat × Nat)) : List Nat := (List.range (p.length - 2)).flatMap fun i => [0, i + 1, i + 2]

example : output fan exPos exFaces = some ([(0, 0, 1), (0, 0, 0), (0, 1, 0), (-1, 0, 0), (-1, 1, 0)], [0, 1, 2, 2, 1, 3, 2, 3, 4]) := by decide +kernel

example : ∀ f ∈ exFaces, f.1 ≠ [] := by decide

example : ∀ (p : List (ℚ × ℚ)) (segs : List (Nat × Nat)), ∀ i ∈ fan p segs, i < p.length := by
  intro p segs i hi
  simp only [fan, List.mem_flatMap, List.mem_range, List.mem_cons, List.not_mem_nil, or_false] at hi
  omega

/-- The square runs clockwise: its coordinates are swapped, and the triangles of the square run clockwise as well. -/
example : area2 ([7, 2, 9, 5].map fun v => project 2 (exPos v)) = -2 ∧ cross (project 2 (exPos 7)) (project 2 (exPos 2)) (project 2 (exPos 9)) < 0 := by decide +kernel

/-- A triangulation as `c81_orientation` wants it: it gives the triangles that turn counterclockwise. -/
def fanPos (p : List (ℚ × ℚ)) (_ : List (Nat × Nat)) : List Nat :=
  match p with
  | [a, b, c, d] => if 0 < cross a b c ∧ 0 < cross a c d then [0, 1, 2, 0, 2, 3] else []
  | _ => []

example : (output fanPos exPos exFaces).map Prod.snd = some [0, 1, 2, 2, 1, 3, 2, 3, 4] := by decide +kernel

example : ∀ (p : List (ℚ × ℚ)) (segs : List (Nat × Nat)), ∀ t ∈ triples (fanPos p segs), ∀ a b c, p[t.1]? = some a → p[t.2.1]? = some b → p[t.2.2]? = some c → 0 < cross a b c := by
  intro p segs t ht a b c ha hb hc
  unfold fanPos at ht
  split at ht
  · split at ht
    · rename_i h
      simp only [triples, List.mem_cons, List.not_mem_nil, or_false] at ht
      rcases ht with rfl | rfl
      · simp at ha hb hc; subst ha hb hc; exact h.1
      · simp at ha hb hc; subst ha hb hc; exact h.2
    · simp [triples] at ht
  · simp [triples] at ht

end Verif.Bsp.Output
