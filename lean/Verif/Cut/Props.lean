import Verif.Cut.Loop
import Mathlib.Algebra.Order.Ring.Int
import Mathlib.Tactic.Ring
/-!
# C18: `GraphCut::max_flow` returns the capacity of a minimum cut
-/
namespace Verif.Cut

open Finset

variable {K : Type} [AddCommGroup K] [LinearOrder K]

/-- An edge given to `add_edge`: its ends and the capacities in both directions. -/
abbrev Edge (K : Type) := Nat × Nat × K × K

/-- Specification: the capacity of the cut with the nodes `S` on the side of the source. -/
def cutCap (source sink : List K) (edges : List (Edge K)) (S : Nat → Bool) : K :=
  ∑ i ∈ range source.length, (if S i then sink.getD i 0 else source.getD i 0) +
    (edges.map fun e => if S e.1 = true ∧ S e.2.1 = false then e.2.2.1 else if S e.2.1 = true ∧ S e.1 = false then e.2.2.2 else 0).sum

/-- The input that `new` and `add_edge` expect. -/
structure InputOk (source sink : List K) (edges : List (Edge K)) : Prop where
  len : sink.length = source.length
  ends : ∀ e ∈ edges, e.1 < source.length ∧ e.2.1 < source.length
  cap : ∀ e ∈ edges, 0 ≤ e.2.2.1 ∧ 0 ≤ e.2.2.2

omit [LinearOrder K] in
theorem sum_map_getD {α : Type} (g : α → K) (d : α) : ∀ l : List α, (l.map g).sum = ∑ i ∈ range l.length, g (l.getD i d)
  | [] => by simp
  | x :: l => by
    rw [List.map_cons, List.sum_cons, sum_map_getD g d l, List.length_cons, sum_range_succ', add_comm]
    simp

omit [LinearOrder K] in
theorem foldl_sum {α : Type} (g : α → K) : ∀ (l : List α) (x : K), l.foldl (fun f p => f + g p) x = x + (l.map g).sum
  | [], x => by simp
  | y :: l, x => by rw [List.foldl_cons, foldl_sum g l, List.map_cons, List.sum_cons, add_assoc]

omit [LinearOrder K] in
theorem sum_pairs (F : Nat → K) : ∀ n : Nat, ∑ a ∈ range (2 * n), F a = ∑ k ∈ range n, (F (2 * k) + F (2 * k + 1))
  | 0 => by simp
  | n + 1 => by
    rw [show 2 * (n + 1) = 2 * n + 1 + 1 by ring, sum_range_succ, sum_range_succ, sum_pairs F n, sum_range_succ, add_assoc]

/-- The state made by the loop of `new` for the first `m` nodes. -/
structure NewInv (tr : Nat → K) (f : K) (m : Nat) (s : St K) : Prop where
  eq : s = { s with tr := tr, flow := f, ts := fun _ => 0, dist := fun _ => 1, time := 0, cur := none }
  par : ∀ i, s.par i = .free ∨ s.par i = .term
  term : ∀ i, tr i ≠ 0 → s.par i = .term
  free : ∀ i < m, tr i = 0 → s.par i = .free
  sink : ∀ i < m, s.sink i = decide (tr i < 0)
  act : ∀ i < m, tr i ≠ 0 → s.flagged i

theorem newStep_inv {tr : Nat → K} {f : K} {m : Nat} {s : St K} (h : NewInv tr f m s) : NewInv tr f (m + 1) (newStep s m) := by
  have etr : s.tr = tr := by rw [h.eq]
  have hd : ∀ i, upd s.sink m (decide (s.tr m < 0)) i = if i = m then decide (tr i < 0) else s.sink i := by
    intro i
    simp only [upd]
    split
    · next e =>
      subst e
      exact decide_eq_decide.2 (by rw [etr])
    · rfl
  unfold newStep
  simp only []
  split
  · next k =>
    rw [etr] at k
    refine ⟨by rw [h.eq], ?_, ?_, ?_, ?_, ?_⟩
    · intro i
      simp only [upd]
      split
      · exact Or.inl rfl
      · exact h.par i
    · intro i hi
      have : i ≠ m := by rintro rfl; exact hi k
      simp only []
      rw [upd_ne _ _ this]
      exact h.term i hi
    · intro i hi hz
      simp only [upd]
      split
      · rfl
      · next e => exact h.free i (by omega) hz
    · intro i hi
      simp only []
      rw [hd]
      split
      · rfl
      · next e => exact h.sink i (by omega)
    · intro i hi hz
      exact h.act i (by have : i ≠ m := by rintro rfl; exact hz k
                        omega) hz
  · next k =>
    rw [etr] at k
    obtain ⟨qq, e⟩ := setActive_eq { s with sink := upd s.sink m (decide (s.tr m < 0)) } m
    have f1 := setActive_flagged { s with sink := upd s.sink m (decide (s.tr m < 0)) } m
    have f2 : ∀ j, s.flagged j → (setActive { s with sink := upd s.sink m (decide (s.tr m < 0)) } m).flagged j := fun j hj => setActive_mono hj
    rw [e] at f1 f2 ⊢
    refine ⟨by rw [h.eq], h.par, h.term, ?_, ?_, ?_⟩
    · intro i hi hz
      exact h.free i (by have : i ≠ m := by rintro rfl; exact k hz
                         omega) hz
    · intro i hi
      simp only []
      rw [hd]
      split
      · rfl
      · next e => exact h.sink i (by omega)
    · intro i hi hz
      by_cases e : i = m
      · rw [e]; exact f1
      · exact f2 i (h.act i (by omega) hz)

theorem newFold_inv {tr : Nat → K} {f : K} {s : St K} (h : NewInv tr f 0 s) : ∀ m, NewInv tr f m ((List.range m).foldl newStep s)
  | 0 => h
  | m + 1 => by
    rw [List.range_succ, List.foldl_append]
    exact newStep_inv (newFold_inv h m)

/-- What the edges have built. -/
structure BuildOk (source sink : List K) (edges : List (Edge K)) (g : Graph × St K) : Prop where
  nodes : g.1.nNodes = source.length
  arcs : g.1.nArcs = 2 * edges.length
  gok : GOk g.1
  arc : ∀ k < edges.length, ∀ d, g.1.head (2 * k) = (edges.getD k d).2.1 ∧ g.1.head (2 * k + 1) = (edges.getD k d).1 ∧ g.1.sister (2 * k) = 2 * k + 1 ∧
    g.1.sister (2 * k + 1) = 2 * k ∧ g.2.rcap (2 * k) = (edges.getD k d).2.2.1 ∧ g.2.rcap (2 * k + 1) = (edges.getD k d).2.2.2
  inv : NewInv (fun i => source.getD i 0 - sink.getD i 0) (∑ i ∈ range source.length, if source.getD i 0 < sink.getD i 0 then source.getD i 0 else sink.getD i 0)
    source.length g.2

theorem new_ok {source sink : List K} (hl : sink.length = source.length) : BuildOk source sink [] (new source sink) := by
  have hz : ∀ i, ((source.zip sink).map fun p => p.1 - p.2).getD i 0 = source.getD i 0 - sink.getD i 0 := by
    intro i
    simp only [List.getD_eq_getElem?_getD, List.getElem?_map, List.getElem?_zip_eq_some]
    by_cases k : i < source.length
    · have k' : i < sink.length := by omega
      simp [List.zip, List.getElem?_zipWith, List.getElem?_eq_getElem k, List.getElem?_eq_getElem k']
    · have k' : ¬ i < sink.length := by omega
      simp [List.zip, List.getElem?_zipWith, List.getElem?_eq_none (Nat.le_of_not_lt k), List.getElem?_eq_none (Nat.le_of_not_lt k')]
  have hf : (source.zip sink).foldl (fun f p => f + if p.1 < p.2 then p.1 else p.2) 0 =
      ∑ i ∈ range source.length, if source.getD i 0 < sink.getD i 0 then source.getD i 0 else sink.getD i 0 := by
    rw [foldl_sum (fun p : K × K => if p.1 < p.2 then p.1 else p.2), zero_add, sum_map_getD _ (0, 0)]
    rw [List.length_zip, hl, Nat.min_self]
    refine sum_congr rfl fun i hi => ?_
    have k := mem_range.1 hi
    have k' : i < sink.length := by omega
    simp [List.getD_eq_getElem?_getD, List.zip, List.getElem?_zipWith, List.getElem?_eq_getElem k, List.getElem?_eq_getElem k']
  refine ⟨rfl, rfl, ⟨?_, ?_, ?_, ?_, ?_, ?_⟩, ?_, ?_⟩
  any_goals (intro a ha; exact absurd ha (Nat.not_lt_zero _))
  · intro i a ha; simp [new] at ha
  · unfold new
    simp only []
    refine newFold_inv ⟨?_, fun i => Or.inr rfl, fun i _ => rfl, ?_, ?_, ?_⟩ _
    · simp only [hf]
      congr 1
      funext i
      exact hz i
    all_goals (intro i hi; exact absurd hi (Nat.not_lt_zero _))

theorem addEdge_ok {source sink : List K} {edges : List (Edge K)} {g : Graph × St K} (h : BuildOk source sink edges g) {e : Edge K}
    (h1 : e.1 < source.length) (h2 : e.2.1 < source.length) : BuildOk source sink (edges ++ [e]) (addEdge g e.1 e.2.1 e.2.2.1 e.2.2.2) := by
  obtain ⟨G, s⟩ := g
  obtain ⟨i, j, cap, rev⟩ := e
  obtain ⟨hn, ha, hG, hk, hI⟩ := h
  simp only [] at hn ha hG hk hI h1 h2
  have ne1 : ∀ a < G.nArcs, a ≠ G.nArcs ∧ a ≠ G.nArcs + 1 := fun a h => ⟨by omega, by omega⟩
  unfold addEdge
  simp only []
  have hd : ∀ a, upd (upd G.head G.nArcs j) (G.nArcs + 1) i a = if a = G.nArcs + 1 then i else if a = G.nArcs then j else G.head a := fun a => rfl
  have hs : ∀ a, upd (upd G.sister G.nArcs (G.nArcs + 1)) (G.nArcs + 1) G.nArcs a = if a = G.nArcs + 1 then G.nArcs else if a = G.nArcs then G.nArcs + 1 else G.sister a :=
    fun a => rfl
  have cases3 : ∀ a < G.nArcs + 2, a < G.nArcs ∨ a = G.nArcs ∨ a = G.nArcs + 1 := fun a h => by omega
  refine ⟨hn, ?_, ⟨?_, ?_, ?_, ?_, ?_, ?_⟩, ?_, ?_⟩
  · simp only [List.length_append, List.length_cons, List.length_nil]; omega
  · intro a ha
    simp only [] at ha ⊢
    rw [hs]
    rcases cases3 a ha with k | rfl | rfl
    · rw [if_neg (ne1 a k).2, if_neg (ne1 a k).1]
      have := hG.sis_lt a k
      omega
    · simp
    · simp
  · intro a ha
    simp only [] at ha ⊢
    rcases cases3 a ha with k | rfl | rfl
    · have e : upd (upd G.sister G.nArcs (G.nArcs + 1)) (G.nArcs + 1) G.nArcs a = G.sister a := by
        rw [hs, if_neg (ne1 a k).2, if_neg (ne1 a k).1]
      have k' := hG.sis_lt a k
      rw [e, hs, if_neg (ne1 _ k').2, if_neg (ne1 _ k').1]
      exact hG.sis_sis a k
    · simp [hs]
    · simp [hs]
  · intro a ha
    simp only [] at ha ⊢
    rw [hs]
    rcases cases3 a ha with k | rfl | rfl
    · rw [if_neg (ne1 a k).2, if_neg (ne1 a k).1]
      exact hG.sis_ne a k
    · simp
    · simp
  · intro a ha
    simp only [] at ha ⊢
    rw [hd, hn]
    rcases cases3 a ha with k | rfl | rfl
    · rw [if_neg (ne1 a k).2, if_neg (ne1 a k).1, ← hn]
      exact hG.head_lt a k
    · simp [h2]
    · simp [h1]
  · intro v a hv
    simp only [] at hv ⊢
    have hv' : (v = j ∧ a = G.nArcs + 1) ∨ (v = i ∧ a = G.nArcs) ∨ a ∈ G.adj v := by
      simp only [upd] at hv
      split at hv
      · next e1 =>
        rcases List.mem_cons.1 hv with k | k
        · exact Or.inl ⟨e1, k⟩
        · split at k
          · next e2 =>
            rcases List.mem_cons.1 k with k | k
            · exact Or.inr (Or.inl ⟨e1.trans e2, k⟩)
            · exact Or.inr (Or.inr (by rw [e1, e2]; exact k))
          · exact Or.inr (Or.inr (by rw [e1]; exact k))
      · split at hv
        · next e2 =>
          rcases List.mem_cons.1 hv with k | k
          · exact Or.inr (Or.inl ⟨e2, k⟩)
          · exact Or.inr (Or.inr (by rw [e2]; exact k))
        · exact Or.inr (Or.inr hv)
    rcases hv' with ⟨rfl, rfl⟩ | ⟨rfl, rfl⟩ | k
    · refine ⟨by omega, ?_⟩
      rw [hs, if_pos rfl, hd, if_neg (by omega), if_pos rfl]
    · refine ⟨by omega, ?_⟩
      rw [hs, if_neg (by omega), if_pos rfl, hd, if_pos rfl]
    · obtain ⟨k1, k2⟩ := hG.adj_mem v a k
      refine ⟨by omega, ?_⟩
      have k' := hG.sis_lt a k1
      rw [hs, if_neg (ne1 a k1).2, if_neg (ne1 a k1).1, hd, if_neg (ne1 _ k').2, if_neg (ne1 _ k').1]
      exact k2
  · intro a ha
    simp only [] at ha ⊢
    have keep : ∀ v x, x ∈ G.adj v → x ∈ upd (upd G.adj i (G.nArcs :: G.adj i)) j ((G.nArcs + 1) :: upd G.adj i (G.nArcs :: G.adj i) j) v := by
      intro v x hx
      by_cases e1 : v = j
      · subst e1
        rw [upd_same]
        by_cases e2 : v = i
        · subst e2; rw [upd_same]; simp [hx]
        · rw [upd_ne _ _ e2]; simp [hx]
      · rw [upd_ne _ _ e1]
        by_cases e2 : v = i
        · subst e2; rw [upd_same]; simp [hx]
        · rw [upd_ne _ _ e2]; exact hx
    rcases cases3 a ha with k | rfl | rfl
    · have k' := hG.sis_lt a k
      rw [hs, if_neg (ne1 a k).2, if_neg (ne1 a k).1, hd, if_neg (ne1 _ k').2, if_neg (ne1 _ k').1]
      exact keep _ _ (hG.mem_adj a k)
    · rw [hs, if_neg (by omega), if_pos rfl, hd, if_pos rfl]
      by_cases e1 : i = j
      · subst e1; rw [upd_same, upd_same]; simp
      · rw [upd_ne _ _ e1, upd_same]; simp
    · rw [hs, if_pos rfl, hd, if_neg (by omega), if_pos rfl, upd_same]; simp
  · intro k hkl d
    simp only [List.length_append, List.length_cons, List.length_nil] at hkl
    simp only []
    have hr : ∀ a, upd (upd s.rcap G.nArcs cap) (G.nArcs + 1) rev a = if a = G.nArcs + 1 then rev else if a = G.nArcs then cap else s.rcap a := fun a => rfl
    by_cases k1 : k < edges.length
    · have e1 : (edges ++ [(i, j, cap, rev)]).getD k d = edges.getD k d := by
        simp [List.getD_eq_getElem?_getD, List.getElem?_append_left k1]
      have n1 := ne1 (2 * k) (by omega)
      have n2 := ne1 (2 * k + 1) (by omega)
      rw [e1, hd, hd, hs, hs, hr, hr, if_neg n1.2, if_neg n1.1, if_neg n1.2, if_neg n1.1, if_neg n1.2, if_neg n1.1,
        if_neg n2.2, if_neg n2.1, if_neg n2.2, if_neg n2.1, if_neg n2.2, if_neg n2.1]
      exact hk k k1 d
    · have k2 : k = edges.length := by omega
      have e1 : (edges ++ [(i, j, cap, rev)]).getD k d = (i, j, cap, rev) := by
        simp [List.getD_eq_getElem?_getD, k2]
      have e2 : 2 * k = G.nArcs := by omega
      rw [e1, e2, hd, hd, hs, hs, hr, hr]
      simp
  · exact ⟨by simp only []; rw [hI.eq], hI.par, hI.term, hI.free, hI.sink, hI.act⟩

theorem build_ok {source sink : List K} {edges : List (Edge K)} (h : InputOk source sink edges) : BuildOk source sink edges (build source sink edges) := by
  have main : ∀ (l : List (Edge K)) (done : List (Edge K)) (g : Graph × St K), BuildOk source sink done g → (∀ e ∈ l, e.1 < source.length ∧ e.2.1 < source.length) →
      BuildOk source sink (done ++ l) (l.foldl (fun g e => addEdge g e.1 e.2.1 e.2.2.1 e.2.2.2) g) := by
    intro l
    induction l with
    | nil => intro done g hg _; simpa using hg
    | cons e l ih =>
      intro done g hg hl
      have := ih (done ++ [e]) _ (addEdge_ok hg (hl e (by simp)).1 (hl e (by simp)).2) (fun x hx => hl x (by simp [hx]))
      rw [List.append_assoc, List.singleton_append] at this
      exact this
  exact main edges [] _ (new_ok h.len) h.ends

variable [IsOrderedAddMonoid K]

omit [IsOrderedAddMonoid K] in
theorem build_inv {source sink : List K} {edges : List (Edge K)} (h : InputOk source sink edges) :
    MainInv (build source sink edges).1 (build source sink edges).2.rcap (build source sink edges).2.tr (build source sink edges).2.flow (build source sink edges).2 := by
  have hB := build_ok h
  generalize build source sink edges = g at hB
  obtain ⟨G, s⟩ := g
  obtain ⟨hn, ha, hG, hk, hI⟩ := hB
  simp only [] at hn ha hG hk hI ⊢
  have etr : s.tr = fun i => source.getD i 0 - sink.getD i 0 := by rw [hI.eq]
  have ets : s.ts = fun _ => 0 := by rw [hI.eq]
  have edist : s.dist = fun _ => 1 := by rw [hI.eq]
  have noArc : ∀ j a, s.par j ≠ .arc a := by
    intro j a k
    rcases hI.par j with z | z <;> rw [z] at k <;> cases k
  refine ⟨⟨?_, ?_, ?_, ?_, ?_, ?_, ?_, ?_⟩, ?_, ⟨?_, fun _ _ => rfl, ?_, ?_, ?_⟩, ?_, ?_⟩
  iterate 5 (· exact fun j a k => absurd k (noArc j a))
  · intro j hj
    have hj' : source.getD j 0 - sink.getD j 0 ≠ 0 := by rw [etr] at hj; exact hj
    have hlt : j < source.length := by
      by_contra k
      have k' : sink.length ≤ j := by have := h.len; omega
      apply hj'
      simp [List.getD_eq_getElem?_getD, List.getElem?_eq_none (Nat.le_of_not_lt k), List.getElem?_eq_none k']
    refine ⟨hI.term j hj', ?_, by rw [edist]⟩
    rw [hI.sink j hlt]
    exact decide_eq_decide.2 (by rw [etr])
  · intro j _; rw [edist]
  · intro j; rw [ets]; exact Nat.zero_le _
  · intro c hc h1 h2 _
    exfalso
    have hlt : G.tail c < source.length := by rw [← hn]; exact hG.head_lt _ (hG.sis_lt c hc)
    by_cases k : source.getD (G.tail c) 0 - sink.getD (G.tail c) 0 = 0
    · exact h1 (hI.free _ hlt k)
    · exact h2 (hI.act _ hlt k)
  · intro a hlt
    obtain ⟨k, hk', e⟩ : ∃ k, k < edges.length ∧ (a = 2 * k ∨ a = 2 * k + 1) := ⟨a / 2, by omega, by omega⟩
    have d : Edge K := edges[k]
    have hm : edges.getD k d ∈ edges := by
      simp [List.getD_eq_getElem?_getD, List.getElem?_eq_getElem hk']
    obtain ⟨-, -, -, -, r1, r2⟩ := hk k hk' d
    rcases e with rfl | rfl
    · rw [r1]; exact (h.cap _ hm).1
    · rw [r2]; exact (h.cap _ hm).2
  · intro i
    simp [outflow]
  · intro i
    rcases le_total 0 (s.tr i) with k | k
    · exact Or.inl ⟨k, le_refl _⟩
    · exact Or.inr ⟨le_refl _, k⟩
  · simp
  · intro j k
    rcases hI.par j with z | z <;> rw [z] at k <;> cases k
  · refine ⟨fun j a k => absurd k (noArc j a), fun j hj hp hz => ?_⟩
    rw [etr] at hz
    have := hI.free j (by omega) hz
    rw [hp] at this
    cases this

/-- The capacity of a cut of the edges is that of the arcs. -/
theorem arcCut_build {source sink : List K} {edges : List (Edge K)} (h : InputOk source sink edges) (S : Nat → Bool) :
    arcCut (build source sink edges).1 (build source sink edges).2.rcap (build source sink edges).2.tr (build source sink edges).2.flow S = cutCap source sink edges S := by
  have hB := build_ok h
  generalize build source sink edges = g at hB
  obtain ⟨G, s⟩ := g
  obtain ⟨hn, ha, hG, hk, hI⟩ := hB
  simp only [] at hn ha hG hk hI ⊢
  have etr : s.tr = fun i => source.getD i 0 - sink.getD i 0 := by rw [hI.eq]
  have ef : s.flow = ∑ i ∈ range source.length, if source.getD i 0 < sink.getD i 0 then source.getD i 0 else sink.getD i 0 := by rw [hI.eq]
  unfold arcCut cutCap
  rw [hn, ef, etr, ← sum_add_distrib]
  congr 1
  · refine sum_congr rfl fun i _ => ?_
    simp only []
    generalize source.getD i 0 = x
    generalize sink.getD i 0 = y
    rw [neg_sub]
    by_cases k : x < y
    · rw [if_pos k, max_eq_right (sub_nonneg.2 k.le), max_eq_left (sub_nonpos.2 k.le)]
      split
      · abel
      · abel
    · rw [if_neg k, max_eq_left (sub_nonpos.2 (not_lt.1 k)), max_eq_right (sub_nonneg.2 (not_lt.1 k))]
      split
      · abel
      · abel
  · rw [ha, sum_pairs]
    by_cases hne : edges = []
    · subst hne; simp
    obtain ⟨d, -⟩ : ∃ d, d ∈ edges := List.exists_mem_of_ne_nil _ hne
    rw [sum_map_getD _ d]
    refine sum_congr rfl fun k hk' => ?_
    obtain ⟨q1, q2, q3, q4, q5, q6⟩ := hk k (mem_range.1 hk') d
    rw [show G.tail (2 * k) = G.head (2 * k + 1) by rw [Graph.tail, q3], show G.tail (2 * k + 1) = G.head (2 * k) by rw [Graph.tail, q4], q1, q2, q5, q6]
    cases h1 : S (edges.getD k d).1 <;> cases h2 : S (edges.getD k d).2.1 <;> simp

/-- **C18**: when `max_flow` returns, `flow` is the capacity of the cut made by the source tree, and no cut is smaller; so `flow` is the value of a maximum flow. -/
theorem c18_max_flow {source sink : List K} {edges : List (Edge K)} (h : InputOk source sink edges) {fuel n : Nat} {s : St K}
    (hr : maxFlow (build source sink edges).1 fuel n (build source sink edges).2 = some s) :
    s.flow = cutCap source sink edges s.inSource ∧ ∀ S, s.flow ≤ cutCap source sink edges S := by
  have hG := (build_ok h).gok
  obtain ⟨hI, hP⟩ := maxFlow_spec hG (build_inv h) hr
  have hc : ∀ S, cutCap source sink edges S = arcCut (build source sink edges).1 s.rcap s.tr s.flow S := by
    intro S
    rw [← arcCut_build h, cut_eq hG hI.flow]
  refine ⟨?_, fun S => ?_⟩
  · rw [hc, arcCut_tree hI.tree hP s.inSource (fun _ _ k => k) (fun _ _ k k' => by rw [k] at k'; cases k') hG]
  · rw [hc]
    exact arcCut_res hI.flow.nonneg S

/-- **C18**: and there is a flow of that value: `x k` along the edge `k`, `p i` from the source and `q i` to the sink, within the capacities and conserved at
every node. -/
theorem c18_feasible {source sink : List K} {edges : List (Edge K)} (h : InputOk source sink edges) (hs : ∀ i, 0 ≤ source.getD i 0) (ht : ∀ i, 0 ≤ sink.getD i 0)
    {fuel n : Nat} {s : St K} (hr : maxFlow (build source sink edges).1 fuel n (build source sink edges).2 = some s) :
    ∃ x p q : Nat → K, (∀ k < edges.length, ∀ d, -(edges.getD k d).2.2.2 ≤ x k ∧ x k ≤ (edges.getD k d).2.2.1) ∧
      (∀ i, 0 ≤ p i ∧ p i ≤ source.getD i 0 ∧ 0 ≤ q i ∧ q i ≤ sink.getD i 0) ∧
      (∀ i d, p i - q i = ∑ k ∈ range edges.length, ((if (edges.getD k d).1 = i then x k else 0) - if (edges.getD k d).2.1 = i then x k else 0)) ∧
      s.flow = ∑ i ∈ range source.length, p i := by
  have hB := build_ok h
  have hG := hB.gok
  obtain ⟨hI, -⟩ := maxFlow_spec hG (build_inv h) hr
  have hF := hI.flow
  clear hI hr
  generalize build source sink edges = g at hB hG hF
  obtain ⟨G, s0⟩ := g
  obtain ⟨hn, ha, -, hk, hN⟩ := hB
  simp only [] at hn ha hk hN hF hG
  have etr : s0.tr = fun i => source.getD i 0 - sink.getD i 0 := by rw [hN.eq]
  have ef : s0.flow = ∑ i ∈ range source.length, if source.getD i 0 < sink.getD i 0 then source.getD i 0 else sink.getD i 0 := by rw [hN.eq]
  have hm : ∀ i, 0 ≤ max 0 (s.tr i) ∧ max 0 (s.tr i) ≤ max 0 (s0.tr i) ∧ 0 ≤ max 0 (-s.tr i) ∧ max 0 (-s.tr i) ≤ max 0 (-s0.tr i) := by
    intro i
    refine ⟨le_max_left _ _, ?_, le_max_left _ _, ?_⟩
    · rcases hF.between i with ⟨_, k⟩ | ⟨_, k⟩
      · exact max_le_max (le_refl _) k
      · rw [max_eq_left k]; exact le_max_left _ _
    · rcases hF.between i with ⟨k, _⟩ | ⟨k, _⟩
      · rw [max_eq_left (neg_nonpos.2 k)]; exact le_max_left _ _
      · exact max_le_max (le_refl _) (neg_le_neg k)
  have hmin : ∀ i, source.getD i 0 = (if source.getD i 0 < sink.getD i 0 then source.getD i 0 else sink.getD i 0) + max 0 (s0.tr i) ∧
      sink.getD i 0 = (if source.getD i 0 < sink.getD i 0 then source.getD i 0 else sink.getD i 0) + max 0 (-s0.tr i) ∧
      0 ≤ (if source.getD i 0 < sink.getD i 0 then source.getD i 0 else sink.getD i 0) := by
    intro i
    have h1 := hs i
    have h2 := ht i
    rw [etr]
    simp only []
    generalize source.getD i 0 = x at *
    generalize sink.getD i 0 = y at *
    rw [neg_sub]
    by_cases k : x < y
    · rw [if_pos k, max_eq_right (sub_nonneg.2 k.le), max_eq_left (sub_nonpos.2 k.le)]
      exact ⟨by abel, by abel, h1⟩
    · rw [if_neg k, max_eq_left (sub_nonpos.2 (not_lt.1 k)), max_eq_right (sub_nonneg.2 (not_lt.1 k))]
      exact ⟨by abel, by abel, h2⟩
  have hd : ∀ x : K, max 0 x - max 0 (-x) = x := by
    intro x
    rcases le_total 0 x with k | k
    · rw [max_eq_right k, max_eq_left (neg_nonpos.2 k), sub_zero]
    · rw [max_eq_left k, max_eq_right (neg_nonneg.2 k), zero_sub, neg_neg]
  have hpair : ∀ k < edges.length, ∀ d : Edge K, s.rcap (2 * k) + s.rcap (2 * k + 1) = (edges.getD k d).2.2.1 + (edges.getD k d).2.2.2 := by
    intro k hk' d
    obtain ⟨-, -, q3, -, q5, q6⟩ := hk k hk' d
    have := hF.pair (2 * k) (by omega)
    rw [q3, q5, q6] at this
    exact this
  refine ⟨fun k => s0.rcap (2 * k) - s.rcap (2 * k), fun i => source.getD i 0 - max 0 (s.tr i), fun i => sink.getD i 0 - max 0 (-s.tr i), ?_, ?_, ?_, ?_⟩
  · intro k hk' d
    obtain ⟨-, -, -, -, q5, q6⟩ := hk k hk' d
    have hp := hpair k hk' d
    have n1 := hF.nonneg (2 * k) (by omega)
    have n2 := hF.nonneg (2 * k + 1) (by omega)
    simp only []
    rw [q5]
    refine ⟨?_, sub_le_self _ n1⟩
    rw [neg_le_sub_iff_le_add, ← hp]
    exact le_add_of_nonneg_right n2
  · intro i
    obtain ⟨m1, m2, m3, m4⟩ := hm i
    obtain ⟨k1, k2, k3⟩ := hmin i
    simp only []
    refine ⟨?_, sub_le_self _ m1, ?_, sub_le_self _ m3⟩
    · rw [sub_nonneg, k1]; exact m2.trans (le_add_of_nonneg_left k3)
    · rw [sub_nonneg, k2]; exact m4.trans (le_add_of_nonneg_left k3)
  · intro i d
    have hb := hF.bal i
    rw [add_zero] at hb
    have e1 : source.getD i 0 - sink.getD i 0 = s0.tr i := by rw [etr]
    simp only []
    rw [sub_sub_sub_comm, e1, hd, ← hb, add_sub_cancel_left]
    unfold outflow
    rw [ha, sum_pairs]
    refine sum_congr rfl fun k hk' => ?_
    have hk'' := mem_range.1 hk'
    obtain ⟨q1, q2, q3, q4, q5, q6⟩ := hk k hk'' d
    have hp := hpair k hk'' d
    rw [show G.tail (2 * k) = G.head (2 * k + 1) by rw [Graph.tail, q3], show G.tail (2 * k + 1) = G.head (2 * k) by rw [Graph.tail, q4], q1, q2, q5, q6]
    have e2 : (edges.getD k d).2.2.2 - s.rcap (2 * k + 1) = -((edges.getD k d).2.2.1 - s.rcap (2 * k)) := by
      rw [neg_sub, sub_eq_sub_iff_add_eq_add, hp]; abel
    rw [e2, sub_eq_add_neg (if (edges.getD k d).1 = i then _ else _)]
    congr 1
    split <;> simp
  · have hv := hF.val
    rw [add_zero, hn, ef, ← sum_add_distrib] at hv
    rw [sum_sub_distrib, eq_sub_iff_add_eq, hv]
    exact sum_congr rfl fun i _ => (hmin i).1.symm

/-- **C18**, for the public `is_sink`: the nodes with `is_sink` false are the source side of a minimum cut if the nodes outside both trees have `is_sink` true. -/
theorem c18_is_sink_partial {source sink : List K} {edges : List (Edge K)} (h : InputOk source sink edges) {fuel n : Nat} {s : St K}
    (hr : maxFlow (build source sink edges).1 fuel n (build source sink edges).2 = some s) (hf : ∀ i < source.length, s.par i = .free → s.sink i = true) :
    (∀ S, cutCap source sink edges (fun i => !s.sink i) ≤ cutCap source sink edges S) ∧ s.flow = cutCap source sink edges (fun i => !s.sink i) := by
  obtain ⟨h1, h2⟩ := c18_max_flow h hr
  have e : s.flow = cutCap source sink edges (fun i => !s.sink i) := by
    have hI : ∀ i < source.length, s.inSource i = !s.sink i := by
      intro i hi
      unfold St.inSource
      by_cases k : s.par i = .free
      · rw [hf i hi k]; simp
      · simp [k]
    rw [h1]
    unfold cutCap
    congr 1
    · refine sum_congr rfl fun i hi => ?_
      rw [hI i (mem_range.1 hi)]
    · congr 1
      refine List.map_congr_left fun e he => ?_
      rw [hI _ (h.ends e he).1, hI _ (h.ends e he).2]
  refine ⟨fun S => ?_, e⟩
  rw [← e]; exact h2 S

/-- **C18**, for the public `is_sink`: a node that is in a tree lies, in every minimum cut, on the side that `is_sink` says. -/
theorem c18_is_sink_tree_partial {source sink : List K} {edges : List (Edge K)} (h : InputOk source sink edges) {fuel n : Nat} {s : St K}
    (hr : maxFlow (build source sink edges).1 fuel n (build source sink edges).2 = some s) (S : Nat → Bool) (hS : ∀ S', cutCap source sink edges S ≤ cutCap source sink edges S') :
    ∀ i < source.length, s.par i ≠ .free → (S i = true ↔ s.sink i = false) := by
  have hB := build_ok h
  have hG := hB.gok
  obtain ⟨h1, -⟩ := c18_max_flow h hr
  obtain ⟨hI, -⟩ := maxFlow_spec hG (build_inv h) hr
  have hc : arcCut (build source sink edges).1 s.rcap s.tr s.flow S ≤ s.flow := by
    rw [← cut_eq hG hI.flow, arcCut_build h, h1]
    exact hS _
  intro i hi hp
  rw [tree_side hG hI.tree hI.live hI.noOrph hI.flow.nonneg S hc i (by rw [hB.nodes]; exact hi) hp]
  simp

/-- **C18** refuted for `is_sink`: a node that both trees have left keeps its last value, and the nodes with `is_sink` false are a cut of capacity 6 although
the maximum flow is 1. -/
theorem c18_is_sink_refuted : ∃ (source sink : List ℤ) (edges : List (Edge ℤ)) (fuel n : Nat), InputOk source sink edges ∧
    ((maxFlow (build source sink edges).1 fuel n (build source sink edges).2).map fun s => (s.flow, cutCap source sink edges (fun i => !s.sink i))) = some (1, 6) := by
  refine ⟨[3, 0, 0], [0, 1, 0], [(2, 1, 5, 0), (0, 1, 1, 0)], 20, 20, ⟨rfl, by decide, by decide⟩, by decide +kernel⟩

/-- A network for the examples: two nodes at the source, two at the sink. -/
def exSource : List ℤ := [4, 3, 0, 0, 1]
def exSink : List ℤ := [0, 0, 2, 6, 1]
def exEdges : List (Edge ℤ) := [(0, 2, 5, 1), (0, 1, 1, 1), (1, 3, 2, 0), (2, 3, 1, 1), (4, 3, 1, 1)]

example : InputOk exSource exSink exEdges := ⟨rfl, by decide, by decide⟩

-- the flow is 6: one unit at the node 4, two along (1, 3), two into the node 2, one more along (0, 2, 3); no node is outside the trees
example : ((maxFlow (build exSource exSink exEdges).1 30 30 (build exSource exSink exEdges).2).map fun s => (s.flow, (List.range 5).map s.sink)) = some (6, [false, false, false, true, true]) := by
  decide +kernel

example : cutCap exSource exSink exEdges (fun i => decide (i < 3)) = 6 := by decide +kernel

-- the condition of `c18_is_sink_partial` holds here, and so every node is in a tree or on the side of the sink
example : ((maxFlow (build exSource exSink exEdges).1 30 30 (build exSource exSink exEdges).2).map fun s =>
    (List.range 5).all fun i => decide (s.par i = .free → s.sink i = true)) = some true := by decide +kernel

end Verif.Cut
