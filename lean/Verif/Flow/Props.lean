import Verif.Flow.Final
import Mathlib.Data.Int.Order.Basic
import Mathlib.Algebra.Order.Group.Int
/-!
# Properties of `ArcBuilder` and `PushRelabelFifo`
-/
namespace Verif.Flow

variable {T : Type} [AddCommGroup T] [LinearOrder T]

/-! ### C13 -/

/-- A sequence of `add_arc` calls `(from, to, capacity, rev)` after `ArcBuilder::new`. -/
def built (source sink : List T) (ops : List (Nat × Nat × T × Bool)) : List (Nat × Nat × T) :=
  ops.foldl (fun arcs o => addArc arcs o.1 o.2.1 o.2.2.1 o.2.2.2) (builderNew source sink)

/-- Specification: what the calls say about the capacity from inner node `i` to inner node `j`. -/
def between (ops : List (Nat × Nat × T × Bool)) (i j : Nat) : T :=
  (ops.map fun o => (if o.1 = i ∧ o.2.1 = j then o.2.2.1 else 0) + if o.2.2.2 = true ∧ o.2.1 = i ∧ o.1 = j then o.2.2.1 else 0).sum

omit [LinearOrder T] in
theorem totalCap_app (a b : List (Nat × Nat × T)) (u v : Nat) : totalCap (a ++ b) u v = totalCap a u v + totalCap b u v := by
  unfold totalCap
  rw [List.filter_append, List.map_append, List.sum_append]

omit [LinearOrder T] in
theorem totalCap_cons (a : Nat × Nat × T) (l : List (Nat × Nat × T)) (u v : Nat) :
    totalCap (a :: l) u v = (if a.1 = u ∧ a.2.1 = v then a.2.2 else 0) + totalCap l u v := by
  unfold totalCap
  by_cases h : a.1 = u ∧ a.2.1 = v
  · rw [if_pos h, List.filter_cons_of_pos (by simpa using h)]; simp
  · rw [if_neg h, List.filter_cons_of_neg (by simpa using h)]; simp

omit [LinearOrder T] in
theorem totalCap_source : ∀ (l : List T) (k u v : Nat), totalCap ((l.zipIdx k).map fun p => (0, p.2 + 1, p.1)) u v =
    if u = 0 ∧ k < v then (l[v - 1 - k]?).getD 0 else 0
  | [], k, u, v => by simp [totalCap]
  | c :: l, k, u, v => by
    rw [List.zipIdx_cons, List.map_cons, totalCap_cons, totalCap_source l (k + 1) u v]
    simp only
    by_cases h1 : u = 0
    · by_cases h2 : k + 1 = v
      · subst h2; simp [h1]
      · rw [if_neg (fun e => h2 e.2), zero_add]
        by_cases h3 : k < v
        · rw [if_pos ⟨h1, by omega⟩, if_pos ⟨h1, h3⟩, show v - 1 - k = v - 1 - (k + 1) + 1 by omega, List.getElem?_cons_succ]
        · rw [if_neg (by omega), if_neg (by omega)]
    · rw [if_neg (fun e => h1 e.1.symm), if_neg (fun e => h1 e.1), if_neg (fun e => h1 e.1), zero_add]

omit [LinearOrder T] in
theorem totalCap_sink : ∀ (l : List T) (t k u v : Nat), totalCap ((l.zipIdx k).map fun p => (p.2 + 1, t, p.1)) u v =
    if v = t ∧ k < u then (l[u - 1 - k]?).getD 0 else 0
  | [], t, k, u, v => by simp [totalCap]
  | c :: l, t, k, u, v => by
    rw [List.zipIdx_cons, List.map_cons, totalCap_cons, totalCap_sink l t (k + 1) u v]
    simp only
    by_cases h1 : v = t
    · by_cases h2 : k + 1 = u
      · subst h2; simp [h1]
      · rw [if_neg (fun e => h2 e.1), zero_add]
        by_cases h3 : k < u
        · rw [if_pos ⟨h1, by omega⟩, if_pos ⟨h1, h3⟩, show u - 1 - k = u - 1 - (k + 1) + 1 by omega, List.getElem?_cons_succ]
        · rw [if_neg (by omega), if_neg (by omega)]
    · rw [if_neg (fun e => h1 e.2.symm), if_neg (fun e => h1 e.1), if_neg (fun e => h1 e.1), zero_add]

omit [LinearOrder T] in
theorem totalCap_built (source sink : List T) (ops : List (Nat × Nat × T × Bool)) (u v : Nat) :
    totalCap (built source sink ops) u v = totalCap (builderNew source sink) u v + if 0 < u ∧ 0 < v then between ops (u - 1) (v - 1) else 0 := by
  unfold built
  induction ops generalizing source sink with
  | nil => simp [between]
  | cons o ops ih =>
    have key : ∀ (ops : List (Nat × Nat × T × Bool)) (arcs : List (Nat × Nat × T)),
        totalCap (ops.foldl (fun arcs o => addArc arcs o.1 o.2.1 o.2.2.1 o.2.2.2) arcs) u v =
          totalCap arcs u v + if 0 < u ∧ 0 < v then between ops (u - 1) (v - 1) else 0 := by
      intro ops
      induction ops with
      | nil => intro arcs; simp [between]
      | cons o ops ih =>
        intro arcs
        rw [List.foldl_cons, ih]
        unfold addArc
        have e : totalCap (if o.2.2.2 = true then arcs ++ [(o.1 + 1, o.2.1 + 1, o.2.2.1)] ++ [(o.2.1 + 1, o.1 + 1, o.2.2.1)] else arcs ++ [(o.1 + 1, o.2.1 + 1, o.2.2.1)]) u v
            = totalCap arcs u v + if 0 < u ∧ 0 < v then ((if o.1 = u - 1 ∧ o.2.1 = v - 1 then o.2.2.1 else 0) + if o.2.2.2 = true ∧ o.2.1 = u - 1 ∧ o.1 = v - 1 then o.2.2.1 else 0) else 0 := by
          have e1 : (o.1 + 1 = u ∧ o.2.1 + 1 = v) ↔ (0 < u ∧ 0 < v) ∧ (o.1 = u - 1 ∧ o.2.1 = v - 1) := by omega
          have e2 : (o.2.1 + 1 = u ∧ o.1 + 1 = v) ↔ (0 < u ∧ 0 < v) ∧ (o.2.1 = u - 1 ∧ o.1 = v - 1) := by omega
          by_cases hr : o.2.2.2 = true
          · rw [if_pos hr, totalCap_app, totalCap_app, totalCap_cons, totalCap_cons]
            simp only [e1, e2, hr, true_and]
            by_cases h : 0 < u ∧ 0 < v
            · simp only [h, and_self, true_and, if_true, totalCap, List.filter_nil, List.map_nil, List.sum_nil, add_zero]
              rw [add_assoc]
            · simp [h, totalCap]
          · rw [if_neg hr, totalCap_app, totalCap_cons]
            simp only [e1, hr, false_and]
            by_cases h : 0 < u ∧ 0 < v
            · simp [h, totalCap]
            · simp [h, totalCap]
        rw [show (have arcs := arcs ++ [(o.1 + 1, o.2.1 + 1, o.2.2.1)]; if o.2.2.2 = true then arcs ++ [(o.2.1 + 1, o.1 + 1, o.2.2.1)] else arcs) =
          (if o.2.2.2 = true then arcs ++ [(o.1 + 1, o.2.1 + 1, o.2.2.1)] ++ [(o.2.1 + 1, o.1 + 1, o.2.2.1)] else arcs ++ [(o.1 + 1, o.2.1 + 1, o.2.2.1)]) from rfl, e]
        rw [add_assoc]
        congr 1
        by_cases h : 0 < u ∧ 0 < v
        · simp only [h, and_self, if_true, between, List.map_cons, List.sum_cons]
        · simp [h]
    exact key (o :: ops) (builderNew source sink)

omit [LinearOrder T] in
/-- C13. The arcs of an `ArcBuilder`: from the source `0` to node `i + 1` the `i`-th source cost, from node `i + 1` to the sink the
`i`-th sink cost, between inner nodes the sum of the added capacities, and nothing else. -/
theorem c13_arc_builder {m : Nat} (source sink : List T) (ops : List (Nat × Nat × T × Bool)) (h1 : source.length = m) (h2 : sink.length = m)
    (h3 : ∀ o ∈ ops, o.1 < m ∧ o.2.1 < m) :
    (∀ i c, source[i]? = some c → totalCap (built source sink ops) 0 (i + 1) = c) ∧
    (∀ i c, sink[i]? = some c → totalCap (built source sink ops) (i + 1) (m + 1) = c) ∧
    (∀ i < m, ∀ j < m, totalCap (built source sink ops) (i + 1) (j + 1) = between ops i j) ∧
    (∀ u v, (v = 0 ∨ u = m + 1 ∨ (u = 0 ∧ v = m + 1) ∨ m + 1 < u ∨ m + 1 < v) → totalCap (built source sink ops) u v = 0) ∧
    (∀ a ∈ built source sink ops, a.1 < m + 2 ∧ a.2.1 < m + 2) := by
  have hb : ∀ u v, totalCap (builderNew source sink) u v =
      (if u = 0 ∧ 0 < v then (source[v - 1]?).getD 0 else 0) + if v = m + 1 ∧ 0 < u then (sink[u - 1]?).getD 0 else 0 := by
    intro u v
    rw [builderNew, totalCap_app, totalCap_source, totalCap_sink, h1]
    simp only [Nat.sub_zero]
  have hout : ∀ i j, m ≤ i ∨ m ≤ j → between ops i j = 0 := by
    intro i j hij
    refine List.sum_eq_zero fun x hx => ?_
    obtain ⟨o, ho, rfl⟩ := List.mem_map.1 hx
    have := h3 o ho
    rw [if_neg (by omega), if_neg (by omega), add_zero]
  refine ⟨?_, ?_, ?_, ?_, ?_⟩
  · intro i c hc
    have hi := (List.getElem?_eq_some_iff.1 hc).1
    rw [totalCap_built, hb, if_pos (by omega), if_neg (by omega), if_neg (by omega), Nat.add_sub_cancel, hc]
    simp
  · intro i c hc
    have hi := (List.getElem?_eq_some_iff.1 hc).1
    rw [totalCap_built, hb, if_neg (by omega), if_pos (by omega), if_pos (by omega), Nat.add_sub_cancel, Nat.add_sub_cancel, hout _ _ (by omega), hc]
    simp
  · intro i hi j hj
    rw [totalCap_built, hb, if_neg (by omega), if_neg (by omega), if_pos (by omega), Nat.add_sub_cancel, Nat.add_sub_cancel]
    simp
  · intro u v huv
    rw [totalCap_built, hb]
    have e1 : (if u = 0 ∧ 0 < v then (source[v - 1]?).getD 0 else 0) = 0 := by
      split
      · rw [List.getElem?_eq_none (by omega)]; rfl
      · rfl
    have e2 : (if v = m + 1 ∧ 0 < u then (sink[u - 1]?).getD 0 else 0) = 0 := by
      split
      · rw [List.getElem?_eq_none (by omega)]; rfl
      · rfl
    have e3 : (if 0 < u ∧ 0 < v then between ops (u - 1) (v - 1) else 0) = 0 := by
      split
      · exact hout _ _ (by omega)
      · rfl
    rw [e1, e2, e3, add_zero, add_zero]
  · have hnew : ∀ a ∈ builderNew source sink, a.1 < m + 2 ∧ a.2.1 < m + 2 := by
      intro a ha
      rcases List.mem_append.1 ha with ha | ha
      · obtain ⟨p, hp, rfl⟩ := List.mem_map.1 ha
        have := List.mem_zipIdx hp
        simp only; omega
      · obtain ⟨p, hp, rfl⟩ := List.mem_map.1 ha
        have := List.mem_zipIdx hp
        simp only; omega
    have key : ∀ (ops : List (Nat × Nat × T × Bool)) (arcs : List (Nat × Nat × T)), (∀ o ∈ ops, o.1 < m ∧ o.2.1 < m) → (∀ a ∈ arcs, a.1 < m + 2 ∧ a.2.1 < m + 2) →
        ∀ a ∈ ops.foldl (fun arcs o => addArc arcs o.1 o.2.1 o.2.2.1 o.2.2.2) arcs, a.1 < m + 2 ∧ a.2.1 < m + 2 := by
      intro ops
      induction ops with
      | nil => intro arcs _ h; exact h
      | cons o ops ih =>
        intro arcs ho h
        have h' := ho o (by simp)
        refine ih _ (fun p hp => ho p (List.mem_cons_of_mem _ hp)) ?_
        intro a ha
        unfold addArc at ha
        simp only at ha
        split at ha <;> simp only [List.mem_append, List.mem_singleton] at ha
        · rcases ha with (ha | rfl) | rfl
          · exact h a ha
          · simp only; omega
          · simp only; omega
        · rcases ha with ha | rfl
          · exact h a ha
          · simp only; omega
    exact key ops _ h3 hnew

/-- Two inner nodes, a bidirectional arc, added twice in different orders. -/
example : totalCap (built [3, 0] [0, 2] [(0, 1, 5, true), (1, 0, 7, false)]) 1 2 = (5 : Int)
    ∧ totalCap (built [3, 0] [0, 2] [(0, 1, 5, true), (1, 0, 7, false)]) 2 1 = (12 : Int)
    ∧ totalCap (built [3, 0] [0, 2] [(0, 1, 5, true), (1, 0, 7, false)]) 0 1 = (3 : Int) := by decide +kernel

/-! ### C17 -/

/-- C17, without self-loops: between two nodes there is at most one arc in either direction, its capacity is the sum of the
capacities given, and every arc refers to an arc in the opposite direction which refers back to it. -/
theorem c17_network_partial {n : Nat} {arcs : List (Nat × Nat × T)} (h : ∀ a ∈ arcs, a.1 < n ∧ a.2.1 < n ∧ a.1 ≠ a.2.1) :
    ∃ net, network arcs n = some net ∧ net.length = n ∧
      (∀ u i a, arcAt net u i = some a → a.dist < n ∧ a.dist ≠ u ∧ a.cap = totalCap arcs u a.dist ∧
        ∃ b, arcAt net a.dist a.reverse = some b ∧ b.dist = u ∧ b.reverse = i) ∧
      (∀ u i j a b, arcAt net u i = some a → arcAt net u j = some b → a.dist = b.dist → i = j) ∧
      (∀ u v, totalCap arcs u v ≠ 0 → ∃ i a, arcAt net u i = some a ∧ a.dist = v) := by
  obtain ⟨net, h1, h2, h3⟩ := network_spec h
  refine ⟨net, h1, h2.len, fun u i a ha => ⟨h2.lt ha, h2.ne ha, ?_, h2.pair ha⟩, fun u i j a b ha hb => h2.inj ha hb, fun u v huv => ?_⟩
  · rw [← res_eq h2 ha, h3]
  · rw [← h3] at huv
    obtain ⟨i, a, ha, ha1, _⟩ := res_ne huv
    exact ⟨i, a, ha, ha1⟩

/-- Two arcs of the same pair, one in the other direction. -/
example : network [(0, 1, 3), (1, 2, 2), (1, 0, 4), (0, 1, (1 : Int))] 3
    = some [[⟨1, 0, 4⟩], [⟨0, 0, 4⟩, ⟨2, 0, 2⟩], [⟨1, 1, 0⟩]] := by decide +kernel

/-- C17 fails for a self-loop: an arc refers to an arc that does not refer back to it. -/
theorem c17_self_loop_refuted : ∃ (net : Net Int) (i : Nat) (a b : Arc Int), network [(1, 1, 5)] 3 = some net ∧ arcAt net 1 i = some a ∧
    arcAt net a.dist a.reverse = some b ∧ b.reverse ≠ i ∧ a.cap ≠ 5 := by
  refine ⟨[[], [⟨1, 0, 5⟩, ⟨1, 0, 0⟩], []], 1, ⟨1, 0, 0⟩, ⟨1, 0, 5⟩, ?_⟩
  decide +kernel

/-! ### C14 -/

variable [IsOrderedAddMonoid T]

/-- C14. `find_max_flow` ends, and then the residual capacities are those of a preflow with the given excess, and what the sink
holds is the value of a maximum flow (and of a minimum cut) of the input arcs. -/
theorem c14_max_flow {n : Nat} {arcs : List (Nat × Nat × T)} (hn : 2 ≤ n) (h : GoodArcs n arcs) :
    ∃ g0 k g, fromArcs arcs n = some g0 ∧ (∀ k' ≥ k, findMaxFlow k' g0 = some g) ∧
      (∀ u v, 0 ≤ res g.net u v ∧ res g.net u v + res g.net v u = totalCap arcs u v + totalCap arcs v u) ∧
      (∀ v < n, v ≠ 0 → 0 ≤ val g.excess v ∧ val g.excess v = ∑ u ∈ Finset.range n, (res g.net v u - totalCap arcs v u)) ∧
      IsMaxFlowValue n 0 (n - 1) (totalCap arcs) (val g.excess (n - 1)) ∧ IsMinCutValue n 0 (n - 1) (totalCap arcs) (val g.excess (n - 1)) := by
  classical
  obtain ⟨g0, h1, h2⟩ := fromArcs_spec hn h
  obtain ⟨k, g, h3, h4, h5⟩ := findMaxFlow_spec (by omega) (by omega) (by omega) h2
  obtain ⟨h6, h7, _⟩ := h4.max h5 (totalCap_nonneg h) (by omega) (by omega) (by omega) (fun u => decide ¬ Reaches n (res g.net) u (n - 1)) (by simp)
  exact ⟨g0, k, g, h1, h3, fun u v => ⟨h4.f.nonneg u v, h4.f.sum u v⟩, fun v hv hv0 => ⟨h4.f.exn v hv hv0, h4.f.ex v hv hv0⟩, h6, h7⟩

/-- The network of `tests/test_graph_cut.rs`. -/
def testArcs : List (Nat × Nat × Int) :=
  [(0, 1, 10), (0, 2, 6), (1, 3, 4), (3, 1, 4), (1, 4, 4), (4, 1, 4), (2, 5, 4), (5, 2, 4), (3, 4, 2), (4, 3, 2), (4, 5, 2), (5, 4, 2), (3, 6, 6), (5, 6, 6)]

example : GoodArcs 7 testArcs := by unfold GoodArcs testArcs; decide +kernel

example : ((fromArcs testArcs 7).bind fun g => (findMaxFlow 40 g).bind fun g => (g.excess : List Int)[6]?) = some (12 : Int) := by decide +kernel

/-! ### C15, C16 -/

/-- C16. A node reported on the source side has no residual path to the sink; the source is on the source side and the sink is not. -/
theorem c16_source_side {n : Nat} {arcs : List (Nat × Nat × T)} (hn : 2 ≤ n) (h : GoodArcs n arcs) :
    ∃ g0 k g, fromArcs arcs n = some g0 ∧ (∀ k' ≥ k, findMaxFlow k' g0 = some g) ∧ (∀ i < n, ∃ b, isSink g i = some b) ∧
      isSink g 0 = some false ∧ isSink g (n - 1) = some true ∧
      (∀ i, isSink g i = some false → ¬ Reaches n (res g.net) i (n - 1)) ∧
      (∀ i, isSink g i = some false → i ≠ n - 1 → ∀ j, Reaches n (res g.net) j (n - 1) → ¬ 0 < res g.net i j) := by
  obtain ⟨g0, h1, h2⟩ := fromArcs_spec hn h
  obtain ⟨k, g, h3, h4, h5⟩ := findMaxFlow_spec (by omega) (by omega) (by omega) h2
  have hlab : ∀ i < n, isSink g i = some (decide (val g.label i ≠ n)) := by
    intro i hi
    unfold isSink
    bstep (val_some (a := g.label) (i := i) (by rw [h4.f.llen]; exact hi))
    rw [h4.f.nr]
    rfl
  have hlt : ∀ i, isSink g i = some false → i < n := by
    intro i hi
    by_contra hc
    unfold isSink at hi
    rw [List.getElem?_eq_none (by rw [h4.f.llen]; omega)] at hi
    cases hi
  have hreach : ∀ i, isSink g i = some false → ¬ Reaches n (res g.net) i (n - 1) := by
    intro i hi hr
    rw [hlab i (hlt i hi), Option.some.injEq, decide_eq_false_iff_not, not_not] at hi
    have := label_lt h4.l (by omega) hr
    omega
  refine ⟨g0, k, g, h1, h3, fun i hi => ⟨_, hlab i hi⟩, ?_, ?_, hreach, ?_⟩
  · rw [hlab 0 (by omega), h4.l.top]; simp
  · rw [hlab (n - 1) (by omega), h4.l.zero]
    exact congrArg some (decide_eq_true (by omega))
  · intro i hi _ j hj hr
    have hjn : j < n := by
      by_contra hc; rw [res_out h4.f.wf (Or.inr (by omega))] at hr; exact lt_irrefl _ hr
    exact hreach i hi (Relation.ReflTransGen.head ⟨hlt i hi, hjn, hr⟩ hj)

/-- Source side of the test network. -/
example : (do let g ← fromArcs testArcs 7; let g ← findMaxFlow 40 g; (List.range 7).mapM (isSink g))
    = some [false, false, false, true, true, true, true] := by decide +kernel

/-- A network whose node `2` is left behind with an old label. -/
def staleArcs : List (Nat × Nat × Int) := [(0, 1, 10), (1, 4, 1), (1, 2, 20), (2, 1, 20)]

omit [AddCommGroup T] [LinearOrder T] [IsOrderedAddMonoid T] in
/-- C15 fails: `is_sink` is not a minimum cut. The maximum flow is `1`, the cut has capacity `21`, and a residual arc leads from the
reported source side to the reported sink side. -/
theorem c15_refuted : ∃ (g0 g : PR Int) (side : List Bool), GoodArcs 5 staleArcs ∧ fromArcs staleArcs 5 = some g0 ∧ findMaxFlow 20 g0 = some g ∧
    (List.range 5).mapM (isSink g) = some side ∧ val g.excess 4 = 1 ∧ cutCap 5 (totalCap staleArcs) (fun u => !side.getD u true) = 21 ∧
    side[1]? = some false ∧ side[2]? = some true ∧ res g.net 1 2 = 20 := by
  refine ⟨⟨[[⟨1, 0, 0⟩], [⟨0, 0, 10⟩, ⟨4, 0, 1⟩, ⟨2, 0, 20⟩], [⟨1, 2, 20⟩], [], [⟨1, 1, 0⟩]], [0, 0, 0, 0, 0], [0, 10, 0, 0, 0], [], 0, 4, 0, 5, 33⟩,
    ⟨[[⟨1, 0, 0⟩], [⟨0, 0, 10⟩, ⟨4, 0, 0⟩, ⟨2, 0, 20⟩], [⟨1, 2, 20⟩], [], [⟨1, 1, 1⟩]], [5, 5, 4, 5, 0], [0, 9, 0, 0, 1], [], 0, 4, 36, 5, 33⟩,
    [false, false, true, false, true], ?_⟩
  unfold GoodArcs staleArcs
  decide +kernel

/-- C15, partial. If every node reported on the sink side still reaches the sink, the reported sides are a minimum cut. What is
missing is that condition: the code does not relabel once more before it stops (`c15_refuted`). -/
theorem c15_min_cut_partial {n : Nat} {arcs : List (Nat × Nat × T)} (hn : 2 ≤ n) (h : GoodArcs n arcs) :
    ∃ g0 k g, fromArcs arcs n = some g0 ∧ (∀ k' ≥ k, findMaxFlow k' g0 = some g) ∧
      ∀ side : Nat → Bool, (∀ i < n, isSink g i = some (!side i)) → (∀ i < n, side i = false → Reaches n (res g.net) i (n - 1)) →
        IsCut 0 (n - 1) side ∧ cutCap n (totalCap arcs) side = val g.excess (n - 1) ∧
        IsMinCutValue n 0 (n - 1) (totalCap arcs) (cutCap n (totalCap arcs) side) ∧
        ∀ u < n, ∀ v < n, side u = true → side v = false → res g.net u v = 0 := by
  obtain ⟨g0, k, g, h1, h2, _, h4, h5, h6, _⟩ := c16_source_side hn h
  obtain ⟨g0', e1, f1⟩ := fromArcs_spec hn h
  obtain ⟨k', g', e2, f2, f3⟩ := findMaxFlow_spec (by omega) (by omega) (by omega) f1
  rw [h1] at e1; cases e1
  have : g = g' := by
    have a1 := h2 (max k k') (le_max_left _ _)
    have a2 := e2 (max k k') (le_max_right _ _)
    rw [a1] at a2; cases a2; rfl
  subst this
  refine ⟨g0, k, g, h1, h2, fun side hs hr => ?_⟩
  have hiff : ∀ u < n, side u = true ↔ ¬ Reaches n (res g.net) u (n - 1) := by
    intro u hu
    constructor
    · intro hu'
      exact h6 u (by rw [hs u hu, hu']; rfl)
    · intro hu'
      by_contra hc
      exact hu' (hr u hu (by simpa using hc))
  obtain ⟨_, m2, m3⟩ := f2.max f3 (totalCap_nonneg h) (by omega) (by omega) (by omega) side hiff
  refine ⟨⟨?_, ?_⟩, m3.symm, by rw [← m3]; exact m2, ?_⟩
  · have := hs 0 (by omega)
    rw [h4] at this
    simpa using this
  · have := hs (n - 1) (by omega)
    rw [h5] at this
    simpa using this
  · intro u hu v hv hu' hv'
    by_contra hc
    exact (hiff u hu).1 hu' (Relation.ReflTransGen.head ⟨hu, hv, lt_of_le_of_ne (f2.f.nonneg u v) (Ne.symm hc)⟩ (hr v hv hv'))

/-- In the test network all nodes on the sink side reach the sink: the cut has capacity `12`. -/
example : cutCap 7 (totalCap testArcs) (fun u => decide (u ≤ 2)) = 12 := by decide +kernel

end Verif.Flow
