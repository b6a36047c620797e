import Verif.Flow.Discharge
import Verif.Flow.Build
import Verif.Flow.Duality
/-!
# The state after `from` and after `find_max_flow`
-/
namespace Verif.Flow

open Finset

variable {T : Type} [AddCommGroup T] [LinearOrder T]

omit [LinearOrder T] in
theorem move_neg {u v : Nat} (huv : u ≠ v) (R : Nat → Nat → T) (δ : T) (x y : Nat) : move R v u (-δ) x y = move R u v δ x y := by
  unfold move
  by_cases h1 : x = v ∧ y = u
  · rw [if_pos h1, if_neg (fun e => huv (e.1.symm.trans h1.1)), if_pos h1]; abel
  · rw [if_neg h1]
    by_cases h2 : x = u ∧ y = v
    · rw [if_pos h2, if_pos h2]; abel
    · rw [if_neg h2, if_neg h2, if_neg h1]

/-- The state of the loop of `init`. -/
structure IInv (n s t : Nat) (C : Nat → Nat → T) (d i : Nat) (g : PR T) : Prop where
  wf : WF n g.net
  llen : g.label.length = n
  xlen : g.excess.length = n
  src : g.source = s
  snk : g.sink = t
  nr : g.notReached = n
  nonneg : ∀ u v, 0 ≤ res g.net u v
  sum : ∀ u v, res g.net u v + res g.net v u = C u v + C v u
  ex : ∀ v < n, v ≠ s → val g.excess v = ∑ u ∈ range n, (res g.net v u - C v u)
  exn : ∀ v < n, v ≠ s → 0 ≤ val g.excess v
  deg : (g.net[s]?).map List.length = some d
  done : ∀ j < i, ∀ a, arcAt g.net s j = some a → a.cap = 0
  todo : ∀ j, i ≤ j → ∀ a, arcAt g.net s j = some a → val g.excess a.dist = 0

variable [IsOrderedAddMonoid T]

theorem initArc_spec {n s t d i : Nat} {C : Nat → Nat → T} {g : PR T} (h : IInv n s t C d i g) (hi : i < d) :
    ∃ g', initArc g i = some g' ∧ IInv n s t C d (i + 1) g' := by
  have hw := h.wf
  obtain ⟨row, hrow, hlen⟩ : ∃ row, g.net[s]? = some row ∧ row.length = d := by
    have := h.deg
    cases hr : g.net[s]? with
    | none => rw [hr] at this; cases this
    | some row => rw [hr] at this; exact ⟨row, rfl, by simpa using this⟩
  obtain ⟨a, ha⟩ : ∃ a, arcAt g.net s i = some a := ⟨row[i]'(by omega), by rw [arcAt_row hrow, List.getElem?_eq_getElem]⟩
  have hal := hw.lt ha
  have hne := hw.ne ha
  have hcap := h.nonneg s a.dist
  rw [res_eq hw ha] at hcap
  have hs : s < n := by have := arcAt_lt ha; rw [hw.len] at this; exact this
  unfold initArc
  rw [h.src]
  by_cases hc : 0 < a.cap
  · obtain ⟨b, hb, hb1, hb2⟩ := hw.pair ha
    obtain ⟨net1, net2, h1, h2, hw2, hm⟩ := move_spec hw hb (-a.cap)
    rw [neg_neg] at h1
    rw [hb1, hb2] at h2
    have hres : ∀ x y, res net2 x y = move (res g.net) s a.dist a.cap x y := fun x y => by
      rw [hm.res, hb1, move_neg hne.symm]
    obtain ⟨ex, p1, p2, p3⟩ := put_spec a.cap (a := g.excess) (i := a.dist) (by rw [h.xlen]; exact hal)
    have h0 := h.todo i le_rfl a ha
    refine ⟨{ g with net := net2, excess := ex }, ?_, ⟨hw2, h.llen, by rw [p2]; exact h.xlen, h.src, h.snk, h.nr, ?_, ?_, ?_, ?_, ?_, ?_, ?_⟩⟩
    · bstep ha
      rw [if_pos hc]
      bstep p1
      bstep h1
      bstep h2
      rw [h.src]
      rfl
    · intro x y
      show 0 ≤ res net2 x y
      rw [hres, move]
      split
      · next e => rw [e.1, e.2, res_eq hw ha, sub_self]
      · split
        · exact add_nonneg (h.nonneg x y) hcap
        · exact h.nonneg x y
    · intro x y
      show res net2 x y + res net2 y x = _
      rw [hres, hres, move_pair hne, h.sum]
    · intro x hx hxs
      show val ex x = ∑ u ∈ range n, (res net2 x u - C x u)
      simp only [hres]
      rw [sum_move hal hs hne, ← h.ex x hx hxs, if_neg hxs, p3]
      split
      · next e => rw [e, h0, zero_add]
      · rw [add_zero]
    · intro x hx hxs
      show 0 ≤ val ex x
      rw [p3]
      split
      · exact hcap
      · exact h.exn x hx hxs
    · show (net2[s]?).map List.length = _
      rw [hm.deg, h.deg]
    · intro j hj e he
      have he : arcAt net2 s j = some e := he
      by_cases hji : j = i
      · have h3 := res_eq hw2 he
        subst hji
        have hed : e.dist = a.dist := by
          by_contra hne'
          have hr : res net2 s a.dist = 0 := by rw [hres, move, if_pos ⟨rfl, rfl⟩, res_eq hw ha, sub_self]
          have hx := hm.deg
          -- the head of the arc does not change
          have h4 : ∃ e', arcAt net2 s j = some e' ∧ e'.dist = a.dist := by
            obtain ⟨q, hq, hq1, hq2⟩ := hw2.pair hm.self
            simp only at hq hq1 hq2
            rw [hb1, hb2] at hq
            exact ⟨q, hq, hq1⟩
          obtain ⟨e', h5, h6⟩ := h4
          rw [he] at h5; cases h5
          exact hne' h6
        rw [hed, hres, move, if_pos ⟨rfl, rfl⟩, res_eq hw ha, sub_self] at h3
        exact h3.symm
      · rw [hm.other s j (fun e => hne e.1.symm) (fun e => hji (e.2.trans hb2))] at he
        exact h.done j (by omega) e he
    · intro j hj e he
      have he : arcAt net2 s j = some e := he
      rw [hm.other s j (fun e => hne e.1.symm) (fun e => by have := e.2.trans hb2; omega)] at he
      show val ex e.dist = 0
      rw [p3, if_neg, h.todo j (by omega) e he]
      intro e'
      have := hw.inj he ha e'
      omega
  · refine ⟨g, ?_, ⟨h.wf, h.llen, h.xlen, h.src, h.snk, h.nr, h.nonneg, h.sum, h.ex, h.exn, h.deg, ?_, fun j hj => h.todo j (by omega)⟩⟩
    · bstep ha
      rw [if_neg hc]
      rfl
    · intro j hj e he
      by_cases hji : j = i
      · subst hji; rw [ha] at he; cases he
        exact le_antisymm (not_lt.1 hc) hcap
      · exact h.done j (by omega) e he

theorem initLoop_spec {n s t d : Nat} {C : Nat → Nat → T} : ∀ (k i : Nat) (g : PR T), IInv n s t C d i g → i + k = d →
    ∃ g', (List.range' i k).foldlM initArc g = some g' ∧ IInv n s t C d d g' := by
  intro k
  induction k with
  | zero => intro i g h hk; exact ⟨g, rfl, by rwa [show i = d by omega] at h⟩
  | succ k ih =>
    intro i g h hk
    obtain ⟨g1, h1, h2⟩ := initArc_spec h (by omega)
    obtain ⟨g2, h3, h4⟩ := ih (i + 1) g1 h2 (by omega)
    refine ⟨g2, ?_, h4⟩
    rw [List.range'_succ, List.foldlM_cons]
    bstep h1
    exact h3

/-- The input arcs: end points below `n`, no loops, no negative capacities. -/
def GoodArcs (n : Nat) (arcs : List (Nat × Nat × T)) : Prop := ∀ a ∈ arcs, a.1 < n ∧ a.2.1 < n ∧ a.1 ≠ a.2.1 ∧ 0 ≤ a.2.2

theorem totalCap_nonneg {n : Nat} {arcs : List (Nat × Nat × T)} (h : GoodArcs n arcs) (u v : Nat) : 0 ≤ totalCap arcs u v := by
  unfold totalCap
  refine List.sum_nonneg fun x hx => ?_
  obtain ⟨a, ha, rfl⟩ := List.mem_map.1 hx
  exact (h a (List.mem_of_mem_filter ha)).2.2.2

theorem fromArcs_spec {n : Nat} {arcs : List (Nat × Nat × T)} (hn : 2 ≤ n) (h : GoodArcs n arcs) :
    ∃ g, fromArcs arcs n = some g ∧ FInv n 0 (n - 1) (totalCap arcs) g := by
  obtain ⟨net, h1, h2, h3⟩ := network_spec (n := n) (arcs := arcs) fun a ha => ⟨(h a ha).1, (h a ha).2.1, (h a ha).2.2.1⟩
  have hval : ∀ x, val (List.replicate n (0 : T)) x = 0 := fun x => by
    rw [val, List.getD_eq_getElem?_getD, List.getElem?_replicate]
    split <;> rfl
  obtain ⟨row, hrow⟩ : ∃ row, net[0]? = some row := ⟨_, List.getElem?_eq_getElem (by rw [h2.len]; omega)⟩
  have hI : IInv n 0 (n - 1) (totalCap arcs) row.length 0 ⟨net, List.replicate n 0, List.replicate n 0, [], 0, n - 1, 0, n, 0⟩ := by
    refine ⟨h2, by simp, by simp, rfl, rfl, rfl, ?_, ?_, ?_, ?_, ?_, by intro j hj; omega, ?_⟩
    · intro u v; show 0 ≤ res net u v; rw [h3]; exact totalCap_nonneg h u v
    · intro u v; show res net u v + res net v u = _; rw [h3, h3]
    · intro v _ _
      show val (List.replicate n (0 : T)) v = ∑ u ∈ range n, (res net v u - totalCap arcs v u)
      rw [hval]
      exact (sum_eq_zero fun u _ => by rw [h3, sub_self]).symm
    · intro v _ _; show 0 ≤ val (List.replicate n (0 : T)) v; rw [hval]
    · show (net[0]?).map _ = _; rw [hrow]; rfl
    · intro j _ a _; exact hval _
  obtain ⟨g, g1, g2⟩ := initLoop_spec row.length 0 _ hI (by omega)
  refine ⟨{ g with threshold := (g.net.map List.length).sum / 2 + g.net.length * 6 }, ?_, ⟨g2.wf, g2.llen, g2.xlen, g2.src, g2.snk, g2.nr, g2.nonneg, g2.sum, g2.ex, g2.exn, ?_⟩⟩
  · unfold fromArcs
    bstep h1
    rw [if_neg (by omega)]
    unfold init
    bstep hrow
    rw [List.range_eq_range']
    bstep g1
    rfl
  · intro u
    show res g.net 0 u = 0
    by_contra hc
    obtain ⟨i, a, ha, _, ha2⟩ := res_ne hc
    have hi : i < row.length := by
      obtain ⟨r, hr, hr2⟩ := row_of_arcAt ha
      have := g2.deg
      rw [hr] at this
      have hl := (List.getElem?_eq_some_iff.1 hr2).1
      simp only [Option.map_some, Option.some.injEq] at this
      omega
    exact hc (ha2.symm.trans (g2.done i hi a ha))

/-! ### After `find_max_flow` -/

omit [IsOrderedAddMonoid T] in
/-- Below the label of a node that reaches the sink, every label occurs. -/
theorem label_cover {n s t : Nat} {g : PR T} (hl : LInv n s t g) (ht : t < n) {u : Nat} (h : Reaches n (res g.net) u t) :
    ∀ k ≤ val g.label u, ∃ w < n, val g.label w = k := by
  induction h using Relation.ReflTransGen.head_induction_on with
  | refl => intro k hk; exact ⟨t, ht, by have := hl.zero; omega⟩
  | @head a b hab _ ih =>
    intro k hk
    have := hl.step a hab.1 b hab.2.1 hab.2.2
    rcases Nat.lt_or_ge (val g.label b) k with h' | h'
    · exact ⟨a, hab.1, by omega⟩
    · exact ih k h'

omit [IsOrderedAddMonoid T] in
theorem label_lt {n s t : Nat} {g : PR T} (hl : LInv n s t g) (ht : t < n) {u : Nat} (h : Reaches n (res g.net) u t) :
    val g.label u < n := by
  have h1 : range (val g.label u + 1) ⊆ (range n).image (val g.label) := by
    intro k hk
    obtain ⟨w, hw, hw2⟩ := label_cover hl ht h k (by have := mem_range.1 hk; omega)
    exact mem_image.2 ⟨w, mem_range.2 hw, hw2⟩
  have h2 := (card_le_card h1).trans card_image_le
  rw [card_range, card_range] at h2
  omega

omit [IsOrderedAddMonoid T] in
theorem source_stuck {n s t : Nat} {C : Nat → Nat → T} {g : PR T} (hf : FInv n s t C g) (hst : s ≠ t) : ¬ Reaches n (res g.net) s t := by
  intro h
  rcases Relation.ReflTransGen.cases_head h with e | ⟨b, hb, _⟩
  · exact hst e
  · have := hb.2.2; rw [hf.sat] at this; exact lt_irrefl _ this

/-- What flows according to the residual capacities. -/
def sent (C R : Nat → Nat → T) (u v : Nat) : T := max 0 (C u v - R u v)

theorem sent_sub {C R : Nat → Nat → T} (h : ∀ u v, R u v + R v u = C u v + C v u) (u v : Nat) :
    sent C R u v - sent C R v u = R v u - C v u := by
  have e : C u v - R u v = R v u - C v u := by rw [sub_eq_sub_iff_add_eq_add, ← h u v, add_comm]
  unfold sent
  rw [e]
  rcases le_total (R v u - C v u) 0 with h' | h'
  · rw [max_eq_left h', max_eq_right (by rw [← neg_sub]; exact neg_nonneg.2 h')]; abel
  · rw [max_eq_right h', max_eq_left (by rw [← neg_sub]; exact neg_nonpos.2 h'), sub_zero]

/-- The residual network is the one of the preflow `sent`. -/
theorem FInv.preflow {n s t : Nat} {C : Nat → Nat → T} {g : PR T} (hf : FInv n s t C g) (hC : ∀ u v, 0 ≤ C u v) :
    IsPreflow n s C (sent C (res g.net)) ∧ ∀ v < n, v ≠ s → net n (sent C (res g.net)) v = val g.excess v := by
  have hnet : ∀ v < n, v ≠ s → net n (sent C (res g.net)) v = val g.excess v := by
    intro v hv hvs
    rw [net, ← sum_sub_distrib, hf.ex v hv hvs]
    exact sum_congr rfl fun u _ => sent_sub hf.sum u v
  refine ⟨⟨fun u _ v _ => le_max_left _ _, fun u _ v _ => ?_, fun v hv hvs => ?_⟩, hnet⟩
  · exact max_le (hC u v) (sub_le_self _ (hf.nonneg u v))
  · rw [hnet v hv hvs]; exact hf.exn v hv hvs

/-- After the main loop the sink holds the maximum flow, and the nodes that do not reach the sink are a minimum cut. -/
theorem MInv.max {n s t : Nat} {C : Nat → Nat → T} {g : PR T} (h : MInv n s t C g) (hq : g.queue = []) (hC : ∀ u v, 0 ≤ C u v)
    (hst : s ≠ t) (hs : s < n) (ht : t < n) (S : Nat → Bool) (hS : ∀ u < n, S u = true ↔ ¬ Reaches n (res g.net) u t) :
    IsMaxFlowValue n s t C (val g.excess t) ∧ IsMinCutValue n s t C (val g.excess t) ∧ val g.excess t = cutCap n C S := by
  obtain ⟨hp, hnet⟩ := h.f.preflow hC
  rw [← hnet t ht (Ne.symm hst)]
  have hSf : ∀ u < n, S u = false → Reaches n (res g.net) u t := fun u hu h' => by
    by_contra hc; rw [(hS u hu).2 hc] at h'; cases h'
  have hres : ∀ u < n, ∀ v < n, S u = true → S v = false → res g.net u v = 0 := by
    intro u hu v hv h1 h2
    by_contra hc
    exact (hS u hu).1 h1 (Relation.ReflTransGen.head ⟨hu, hv, lt_of_le_of_ne (h.f.nonneg u v) (Ne.symm hc)⟩ (hSf v hv h2))
  refine max_min hs ht hp ⟨(hS s hs).2 (source_stuck h.f hst), ?_⟩ ?_ ?_ ?_
  · by_contra hc
    exact (hS t ht).1 (by simpa using hc) Relation.ReflTransGen.refl
  · intro u hu v hv h1 h2
    rw [sent, hres u hu v hv h1 h2, sub_zero, max_eq_right (hC u v)]
  · intro u hu v hv h1 h2
    have := h.f.sum u v
    rw [hres u hu v hv h1 h2, zero_add] at this
    rw [sent, this, max_eq_left]
    exact sub_nonpos.2 (le_add_of_nonneg_left (hC u v))
  · intro v hv h1 hvt
    have hvs : v ≠ s := fun e => by
      subst e
      exact source_stuck h.f hst (hSf v hv h1)
    rw [hnet v hv hvs]
    have h2 := label_lt h.l ht (hSf v hv h1)
    have h3 : ¬ v ∈ g.queue := by rw [hq]; simp
    rw [h.q.mem] at h3
    exact le_antisymm (not_lt.1 fun h4 => h3 ⟨hv, hvt, fun x => x, h2, h4⟩) (h.f.exn v hv hvs)

end Verif.Flow
