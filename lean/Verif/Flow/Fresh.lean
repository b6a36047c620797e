import Verif.Flow.Props
/-!
# When nothing can flow, the labels are exact
-/
namespace Verif.Flow
open Finset

variable {T : Type} [AddCommGroup T] [LinearOrder T] [IsOrderedAddMonoid T]

/-- A sum of an antisymmetric function over a square is zero. -/
theorem antisymm_sum (A : Finset Nat) (f : Nat → Nat → T) (h : ∀ u v, f u v + f v u = 0) : ∑ u ∈ A, ∑ v ∈ A, f u v = 0 := by
  have h1 : ∑ u ∈ A, ∑ v ∈ A, f u v + ∑ u ∈ A, ∑ v ∈ A, f u v = 0 := by
    conv_lhs => arg 2; rw [sum_comm]
    rw [← sum_add_distrib]
    refine sum_eq_zero fun u _ => ?_
    rw [← sum_add_distrib]
    exact sum_eq_zero fun v _ => h u v
  rcases lt_trichotomy (∑ u ∈ A, ∑ v ∈ A, f u v) 0 with h2 | h2 | h2
  · exact absurd h1 (ne_of_lt (add_neg h2 h2))
  · exact h2
  · exact absurd h1 (ne_of_gt (add_pos h2 h2))

/-- Across a cut without capacity nothing flows, and beyond it there is no excess. -/
theorem zero_cut {n s t : Nat} {C : Nat → Nat → T} {g : PR T} (hf : FInv n s t C g) (hC : ∀ u v, 0 ≤ C u v) (hs : s < n) (S : Nat → Bool) (hS : IsCut s t S) (h0 : cutCap n C S = 0) :
    (∀ u < n, ∀ v < n, S u = true → S v = false → res g.net u v = 0) ∧ ∀ v < n, S v = false → val g.excess v = 0 := by
  have hC0 : ∀ u < n, ∀ v < n, S u = true → S v = false → C u v = 0 := by
    intro u hu v hv h1 h2
    have a1 := (sum_eq_zero_iff_of_nonneg fun u _ => sum_nonneg fun v _ => by split; exact hC u v; exact le_refl _).1 h0 u (mem_range.2 hu)
    have a2 := (sum_eq_zero_iff_of_nonneg fun v _ => by split; exact hC u v; exact le_refl _).1 a1 v (mem_range.2 hv)
    rwa [if_pos ⟨h1, h2⟩] at a2
  let A := (range n).filter fun v => S v = true
  let B := (range n).filter fun v => S v = false
  have hAB : ∀ φ : Nat → T, ∑ u ∈ range n, φ u = ∑ u ∈ A, φ u + ∑ u ∈ B, φ u := by
    intro φ
    have := sum_filter_add_sum_filter_not (range n) (fun v => S v = true) φ
    simp only [Bool.not_eq_true] at this
    exact this.symm
  have hB : ∀ v ∈ B, v < n ∧ S v = false := fun v hv => ⟨mem_range.1 (mem_filter.1 hv).1, (mem_filter.1 hv).2⟩
  have hA : ∀ v ∈ A, v < n ∧ S v = true := fun v hv => ⟨mem_range.1 (mem_filter.1 hv).1, (mem_filter.1 hv).2⟩
  have hne : ∀ v ∈ B, v ≠ s := fun v hv e => by have := (hB v hv).2; rw [e, hS.1] at this; cases this
  have hsum : ∑ v ∈ B, val g.excess v + ∑ v ∈ B, ∑ u ∈ A, res g.net u v = 0 := by
    have e1 : ∑ v ∈ B, val g.excess v = ∑ v ∈ B, (∑ u ∈ A, (res g.net v u - C v u) + ∑ u ∈ B, (res g.net v u - C v u)) :=
      sum_congr rfl fun v hv => by rw [hf.ex v (hB v hv).1 (hne v hv), hAB]
    rw [e1, sum_add_distrib, antisymm_sum B (fun v u => res g.net v u - C v u) fun u v => by
      have := hf.sum u v
      rw [← sub_eq_zero] at this
      rw [← this]; abel]
    rw [add_zero, ← sum_add_distrib]
    refine sum_eq_zero fun v hv => ?_
    rw [← sum_add_distrib]
    refine sum_eq_zero fun u hu => ?_
    have := hf.sum u v
    rw [hC0 u (hA u hu).1 v (hB v hv).1 (hA u hu).2 (hB v hv).2, zero_add, ← sub_eq_zero] at this
    rw [← this]; abel
  have p1 : 0 ≤ ∑ v ∈ B, val g.excess v := sum_nonneg fun v hv => hf.exn v (hB v hv).1 (hne v hv)
  have p2 : 0 ≤ ∑ v ∈ B, ∑ u ∈ A, res g.net u v := sum_nonneg fun v _ => sum_nonneg fun u _ => hf.nonneg u v
  obtain ⟨q1, q2⟩ := (add_eq_zero_iff_of_nonneg p1 p2).1 hsum
  constructor
  · intro u hu v hv h1 h2
    have a1 := (sum_eq_zero_iff_of_nonneg fun v _ => sum_nonneg fun u _ => hf.nonneg u v).1 q2 v (mem_filter.2 ⟨mem_range.2 hv, h2⟩)
    exact (sum_eq_zero_iff_of_nonneg fun u _ => hf.nonneg u v).1 a1 u (mem_filter.2 ⟨mem_range.2 hu, h1⟩)
  · intro v hv h2
    exact (sum_eq_zero_iff_of_nonneg fun v hv => hf.exn v (hB v hv).1 (hne v hv)).1 q1 v (mem_filter.2 ⟨mem_range.2 hv, h2⟩)

/-- If some cut has no capacity, `find_max_flow` only labels the nodes: `is_sink` tells which nodes reach the sink, and no node of the cut does. -/
theorem zero_cut_labels {n : Nat} {arcs : List (Nat × Nat × T)} (hn : 2 ≤ n) (h : GoodArcs n arcs) (S : Nat → Bool) (hS : IsCut 0 (n - 1) S) (h0 : cutCap n (totalCap arcs) S = 0) :
    ∃ g0 g, fromArcs arcs n = some g0 ∧ (∀ k ≥ 1, findMaxFlow k g0 = some g) ∧
      (∀ i < n, ∃ b, isSink g i = some b ∧ (b = true ↔ Reaches n (res g.net) i (n - 1))) ∧
      ∀ S' : Nat → Bool, IsCut 0 (n - 1) S' → cutCap n (totalCap arcs) S' = 0 → ∀ i < n, S' i = true → isSink g i = some false := by
  classical
  obtain ⟨g0, h1, hf⟩ := fromArcs_spec hn h
  have hC := totalCap_nonneg h
  obtain ⟨label, q, r1, r2⟩ := globalRelabel_spec (g := g0) hf.wf hf.llen hf.xlen (by rw [hf.snk]; omega) hf.nr
  rw [hf.snk] at r2
  have hpot : ∀ S' : Nat → Bool, IsCut 0 (n - 1) S' → cutCap n (totalCap arcs) S' = 0 → ∀ i < n, S' i = true → val label i = n := by
    intro S' hS' h0' i hi hSi
    by_contra hc
    have hlt : val label i < n := lt_of_le_of_ne (r2.le i hi) hc
    obtain ⟨z1, -⟩ := zero_cut hf hC (by omega) S' hS' h0'
    have := r2.pot (fun x => if x < n ∧ S' x = true then n else 0) ⟨by simp [hS'.2], ?_⟩ i hi hlt
    · simp only [hi, hSi, and_self, if_true] at this; omega
    · intro u v huv
      by_cases hu : u < n ∧ S' u = true
      · by_cases hv : v < n ∧ S' v = true
        · simp [hu, hv]
        · have hvn : v < n := by
            by_contra hvn; rw [res_out hf.wf (Or.inr (by omega))] at huv; exact lt_irrefl _ huv
          rw [z1 u hu.1 v hvn hu.2 (by simpa [hvn] using hv)] at huv
          exact absurd huv (lt_irrefl _)
      · simp [hu]
  have hq : q = [] := by
    refine List.eq_nil_iff_forall_not_mem.2 fun x hx => ?_
    obtain ⟨x1, x2, x3, x4⟩ := (r2.mem x).1 hx
    cases hSx : S x with
    | true => have := hpot S hS h0 x x1 hSx; omega
    | false => rw [(zero_cut hf hC (by omega) S hS h0).2 x x1 hSx] at x4; exact lt_irrefl _ x4
  subst hq
  have hrun : ∀ k ≥ 1, findMaxFlow k g0 = some { g0 with label := label, queue := [] } := by
    intro k hk
    unfold findMaxFlow
    rw [r1]
    obtain ⟨j, rfl⟩ : ∃ j, k = j + 1 := ⟨k - 1, by omega⟩
    rfl
  have hlab : ∀ i < n, isSink { g0 with label := label, queue := [] } i = some (decide (val label i ≠ n)) := by
    intro i hi
    unfold isSink
    simp only
    rw [val_some (a := label) (i := i) (by rw [r2.len]; exact hi), hf.nr]
    rfl
  refine ⟨g0, _, h1, hrun, fun i hi => ⟨_, hlab i hi, ?_⟩, fun S' hS' h0' i hi hSi => ?_⟩
  · rw [decide_eq_true_iff]
    constructor
    · intro hne
      by_contra hc
      have hlt : val label i < n := lt_of_le_of_ne (r2.le i hi) hne
      have := r2.pot (fun x => if x < n ∧ ¬ Reaches n (res g0.net) x (n - 1) then n else 0) ⟨by simp [Reaches, Relation.ReflTransGen.refl], ?_⟩ i hi hlt
      · rw [if_pos ⟨hi, hc⟩] at this; omega
      · intro u v huv
        beta_reduce
        by_cases hu : u < n ∧ ¬ Reaches n (res g0.net) u (n - 1)
        · have hvn : v < n := by
            by_contra hvn; rw [res_out hf.wf (Or.inr (by omega))] at huv; exact lt_irrefl _ huv
          rw [if_pos hu, if_pos ⟨hvn, fun hr => hu.2 (Relation.ReflTransGen.head ⟨hu.1, hvn, huv⟩ hr)⟩]
          omega
        · rw [if_neg hu]; omega
    · intro hr e
      obtain ⟨k, g', e2, f2, f3⟩ := findMaxFlow_spec (by omega) (by omega) (by omega) hf
      have : g' = { g0 with label := label, queue := [] } := by
        have a1 := e2 (max k 1) (le_max_left _ _)
        rw [hrun (max k 1) (le_max_right _ _)] at a1; cases a1; rfl
      subst this
      have := label_lt f2.l (by omega) hr
      simp only at this
      omega
  · rw [hlab i hi, hpot S' hS' h0' i hi hSi]; simp

end Verif.Flow
