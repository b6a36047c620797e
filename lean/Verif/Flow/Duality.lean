import Verif.Flow.Spec
import Mathlib.Algebra.BigOperators.Ring.Finset
import Mathlib.Algebra.Order.Group.Int
import Mathlib.Tactic.Abel
/-!
# Maximum flow and minimum cut

A preflow that saturates a cut and leaves no excess on the sink side carries the maximum flow value to the sink.
-/
namespace Verif.Flow

open Finset

variable {T : Type} [AddCommGroup T] [LinearOrder T] [IsOrderedAddMonoid T]

omit [LinearOrder T] [IsOrderedAddMonoid T] in
theorem sum_net (n : Nat) (f : Nat → Nat → T) (S : Nat → Bool) :
    (∑ v ∈ range n, if S v = false then net n f v else 0) = cutCap n f S - cutCap n f (fun v => !S v) := by
  have h1 : (∑ v ∈ range n, if S v = false then net n f v else 0)
      = (∑ v ∈ range n, ∑ u ∈ range n, if S v = false then f u v else 0) - ∑ v ∈ range n, ∑ u ∈ range n, if S v = false then f v u else 0 := by
    rw [← sum_sub_distrib]
    refine sum_congr rfl fun v _ => ?_
    by_cases hv : S v = false
    · simp only [hv, if_true, net]
    · simp only [hv]; simp
  rw [h1, sum_comm, cutCap, cutCap, ← sum_sub_distrib, ← sum_sub_distrib]
  refine sum_congr rfl fun u _ => ?_
  rw [← sum_sub_distrib, ← sum_sub_distrib]
  refine sum_congr rfl fun v _ => ?_
  cases S u <;> cases S v <;> simp

theorem cutCap_nonneg {n : Nat} {f : Nat → Nat → T} (h : ∀ u < n, ∀ v < n, 0 ≤ f u v) (S : Nat → Bool) : 0 ≤ cutCap n f S :=
  sum_nonneg fun u hu => sum_nonneg fun v hv => by
    split
    · exact h u (mem_range.1 hu) v (mem_range.1 hv)
    · exact le_rfl

theorem cutCap_mono {n : Nat} {f C : Nat → Nat → T} (h : ∀ u < n, ∀ v < n, f u v ≤ C u v) (S : Nat → Bool) : cutCap n f S ≤ cutCap n C S :=
  sum_le_sum fun u hu => sum_le_sum fun v hv => by
    split
    · exact h u (mem_range.1 hu) v (mem_range.1 hv)
    · exact le_rfl

omit [LinearOrder T] [IsOrderedAddMonoid T] in
/-- The nodes outside the cut are balanced, but for the sink. -/
theorem sum_net_sink {n t : Nat} {f : Nat → Nat → T} {S : Nat → Bool} (ht : t < n) (hS : S t = false)
    (h : ∀ v < n, S v = false → v ≠ t → net n f v = 0) :
    (∑ v ∈ range n, if S v = false then net n f v else 0) = net n f t := by
  rw [sum_eq_single_of_mem t (mem_range.2 ht)]
  · rw [if_pos hS]
  · intro v hv hvt
    by_cases hv' : S v = false
    · rw [if_pos hv', h v (mem_range.1 hv) hv' hvt]
    · rw [if_neg hv']

theorem flow_le_cut {n s t : Nat} {C f : Nat → Nat → T} {S : Nat → Bool} (ht : t < n) (hf : IsFlow n s t C f) (hS : IsCut s t S) :
    net n f t ≤ cutCap n C S := by
  have h := sum_net n f S
  rw [sum_net_sink ht hS.2 (fun v hv h1 h2 => hf.net v hv (fun e => by rw [e, hS.1] at h1; cases h1) h2)] at h
  rw [h]
  exact (sub_le_self _ (cutCap_nonneg hf.nonneg _)).trans (cutCap_mono hf.le S)

theorem saturated_cut {n t : Nat} {C f : Nat → Nat → T} {S : Nat → Bool} (ht : t < n) (hS : S t = false)
    (h1 : ∀ u < n, ∀ v < n, S u = true → S v = false → f u v = C u v)
    (h2 : ∀ u < n, ∀ v < n, S u = true → S v = false → f v u = 0)
    (h3 : ∀ v < n, S v = false → v ≠ t → net n f v = 0) : net n f t = cutCap n C S := by
  have h := sum_net n f S
  rw [sum_net_sink ht hS h3] at h
  rw [h]
  have e1 : cutCap n f S = cutCap n C S := sum_congr rfl fun u hu => sum_congr rfl fun v hv => by
    by_cases hc : S u = true ∧ S v = false
    · rw [if_pos hc, if_pos hc, h1 u (mem_range.1 hu) v (mem_range.1 hv) hc.1 hc.2]
    · rw [if_neg hc, if_neg hc]
  have e2 : cutCap n f (fun v => !S v) = 0 := sum_eq_zero fun u hu => sum_eq_zero fun v hv => by
    by_cases hc : (!S u) = true ∧ (!S v) = false
    · rw [if_pos hc, h2 v (mem_range.1 hv) u (mem_range.1 hu) (by simpa using hc.2) (by simpa using hc.1)]
    · rw [if_neg hc]
  rw [e1, e2, sub_zero]

/-! ### From a preflow to a flow -/

/-- Amount `δ` along the arcs of a path. -/
def along (δ : T) : List Nat → Nat → Nat → T
  | a :: b :: l => fun x y => (if x = a ∧ y = b then δ else 0) + along δ (b :: l) x y
  | _ => fun _ _ => 0

omit [LinearOrder T] [IsOrderedAddMonoid T] in
theorem along_cons (δ : T) (a b : Nat) (l : List Nat) (x y : Nat) :
    along δ (a :: b :: l) x y = (if x = a ∧ y = b then δ else 0) + along δ (b :: l) x y := rfl

omit [LinearOrder T] [IsOrderedAddMonoid T] in
theorem along_not_mem (δ : T) : ∀ (l : List Nat) (x y : Nat), x ∉ l → along δ l x y = 0
  | [], _, _, _ => rfl
  | [_], _, _, _ => rfl
  | a :: b :: l, x, y, h => by
    have ha : ¬ (x = a ∧ y = b) := fun e => h (by simp [e.1])
    rw [along_cons, if_neg ha, along_not_mem δ (b :: l) x y (fun e => h (List.mem_cons_of_mem _ e)), zero_add]

omit [LinearOrder T] [IsOrderedAddMonoid T] in
/-- On a simple path, `along` is `δ` on the arcs of the path and `0` elsewhere. -/
theorem along_eq (δ : T) (r : Nat → Nat → Prop) : ∀ (l : List Nat), l.Nodup → l.IsChain r → ∀ x y, along δ l x y = 0 ∨ along δ l x y = δ ∧ r x y
  | [], _, _, _, _ => Or.inl rfl
  | [_], _, _, _, _ => Or.inl rfl
  | a :: b :: l, hn, hc, x, y => by
    rw [List.isChain_cons_cons] at hc
    by_cases h : x = a ∧ y = b
    · right
      rw [along_cons, if_pos h, along_not_mem δ (b :: l) x y (by rw [h.1]; exact (List.nodup_cons.1 hn).1), add_zero, h.1, h.2]
      exact ⟨rfl, hc.1⟩
    · rw [along_cons, if_neg h, zero_add]
      exact along_eq δ r (b :: l) (List.nodup_cons.1 hn).2 hc.2 x y

omit [LinearOrder T] [IsOrderedAddMonoid T] in
theorem net_add (n : Nat) (f g : Nat → Nat → T) (v : Nat) : net n (fun x y => f x y + g x y) v = net n f v + net n g v := by
  simp only [net, sum_add_distrib]; abel

omit [LinearOrder T] [IsOrderedAddMonoid T] in
theorem net_sub (n : Nat) (f g : Nat → Nat → T) (v : Nat) : net n (fun x y => f x y - g x y) v = net n f v - net n g v := by
  simp only [net, sum_sub_distrib]; abel

omit [LinearOrder T] [IsOrderedAddMonoid T] in
theorem net_single {n a b : Nat} (ha : a < n) (hb : b < n) (δ : T) (v : Nat) :
    net n (fun x y => if x = a ∧ y = b then δ else 0) v = (if v = b then δ else 0) - (if v = a then δ else 0) := by
  have h1 : (∑ u ∈ range n, if u = a ∧ v = b then δ else 0) = if v = b then δ else 0 := by
    rw [sum_eq_single_of_mem a (mem_range.2 ha)]
    · simp
    · intro u _ hu; simp [hu]
  have h2 : (∑ u ∈ range n, if v = a ∧ u = b then δ else 0) = if v = a then δ else 0 := by
    rw [sum_eq_single_of_mem b (mem_range.2 hb)]
    · simp
    · intro u _ hu; simp [hu]
  rw [net, h1, h2]

omit [LinearOrder T] [IsOrderedAddMonoid T] in
theorem net_along {n : Nat} (δ : T) : ∀ (a : Nat) (l : List Nat), (∀ x ∈ a :: l, x < n) → ∀ v,
    net n (along δ (a :: l)) v = (if v = (a :: l).getLast (List.cons_ne_nil _ _) then δ else 0) - (if v = a then δ else 0)
  | a, [], _, v => by
    simp only [net, along, sum_const_zero, sub_self, List.getLast_singleton]
    exact (sub_self _).symm
  | a, b :: l, h, v => by
    have e : along δ (a :: b :: l) = fun x y => (if x = a ∧ y = b then δ else 0) + along δ (b :: l) x y := rfl
    rw [e, net_add, net_single (h a (by simp)) (h b (by simp)), net_along δ b l (fun x hx => h x (List.mem_cons_of_mem _ hx)),
      List.getLast_cons (List.cons_ne_nil b l)]
    abel

/-- A walk can be made simple. -/
theorem exists_path {r : Nat → Nat → Prop} {a b : Nat} (h : Relation.ReflTransGen r a b) :
    ∃ l : List Nat, (a :: l).Nodup ∧ (a :: l).IsChain r ∧ (a :: l).getLast (List.cons_ne_nil _ _) = b := by
  induction h using Relation.ReflTransGen.head_induction_on with
  | refl => exact ⟨[], by simp, by simp, by simp⟩
  | @head a c hac _ ih =>
    obtain ⟨l, h1, h2, h3⟩ := ih
    by_cases ha : a ∈ c :: l
    · obtain ⟨p, q, e⟩ := List.append_of_mem ha
      have hs : (a :: q) <:+ (c :: l) := ⟨p, e.symm⟩
      refine ⟨q, h1.sublist hs.sublist, h2.suffix hs, ?_⟩
      rw [← h3]
      exact ((List.getLast_congr (List.cons_ne_nil c l) (by simp) e).trans (List.getLast_append_of_ne_nil (by simp) (List.cons_ne_nil a q))).symm
    · exact ⟨c :: l, List.nodup_cons.2 ⟨ha, h1⟩, List.isChain_cons_cons.2 ⟨hac, h2⟩, by rw [List.getLast_cons (List.cons_ne_nil c l), h3]⟩

/-- Excess at a node comes from the source along arcs that carry flow. -/
theorem excess_reached {n s v : Nat} {C f : Nat → Nat → T} (hf : IsPreflow n s C f) (hv : v < n) (hvs : 0 < net n f v) :
    Reaches n f s v := by
  classical
  by_contra hc
  let S : Nat → Bool := fun u => decide ¬ Reaches n f u v
  have h := sum_net n f S
  have hin : cutCap n f S = 0 := sum_eq_zero fun u hu => sum_eq_zero fun w hw => by
    by_cases hS : S u = true ∧ S w = false
    · rw [if_pos hS]
      have h1 : ¬ Reaches n f u v := by simpa [S] using hS.1
      have h2 : Reaches n f w v := by simpa [S] using hS.2
      have := hf.nonneg u (mem_range.1 hu) w (mem_range.1 hw)
      rcases this.lt_or_eq with hlt | heq
      · exact absurd (Relation.ReflTransGen.head ⟨mem_range.1 hu, mem_range.1 hw, hlt⟩ h2) h1
      · exact heq.symm
    · rw [if_neg hS]
  rw [hin, zero_sub] at h
  have hle : (∑ w ∈ range n, if S w = false then net n f w else 0) ≤ 0 := by
    rw [h]; exact neg_nonpos.2 (cutCap_nonneg hf.nonneg _)
  have hsingle : (if S v = false then net n f v else 0) ≤ ∑ w ∈ range n, if S w = false then net n f w else 0 := by
    refine single_le_sum (f := fun w => if S w = false then net n f w else 0) ?_ (mem_range.2 hv)
    intro w hw
    by_cases hw' : S w = false
    · simp only [hw', if_true]
      refine hf.net w (mem_range.1 hw) fun e => ?_
      subst e
      exact hc (by simpa [S] using hw')
    · simp only [hw']; simp
  rw [if_pos (by simp only [S, decide_not, Bool.not_eq_false', decide_eq_true_eq]; exact Relation.ReflTransGen.refl)] at hsingle
  exact absurd (hsingle.trans hle) (not_le.2 hvs)

/-- Arcs that carry flow, and nodes with excess. -/
def work (n s t : Nat) (f : Nat → Nat → T) : Nat :=
  ((range n ×ˢ range n).filter fun p => 0 < f p.1 p.2).card + ((range n).filter fun v => v ≠ s ∧ v ≠ t ∧ 0 < net n f v).card

/-- Least capacity on a path, with a bound. -/
theorem exists_bottleneck (f : Nat → Nat → T) : ∀ (l : List Nat) (e : T), l.IsChain (fun x y => 0 < f x y) → 0 < e →
    ∃ δ, 0 < δ ∧ δ ≤ e ∧ l.IsChain (fun x y => δ ≤ f x y) ∧ (δ = e ∨ ∃ x y, along δ l x y ≠ 0 ∧ δ = f x y)
  | [], e, _, he => ⟨e, he, le_rfl, by simp, Or.inl rfl⟩
  | [a], e, _, he => ⟨e, he, le_rfl, by simp, Or.inl rfl⟩
  | a :: b :: l, e, hc, he => by
    rw [List.isChain_cons_cons] at hc
    obtain ⟨δ, h1, h2, h3, h4⟩ := exists_bottleneck f (b :: l) (min e (f a b)) hc.2 (lt_min he hc.1)
    refine ⟨δ, h1, h2.trans (min_le_left _ _), List.isChain_cons_cons.2 ⟨h2.trans (min_le_right _ _), h3⟩, ?_⟩
    have hnn : ∀ (l : List Nat) x y, 0 ≤ along δ l x y := by
      intro l
      induction l with
      | nil => intro x y; exact le_rfl
      | cons a l ih =>
        cases l with
        | nil => intro x y; exact le_rfl
        | cons b l =>
          intro x y
          rw [along_cons]
          refine add_nonneg ?_ (ih x y)
          split
          · exact h1.le
          · exact le_rfl
    rcases h4 with h4 | ⟨x, y, h5, h6⟩
    · rcases le_total e (f a b) with h | h
      · left; rw [h4, min_eq_left h]
      · right
        refine ⟨a, b, ?_, by rw [h4, min_eq_right h]⟩
        rw [along_cons, if_pos ⟨rfl, rfl⟩]
        exact (add_pos_of_pos_of_nonneg h1 (hnn _ _ _)).ne'
    · right
      refine ⟨x, y, ?_, h6⟩
      rw [along_cons]
      refine (add_pos_of_nonneg_of_pos ?_ (lt_of_le_of_ne (hnn _ _ _) h5.symm)).ne'
      split
      · exact h1.le
      · exact le_rfl

theorem chain_lt {n : Nat} {r : Nat → Nat → Prop} (hr : ∀ x y, r x y → y < n) : ∀ (a : Nat) (l : List Nat), a < n → (a :: l).IsChain r → ∀ x ∈ a :: l, x < n
  | a, [], ha, _, x, hx => by rw [List.mem_singleton.1 hx]; exact ha
  | a, b :: l, ha, hc, x, hx => by
    rw [List.isChain_cons_cons] at hc
    rcases List.mem_cons.1 hx with rfl | hx
    · exact ha
    · exact chain_lt hr b l (hr _ _ hc.1) hc.2 x hx

theorem chain_and {r q : Nat → Nat → Prop} : ∀ l : List Nat, l.IsChain r → l.IsChain q → l.IsChain fun x y => r x y ∧ q x y
  | [], _, _ => by simp
  | [_], _, _ => by simp
  | a :: b :: l, h1, h2 => by
    rw [List.isChain_cons_cons] at h1 h2 ⊢
    exact ⟨⟨h1.1, h2.1⟩, chain_and (b :: l) h1.2 h2.2⟩

/-- One step towards a flow: excess is sent back to the source. -/
theorem reduce {n s t v : Nat} {C f : Nat → Nat → T} (hf : IsPreflow n s C f) (hs : s < n) (hv : v < n) (hvs : v ≠ s) (hvt : v ≠ t)
    (hst : s ≠ t) (hx : 0 < net n f v) : ∃ g, IsPreflow n s C g ∧ net n g t = net n f t ∧ work n s t g < work n s t f := by
  obtain ⟨l, hl1, hl2, hl3⟩ := exists_path (excess_reached hf hv hx)
  have hpos : (s :: l).IsChain (fun x y => 0 < f x y) := hl2.imp fun _ _ h => h.2.2
  obtain ⟨δ, hδ, hδe, hδc, hδm⟩ := exists_bottleneck f (s :: l) (net n f v) hpos hx
  have hlt : ∀ x ∈ s :: l, x < n := chain_lt (fun _ _ h => h.2.1) s l hs hl2
  have hal := along_eq δ (fun x y => (x < n ∧ y < n ∧ 0 < f x y) ∧ δ ≤ f x y) (s :: l) hl1 (chain_and _ hl2 hδc)
  have hnet : ∀ w, net n (fun x y => f x y - along δ (s :: l) x y) w = net n f w - ((if w = v then δ else 0) - if w = s then δ else 0) := by
    intro w
    rw [net_sub]
    congr 1
    rw [net_along δ s l hlt, hl3]
  have h0 : ∀ x y, 0 ≤ along δ (s :: l) x y := fun x y => by
    rcases hal x y with h | h
    · rw [h]
    · rw [h.1]; exact hδ.le
  have hnetle : ∀ w, w ≠ s → net n (fun x y => f x y - along δ (s :: l) x y) w ≤ net n f w := by
    intro w hw
    rw [hnet, if_neg hw, sub_zero]
    refine sub_le_self _ ?_
    split
    · exact hδ.le
    · exact le_rfl
  refine ⟨fun x y => f x y - along δ (s :: l) x y, ⟨?_, ?_, ?_⟩, ?_, ?_⟩
  · intro x hx y hy
    rcases hal x y with h | h
    · rw [h, sub_zero]; exact hf.nonneg x hx y hy
    · rw [h.1]; exact sub_nonneg.2 h.2.2
  · intro x hx y hy
    exact (sub_le_self _ (h0 x y)).trans (hf.le x hx y hy)
  · intro w hw hws
    rw [hnet, if_neg hws, sub_zero]
    split
    · next e => rw [e]; exact sub_nonneg.2 hδe
    · rw [sub_zero]; exact hf.net w hw hws
  · rw [hnet, if_neg hvt.symm, if_neg hst.symm, sub_zero, sub_zero]
  · have hA : ((range n ×ˢ range n).filter fun p => 0 < f p.1 p.2 - along δ (s :: l) p.1 p.2) ⊆ ((range n ×ˢ range n).filter fun p => 0 < f p.1 p.2) := by
      intro p hp
      rw [mem_filter] at hp ⊢
      exact ⟨hp.1, hp.2.trans_le (sub_le_self _ (h0 _ _))⟩
    have hB : ((range n).filter fun w => w ≠ s ∧ w ≠ t ∧ 0 < net n (fun x y => f x y - along δ (s :: l) x y) w)
        ⊆ ((range n).filter fun w => w ≠ s ∧ w ≠ t ∧ 0 < net n f w) := by
      intro w hw
      rw [mem_filter] at hw ⊢
      exact ⟨hw.1, hw.2.1, hw.2.2.1, hw.2.2.2.trans_le (hnetle w hw.2.1)⟩
    rcases hδm with h | ⟨x, y, h1, h2⟩
    · refine Nat.add_lt_add_of_le_of_lt (card_le_card hA) (card_lt_card ⟨hB, fun hc => ?_⟩)
      have := hc (mem_filter.2 ⟨mem_range.2 hv, hvs, hvt, hx⟩)
      rw [mem_filter, hnet, if_pos rfl, if_neg hvs, h, sub_zero, sub_self] at this
      exact lt_irrefl _ this.2.2.2
    · refine Nat.add_lt_add_of_lt_of_le (card_lt_card ⟨hA, fun hc => ?_⟩) (card_le_card hB)
      rcases hal x y with h | h
      · exact h1 h
      · have := @hc (x, y) (mem_filter.2 ⟨mem_product.2 ⟨mem_range.2 h.2.1.1, mem_range.2 h.2.1.2.1⟩, h.2.1.2.2⟩)
        rw [mem_filter] at this
        have h3 : 0 < f x y - along δ (s :: l) x y := this.2
        rw [h.1, ← h2, sub_self] at h3
        exact lt_irrefl _ h3

/-- Every preflow contains a flow of the same value. -/
theorem preflow_to_flow {n s t : Nat} {C : Nat → Nat → T} (hs : s < n) (hst : s ≠ t) :
    ∀ (k : Nat) (f : Nat → Nat → T), work n s t f ≤ k → IsPreflow n s C f → ∃ g, IsFlow n s t C g ∧ net n g t = net n f t := by
  intro k
  induction k with
  | zero =>
    intro f hk hf
    refine ⟨f, ⟨hf.nonneg, hf.le, fun v hv h1 h2 => ?_⟩, rfl⟩
    have h0 := (Nat.add_eq_zero_iff.1 (Nat.le_zero.1 hk)).2
    rw [card_eq_zero, filter_eq_empty_iff] at h0
    exact (le_antisymm (not_lt.1 fun h => h0 (mem_range.2 hv) ⟨h1, h2, h⟩) (hf.net v hv h1))
  | succ k ih =>
    intro f hk hf
    by_cases h : ∃ v < n, v ≠ s ∧ v ≠ t ∧ 0 < net n f v
    · obtain ⟨v, hv, h1, h2, h3⟩ := h
      obtain ⟨g, hg1, hg2, hg3⟩ := reduce hf hs hv h1 h2 hst h3
      obtain ⟨e, he1, he2⟩ := ih g (by omega) hg1
      exact ⟨e, he1, he2.trans hg2⟩
    · refine ⟨f, ⟨hf.nonneg, hf.le, fun v hv h1 h2 => ?_⟩, rfl⟩
      exact (le_antisymm (not_lt.1 fun h' => h ⟨v, hv, h1, h2, h'⟩) (hf.net v hv h1))

/-- A preflow that saturates a cut, with balanced nodes on the sink side, carries the maximum flow value, and the cut is minimum. -/
theorem max_min {n s t : Nat} {C f : Nat → Nat → T} {S : Nat → Bool} (hs : s < n) (ht : t < n) (hf : IsPreflow n s C f)
    (hS : IsCut s t S) (h1 : ∀ u < n, ∀ v < n, S u = true → S v = false → f u v = C u v)
    (h2 : ∀ u < n, ∀ v < n, S u = true → S v = false → f v u = 0)
    (h3 : ∀ v < n, S v = false → v ≠ t → net n f v = 0) :
    IsMaxFlowValue n s t C (net n f t) ∧ IsMinCutValue n s t C (net n f t) ∧ net n f t = cutCap n C S := by
  have hst : s ≠ t := fun e => by have := hS.1; rw [e, hS.2] at this; cases this
  have hv := saturated_cut ht hS.2 h1 h2 h3
  obtain ⟨g, hg1, hg2⟩ := preflow_to_flow (C := C) hs hst _ f le_rfl hf
  refine ⟨⟨⟨g, hg1, hg2⟩, ?_⟩, ⟨⟨S, hS, hv.symm⟩, ?_⟩, hv⟩
  · rintro y ⟨g', hg', rfl⟩
    rw [hv]
    exact flow_le_cut ht hg' hS
  · rintro y ⟨S', hS', rfl⟩
    rw [← hg2]
    exact flow_le_cut ht hg1 hS'

end Verif.Flow
