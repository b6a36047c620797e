import Verif.Cut.Adopt
/-!
# The main loop, and the identity between cuts and the flow
-/
namespace Verif.Cut

open Finset

variable {K : Type} [AddCommGroup K] [LinearOrder K]

/-- The state between two iterations. -/
structure MainInv (G : Graph) (c0 t0 : Nat → K) (f0 : K) (s : St K) : Prop where
  tree : TreeOk G s
  pass : Pass G s s.flagged
  flow : FlowOk G c0 t0 f0 s (fun _ => 0) 0
  noOrph : ∀ j, s.par j ≠ .orphan
  live : Live G s

theorem popActive_some {par : Nat → Par} : ∀ {l l' : List Nat} {i : Nat}, popActive par l = some (i, l') → par i ≠ .free ∧ ∀ x ∈ l, x = i ∨ x ∈ l' ∨ par x = .free
  | [], _, _, h => by simp [popActive] at h
  | j :: l, l', i, h => by
    unfold popActive at h
    split at h
    · next k =>
      simp only [Option.some.injEq, Prod.mk.injEq] at h
      obtain ⟨rfl, rfl⟩ := h
      refine ⟨k, fun x hx => ?_⟩
      rcases List.mem_cons.1 hx with rfl | hx
      · exact Or.inl rfl
      · exact Or.inr (Or.inl hx)
    · next k =>
      obtain ⟨h1, h2⟩ := popActive_some h
      refine ⟨h1, fun x hx => ?_⟩
      rcases List.mem_cons.1 hx with rfl | hx
      · exact Or.inr (Or.inr (not_not.1 k))
      · exact h2 x hx

theorem popActive_none {par : Nat → Par} : ∀ {l : List Nat}, popActive par l = none → ∀ x ∈ l, par x = .free
  | [], _, x, hx => by simp at hx
  | j :: l, h, x, hx => by
    unfold popActive at h
    split at h
    · cases h
    · next k =>
      rcases List.mem_cons.1 hx with rfl | hx
      · exact not_not.1 k
      · exact popActive_none h x hx

/-- Only the queues differ. -/
def SameButQueues (s s' : St K) : Prop := s' = { s with q0 := s'.q0, q1 := s'.q1, cur := s'.cur }

omit [AddCommGroup K] [LinearOrder K] in
theorem nextActive_spec {s s' : St K} {o : Option Nat} (hc : s.cur = none) (h : nextActive s = (o, s')) : SameButQueues s s' ∧ s'.cur = none ∧
    (o = none → ∀ x, s.flagged x → s.par x = .free) ∧ (∀ i, o = some i → s.par i ≠ .free ∧ ∀ x, s.flagged x → x = i ∨ s'.flagged x ∨ s.par x = .free) := by
  have fl : ∀ x, s.flagged x ↔ x ∈ s.q0 ∨ x ∈ s.q1 := by intro x; simp [St.flagged, hc]
  unfold nextActive at h
  split at h
  · next i l hp =>
    simp only [Prod.mk.injEq] at h
    obtain ⟨rfl, rfl⟩ := h
    obtain ⟨h1, h2⟩ := popActive_some hp
    refine ⟨rfl, hc, fun k => (by cases k), fun j hj => ?_⟩
    injection hj with hj
    subst hj
    refine ⟨h1, fun x hx => ?_⟩
    rcases (fl x).1 hx with k | k
    · rcases h2 x k with k | k | k
      · exact Or.inl k
      · exact Or.inr (Or.inl (Or.inl k))
      · exact Or.inr (Or.inr k)
    · exact Or.inr (Or.inl (Or.inr (Or.inl k)))
  · next hp =>
    have hn := popActive_none hp
    split at h
    · next i l hp =>
      simp only [Prod.mk.injEq] at h
      obtain ⟨rfl, rfl⟩ := h
      obtain ⟨h1, h2⟩ := popActive_some hp
      refine ⟨rfl, hc, fun k => (by cases k), fun j hj => ?_⟩
      injection hj with hj
      subst hj
      refine ⟨h1, fun x hx => ?_⟩
      rcases (fl x).1 hx with k | k
      · exact Or.inr (Or.inr (hn x k))
      · rcases h2 x k with k | k | k
        · exact Or.inl k
        · exact Or.inr (Or.inl (Or.inl k))
        · exact Or.inr (Or.inr k)
    · next hp' =>
      have hn' := popActive_none hp'
      simp only [Prod.mk.injEq] at h
      obtain ⟨rfl, rfl⟩ := h
      refine ⟨rfl, hc, fun _ x hx => ?_, fun i k => (by cases k)⟩
      rcases (fl x).1 hx with k | k
      · exact hn x k
      · exact hn' x k

theorem choose_spec {G : Graph} {c0 t0 : Nat → K} {f0 : K} {s s' : St K} {o : Option Nat} (hI : MainInv G c0 t0 f0 s) (h : choose s = (o, s')) :
    SameButQueues s s' ∧ s'.cur = none ∧ (o = none → Pass G s' (fun _ => False) ∧ MainInv G c0 t0 f0 s') ∧
      (∀ i, o = some i → s.par i ≠ .free ∧ Pass G s' (fun k => s'.flagged k ∨ k = i)) := by
  -- from the state in which no node is set aside
  have main : ∀ s1 : St K, SameButQueues s s1 → s1.cur = none → Pass G s1 s1.flagged → nextActive s1 = (o, s') →
      SameButQueues s s' ∧ s'.cur = none ∧ (o = none → Pass G s' (fun _ => False) ∧ MainInv G c0 t0 f0 s') ∧
      (∀ i, o = some i → s.par i ≠ .free ∧ Pass G s' (fun k => s'.flagged k ∨ k = i)) := by
    intro s1 e1 hc hp h
    obtain ⟨e2, e4, k1, k2⟩ := nextActive_spec hc h
    have epar : s1.par = s.par := by rw [e1]
    have epar' : s'.par = s1.par := by rw [e2]
    have eo : ∀ b c, outc G s' b c = outc G s1 b c := fun b c => by rw [e2]; rfl
    have esink : s'.sink = s1.sink := by rw [e2]
    have e3 : SameButQueues s s' := by
      unfold SameButQueues
      rw [e2, e1]
    refine ⟨e3, e4, fun ho => ?_, fun i hi => ?_⟩
    · have hP : Pass G s' (fun _ => False) := by
        intro c hc' h1 _ h3
        rw [esink, eo] at h3
        rw [epar'] at h1 ⊢
        rw [esink]
        exact hp c hc' h1 (fun k => h1 (k1 ho _ k)) h3
      refine ⟨hP, ⟨?_, ?_, ?_, ?_, ?_⟩⟩
      · rw [e3]
        exact ⟨hI.tree.lt, hI.tree.tail, hI.tree.up, hI.tree.side, hI.tree.rank, hI.tree.root, hI.tree.dpos, hI.tree.tsle⟩
      · exact hP.mono (fun _ k => k.elim)
      · exact hI.flow.congr ⟨by rw [e3], by rw [e3], by rw [e3]⟩
      · rw [epar', epar]; exact hI.noOrph
      · rw [e3]; exact ⟨hI.live.arc, hI.live.term⟩
    · obtain ⟨m1, m2⟩ := k2 i hi
      refine ⟨by rw [← epar]; exact m1, ?_⟩
      intro c hc' h1 h2 h3
      rw [esink, eo] at h3
      rw [epar'] at h1 ⊢
      rw [esink]
      refine hp c hc' h1 (fun k => h2 ?_) h3
      rcases m2 _ k with z | z | z
      · exact Or.inr z
      · exact Or.inl z
      · exact absurd z h1
  unfold choose at h
  split at h
  · next i hc =>
    split at h
    · next k =>
      simp only [Prod.mk.injEq] at h
      obtain ⟨rfl, rfl⟩ := h
      refine ⟨rfl, rfl, fun k => (by cases k), fun j hj => ?_⟩
      injection hj with hj
      subst hj
      refine ⟨k, fun c hc' h1 h2 h3 => hI.pass c hc' h1 (fun z => h2 ?_) h3⟩
      rcases z with z | z | z
      · exact Or.inl (Or.inl z)
      · exact Or.inl (Or.inr (Or.inl z))
      · rw [hc] at z
        injection z with z
        exact Or.inr z.symm
    · next k =>
      refine main { s with cur := none } rfl rfl ?_ h
      intro c hc' h1 h2 h3
      refine hI.pass c hc' h1 (fun z => h2 ?_) h3
      rcases z with z | z | z
      · exact Or.inl z
      · exact Or.inr (Or.inl z)
      · rw [hc] at z
        injection z with z
        rw [← z] at h1
        exact absurd h1 k
  · next hc => exact main s rfl hc hI.pass h

variable [IsOrderedAddMonoid K]

theorem step_spec {G : Graph} (hG : GOk G) {c0 t0 : Nat → K} {f0 : K} {fuel : Nat} {s s' : St K} {i : Nat} (hT : TreeOk G s)
    (hP : Pass G s (fun k => s.flagged k ∨ k = i)) (hF : FlowOk G c0 t0 f0 s (fun _ => 0) 0) (hn : ∀ j, s.par j ≠ .orphan) (hi : s.par i ≠ .free) (hcur : s.cur = none)
    (hL : Live G s)
    (h : step G fuel s i = some s') : MainInv G c0 t0 f0 s' := by
  have hI : GrowInv G s s i (G.adj i) := ⟨hT, hL, hP, hn, hi, rfl, fun c hc => Or.inl hc, SameFlow.refl s, rfl, rfl⟩
  obtain ⟨s1, r, l', hg, h1, h2, h3⟩ := grow_spec hG (G.adj i) s (fun _ k => k) hI
  unfold step at h
  rw [hg] at h
  simp only [] at h
  have T1 : ∀ c, TreeOk G { s1 with time := s1.time + 1, cur := c } := fun c =>
    ⟨h1.tree.lt, h1.tree.tail, h1.tree.up, h1.tree.side, h1.tree.rank, h1.tree.root, h1.tree.dpos, fun j => (h1.tree.tsle j).trans (Nat.le_succ _)⟩
  have F1 := hF.congr h1.same
  cases r with
  | none =>
    simp only [Option.some.injEq] at h
    subst h
    refine ⟨T1 s1.cur, ?_, F1.congr ⟨rfl, rfl, rfl⟩, h1.noOrph, ⟨h1.live.arc, h1.live.term⟩⟩
    intro c hc k1 k2 k3
    by_cases e : G.tail c = i
    · have hm : c ∈ G.adj i := by rw [← e]; exact hG.mem_adj c hc
      rcases h1.seen c hm with k | k
      · rw [h2 rfl] at k; simp at k
      · rw [e] at k3 ⊢
        exact k k3
    · exact h1.pass c hc k1 (fun k => k.elim (fun z => k2 z) e) k3
  | some a =>
    simp only [] at h
    split at h
    · cases h
    next s2 q ha =>
    have C := h3 a rfl
    have A : AdoptInv G c0 t0 f0 (St.flagged { s1 with time := s1.time + 1, cur := some i }) { s1 with time := s1.time + 1, cur := some i } [] := by
      refine ⟨T1 _, ⟨h1.live.arc, h1.live.term⟩, ?_, F1.congr ⟨rfl, rfl, rfl⟩, ⟨List.nodup_nil, fun j => ⟨fun k => absurd k (h1.noOrph j), fun k => by simp at k⟩⟩⟩
      intro c hc k1 k2 k3
      refine h1.pass c hc k1 (fun k => k2 ?_) k3
      rcases k with (k | k | k) | k
      · exact Or.inl k
      · exact Or.inr (Or.inl k)
      · have := h1.cur
        rw [k, hcur] at this
        cases this
      · exact Or.inr (Or.inr (by rw [k]))
    obtain ⟨B, e1, e2, e3, e4, e5, e6⟩ := augment_spec hG A ⟨C.lt, C.tailIn, C.headIn, C.tailSource, C.headSink, C.6⟩ ha
    have O : OrphInv G c0 t0 f0 s2 q := by
      refine ⟨B.tree, B.pass.mono fun k hk => ?_, B.flow, B.orph, fun j hj => ?_, B.live⟩
      · simp only [St.flagged] at hk ⊢
        rw [e4, e5, e6]; exact hk
      · rw [e2, e3] at hj
        have := h1.tree.tsle j
        simp only [] at hj
        omega
    obtain ⟨Q, -⟩ := adopt_spec hG O h
    exact ⟨Q.tree, Q.pass, Q.flow, fun j k => (by have := (Q.orph.2 j).1 k; simp at this), Q.live⟩

theorem maxFlow_spec {G : Graph} (hG : GOk G) {c0 t0 : Nat → K} {f0 : K} {fuel : Nat} : ∀ {n : Nat} {s s' : St K}, MainInv G c0 t0 f0 s →
    maxFlow G fuel n s = some s' → MainInv G c0 t0 f0 s' ∧ Pass G s' (fun _ => False)
  | 0, _, _, _, h => by simp [maxFlow] at h
  | n + 1, s, s', hI, h => by
    unfold maxFlow at h
    split at h
    · next s1 hc =>
      simp only [Option.some.injEq] at h
      subst h
      obtain ⟨-, -, k, -⟩ := choose_spec hI hc
      exact ⟨(k rfl).2, (k rfl).1⟩
    · next i s1 hc =>
      obtain ⟨e, ec, -, k⟩ := choose_spec hI hc
      obtain ⟨k1, k2⟩ := k i rfl
      split at h
      · cases h
      next s2 hs =>
      refine maxFlow_spec hG (step_spec hG ?_ k2 ?_ ?_ ?_ ec ?_ hs) h
      · rw [e]
        exact ⟨hI.tree.lt, hI.tree.tail, hI.tree.up, hI.tree.side, hI.tree.rank, hI.tree.root, hI.tree.dpos, hI.tree.tsle⟩
      · exact hI.flow.congr ⟨by rw [e], by rw [e], by rw [e]⟩
      · rw [show s1.par = s.par by rw [e]]; exact hI.noOrph
      · rw [show s1.par = s.par by rw [e]]; exact k1
      · rw [e]; exact ⟨hI.live.arc, hI.live.term⟩

/-- The capacity of a cut of the network given by the arcs. -/
def arcCut (G : Graph) (c0 t0 : Nat → K) (f0 : K) (S : Nat → Bool) : K :=
  f0 + ∑ i ∈ range G.nNodes, (if S i then max 0 (-t0 i) else max 0 (t0 i)) + ∑ a ∈ range G.nArcs, if S (G.tail a) ∧ S (G.head a) = false then c0 a else 0

theorem max_split (x : K) (b : Bool) : (if b then max 0 (-x) else max 0 x) = max 0 x - if b then x else 0 := by
  cases b
  · simp
  · simp only [if_true]
    rcases le_total 0 x with k | k
    · rw [max_eq_left (neg_nonpos.2 k), max_eq_right k, sub_self]
    · rw [max_eq_right (neg_nonneg.2 k), max_eq_left k, zero_sub]

/-- Inside a set of nodes the flow cancels. -/
theorem sum_inside {G : Graph} (hG : GOk G) (g : Nat → K) (hg : ∀ a < G.nArcs, g (G.sister a) = -g a) (S : Nat → Bool) :
    ∑ a ∈ range G.nArcs, (if S (G.tail a) ∧ S (G.head a) then g a else 0) = 0 := by
  refine sum_involution (fun a _ => G.sister a) ?_ ?_ ?_ ?_
  · intro a ha
    have ha := mem_range.1 ha
    rw [hG.tail_sis ha, show G.head (G.sister a) = G.tail a from rfl, hg a ha]
    by_cases k : S (G.tail a) = true ∧ S (G.head a) = true
    · rw [if_pos k, if_pos k.symm, add_neg_cancel]
    · rw [if_neg k, if_neg (fun z => k z.symm), add_zero]
  · intro a ha _
    exact hG.sis_ne a (mem_range.1 ha)
  · intro a ha
    exact mem_range.2 (hG.sis_lt a (mem_range.1 ha))
  · intro a ha
    exact hG.sis_sis a (mem_range.1 ha)

/-- A cut exceeds the flow by the residual capacities that cross it. -/
theorem cut_eq {G : Graph} (hG : GOk G) {c0 t0 : Nat → K} {f0 : K} {s : St K} (h : FlowOk G c0 t0 f0 s (fun _ => 0) 0) (S : Nat → Bool) :
    arcCut G c0 t0 f0 S = arcCut G s.rcap s.tr s.flow S := by
  have hanti : ∀ a < G.nArcs, c0 (G.sister a) - s.rcap (G.sister a) = -(c0 a - s.rcap a) := by
    intro a ha
    have := h.pair a ha
    rw [neg_sub, sub_eq_sub_iff_add_eq_add, add_comm, ← this, add_comm]
  have hin := sum_inside hG (fun a => c0 a - s.rcap a) hanti S
  -- the flow out of the nodes of `S`
  have hbal : ∑ i ∈ range G.nNodes, (if S i then t0 i - s.tr i else 0) = ∑ a ∈ range G.nArcs, if S (G.tail a) then c0 a - s.rcap a else 0 := by
    have : ∀ i ∈ range G.nNodes, (if S i then t0 i - s.tr i else 0) = ∑ a ∈ range G.nArcs, if G.tail a = i then (if S (G.tail a) then c0 a - s.rcap a else 0) else 0 := by
      intro i _
      have hb := h.bal i
      rw [add_zero] at hb
      by_cases k : S i
      · rw [if_pos k, ← hb, add_sub_cancel_left]
        unfold outflow
        refine sum_congr rfl fun a _ => ?_
        by_cases e : G.tail a = i
        · rw [if_pos e, if_pos e, e, if_pos k]
        · rw [if_neg e, if_neg e]
      · rw [if_neg k]
        symm
        refine sum_eq_zero fun a _ => ?_
        by_cases e : G.tail a = i
        · rw [if_pos e, e, if_neg k]
        · rw [if_neg e]
    rw [sum_congr rfl this, sum_comm]
    refine sum_congr rfl fun a ha => ?_
    rw [sum_ite_eq]
    exact if_pos (mem_range.2 (hG.head_lt _ (hG.sis_lt a (mem_range.1 ha))))
  have hsplit : ∑ a ∈ range G.nArcs, (if S (G.tail a) then c0 a - s.rcap a else 0) =
      ∑ a ∈ range G.nArcs, (if S (G.tail a) ∧ S (G.head a) = false then c0 a else 0) - ∑ a ∈ range G.nArcs, (if S (G.tail a) ∧ S (G.head a) = false then s.rcap a else 0) +
        ∑ a ∈ range G.nArcs, (if S (G.tail a) ∧ S (G.head a) then c0 a - s.rcap a else 0) := by
    rw [← sum_sub_distrib, ← sum_add_distrib]
    refine sum_congr rfl fun a _ => ?_
    cases h1 : S (G.tail a) <;> cases h2 : S (G.head a) <;> simp
  rw [hin, add_zero] at hsplit
  have hv := h.val
  rw [add_zero] at hv
  have hd : ∑ i ∈ range G.nNodes, (if S i then t0 i - s.tr i else 0) = ∑ i ∈ range G.nNodes, (if S i then t0 i else 0) - ∑ i ∈ range G.nNodes, (if S i then s.tr i else 0) := by
    rw [← sum_sub_distrib]
    refine sum_congr rfl fun i _ => ?_
    split <;> simp
  have h1 : ∀ t : Nat → K, ∑ i ∈ range G.nNodes, (if S i then max 0 (-t i) else max 0 (t i)) = ∑ i ∈ range G.nNodes, max 0 (t i) - ∑ i ∈ range G.nNodes, (if S i then t i else 0) := by
    intro t
    rw [← sum_sub_distrib]
    exact sum_congr rfl fun i _ => max_split _ _
  unfold arcCut
  rw [h1, h1, ← add_sub_assoc, ← add_sub_assoc, ← hv, sub_add_eq_add_sub, sub_add_eq_add_sub, sub_eq_sub_iff_add_eq_add]
  rw [hbal, hsplit, sub_eq_sub_iff_add_eq_add] at hd
  rw [add_assoc, add_assoc, hd]
  abel

theorem arcCut_res {G : Graph} {s : St K} (h : ∀ a < G.nArcs, 0 ≤ s.rcap a) (S : Nat → Bool) : s.flow ≤ arcCut G s.rcap s.tr s.flow S := by
  unfold arcCut
  rw [add_assoc]
  refine le_add_of_nonneg_right (add_nonneg (sum_nonneg fun i _ => ?_) (sum_nonneg fun a ha => ?_))
  · split <;> exact le_max_left _ _
  · split
    · exact h a (mem_range.1 ha)
    · exact le_refl _

/-- The source tree. -/
def St.inSource (s : St K) (i : Nat) : Bool := decide (s.par i ≠ .free) && !s.sink i

/-- The source tree is a minimum cut. -/
theorem arcCut_tree {G : Graph} {s : St K} (hT : TreeOk G s) (hP : Pass G s (fun _ => False)) (S : Nat → Bool) (h1 : ∀ i < G.nNodes, s.inSource i = true → S i = true)
    (h2 : ∀ i < G.nNodes, s.inSource i = false → S i = true → s.par i = .free ∧ ∀ a < G.nArcs, G.tail a = i → S (G.head a) = false → s.rcap a = 0) (hG : GOk G) :
    arcCut G s.rcap s.tr s.flow S = s.flow := by
  unfold arcCut
  have e1 : ∑ i ∈ range G.nNodes, (if S i then max 0 (-s.tr i) else max 0 (s.tr i)) = 0 := by
    refine sum_eq_zero fun i hi => ?_
    have hi := mem_range.1 hi
    by_cases k : s.tr i = 0
    · rw [k]; simp
    obtain ⟨r1, r2, -⟩ := hT.root i k
    cases hS : S i
    · simp only [Bool.false_eq_true, if_false]
      refine max_eq_left (not_lt.1 fun hpos => ?_)
      have : s.inSource i = true := by
        simp only [St.inSource, r1, r2]
        simp [hpos.le]
      rw [h1 i hi this] at hS
      cases hS
    · simp only [if_true]
      refine max_eq_left (neg_nonpos.2 (not_lt.1 fun hneg => ?_))
      have : s.inSource i = false := by
        simp only [St.inSource, r2]
        simp [hneg]
      have := (h2 i hi this hS).1
      rw [r1] at this
      cases this
  have e2 : ∑ a ∈ range G.nArcs, (if S (G.tail a) ∧ S (G.head a) = false then s.rcap a else 0) = 0 := by
    refine sum_eq_zero fun a ha => ?_
    have ha := mem_range.1 ha
    split
    · next k =>
      have htl : G.tail a < G.nNodes := hG.head_lt _ (hG.sis_lt a ha)
      by_contra hne
      cases hS : s.inSource (G.tail a)
      · exact hne ((h2 _ htl hS k.1).2 a ha rfl k.2)
      · simp only [St.inSource, Bool.and_eq_true, decide_eq_true_eq, Bool.not_eq_true'] at hS
        obtain ⟨p1, p2⟩ := hP a ha hS.1 (fun z => z) (by rw [hS.2]; exact hne)
        have : s.inSource (G.head a) = true := by
          simp only [St.inSource, Bool.and_eq_true, decide_eq_true_eq, Bool.not_eq_true']
          exact ⟨p1, p2.trans hS.2⟩
        have := h1 _ (hG.head_lt a ha) this
        rw [k.2] at this
        cases this
    · rfl
  rw [e1, e2, add_zero, add_zero]

/-- A node of a tree is on the side of that tree in every minimum cut. -/
theorem tree_side {G : Graph} (hG : GOk G) {s : St K} (hT : TreeOk G s) (hL : Live G s) (hn : ∀ j, s.par j ≠ .orphan) (nn : ∀ a < G.nArcs, 0 ≤ s.rcap a) (S : Nat → Bool)
    (hS : arcCut G s.rcap s.tr s.flow S ≤ s.flow) : ∀ i < G.nNodes, s.par i ≠ .free → S i = !s.sink i := by
  have n1 : ∀ i ∈ range G.nNodes, 0 ≤ (if S i then max 0 (-s.tr i) else max 0 (s.tr i)) := by
    intro i _
    split <;> exact le_max_left _ _
  have n2 : ∀ a ∈ range G.nArcs, 0 ≤ (if S (G.tail a) ∧ S (G.head a) = false then s.rcap a else 0) := by
    intro a ha
    split
    · exact nn a (mem_range.1 ha)
    · exact le_refl _
  have s1 := sum_nonneg n1
  have s2 := sum_nonneg n2
  unfold arcCut at hS
  rw [add_assoc, add_le_iff_nonpos_right] at hS
  have z1 := le_antisymm ((le_add_of_nonneg_right s2).trans hS) s1
  have z2 := le_antisymm ((le_add_of_nonneg_left s1).trans hS) s2
  have z1' := (sum_eq_zero_iff_of_nonneg n1).1 z1
  have z2' := (sum_eq_zero_iff_of_nonneg n2).1 z2
  clear z1 z2 s1 s2 n1 n2 hS
  have main : ∀ t d i, s.time - s.ts i ≤ t → s.dist i ≤ d → i < G.nNodes → s.par i ≠ .free → S i = !s.sink i := by
    intro t
    induction t using Nat.strong_induction_on with
    | _ t iht =>
      intro d
      induction d with
      | zero =>
        intro i _ hd _ hp
        have := hT.dpos i hp
        omega
      | succ d ihd =>
        intro i ht hd hi hp
        rcases hpi : s.par i with _ | _ | _ | a
        · exact absurd hpi hp
        · -- a root
          have hne := hL.term i hi hpi
          obtain ⟨-, r2, -⟩ := hT.root i hne
          have hz := z1' i (mem_range.2 hi)
          rcases lt_or_gt_of_ne hne with k | k
          · rw [r2, decide_eq_true k]
            cases hSi : S i
            · rfl
            · rw [hSi, if_pos rfl, max_eq_right (neg_nonneg.2 k.le), neg_eq_zero] at hz
              exact absurd hz hne
          · rw [r2, decide_eq_false (not_lt.2 k.le)]
            cases hSi : S i
            · rw [hSi, if_neg (by simp), max_eq_right k.le] at hz
              exact absurd hz hne
            · rfl
        · exact absurd hpi (hn i)
        · have hlt := hT.lt i a hpi
          have htl := hT.tail i a hpi
          have hsd := hT.side i a hpi
          have hcap := hL.arc i a hpi
          have hup := hT.up i a hpi
          have hhd := hG.head_lt a hlt
          have par : S (G.head a) = !s.sink (G.head a) := by
            rcases hT.rank i a hpi with k | ⟨k1, k2⟩
            · have := hT.tsle (G.head a)
              have h2 := hT.tsle i
              exact iht (s.time - s.ts (G.head a)) (by omega) _ _ (le_refl _) (le_refl _) hhd hup
            · exact ihd (G.head a) (by omega) (by omega) hhd hup
          rw [hsd] at par
          cases hb : s.sink i
          · rw [hb] at par hcap
            have hc : s.rcap (G.sister a) ≠ 0 := hcap
            have hz := z2' (G.sister a) (mem_range.2 (hG.sis_lt a hlt))
            rw [hG.tail_sis hlt, show G.head (G.sister a) = i from htl, par] at hz
            cases hSi : S i
            · rw [hSi, if_pos ⟨rfl, rfl⟩] at hz
              exact absurd hz hc
            · rfl
          · rw [hb] at par hcap
            have hc : s.rcap a ≠ 0 := hcap
            have hz := z2' a (mem_range.2 hlt)
            rw [htl, par] at hz
            cases hSi : S i
            · rfl
            · rw [hSi, if_pos ⟨rfl, rfl⟩] at hz
              exact absurd hz hc
  exact fun i hi hp => main _ _ i (le_refl _) (le_refl _) hi hp

end Verif.Cut
