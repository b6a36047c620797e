import Verif.Cut.Tree
import Mathlib.Algebra.BigOperators.Group.Finset.Basic
import Mathlib.Algebra.BigOperators.Group.Finset.Piecewise
import Mathlib.Algebra.Order.BigOperators.Group.Finset
import Mathlib.Algebra.Order.Group.Int
import Mathlib.Data.List.Pairwise
import Mathlib.Tactic.Abel
import Mathlib.Tactic.Linarith
/-!
# The flow, and sending more of it
-/
namespace Verif.Cut

open Finset

variable {K : Type} [AddCommGroup K] [LinearOrder K]

/-- What flows out of the node `i`, if the arcs had the capacities `c0` at first. -/
def outflow (G : Graph) (c0 : Nat → K) (s : St K) (i : Nat) : K := ∑ a ∈ range G.nArcs, if G.tail a = i then c0 a - s.rcap a else 0

/-- The flow is feasible up to the imbalance `δ` at the nodes and `v` of the value; `c0`, `t0` and `f0` are the capacities and the flow before. -/
structure FlowOk (G : Graph) (c0 t0 : Nat → K) (f0 : K) (s : St K) (δ : Nat → K) (v : K) : Prop where
  nonneg : ∀ a < G.nArcs, 0 ≤ s.rcap a
  pair : ∀ a < G.nArcs, s.rcap a + s.rcap (G.sister a) = c0 a + c0 (G.sister a)
  bal : ∀ i, s.tr i + outflow G c0 s i = t0 i + δ i
  between : ∀ i, (0 ≤ s.tr i ∧ s.tr i ≤ t0 i) ∨ (t0 i ≤ s.tr i ∧ s.tr i ≤ 0)
  val : s.flow + ∑ i ∈ range G.nNodes, max 0 (s.tr i) + v = f0 + ∑ i ∈ range G.nNodes, max 0 (t0 i)

theorem pushArc_rcap {G : Graph} (hG : GOk G) (s : St K) {y : Nat} (hy : y < G.nArcs) (m : K) (a : Nat) :
    (pushArc G s y m).rcap a = if a = y then s.rcap y - m else if a = G.sister y then s.rcap (G.sister y) + m else s.rcap a := by
  have h := (hG.sis_ne y hy).symm
  simp only [pushArc, upd]
  rw [if_neg h]

theorem pushArc_outflow {G : Graph} (hG : GOk G) (c0 : Nat → K) (s : St K) {y : Nat} (hy : y < G.nArcs) (m : K) (i : Nat) :
    outflow G c0 (pushArc G s y m) i = outflow G c0 s i + (if G.tail y = i then m else 0) - (if G.head y = i then m else 0) := by
  have key : ∀ a ∈ range G.nArcs, (if G.tail a = i then c0 a - (pushArc G s y m).rcap a else 0) =
      (if G.tail a = i then c0 a - s.rcap a else 0) + (if a = y then (if G.tail y = i then m else 0) else 0) -
        (if a = G.sister y then (if G.head y = i then m else 0) else 0) := by
    intro a _
    rw [pushArc_rcap hG s hy]
    have hne := hG.sis_ne y hy
    by_cases h1 : a = y
    · subst h1
      rw [if_pos rfl, if_pos rfl, if_neg hne.symm]
      split <;> abel
    · rw [if_neg h1, if_neg h1]
      by_cases h2 : a = G.sister y
      · subst h2
        rw [if_pos rfl, if_pos rfl, hG.tail_sis hy]
        split <;> abel
      · rw [if_neg h2, if_neg h2]; abel
  unfold outflow
  rw [sum_congr rfl key, sum_sub_distrib, sum_add_distrib, sum_ite_eq', sum_ite_eq', if_pos (mem_range.2 hy), if_pos (mem_range.2 (hG.sis_lt y hy))]

theorem outflow_congr {G : Graph} {c0 : Nat → K} {s s' : St K} (h : s'.rcap = s.rcap) (i : Nat) : outflow G c0 s' i = outflow G c0 s i := by
  unfold outflow; rw [h]

theorem FlowOk.congr {G : Graph} {c0 t0 δ : Nat → K} {f0 v : K} {s s' : St K} (h : FlowOk G c0 t0 f0 s δ v) (k : SameFlow s s') : FlowOk G c0 t0 f0 s' δ v := by
  refine ⟨?_, ?_, ?_, ?_, ?_⟩
  · rw [k.rcap]; exact h.nonneg
  · rw [k.rcap]; exact h.pair
  · intro i; rw [k.tr, outflow_congr k.rcap]; exact h.bal i
  · rw [k.tr]; exact h.between
  · rw [k.tr, k.flow]; exact h.val

variable [IsOrderedAddMonoid K]

theorem FlowOk.push {G : Graph} (hG : GOk G) {c0 t0 δ δ' : Nat → K} {f0 v m : K} {s : St K} (h : FlowOk G c0 t0 f0 s δ v) {y : Nat} (hy : y < G.nArcs)
    (m0 : 0 ≤ m) (hm : m ≤ s.rcap y) (hd : ∀ i, δ' i = δ i + (if G.tail y = i then m else 0) - (if G.head y = i then m else 0)) :
    FlowOk G c0 t0 f0 (pushArc G s y m) δ' v := by
  have hne := hG.sis_ne y hy
  refine ⟨?_, ?_, ?_, h.between, h.val⟩
  · intro a ha
    rw [pushArc_rcap hG s hy]
    split
    · exact sub_nonneg.2 hm
    · split
      · exact add_nonneg (h.nonneg _ (hG.sis_lt y hy)) m0
      · exact h.nonneg a ha
  · intro a ha
    have hp := h.pair a ha
    rw [pushArc_rcap hG s hy, pushArc_rcap hG s hy]
    by_cases h1 : a = y
    · subst h1
      rw [if_pos rfl, if_neg hne, if_pos rfl, ← hp]; abel
    · by_cases h2 : a = G.sister y
      · subst h2
        rw [hG.sis_sis y hy] at hp ⊢
        rw [if_neg hne, if_pos rfl, if_pos rfl, ← hp]; abel
      · have h3 : G.sister a ≠ y := by rintro rfl; exact h2 (hG.sis_sis a ha).symm
        have h4 : G.sister a ≠ G.sister y := by
          intro e
          apply h1
          rw [← hG.sis_sis a ha, e, hG.sis_sis y hy]
        rw [if_neg h1, if_neg h2, if_neg h3, if_neg h4, hp]
  · intro i
    rw [pushArc_outflow hG c0 s hy, hd, ← add_sub_assoc, ← add_assoc, show (pushArc G s y m).tr i = s.tr i from rfl, h.bal i, add_sub_assoc, add_sub_assoc]
    abel

/-- Sending flow along `y` keeps the passive nodes passive if it does not open an arc to the other tree. -/
theorem Pass.push {G : Graph} (hG : GOk G) {s : St K} {Act : Nat → Prop} (h : Pass G s Act) {y : Nat} (hy : y < G.nArcs) {m : K} (m0 : 0 ≤ m)
    (hm : m ≤ s.rcap y) (h1 : s.sink (G.head y) = false → s.par (G.tail y) ≠ .free ∧ s.sink (G.tail y) = false)
    (h2 : s.sink (G.tail y) = true → s.par (G.head y) ≠ .free ∧ s.sink (G.head y) = true) : Pass G (pushArc G s y m) Act := by
  intro c hc p1 p2 p3
  change s.par (G.tail c) ≠ .free at p1
  change outc G (pushArc G s y m) (s.sink (G.tail c)) c ≠ 0 at p3
  show s.par (G.head c) ≠ .free ∧ s.sink (G.head c) = s.sink (G.tail c)
  by_contra hcon
  have old : outc G s (s.sink (G.tail c)) c = 0 := by
    by_contra k
    exact hcon (h c hc p1 p2 k)
  have hz : s.rcap y = 0 → m = 0 := fun k => le_antisymm (k ▸ hm) m0
  cases hb : s.sink (G.tail c)
  · rw [hb] at p3 old hcon
    simp only [outc, Bool.false_eq_true, if_false] at p3 old
    rw [pushArc_rcap hG s hy] at p3
    by_cases e1 : c = y
    · subst e1
      rw [if_pos rfl, old, hz old, sub_zero] at p3
      exact p3 rfl
    · rw [if_neg e1] at p3
      by_cases e2 : c = G.sister y
      · subst e2
        rw [hG.tail_sis hy] at hb
        exact hcon (h1 hb)
      · rw [if_neg e2] at p3; exact p3 old
  · rw [hb] at p3 old hcon
    simp only [outc, if_true] at p3 old
    rw [pushArc_rcap hG s hy] at p3
    by_cases e1 : G.sister c = y
    · subst e1
      rw [if_pos rfl, old, hz old, sub_zero] at p3
      exact p3 rfl
    · rw [if_neg e1] at p3
      by_cases e2 : G.sister c = G.sister y
      · have : c = y := by rw [← hG.sis_sis c hc, e2, hG.sis_sis y hy]
        subst this
        exact hcon (h2 hb)
      · rw [if_neg e2] at p3; exact p3 old

omit [IsOrderedAddMonoid K] in
theorem TreeOk.pushArc {G : Graph} {s : St K} (h : TreeOk G s) (y : Nat) (m : K) : TreeOk G (pushArc G s y m) :=
  ⟨h.lt, h.tail, h.up, h.side, h.rank, h.root, h.dpos, h.tsle⟩

omit [IsOrderedAddMonoid K] in
theorem TreeOk.orphan {G : Graph} {s : St K} (h : TreeOk G s) {i : Nat} (hi : s.par i ≠ .free) (ht : s.tr i = 0) :
    TreeOk G { s with par := upd s.par i .orphan } := by
  have old : ∀ {j a}, upd s.par i .orphan j = .arc a → s.par j = .arc a := by
    intro j a hj
    simp only [upd] at hj
    split at hj
    · cases hj
    · exact hj
  refine ⟨fun j a hj => h.lt j a (old hj), fun j a hj => h.tail j a (old hj), ?_, fun j a hj => h.side j a (old hj), fun j a hj => h.rank j a (old hj), ?_, ?_, h.tsle⟩
  · intro j a hj
    simp only [upd]
    split
    · simp
    · exact h.up j a (old hj)
  · intro j hj
    have : j ≠ i := by rintro rfl; exact hj ht
    simp only
    rw [upd_ne _ _ this]
    exact h.root j hj
  · intro j hj
    simp only [upd] at hj
    split at hj
    · next e => rw [e]; exact h.dpos i hi
    · exact h.dpos j hj

omit [IsOrderedAddMonoid K] in
theorem Pass.orphan {G : Graph} {s : St K} {Act : Nat → Prop} (h : Pass G s Act) {i : Nat} (hi : s.par i ≠ .free) : Pass G { s with par := upd s.par i .orphan } Act := by
  have e : ∀ j, upd s.par i .orphan j ≠ .free ↔ s.par j ≠ .free := by
    intro j
    simp only [upd]
    split
    · next k => rw [k]; simp [hi]
    · rfl
  intro c hc h1 h2 h3
  simp only [] at h1 ⊢
  rw [e] at h1 ⊢
  exact h c hc h1 h2 h3

/-- The list holds exactly the orphans. -/
def Orph (s : St K) (q : List Nat) : Prop := q.Nodup ∧ ∀ j, s.par j = .orphan ↔ j ∈ q

omit [AddCommGroup K] [LinearOrder K] [IsOrderedAddMonoid K] in
theorem Orph.cons {s : St K} {q : List Nat} (h : Orph s q) {i : Nat} (hi : s.par i ≠ .orphan) : Orph { s with par := upd s.par i .orphan } (i :: q) := by
  refine ⟨List.nodup_cons.2 ⟨fun k => hi ((h.2 i).2 k), h.1⟩, fun j => ?_⟩
  simp only [upd, List.mem_cons]
  split
  · next e => simp [e]
  · next e => rw [h.2 j]; simp [e]

/-- The path of parents from `i` to the root `r`. -/
def Chain (G : Graph) (s : St K) : Nat → List Nat → Nat → Prop
  | i, [], r => s.par i = .term ∧ i = r
  | i, x :: l, r => x = i ∧ ∃ a, s.par i = .arc a ∧ Chain G s (G.head a) l r

omit [AddCommGroup K] [LinearOrder K] [IsOrderedAddMonoid K] in
theorem Chain.congr {G : Graph} {s s' : St K} : ∀ {l : List Nat} {i r : Nat}, Chain G s i l r → (∀ x ∈ l, s'.par x = s.par x) → s'.par r = s.par r → Chain G s' i l r
  | [], _, _, h, _, k => ⟨by rw [h.2, k, ← h.2]; exact h.1, h.2⟩
  | _ :: _, _, _, ⟨e, a, ha, h⟩, hl, k =>
    ⟨e, a, by rw [← e, hl _ (by simp), e]; exact ha, h.congr (fun x hx => hl x (by simp [hx])) k⟩

omit [IsOrderedAddMonoid K] in
/-- The nodes of a path are in the same tree and all different. -/
theorem Chain.props {G : Graph} {s : St K} (h : TreeOk G s) : ∀ {l : List Nat} {i r : Nat}, Chain G s i l r →
    s.sink r = s.sink i ∧ s.par r = .term ∧ (∀ x ∈ l, s.sink x = s.sink i ∧ ∃ a, s.par x = .arc a) ∧
    (∀ x ∈ l, x = i ∨ s.ts i < s.ts x ∨ (s.ts i = s.ts x ∧ s.dist x < s.dist i)) ∧ l.Nodup
  | [], _, _, ⟨h1, h2⟩ => by subst h2; simp [h1]
  | x :: l, i, r, ⟨e, a, ha, k⟩ => by
    subst e
    obtain ⟨h1, h2, h3, h4, h5⟩ := k.props h
    have hs := h.side _ _ ha
    have hr := h.rank _ _ ha
    have below : ∀ z ∈ l, s.ts x < s.ts z ∨ (s.ts x = s.ts z ∧ s.dist z < s.dist x) := by
      intro z hz
      rcases h4 z hz with rfl | k
      · exact hr
      · omega
    refine ⟨h1.trans hs, h2, ?_, ?_, ?_⟩
    · intro z hz
      rcases List.mem_cons.1 hz with rfl | hz
      · exact ⟨rfl, a, ha⟩
      · obtain ⟨k1, k2⟩ := h3 z hz
        exact ⟨k1.trans hs, k2⟩
    · intro z hz
      rcases List.mem_cons.1 hz with rfl | hz
      · exact Or.inl rfl
      · exact Or.inr (below z hz)
    · refine List.nodup_cons.2 ⟨fun k => ?_, h5⟩
      have := below x k
      omega

omit [IsOrderedAddMonoid K] in
theorem bottle_spec {G : Graph} {s : St K} {b : Bool} : ∀ {f i : Nat} {m m' : K} {r : Nat}, bottle G s b f i m = some (m', r) →
    ∃ l, Chain G s i l r ∧ m' ≤ m ∧ (∀ x ∈ l, ∀ a, s.par x = .arc a → m' ≤ into G s b a) ∧
      (0 ≤ m → (∀ x ∈ l, ∀ a, s.par x = .arc a → 0 ≤ into G s b a) → 0 ≤ m')
  | 0, _, _, _, _, h => by simp [bottle] at h
  | f + 1, i, m, m', r, h => by
    unfold bottle at h
    split at h
    · next k =>
      simp only [Option.some.injEq, Prod.mk.injEq] at h
      obtain ⟨rfl, rfl⟩ := h
      exact ⟨[], ⟨k, rfl⟩, le_refl _, by simp, fun h _ => h⟩
    · next a k =>
      obtain ⟨l, h1, h2, h3, h4⟩ := bottle_spec h
      refine ⟨i :: l, ⟨rfl, a, k, h1⟩, ?_, ?_, ?_⟩
      · refine h2.trans ?_
        split
        · next k => exact k.le
        · exact le_refl _
      · intro x hx c hc
        rcases List.mem_cons.1 hx with rfl | hx
        · rw [k] at hc
          injection hc with hc
          subst hc
          refine h2.trans ?_
          split
          · exact le_refl _
          · next k => exact not_lt.1 k
        · exact h3 x hx c hc
      · intro m0 hn
        apply h4
        · split
          · exact hn i (by simp) a k
          · exact m0
        · exact fun x hx => hn x (by simp [hx])
    · exact absurd h (by simp)

/-- The arc that loses capacity when flow is sent between a node and its parent. -/
def minusArc (G : Graph) (b : Bool) (a : Nat) : Nat := if b then a else G.sister a

omit [AddCommGroup K] [LinearOrder K] [IsOrderedAddMonoid K] in
theorem into_eq (G : Graph) (s : St K) (b : Bool) (a : Nat) : into G s b a = s.rcap (minusArc G b a) := by cases b <;> rfl

/-- The imbalance `m` (in the sink tree `-m`) at the node `i`. -/
def imb (δ : Nat → K) (b : Bool) (m : K) (i : Nat) : Nat → K := fun j => δ j + if i = j then (if b then -m else m) else 0

/-- Sending flow along `y`: the other arcs do not lose capacity. -/
theorem Live.push {G : Graph} (hG : GOk G) {s s' : St K} (h : Live G s) (hT : TreeOk G s) (nn : ∀ a < G.nArcs, 0 ≤ s.rcap a) {y : Nat} (hy : y < G.nArcs) {m : K}
    (m0 : 0 ≤ m) (e1 : s'.rcap = (pushArc G s y m).rcap) (e2 : s'.sink = s.sink) (e3 : s'.tr = s.tr)
    (hp : ∀ j a, s'.par j = .arc a → s.par j = .arc a ∧ (minusArc G (s.sink j) a = y → s.rcap y - m ≠ 0)) (ht : ∀ j, s'.par j = .term → s.par j = .term) : Live G s' := by
  refine ⟨fun j a hj => ?_, fun j hj hp' => ?_⟩
  · obtain ⟨k1, k2⟩ := hp j a hj
    have old := h.arc j a k1
    rw [into_eq] at old
    rw [into_eq, e1, e2, pushArc_rcap hG s hy]
    have hlt : minusArc G (s.sink j) a < G.nArcs := by
      have := hT.lt j a k1
      cases s.sink j
      · exact hG.sis_lt a this
      · exact this
    split
    · next e => exact k2 e
    · split
      · next e =>
        rw [e] at old hlt
        have := lt_of_le_of_ne (nn _ hlt) (Ne.symm old)
        exact (lt_of_lt_of_le this (le_add_of_nonneg_right m0)).ne'
      · exact old
  · rw [e3]; exact h.term j hj (ht j hp')

/-- What sending flow along the path does. -/
structure PushInv (G : Graph) (c0 t0 : Nat → K) (f0 : K) (Act : Nat → Prop) (δ : Nat → K) (v : K) (b : Bool) (m : K) (s : St K) (i : Nat) (q : List Nat) : Prop where
  tree : TreeOk G s
  live : Live G s
  pass : Pass G s Act
  flow : FlowOk G c0 t0 f0 s (imb δ b m i) v
  orph : Orph s q

/-- What is not changed by sending flow in the tree `b`. -/
structure PushFrame (G : Graph) (b : Bool) (s s' : St K) : Prop where
  par : ∀ j, s.sink j ≠ b → s'.par j = s.par j
  sink : s'.sink = s.sink
  rcap : ∀ z, s.sink (G.head z) ≠ b → s.rcap z ≤ s'.rcap z
  tr : ∀ j, s.sink j ≠ b → s'.tr j = s.tr j
  flow : s'.flow = s.flow
  time : s'.time = s.time
  ts : s'.ts = s.ts
  q0 : s'.q0 = s.q0
  q1 : s'.q1 = s.q1
  cur : s'.cur = s.cur

omit [AddCommGroup K] [IsOrderedAddMonoid K] in
theorem PushFrame.refl (G : Graph) (b : Bool) (s : St K) : PushFrame G b s s := ⟨fun _ _ => rfl, rfl, fun _ _ => le_refl _, fun _ _ => rfl, rfl, rfl, rfl, rfl, rfl, rfl⟩

omit [AddCommGroup K] [IsOrderedAddMonoid K] in
theorem PushFrame.trans {G : Graph} {b : Bool} {s t u : St K} (h : PushFrame G b s t) (k : PushFrame G b t u) : PushFrame G b s u where
  par j hj := (k.par j (by rw [h.sink]; exact hj)).trans (h.par j hj)
  sink := k.sink.trans h.sink
  rcap z hz := (h.rcap z hz).trans (k.rcap z (by rw [h.sink]; exact hz))
  tr j hj := (k.tr j (by rw [h.sink]; exact hj)).trans (h.tr j hj)
  flow := k.flow.trans h.flow
  time := k.time.trans h.time
  ts := k.ts.trans h.ts
  q0 := k.q0.trans h.q0
  q1 := k.q1.trans h.q1
  cur := k.cur.trans h.cur

theorem push_spec {G : Graph} (hG : GOk G) {c0 t0 δ : Nat → K} {f0 v m : K} {Act : Nat → Prop} {b : Bool} (m0 : 0 ≤ m) : ∀ {f : Nat} {s : St K} {i r : Nat}
    {l q : List Nat} {s' : St K} {r' : Nat} {q' : List Nat}, PushInv G c0 t0 f0 Act δ v b m s i q → Chain G s i l r → s.sink i = b →
    (∀ x ∈ l, ∀ a, s.par x = .arc a → m ≤ into G s b a) → push G b m f s i q = some (s', r', q') →
    r' = r ∧ PushInv G c0 t0 f0 Act δ v b m s' r q' ∧ PushFrame G b s s' ∧ s'.par r = .term ∧ s'.tr = s.tr
  | 0, _, _, _, _, _, _, _, _, _, _, _, _, h => by simp [push] at h
  | f + 1, s, i, r, [], q, s', r', q', hI, ⟨hc1, hc2⟩, hs, hm, h => by
    simp only [push, hc1, Option.some.injEq, Prod.mk.injEq] at h
    obtain ⟨rfl, rfl, rfl⟩ := h
    subst hc2
    exact ⟨rfl, hI, PushFrame.refl _ _ _, hc1, rfl⟩
  | f + 1, s, i, r, x :: l, q, s', r', q', hI, hch, hs, hm, h => by
    have hP := hch.props hI.tree
    obtain ⟨rfl, a, ha, hc⟩ := hch
    simp only [push, ha] at h
    have hlt := hI.tree.lt _ _ ha
    have htl := hI.tree.tail _ _ ha
    have hsd := hI.tree.side _ _ ha
    have hup := hI.tree.up _ _ ha
    have hma := hm x (by simp) a ha
    rw [into_eq] at hma
    have hy : minusArc G b a < G.nArcs := by cases b; exacts [hG.sis_lt a hlt, hlt]
    have hsx : s.tr x = 0 := by
      by_contra k
      have := (hI.tree.root x k).1
      rw [ha] at this
      cases this
    -- the ends of the arc
    have ends : s.sink (G.head (minusArc G b a)) = b ∧ s.sink (G.tail (minusArc G b a)) = b ∧ s.par (G.head (minusArc G b a)) ≠ .free ∧
        s.par (G.tail (minusArc G b a)) ≠ .free ∧ (∀ w, (imb δ b m (G.head a)) w =
          imb δ b m x w + (if G.tail (minusArc G b a) = w then m else 0) - (if G.head (minusArc G b a) = w then m else 0)) := by
      have px : s.par x ≠ .free := by rw [ha]; simp
      cases b
      · have e1 : G.head (minusArc G false a) = x := htl
        have e2 : G.tail (minusArc G false a) = G.head a := hG.tail_sis hlt
        rw [e1, e2]
        refine ⟨hs, hsd.trans hs, px, hup, fun w => ?_⟩
        simp only [imb, Bool.false_eq_true, if_false]
        abel
      · have e1 : G.head (minusArc G true a) = G.head a := rfl
        have e2 : G.tail (minusArc G true a) = x := htl
        rw [e1, e2]
        refine ⟨hsd.trans hs, hs, hup, px, fun w => ?_⟩
        simp only [imb, if_true]
        by_cases k1 : x = w <;> by_cases k2 : G.head a = w <;> simp [k1, k2] <;> abel
    obtain ⟨e1, e2, e3, e4, e5⟩ := ends
    have hy' : (if b then a else G.sister a) = minusArc G b a := rfl
    rw [hy'] at h
    generalize hyy : minusArc G b a = y at *
    have I1a := hI.tree.pushArc y m
    have I1b : Pass G (pushArc G s y m) Act := by
      refine hI.pass.push hG hy m0 hma ?_ ?_
      · intro k; rw [e1] at k; subst k; exact ⟨e4, e2⟩
      · intro k; rw [e2] at k; subst k; exact ⟨e3, e1⟩
    have I1c := hI.flow.push hG hy m0 hma e5
    have only : ∀ j c, s.par j = .arc c → minusArc G (s.sink j) c = y → j = x := by
      intro j c hj e
      have hb : s.sink j = b := by
        rw [← hI.tree.tail _ _ hj]
        cases hk : s.sink j
        · rw [hk] at e
          have e' : G.sister c = y := e
          rw [Graph.tail, e', e1]
        · rw [hk] at e
          have e' : c = y := e
          rw [e', e2]
      rw [hb, ← hyy] at e
      rw [← hI.tree.tail _ _ hj, ← htl]
      cases b
      · exact congrArg G.head e
      · exact congrArg G.tail e
    have F1 : PushFrame G b s (pushArc G s y m) := by
      refine ⟨fun _ _ => rfl, rfl, ?_, fun _ _ => rfl, rfl, rfl, rfl, rfl, rfl, rfl⟩
      intro z hz
      rw [pushArc_rcap hG s hy]
      split
      · next e => rw [e, e1] at hz; exact absurd rfl hz
      · split
        · next e => rw [e]; exact le_add_of_nonneg_right m0
        · exact le_refl _
    have hnd := hP.2.2.2.2
    rw [List.nodup_cons] at hnd
    have hm1 : ∀ z ∈ l, ∀ c, s.par z = .arc c → m ≤ into G (pushArc G s y m) b c := by
      intro z hz c hcz
      have hmz := hm z (by simp [hz]) c hcz
      rw [into_eq] at hmz ⊢
      have hzx : z ≠ x := by rintro rfl; exact hnd.1 hz
      rw [pushArc_rcap hG s hy]
      have hne : minusArc G b c ≠ y := by
        intro e
        apply hzx
        rw [← hI.tree.tail _ _ hcz, ← htl]
        rw [← hyy] at e
        cases b
        · exact congrArg G.head e
        · exact congrArg G.tail e
      rw [if_neg hne]
      split
      · next e => rw [e] at hmz; exact hmz.trans (le_add_of_nonneg_right m0)
      · exact hmz
    have hrx : x ≠ r := by rintro rfl; rw [hP.2.1] at ha; cases ha
    -- the orphan
    have main : ∀ (t : St K) (p : List Nat), (t = pushArc G s y m ∧ p = q ∧ s.rcap y - m ≠ 0) ∨ (t = { pushArc G s y m with par := upd s.par x .orphan } ∧ p = x :: q) →
        push G b m f t (G.head a) p = some (s', r', q') →
        r' = r ∧ PushInv G c0 t0 f0 Act δ v b m s' r q' ∧ PushFrame G b s s' ∧ s'.par r = .term ∧ s'.tr = s.tr := by
      intro t p htp ht
      rcases htp with ⟨rfl, rfl, hcap⟩ | ⟨rfl, rfl⟩
      · have I1 : PushInv G c0 t0 f0 Act δ v b m (pushArc G s y m) (G.head a) p :=
          ⟨I1a, hI.live.push hG hI.tree hI.flow.nonneg hy m0 rfl rfl rfl (fun j c hj => ⟨hj, fun _ => hcap⟩) (fun _ k => k), I1b, I1c, hI.orph⟩
        obtain ⟨h1, h2, h3, h4, h5⟩ := push_spec hG m0 I1 (hc.congr (fun _ _ => rfl) rfl) (hsd.trans hs) hm1 ht
        exact ⟨h1, h2, F1.trans h3, h4, h5⟩
      · have px : s.par x ≠ .free := by rw [ha]; simp
        have I2 : PushInv G c0 t0 f0 Act δ v b m { pushArc G s y m with par := upd s.par x .orphan } (G.head a) (x :: q) :=
          ⟨I1a.orphan (i := x) px hsx, hI.live.push hG hI.tree hI.flow.nonneg hy m0 rfl rfl rfl
            (fun j c hj => by
              by_cases e : j = x
              · subst e
                have hj : upd s.par j .orphan j = .arc c := hj
                rw [upd_same] at hj; cases hj
              · have hj : upd s.par x .orphan j = .arc c := hj
                rw [upd_ne _ _ e] at hj
                exact ⟨hj, fun k => absurd (only j c hj k) e⟩)
            (fun j hj => by
              by_cases e : j = x
              · subst e
                have hj : upd s.par j .orphan j = .term := hj
                rw [upd_same] at hj; cases hj
              · have hj : upd s.par x .orphan j = .term := hj
                rw [upd_ne _ _ e] at hj
                exact hj),
            I1b.orphan (i := x) px, I1c.congr ⟨rfl, rfl, rfl⟩, hI.orph.cons (i := x) (by rw [ha]; simp)⟩
        have hpar : ∀ z, z ≠ x → upd s.par x .orphan z = s.par z := fun z hz => upd_ne _ _ hz
        have hl : ∀ z ∈ l, z ≠ x := by rintro z hz rfl; exact hnd.1 hz
        obtain ⟨h1, h2, h3, h4, h5⟩ := push_spec hG m0 I2 (hc.congr (fun z hz => hpar z (hl z hz)) (hpar r hrx.symm)) (hsd.trans hs)
          (fun z hz c hcz => hm1 z hz c ((hpar z (hl z hz)).symm.trans hcz)) ht
        have F2 : PushFrame G b (pushArc G s y m) { pushArc G s y m with par := upd s.par x .orphan } := by
          refine ⟨?_, rfl, fun _ _ => le_refl _, fun _ _ => rfl, rfl, rfl, rfl, rfl, rfl, rfl⟩
          intro z hz
          exact hpar z (by rintro rfl; exact hz hs)
        exact ⟨h1, h2, F1.trans (F2.trans h3), h4, h5⟩
    simp only [orphanIf] at h
    split at h
    · exact main _ _ (Or.inr ⟨rfl, rfl⟩) h
    · next k0 =>
      rw [pushArc_rcap hG s hy, if_pos rfl] at k0
      exact main _ _ (Or.inl ⟨rfl, rfl, k0⟩) h

omit [IsOrderedAddMonoid K] in
theorem Chain.lt {G : Graph} (hG : GOk G) {s : St K} (h : TreeOk G s) : ∀ {l : List Nat} {i r : Nat}, Chain G s i l r → i < G.nNodes → r < G.nNodes
  | [], _, _, ⟨_, e⟩, hi => e ▸ hi
  | _ :: _, _, _, ⟨_, _, ha, k⟩, _ => k.lt hG h (hG.head_lt _ (h.lt _ _ ha))

theorem sum_upd {n r : Nat} (hr : r < n) (f : Nat → K) (x : K) :
    ∑ i ∈ range n, max 0 (upd f r x i) = ∑ i ∈ range n, max 0 (f i) - max 0 (f r) + max 0 x := by
  have hr' := mem_range.2 hr
  rw [← add_sum_erase _ _ hr', ← add_sum_erase (range n) (fun i => max 0 (f i)) hr', upd_same]
  have : ∑ i ∈ (range n).erase r, max 0 (upd f r x i) = ∑ i ∈ (range n).erase r, max 0 (f i) :=
    sum_congr rfl fun i hi => by rw [upd_ne _ _ (mem_erase.1 hi).1]
  rw [this]
  abel

/-- The flow leaves the source: the imbalance at the root is gone. -/
theorem FlowOk.source {G : Graph} {c0 t0 δ : Nat → K} {f0 v m : K} {s : St K} {r : Nat} (h : FlowOk G c0 t0 f0 s (imb δ false m r) v) (hr : r < G.nNodes)
    (m0 : 0 ≤ m) (hm : m ≤ s.tr r) : FlowOk G c0 t0 f0 { s with tr := upd s.tr r (s.tr r - m) } δ (v + m) := by
  refine ⟨h.nonneg, h.pair, ?_, ?_, ?_⟩
  · intro i
    have := h.bal i
    simp only [imb, Bool.false_eq_true, if_false] at this
    show upd s.tr r (s.tr r - m) i + outflow G c0 s i = t0 i + δ i
    by_cases e : i = r
    · subst e
      rw [if_pos rfl] at this
      rw [upd_same, sub_add_eq_add_sub, this]; abel
    · rw [if_neg (Ne.symm e), add_zero] at this
      rw [upd_ne _ _ e, this]
  · intro i
    simp only [upd]
    split
    · next e =>
      rw [e]
      rcases h.between r with ⟨_, k⟩ | ⟨k, k'⟩
      · exact Or.inl ⟨sub_nonneg.2 hm, (sub_le_self _ m0).trans k⟩
      · have : m = 0 := le_antisymm (hm.trans k') m0
        rw [this, sub_zero]
        exact Or.inr ⟨k, k'⟩
    · exact h.between i
  · simp only []
    rw [sum_upd hr, ← h.val, max_eq_right (m0.trans hm), max_eq_right (sub_nonneg.2 hm)]
    abel

/-- The flow reaches the sink. -/
theorem FlowOk.sink {G : Graph} {c0 t0 δ : Nat → K} {f0 v m : K} {s : St K} {r : Nat} (h : FlowOk G c0 t0 f0 s (imb δ true m r) v) (hr : r < G.nNodes)
    (m0 : 0 ≤ m) (hm : m ≤ -s.tr r) : FlowOk G c0 t0 f0 { s with tr := upd s.tr r (s.tr r + m) } δ v := by
  have hm' : s.tr r + m ≤ 0 := by
    have := add_le_add_right hm (s.tr r)
    rwa [add_neg_cancel] at this
  have hr0 : s.tr r ≤ 0 := by
    refine le_trans ?_ hm'
    exact le_add_of_nonneg_right m0
  refine ⟨h.nonneg, h.pair, ?_, ?_, ?_⟩
  · intro i
    have := h.bal i
    simp only [imb, if_true] at this
    show upd s.tr r (s.tr r + m) i + outflow G c0 s i = t0 i + δ i
    by_cases e : i = r
    · subst e
      rw [if_pos rfl] at this
      rw [upd_same, add_right_comm, this]; abel
    · rw [if_neg (Ne.symm e), add_zero] at this
      rw [upd_ne _ _ e, this]
  · intro i
    simp only [upd]
    split
    · next e =>
      rw [e]
      rcases h.between r with ⟨k, k'⟩ | ⟨k, _⟩
      · have : s.tr r = 0 := le_antisymm hr0 k
        have : m = 0 := le_antisymm (by rw [this, zero_add] at hm'; exact hm') m0
        rw [this, add_zero]
        exact Or.inl ⟨k, k'⟩
      · exact Or.inr ⟨k.trans (le_add_of_nonneg_right m0), hm'⟩
    · exact h.between i
  · simp only []
    rw [sum_upd hr, ← h.val, max_eq_left hr0, max_eq_left hm']
    abel

omit [IsOrderedAddMonoid K] in
theorem TreeOk.setTr {G : Graph} {s : St K} (h : TreeOk G s) {r : Nat} {x : K} (hx : x ≠ 0 → s.tr r ≠ 0 ∧ (x < 0 ↔ s.tr r < 0)) :
    TreeOk G { s with tr := upd s.tr r x } := by
  refine ⟨h.lt, h.tail, h.up, h.side, h.rank, ?_, h.dpos, h.tsle⟩
  intro j hj
  by_cases e : j = r
  · subst e
    have ex : upd s.tr j x j = x := upd_same _ _ _
    obtain ⟨h1, h2⟩ := hx (by rw [← ex]; exact hj)
    obtain ⟨k1, k2, k3⟩ := h.root j h1
    refine ⟨k1, k2.trans (decide_eq_decide.2 (h2.symm.trans ?_)), k3⟩
    show _ ↔ upd s.tr j x j < 0
    rw [ex]
  · have ex : upd s.tr r x j = s.tr j := upd_ne _ _ e
    obtain ⟨k1, k2, k3⟩ := h.root j (by rw [← ex]; exact hj)
    refine ⟨k1, k2.trans (decide_eq_decide.2 ?_), k3⟩
    show _ ↔ upd s.tr r x j < 0
    rw [ex]

omit [IsOrderedAddMonoid K] in
/-- A root whose terminal is used up becomes an orphan. -/
theorem Live.setTr {G : Graph} {s s' : St K} (h : Live G s) {r : Nat} {x : K} (e1 : s'.rcap = s.rcap) (e2 : s'.sink = s.sink) (e3 : s'.tr = upd s.tr r x)
    (hp : (s'.par = s.par ∧ x ≠ 0) ∨ s'.par = upd s.par r .orphan) : Live G s' := by
  have old : ∀ j p, p ≠ .orphan → s'.par j = p → s.par j = p ∧ (j = r → x ≠ 0) := by
    intro j p hne hj
    rcases hp with ⟨k, k'⟩ | k
    · rw [k] at hj; exact ⟨hj, fun _ => k'⟩
    · rw [k] at hj
      simp only [upd] at hj
      split at hj
      · exact absurd hj.symm hne
      · next e => exact ⟨hj, fun z => absurd z e⟩
  refine ⟨fun j a hj => ?_, fun j hj hp' => ?_⟩
  · have := h.arc j a (old j _ (by simp) hj).1
    unfold into at this ⊢
    rw [e1, e2]; exact this
  · obtain ⟨k1, k2⟩ := old j _ (by simp) hp'
    rw [e3]
    simp only [upd]
    split
    · next e => exact k2 e
    · exact h.term j hj k1

/-- The state between sending the flow and looking for new parents. -/
structure AdoptInv (G : Graph) (c0 t0 : Nat → K) (f0 : K) (Act : Nat → Prop) (s : St K) (q : List Nat) : Prop where
  tree : TreeOk G s
  live : Live G s
  pass : Pass G s Act
  flow : FlowOk G c0 t0 f0 s (fun _ => 0) 0
  orph : Orph s q

theorem minlt (a b : K) : (if a < b then a else b) ≤ a ∧ (if a < b then a else b) ≤ b ∧ (0 ≤ a → 0 ≤ b → 0 ≤ if a < b then a else b) := by
  split
  · next k => exact ⟨le_refl _, k.le, fun h _ => h⟩
  · next k => exact ⟨not_lt.1 k, le_refl _, fun _ h => h⟩

theorem augment_spec {G : Graph} (hG : GOk G) {c0 t0 : Nat → K} {f0 : K} {Act : Nat → Prop} {fuel : Nat} {s : St K} {mid : Nat} {s' : St K} {q' : List Nat}
    (hI : AdoptInv G c0 t0 f0 Act s []) (hc : Contact G s mid) (h : augment G fuel s mid = some (s', q')) :
    AdoptInv G c0 t0 f0 Act s' q' ∧ s'.sink = s.sink ∧ s'.ts = s.ts ∧ s'.time = s.time ∧ s'.q0 = s.q0 ∧ s'.q1 = s.q1 ∧ s'.cur = s.cur := by
  unfold augment at h
  split at h
  · exact absurd h (by simp)
  next m1 r1 hb1 =>
  simp only [] at h
  split at h
  · exact absurd h (by simp)
  next m2 r2 hb2 =>
  obtain ⟨l1, C1, a1, b1, p1⟩ := bottle_spec hb1
  obtain ⟨l2, C2, a2, b2, p2⟩ := bottle_spec hb2
  change Chain G s (G.tail mid) l1 r1 at C1
  obtain ⟨x1, x2, x3, -, -⟩ := C1.props hI.tree
  obtain ⟨y1, y2, y3, -, -⟩ := C2.props hI.tree
  have htl : G.tail mid < G.nNodes := hG.head_lt _ (hG.sis_lt _ hc.lt)
  have hr1 := C1.lt hG hI.tree htl
  have hr2 := C2.lt hG hI.tree (hG.head_lt _ hc.lt)
  rw [hc.tailSource] at x1 x3
  rw [hc.headSink] at y1 y3
  have intoNN : ∀ (b : Bool) (x a : Nat), s.par x = .arc a → 0 ≤ into G s b a := by
    intro b x a ha
    have := hI.tree.lt _ _ ha
    cases b
    · exact hI.flow.nonneg _ (hG.sis_lt _ this)
    · exact hI.flow.nonneg _ this
  have t1 : 0 ≤ s.tr r1 := by
    by_cases k : s.tr r1 = 0
    · rw [k]
    · have := (hI.tree.root r1 k).2.1
      rw [x1] at this
      simpa using this.symm
  have t2 : s.tr r2 ≤ 0 := by
    by_cases k : s.tr r2 = 0
    · rw [k]
    · have := (hI.tree.root r2 k).2.1
      rw [y1] at this
      exact (of_decide_eq_true this.symm).le
  have mm1 := minlt (s.tr r1) m1
  have mm2 := minlt (-s.tr r2) m2
  have m1nn : 0 ≤ m1 := p1 (hI.flow.nonneg _ hc.lt) (fun x _ a ha => intoNN false x a ha)
  have m2nn : 0 ≤ m2 := p2 (mm1.2.2 t1 m1nn) (fun x _ a ha => intoNN true x a ha)
  have mnn := mm2.2.2 (neg_nonneg.2 t2) m2nn
  generalize hm : (if -s.tr r2 < m2 then -s.tr r2 else m2) = m at h mm2 mnn
  have ma : m ≤ s.tr r1 := mm2.2.1.trans (a2.trans mm1.1)
  have mb : m ≤ m1 := mm2.2.1.trans (a2.trans mm1.2.1)
  have mc : m ≤ s.rcap mid := mb.trans a1
  have md : m ≤ -s.tr r2 := mm2.1
  have me : m ≤ m2 := mm2.2.1
  -- the arc between the trees
  have I0 : PushInv G c0 t0 f0 Act (imb (fun _ => 0) true m (G.head mid)) 0 false m (pushArc G s mid m) (G.tail mid) [] := by
    refine ⟨hI.tree.pushArc _ _, hI.live.push hG hI.tree hI.flow.nonneg hc.lt mnn rfl rfl rfl (fun j a hj => ⟨hj, fun e => ?_⟩) (fun _ k => k),
      hI.pass.push hG hc.lt mnn mc ?_ ?_, hI.flow.push hG hc.lt mnn mc ?_, hI.orph⟩
    · exfalso
      have h1 := hI.tree.side j a hj
      have h2 := hI.tree.tail j a hj
      cases hb : s.sink j
      · rw [hb] at e
        have e' : G.sister a = mid := e
        have h3 := hc.headSink
        rw [← e', show G.head (G.sister a) = G.tail a from rfl, h2, hb] at h3
        cases h3
      · rw [hb] at e
        have e' : a = mid := e
        have h3 := hc.tailSource
        rw [← e', h2, hb] at h3
        cases h3
    · intro k; rw [hc.headSink] at k; exact absurd k (by simp)
    · intro k; rw [hc.tailSource] at k; exact absurd k (by simp)
    · intro i
      simp only [imb, if_true, Bool.false_eq_true, if_false]
      by_cases k1 : G.head mid = i <;> by_cases k2 : G.tail mid = i <;> simp [k1, k2]
  have keep0 : ∀ z, z ≠ mid → s.rcap z ≤ (pushArc G s mid m).rcap z := by
    intro z hz
    rw [pushArc_rcap hG s hc.lt, if_neg hz]
    split
    · next e => rw [e]; exact le_add_of_nonneg_right mnn
    · exact le_refl _
  have k1 : ∀ x ∈ l1, ∀ a, s.par x = .arc a → m ≤ into G (pushArc G s mid m) false a := by
    intro x hx a ha
    refine (mb.trans (b1 x hx a ha)).trans ?_
    rw [into_eq, into_eq]
    apply keep0
    intro e
    have h1 : G.head (minusArc G false a) = x := hI.tree.tail _ _ ha
    rw [e] at h1
    have := (x3 x hx).1
    rw [← h1, hc.headSink] at this
    exact absurd this (by simp)
  have k2 : ∀ x ∈ l2, ∀ a, s.par x = .arc a → m ≤ into G (pushArc G s mid m) true a := by
    intro x hx a ha
    refine (me.trans (b2 x hx a ha)).trans ?_
    rw [into_eq, into_eq]
    apply keep0
    intro e
    have h1 : G.tail (minusArc G true a) = x := hI.tree.tail _ _ ha
    rw [e] at h1
    have := (y3 x hx).1
    rw [← h1, hc.tailSource] at this
    exact absurd this (by simp)
  split at h
  · exact absurd h (by simp)
  next s1 r1' q1 hp1 =>
  obtain ⟨e1, I1, F1, T1, U1⟩ := push_spec hG mnn I0 (C1.congr (fun _ _ => rfl) rfl) hc.tailSource k1 hp1
  subst e1
  have S1 : s1.sink = s.sink := F1.sink
  simp only [upd_same] at h
  have htr1 : s1.tr = s.tr := U1
  have I2a : TreeOk G { s1 with tr := upd s1.tr r1' (s1.tr r1' - m) } := by
    refine I1.tree.setTr ?_
    rw [htr1]
    intro k
    have hpos : 0 < s.tr r1' := by
      rcases eq_or_lt_of_le t1 with k' | k'
      · exfalso
        rw [← k'] at ma k
        have := le_antisymm ma mnn
        rw [this, sub_zero] at k
        exact k rfl
      · exact k'
    exact ⟨hpos.ne', ⟨fun k' => absurd k' (not_lt.2 (sub_nonneg.2 ma)), fun k' => absurd k' (not_lt.2 hpos.le)⟩⟩
  have I2c := I1.flow.source hr1 mnn (by rw [htr1]; exact ma)
  -- the second half from any state that differs in the source tree only
  have main : ∀ (t : St K) (p : List Nat), PushInv G c0 t0 f0 Act (fun _ => 0) (0 + m) true m t (G.head mid) p → t.rcap = s1.rcap → t.sink = s.sink →
      (∀ j, s.sink j = true → t.par j = s1.par j) → (∀ j, s.sink j = true → t.tr j = s.tr j) → t.flow = s1.flow → t.ts = s.ts → t.time = s.time → t.q0 = s.q0 →
      t.q1 = s.q1 → t.cur = s.cur → augmentSink G fuel m mid t p = some (s', q') →
      AdoptInv G c0 t0 f0 Act s' q' ∧ s'.sink = s.sink ∧ s'.ts = s.ts ∧ s'.time = s.time ∧ s'.q0 = s.q0 ∧ s'.q1 = s.q1 ∧ s'.cur = s.cur := by
    intro t p J g1 g2 g3 g4 g5 g6 g7 g8 g9 g10 h
    have par2 : ∀ j, s.sink j = true → t.par j = s.par j := by
      intro j hj
      rw [g3 j hj]
      exact F1.par j (by show s.sink j ≠ false; rw [hj]; simp)
    have C2' : Chain G t (G.head mid) l2 r2 := C2.congr (fun x hx => par2 x (y3 x hx).1) (par2 r2 y1)
    have k2' : ∀ x ∈ l2, ∀ a, t.par x = .arc a → m ≤ into G t true a := by
      intro x hx a ha
      rw [par2 x (y3 x hx).1] at ha
      refine (k2 x hx a ha).trans ?_
      rw [into_eq, into_eq, g1]
      apply F1.rcap
      show s.sink (G.head a) ≠ false
      rw [hI.tree.side _ _ ha, (y3 x hx).1]
      simp
    unfold augmentSink at h
    split at h
    · exact absurd h (by simp)
    next s2 r2' q2 hp2 =>
    obtain ⟨e2, J1, F2, T2, U2⟩ := push_spec hG mnn J C2' (by rw [g2]; exact hc.headSink) k2' hp2
    subst e2
    have tr2 : s2.tr r2' = s.tr r2' := by rw [U2]; exact g4 _ y1
    simp only [upd_same] at h
    have J2 : FlowOk G c0 t0 f0 { s2 with tr := upd s2.tr r2' (s2.tr r2' + m) } (fun _ => 0) (0 + m) := J1.flow.sink hr2 mnn (by rw [tr2]; exact md)
    have hle : s2.tr r2' + m ≤ 0 := by
      rw [tr2]
      have := add_le_add_right md (s.tr r2')
      rwa [add_neg_cancel] at this
    have J3 : TreeOk G { s2 with tr := upd s2.tr r2' (s2.tr r2' + m) } := by
      refine J1.tree.setTr fun k => ?_
      have h1 : s2.tr r2' + m < 0 := lt_of_le_of_ne hle k
      have h2 : s2.tr r2' < 0 := lt_of_le_of_lt (le_add_of_nonneg_right mnn) h1
      exact ⟨h2.ne, ⟨fun _ => h2, fun _ => h1⟩⟩
    have J4 : FlowOk G c0 t0 f0 { s2 with tr := upd s2.tr r2' (s2.tr r2' + m), flow := s2.flow + m } (fun _ => 0) 0 := by
      refine ⟨J2.nonneg, J2.pair, J2.bal, J2.between, ?_⟩
      rw [← J2.val]
      simp only []
      abel
    have fin : s2.sink = s.sink ∧ s2.ts = s.ts ∧ s2.time = s.time ∧ s2.q0 = s.q0 ∧ s2.q1 = s.q1 ∧ s2.cur = s.cur :=
      ⟨F2.sink.trans g2, F2.ts.trans g6, F2.time.trans g7, F2.q0.trans g8, F2.q1.trans g9, F2.cur.trans g10⟩
    have pr : s2.par r2' ≠ .free := by rw [T2]; simp
    simp only [orphanIf] at h
    split at h
    · next k0 =>
      simp only [Option.some.injEq, Prod.mk.injEq] at h
      obtain ⟨rfl, rfl⟩ := h
      have O := TreeOk.orphan J3 (i := r2') pr (by simp only [upd_same]; exact k0)
      refine ⟨⟨⟨O.lt, O.tail, O.up, O.side, O.rank, O.root, O.dpos, O.tsle⟩, J1.live.setTr rfl rfl rfl (Or.inr rfl), J1.pass.orphan (i := r2') pr, J4.congr ⟨rfl, rfl, rfl⟩, J1.orph.cons (i := r2') (by rw [T2]; simp)⟩, fin⟩
    · next k0 =>
      simp only [Option.some.injEq, Prod.mk.injEq] at h
      obtain ⟨rfl, rfl⟩ := h
      exact ⟨⟨⟨J3.lt, J3.tail, J3.up, J3.side, J3.rank, J3.root, J3.dpos, J3.tsle⟩, J1.live.setTr rfl rfl rfl (Or.inl ⟨rfl, k0⟩), J1.pass, J4, J1.orph⟩, fin⟩
  have htr2 : ∀ j, s.sink j = true → upd s1.tr r1' (s1.tr r1' - m) j = s.tr j := by
    intro j hj
    rw [upd_ne, htr1]
    rintro rfl
    rw [x1] at hj
    exact absurd hj (by simp)
  by_cases k0 : s1.tr r1' - m = 0
  · simp only [orphanIf, if_pos k0] at h
    refine main _ _ ?_ ?_ ?_ ?_ ?_ ?_ ?_ ?_ ?_ ?_ ?_ h
    · have pr : s1.par r1' ≠ .free := by rw [T1]; simp
      have O := TreeOk.orphan I2a (i := r1') pr (by simp only [upd_same]; exact k0)
      exact ⟨O, I1.live.setTr rfl rfl rfl (Or.inr rfl), I1.pass.orphan (i := r1') pr, I2c.congr ⟨rfl, rfl, rfl⟩, I1.orph.cons (i := r1') (by rw [T1]; simp)⟩
    · rfl
    · exact S1
    · intro j hj
      simp only []
      rw [upd_ne]
      rintro rfl
      rw [x1] at hj
      exact absurd hj (by simp)
    · exact htr2
    · rfl
    · exact F1.ts
    · exact F1.time
    · exact F1.q0
    · exact F1.q1
    · exact F1.cur
  · simp only [orphanIf, if_neg k0] at h
    exact main _ _ ⟨I2a, I1.live.setTr rfl rfl rfl (Or.inl ⟨rfl, k0⟩), I1.pass, I2c, I1.orph⟩ rfl S1 (fun _ _ => rfl) htr2 rfl F1.ts F1.time F1.q0 F1.q1 F1.cur h

end Verif.Cut
