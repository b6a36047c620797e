import Verif.Cut.Props
import Mathlib.Algebra.Group.Subgroup.ZPowers.Basic
import Mathlib.Algebra.Order.Group.Basic
import Mathlib.Algebra.Order.Ring.Rat
import Mathlib.Algebra.Group.Subgroup.Basic
import Mathlib.Algebra.Group.Subgroup.Finite
import Mathlib.Tactic.FieldSimp
import Mathlib.Tactic.Positivity
/-!
# C18: `max_flow` ends

The paths of parents have at most `nNodes` arcs, since time stamps and distances order them; in one round every node is an orphan at most once. So `nNodes + 1` steps of fuel are enough inside one
iteration. If all capacities are multiples of a unit, every augmentation adds at least one unit to the flow, and between two of them each iteration takes a node out of the queues or puts a free node
into a tree.
-/
namespace Verif.Cut

open Finset

section
variable {K : Type} [AddCommGroup K] [LinearOrder K]

/-- Induction along the paths of parents. -/
theorem TreeOk.induct {G : Graph} {s : St K} (h : TreeOk G s) {P : Nat → Prop} (H : ∀ i, s.par i ≠ .free → (∀ a, s.par i = .arc a → P (G.head a)) → P i) : ∀ i, s.par i ≠ .free → P i := by
  have main : ∀ t d i, s.time - s.ts i ≤ t → s.dist i ≤ d → s.par i ≠ .free → P i := by
    intro t
    induction t using Nat.strong_induction_on with
    | _ t iht =>
      intro d
      induction d with
      | zero =>
        intro i _ hd hp
        have := h.dpos i hp
        omega
      | succ d ihd =>
        intro i ht hd hp
        refine H i hp fun a ha => ?_
        have hup := h.up i a ha
        rcases h.rank i a ha with k | ⟨k1, k2⟩
        · have := h.tsle (G.head a)
          have h2 := h.tsle i
          exact iht (s.time - s.ts (G.head a)) (by omega) _ _ (le_refl _) (le_refl _) hup
        · exact ihd (G.head a) (by omega) (by omega) hup
  exact fun i hp => main _ _ i (le_refl _) (le_refl _) hp

theorem chain_exists {G : Graph} {s : St K} (h : TreeOk G s) (hn : ∀ j, s.par j ≠ .orphan) : ∀ i, s.par i ≠ .free → ∃ l r, Chain G s i l r :=
  h.induct fun i hi ih => by
    rcases hp : s.par i with _ | _ | _ | a
    · exact absurd hp hi
    · exact ⟨[], i, hp, rfl⟩
    · exact absurd hp (hn i)
    · obtain ⟨l, r, hc⟩ := ih a hp
      exact ⟨i :: l, r, rfl, a, hp, hc⟩

theorem par_lt {G : Graph} (hG : GOk G) {s : St K} (h : TreeOk G s) {x a : Nat} (hx : s.par x = .arc a) : x < G.nNodes := by
  rw [← h.tail x a hx]
  exact hG.head_lt _ (hG.sis_lt _ (h.lt x a hx))

theorem nodup_le {n : Nat} {l : List Nat} (hn : l.Nodup) (hl : ∀ x ∈ l, x < n) : l.length ≤ n := by
  have h1 : l.toFinset ⊆ range n := fun x hx => mem_range.2 (hl x (List.mem_toFinset.1 hx))
  have h2 := card_le_card h1
  rwa [card_range, List.toFinset_card_of_nodup hn] at h2

theorem Chain.length_le {G : Graph} (hG : GOk G) {s : St K} (h : TreeOk G s) {l : List Nat} {i r : Nat} (hc : Chain G s i l r) : l.length ≤ G.nNodes := by
  obtain ⟨-, -, h3, -, h5⟩ := hc.props h
  exact nodup_le h5 fun x hx => by obtain ⟨-, a, ha⟩ := h3 x hx; exact par_lt hG h ha

theorem bottle_total {G : Graph} {s : St K} {b : Bool} (H : AddSubgroup K) : ∀ {f : Nat} {l : List Nat} {i r : Nat} {m : K}, Chain G s i l r → l.length < f → 0 < m → m ∈ H →
    (∀ x ∈ l, ∀ a, s.par x = .arc a → 0 < into G s b a ∧ into G s b a ∈ H) → ∃ m', bottle G s b f i m = some (m', r) ∧ 0 < m' ∧ m' ∈ H
  | 0, _, _, _, _, _, hf, _, _, _ => absurd hf (by omega)
  | f + 1, [], i, r, m, ⟨h1, h2⟩, _, m0, mH, _ => ⟨m, by subst h2; simp [bottle, h1], m0, mH⟩
  | f + 1, x :: l, i, r, m, ⟨e, a, ha, hc⟩, hf, m0, mH, hx => by
    subst e
    obtain ⟨k1, k2⟩ := hx x (by simp) a ha
    have := bottle_total (b := b) H (f := f) (m := if into G s b a < m then into G s b a else m) hc (by simp at hf; omega) (by split <;> assumption) (by split <;> assumption)
      fun y hy => hx y (by simp [hy])
    simpa only [bottle, ha] using this

/-- Sending flow along the path to the root gets there. -/
theorem push_total {G : Graph} {b : Bool} {m : K} (H : AddSubgroup K) (mH : m ∈ H) : ∀ {f : Nat} {l : List Nat} {s : St K} {i r : Nat} {q : List Nat}, Chain G s i l r → l.Nodup → r ∉ l → l.length < f →
    (∀ a, s.rcap a ∈ H) → ∃ s' q', push G b m f s i q = some (s', r, q') ∧ (∀ j, j ∉ l → s'.par j = s.par j) ∧ s'.tr = s.tr ∧ s'.flow = s.flow ∧ ∀ a, s'.rcap a ∈ H
  | 0, _, _, _, _, _, _, _, _, hf, _ => absurd hf (by omega)
  | f + 1, [], s, i, r, q, ⟨h1, h2⟩, _, _, _, hH => ⟨s, q, by subst h2; simp [push, h1], fun _ _ => rfl, rfl, rfl, hH⟩
  | f + 1, x :: l, s, i, r, q, ⟨e, a, ha, hc⟩, hn, hr, hf, hH => by
    subst e
    rw [List.nodup_cons] at hn
    simp only [push, ha]
    set y := if b then a else G.sister a
    have p1 : (pushArc G s y m).par = s.par := rfl
    have hH1 : ∀ a, (pushArc G s y m).rcap a ∈ H := by
      intro c
      simp only [pushArc, upd]
      split_ifs <;> first | exact H.sub_mem (H.add_mem (hH _) mH) mH | exact H.sub_mem (hH _) mH | exact H.add_mem (hH _) mH | exact hH _
    have key : ∀ (t : St K) (q1 : List Nat), (∀ j, j ≠ x → t.par j = s.par j) → t.tr = s.tr → t.flow = s.flow → (∀ a, t.rcap a ∈ H) →
        ∃ s' q', push G b m f t (G.head a) q1 = some (s', r, q') ∧ (∀ j, j ∉ x :: l → s'.par j = s.par j) ∧ s'.tr = s.tr ∧ s'.flow = s.flow ∧ ∀ a, s'.rcap a ∈ H := by
      intro t q1 e1 e2 e3 e4
      obtain ⟨s', q', k1, k2, k3, k4, k5⟩ := push_total (b := b) H mH (f := f) (q := q1) (hc.congr (s' := t) (fun z hz => e1 z fun e => hn.1 (e ▸ hz)) (e1 r fun e => hr (by simp [e])))
        hn.2 (fun k => hr (by simp [k])) (by simp at hf; omega) e4
      refine ⟨s', q', k1, fun j hj => ?_, k3.trans e2, k4.trans e3, k5⟩
      rw [List.mem_cons, not_or] at hj
      rw [k2 j hj.2, e1 j hj.1]
    unfold orphanIf
    split
    · exact key _ _ (fun j hj => upd_ne _ _ hj) rfl rfl hH1
    · exact key _ _ (fun j _ => rfl) rfl rfl hH1

/-- All capacities are in `H`. -/
structure Units (H : AddSubgroup K) (s : St K) : Prop where
  rcap : ∀ a, s.rcap a ∈ H
  tr : ∀ i, s.tr i ∈ H
  flow : s.flow ∈ H

theorem Units.congr {H : AddSubgroup K} {s s' : St K} (h : Units H s) (k : SameFlow s s') : Units H s' := ⟨by rw [k.rcap]; exact h.rcap, by rw [k.tr]; exact h.tr, by rw [k.flow]; exact h.flow⟩

theorem orphanIf_facts (s : St K) (c : K) (i : Nat) (q : List Nat) : SameFlow s (orphanIf s c i q).1 ∧ ∀ j, j ≠ i → (orphanIf s c i q).1.par j = s.par j := by
  unfold orphanIf
  split
  · exact ⟨⟨rfl, rfl, rfl⟩, fun j hj => upd_ne _ _ hj⟩
  · exact ⟨SameFlow.refl _, fun _ _ => rfl⟩

variable [IsOrderedAddMonoid K]

/-- `augment` returns and adds to the flow. -/
theorem augment_total {G : Graph} (hG : GOk G) {c0 t0 : Nat → K} {f0 : K} {Act : Nat → Prop} {fuel : Nat} (hf : G.nNodes < fuel) {s : St K} {mid : Nat} (hI : AdoptInv G c0 t0 f0 Act s []) (hc : Contact G s mid)
    (H : AddSubgroup K) (hU : Units H s) :
    ∃ s' q', augment G fuel s mid = some (s', q') ∧ s.flow < s'.flow ∧ Units H s' ∧ ∀ j, s'.par j ≠ s.par j → j < G.nNodes := by
  have hn : ∀ j, s.par j ≠ .orphan := fun j k => by simpa using (hI.orph.2 j).1 k
  obtain ⟨l1, r1, C1⟩ := chain_exists hI.tree hn _ hc.tailIn
  obtain ⟨l2, r2, C2⟩ := chain_exists hI.tree hn _ hc.headIn
  obtain ⟨x1, x2, x3, -, x5⟩ := C1.props hI.tree
  obtain ⟨y1, y2, y3, -, y5⟩ := C2.props hI.tree
  have L1 := C1.length_le hG hI.tree
  have L2 := C2.length_le hG hI.tree
  have R1 := C1.lt hG hI.tree (hG.head_lt _ (hG.sis_lt _ hc.lt))
  have R2 := C2.lt hG hI.tree (hG.head_lt _ hc.lt)
  rw [hc.tailSource] at x1
  rw [hc.headSink] at y1
  have pos : ∀ c < G.nArcs, s.rcap c ≠ 0 → 0 < s.rcap c := fun c hc k => lt_of_le_of_ne (hI.flow.nonneg c hc) (Ne.symm k)
  have in1 : ∀ x ∈ l1, ∀ a, s.par x = .arc a → 0 < into G s false a ∧ into G s false a ∈ H := by
    intro x hx a ha
    have k := hI.live.arc x a ha
    rw [(x3 x hx).1, hc.tailSource] at k
    exact ⟨pos _ (hG.sis_lt _ (hI.tree.lt x a ha)) k, hU.rcap _⟩
  have in2 : ∀ x ∈ l2, ∀ a, s.par x = .arc a → 0 < into G s true a ∧ into G s true a ∈ H := by
    intro x hx a ha
    have k := hI.live.arc x a ha
    rw [(y3 x hx).1, hc.headSink] at k
    exact ⟨pos _ (hI.tree.lt x a ha) k, hU.rcap _⟩
  have t1 : 0 < s.tr r1 := by
    have k := hI.live.term r1 R1 x2
    have k2 := (hI.tree.root r1 k).2.1
    rw [x1] at k2
    exact lt_of_le_of_ne (not_lt.1 (of_decide_eq_false k2.symm)) (Ne.symm k)
  have t2 : 0 < -s.tr r2 := by
    have k := hI.live.term r2 R2 y2
    have k2 := (hI.tree.root r2 k).2.1
    rw [y1] at k2
    exact neg_pos.2 (of_decide_eq_true k2.symm)
  obtain ⟨m1, e1, p1, h1⟩ := bottle_total (b := false) H C1 (by omega : l1.length < fuel) (pos mid hc.lt hc.cap) (hU.rcap mid) in1
  obtain ⟨m2, e2, p2, h2⟩ := bottle_total (b := true) H C2 (by omega : l2.length < fuel) (m := if s.tr r1 < m1 then s.tr r1 else m1) (by split <;> assumption)
    (by split <;> [exact hU.tr _; assumption]) in2
  change bottle G s false fuel (G.head (G.sister mid)) (s.rcap mid) = some (m1, r1) at e1
  simp only [augment, e1, e2]
  set m := if -s.tr r2 < m2 then -s.tr r2 else m2 with hm
  have mp : 0 < m := by rw [hm]; split <;> assumption
  have mH : m ∈ H := by rw [hm]; split <;> [exact H.neg_mem (hU.tr _); assumption]
  clear_value m
  set s1 := pushArc G s mid m with hs1
  have par1 : s1.par = s.par := rfl
  have cap1 : ∀ a, s1.rcap a ∈ H := by
    intro c
    simp only [hs1, pushArc, upd]
    split_ifs <;> first | exact H.sub_mem (H.add_mem (hU.rcap _) mH) mH | exact H.sub_mem (hU.rcap _) mH | exact H.add_mem (hU.rcap _) mH | exact hU.rcap _
  have tr1 : s1.tr = s.tr := rfl
  have fl1 : s1.flow = s.flow := rfl
  clear_value s1
  have nr1 : r1 ∉ l1 := fun k => by obtain ⟨-, a, ha⟩ := x3 r1 k; rw [x2] at ha; cases ha
  have nr2 : r2 ∉ l2 := fun k => by obtain ⟨-, a, ha⟩ := y3 r2 k; rw [y2] at ha; cases ha
  obtain ⟨s2, q2, e3, k2, tr2, fl2, cap2⟩ := push_total (b := false) H mH (f := fuel) (q := []) (C1.congr (s' := s1) (fun _ _ => by rw [par1]) (by rw [par1])) x5 nr1 (by omega) cap1
  change push G false m fuel s1 (G.head (G.sister mid)) [] = _ at e3
  simp only [e3]
  set s3 := ({ s2 with tr := upd s2.tr r1 (s2.tr r1 - m) } : St K) with hs3
  obtain ⟨o1, o2⟩ := orphanIf_facts s3 (s3.tr r1) r1 q2
  set s4 := (orphanIf s3 (s3.tr r1) r1 q2).1 with hs4
  have par4 : ∀ j, j ∉ l1 → j ≠ r1 → s4.par j = s.par j := fun j hj hr => by rw [o2 j hr]; exact (k2 j hj).trans (by rw [par1])
  have off : ∀ j, s.sink j = true → j ∉ l1 ∧ j ≠ r1 := fun j hj => ⟨fun k => (by rw [(x3 j k).1, hc.tailSource] at hj; cases hj), fun k => (by rw [k, x1] at hj; cases hj)⟩
  have cap4 : ∀ a, s4.rcap a ∈ H := by rw [o1.rcap]; exact cap2
  have tr4 : s4.tr = upd s2.tr r1 (s2.tr r1 - m) := o1.tr
  have fl4 : s4.flow = s.flow := o1.flow.trans (fl2.trans fl1)
  clear_value s4
  obtain ⟨s5, q5, e5, k5, tr5, fl5, cap5⟩ := push_total (b := true) H mH (f := fuel) (q := (orphanIf s3 (s3.tr r1) r1 q2).2) (C2.congr (s' := s4)
    (fun x hx => have k : s.sink x = true := (y3 x hx).1.trans hc.headSink; par4 x (off x k).1 (off x k).2) (par4 r2 (off r2 y1).1 (off r2 y1).2)) y5 nr2 (by omega) cap4
  show ∃ s' q', augmentSink G fuel m mid s4 (orphanIf s3 (s3.tr r1) r1 q2).2 = some (s', q') ∧ _
  unfold augmentSink
  rw [e5]
  dsimp only
  set s6 := ({ s5 with tr := upd s5.tr r2 (s5.tr r2 + m) } : St K) with hs6
  obtain ⟨w1, w2⟩ := orphanIf_facts s6 (s6.tr r2) r2 q5
  have fl6 : (orphanIf s6 (s6.tr r2) r2 q5).1.flow = s.flow := w1.flow.trans (fl5.trans fl4)
  have trH2 : ∀ i, s2.tr i ∈ H := by rw [tr2, tr1]; exact hU.tr
  have trH5 : ∀ i, s5.tr i ∈ H := by
    rw [tr5, tr4]
    intro i
    simp only [upd]
    split
    · exact H.sub_mem (trH2 _) mH
    · exact trH2 _
  refine ⟨_, _, rfl, ?_, ⟨?_, ?_, ?_⟩, ?_⟩
  · show s.flow < _ + m
    rw [fl6]
    exact lt_add_of_pos_right _ mp
  · show ∀ a, (orphanIf s6 (s6.tr r2) r2 q5).1.rcap a ∈ H
    rw [w1.rcap]
    exact cap5
  · show ∀ a, (orphanIf s6 (s6.tr r2) r2 q5).1.tr a ∈ H
    rw [w1.tr]
    intro i
    simp only [hs6, upd]
    split
    · exact H.add_mem (trH5 _) mH
    · exact trH5 _
  · show (orphanIf s6 (s6.tr r2) r2 q5).1.flow + m ∈ H
    rw [fl6]
    exact H.add_mem hU.flow mH
  · intro j hj
    by_contra hlt
    apply hj
    have j1 : j ≠ r1 := fun e => hlt (e ▸ R1)
    have j2 : j ≠ r2 := fun e => hlt (e ▸ R2)
    have j3 : j ∉ l1 := fun k => by obtain ⟨-, a, ha⟩ := x3 j k; exact hlt (par_lt hG hI.tree ha)
    have j4 : j ∉ l2 := fun k => by obtain ⟨-, a, ha⟩ := y3 j k; exact hlt (par_lt hG hI.tree ha)
    exact (w2 j j2).trans ((k5 j j4).trans (par4 j j3 j1))

omit [IsOrderedAddMonoid K] in
theorem origin_total {G : Graph} {s : St K} (h : TreeOk G s) : ∀ i, s.par i ≠ .free → ∃ l : List Nat, l.Nodup ∧ (∀ x ∈ l, (∃ a, s.par x = .arc a) ∧ (x = i ∨ s.ts i < s.ts x ∨ (s.ts i = s.ts x ∧ s.dist x < s.dist i))) ∧
    ∀ f d, l.length < f → ∃ o, origin G f s i d = some o :=
  h.induct fun i hi ih => by
    by_cases ht : s.ts i = s.time
    · refine ⟨[], List.nodup_nil, by simp, fun f d hf => ?_⟩
      obtain ⟨f, rfl⟩ : ∃ k, f = k + 1 := ⟨f - 1, by simp at hf; omega⟩
      exact ⟨_, by simp [origin, ht]; rfl⟩
    rcases hp : s.par i with _ | _ | _ | a
    · exact absurd hp hi
    · refine ⟨[], List.nodup_nil, by simp, fun f d hf => ?_⟩
      obtain ⟨f, rfl⟩ : ∃ k, f = k + 1 := ⟨f - 1, by simp at hf; omega⟩
      exact ⟨_, by simp [origin, ht, hp]; rfl⟩
    · refine ⟨[], List.nodup_nil, by simp, fun f d hf => ?_⟩
      obtain ⟨f, rfl⟩ : ∃ k, f = k + 1 := ⟨f - 1, by simp at hf; omega⟩
      exact ⟨_, by simp [origin, ht, hp]; rfl⟩
    · obtain ⟨l, l1, l2, l3⟩ := ih a hp
      have hr := h.rank _ _ hp
      have below : ∀ z ∈ l, s.ts i < s.ts z ∨ (s.ts i = s.ts z ∧ s.dist z < s.dist i) := by
        intro z hz
        rcases (l2 z hz).2 with rfl | k
        · exact hr
        · omega
      refine ⟨i :: l, List.nodup_cons.2 ⟨fun k => (by have := below i k; omega), l1⟩, fun x hx => ?_, fun f d hf => ?_⟩
      · rcases List.mem_cons.1 hx with rfl | hx
        · exact ⟨⟨a, hp⟩, Or.inl rfl⟩
        · exact ⟨(l2 x hx).1, Or.inr (below x hx)⟩
      · obtain ⟨f, rfl⟩ : ∃ k, f = k + 1 := ⟨f - 1, by simp at hf; omega⟩
        obtain ⟨o, ho⟩ := l3 f (d + 1) (by simp at hf; omega)
        exact ⟨o, by simp only [origin, if_neg ht, hp]; exact ho⟩

omit [IsOrderedAddMonoid K] in
theorem mark_total {G : Graph} : ∀ {f : Nat} {l : List Nat} {s : St K} {j e : Nat}, MPath G s j l e → l.Nodup → l.length < f → ∃ s', mark G f s j e = some s'
  | 0, _, _, _, _, _, _, hf => absurd hf (by omega)
  | f + 1, [], s, j, e, ⟨h1, h2⟩, _, _ => ⟨s, by simp [mark, h1]⟩
  | f + 1, x :: l, s, j, e, ⟨h1, h2, a, e', h3, h4, h5⟩, hn, hf => by
    subst h1
    rw [List.nodup_cons] at hn
    simp only [mark, if_neg h2, h3]
    rw [show e - 1 = e' by omega]
    refine mark_total (l := l) ?_ hn.2 (by simp at hf; omega)
    refine MPath.congr (s := s) (s' := { s with ts := upd s.ts x s.time, dist := upd s.dist x e }) rfl rfl h5 (fun z hz => ?_) fun z hz => upd_ne s.ts s.time (fun e : z = x => hn.1 (e ▸ hz))
    have : z ≠ x := fun e => h2 (e ▸ hz)
    exact ⟨upd_ne _ _ this, upd_ne _ _ this⟩

omit [IsOrderedAddMonoid K] in
theorem scanParent_total {G : Graph} (hG : GOk G) {fuel : Nat} (hf : G.nNodes < fuel) {b : Bool} : ∀ {l : List Nat} {s : St K} {best : Option (Nat × Nat)}, TreeOk G s → MarkOk G s →
    ∃ r, scanParent G fuel b l s best = some r
  | [], s, best, _, _ => ⟨_, rfl⟩
  | a :: l, s, best, hT, hM => by
    unfold scanParent
    split
    · exact scanParent_total hG hf hT hM
    split
    · exact scanParent_total hG hf hT hM
    next k =>
    rw [not_or] at k
    obtain ⟨p, p1, p2, p3⟩ := origin_total hT _ k.2
    obtain ⟨⟨o, s1⟩, ho⟩ := p3 fuel 0 (lt_of_le_of_lt (nodup_le p1 fun x hx => by obtain ⟨⟨c, hc⟩, -⟩ := p2 x hx; exact par_lt hG hT hc) hf)
    obtain ⟨T1, M1, -, -, hp⟩ := origin_spec hT hM ho
    rw [ho]
    cases o with
    | none => exact scanParent_total hG hf T1 M1
    | some d =>
      dsimp only
      obtain ⟨q, e, hq, he⟩ := hp d rfl
      rw [Nat.zero_add] at he
      subst he
      have hnd := (hq.nodup T1).2
      obtain ⟨s2, hs2⟩ := mark_total (f := fuel) hq hnd (lt_of_le_of_lt (nodup_le hnd fun x hx => by obtain ⟨-, c, hc⟩ := hq.mem x hx; exact par_lt hG T1 hc) hf)
      obtain ⟨T2, M2, -⟩ := mark_spec T1 M1 hq hs2
      rw [hs2]
      exact scanParent_total hG hf T2 M2

/-- The nodes that can still become orphans in this round. -/
def waiting (G : Graph) (s : St K) : Finset Nat := by classical exact (range G.nNodes).filter fun j => s.par j ≠ .free ∧ s.ts j ≠ s.time

/-- Looking for a parent of an orphan ends, and it is not an orphan again in this round. -/
theorem processOrphan_total {G : Graph} (hG : GOk G) {c0 t0 : Nat → K} {f0 : K} {fuel : Nat} (hf : G.nNodes < fuel) {s : St K} {i : Nat} {q rest : List Nat} (h : OrphInv G c0 t0 f0 s (i :: q ++ rest))
    (hlt : ∀ j, s.par j = .orphan → j < G.nNodes) :
    ∃ s' q', processOrphan G fuel s i q = some (s', q') ∧ SameFlow s s' ∧ (waiting G s').card < (waiting G s).card ∧ ∀ j, s'.par j = .orphan → j < G.nNodes := by
  have hi : s.par i = .orphan := (h.orph.2 i).2 (by simp)
  have hts : s.ts i ≠ s.time := fun k => (h.marks i k).1 hi
  have hin : i ∈ waiting G s := by
    simp only [waiting, mem_filter, mem_range]
    exact ⟨hlt i hi, by rw [hi]; simp, hts⟩
  have less : ∀ s' : St K, (∀ j, s'.par j ≠ .free → s.par j ≠ .free) → s'.time = s.time → (∀ j, s.ts j = s.time → s'.ts j = s.time) → (s'.par i = .free ∨ s'.ts i = s.time) → (waiting G s').card < (waiting G s).card := by
    intro s' e1 e2 e3 e4
    refine card_lt_card ((ssubset_iff_of_subset fun j hj => ?_).2 ⟨i, hin, fun k => ?_⟩)
    · simp only [waiting, mem_filter, mem_range] at hj ⊢
      exact ⟨hj.1, e1 j hj.2.1, fun k => hj.2.2 (by rw [e2]; exact e3 j k)⟩
    · simp only [waiting, mem_filter, mem_range] at k
      rcases e4 with e | e
      · exact k.2.1 e
      · exact k.2.2 (by rw [e2]; exact e)
  obtain ⟨⟨s1, best⟩, hs⟩ := scanParent_total hG hf (b := s.sink i) (l := G.adj i) (best := none) h.tree h.marks
  obtain ⟨-, -, F, -⟩ := scanParent_spec (i := i) h.tree h.marks (fun a d k => by simp at k) (fun _ k => k) hs
  have ep : s1.par = s.par := by rw [F.eq]
  have et : s1.time = s.time := by rw [F.eq]
  have eF : SameFlow s s1 := ⟨by rw [F.eq], by rw [F.eq], by rw [F.eq]⟩
  unfold processOrphan
  dsimp only
  rw [hs]
  rcases best with _ | ⟨a, d⟩
  · dsimp only
    have hO : Orph ({ s1 with par := upd s1.par i .free } : St K) (q ++ rest) := by
      have h1 := h.orph.1
      rw [List.cons_append, List.nodup_cons] at h1
      refine ⟨h1.2, fun j => ?_⟩
      show upd s1.par i .free j = .orphan ↔ _
      by_cases e : j = i
      · subst e
        rw [upd_same]
        exact ⟨fun k => (by cases k), fun k => absurd k h1.1⟩
      · rw [upd_ne _ _ e, ep, h.orph.2 j]
        simp [e]
    have D := dropChildren_spec (G := G) (b := s.sink i) (i := i) (rest := rest) (G.adj i) { s1 with par := upd s1.par i .free } q hO
    set r := dropChildren G (s.sink i) i (G.adj i) { s1 with par := upd s1.par i .free } q
    have par0 : ∀ j, r.1.par j = upd s1.par i .free j ∨ (r.1.par j = .orphan ∧ ∃ a, s.par j = .arc a) := by
      intro j
      rcases D.par j with k | ⟨k, a, ha, -⟩
      · exact Or.inl k
      · refine Or.inr ⟨k, a, ?_⟩
        by_cases e : j = i
        · subst e
          change upd s1.par j .free j = _ at ha
          rw [upd_same] at ha
          cases ha
        · change upd s1.par i .free j = _ at ha
          rwa [upd_ne _ _ e, ep] at ha
    refine ⟨r.1, r.2, rfl, ?_, less r.1 (fun j hj => ?_) ?_ (fun j hj => ?_) (Or.inl ?_), fun j hj => ?_⟩
    · exact eF.trans ⟨by rw [D.eq], by rw [D.eq], by rw [D.eq]⟩
    · rcases par0 j with k | ⟨-, a, ha⟩
      · by_cases e : j = i
        · rw [e, hi]; simp
        · rw [k, upd_ne _ _ e, ep] at hj
          exact hj
      · rw [ha]; simp
    · rw [D.eq]; exact et
    · rw [D.eq]; exact (F.keep j hj).1
    · rcases par0 i with k | ⟨-, a, ha⟩
      · rw [k, upd_same]
      · rw [hi] at ha; cases ha
    · rcases par0 j with k | ⟨-, a, ha⟩
      · by_cases e : j = i
        · rw [e]; exact hlt i hi
        · rw [k, upd_ne _ _ e, ep] at hj
          exact hlt j hj
      · exact par_lt hG h.tree ha
  · refine ⟨_, q, rfl, eF.trans ⟨rfl, rfl, rfl⟩, less _ (fun j hj => ?_) et (fun j hj => ?_) (Or.inr ?_), fun j hj => ?_⟩
    · by_cases e : j = i
      · rw [e, hi]; simp
      · change upd s1.par i (.arc a) j ≠ _ at hj
        rw [upd_ne _ _ e, ep] at hj
        exact hj
    · show upd s1.ts i s1.time j = _
      by_cases e : j = i
      · rw [e, upd_same, et]
      · rw [upd_ne _ _ e]; exact (F.keep j hj).1
    · show upd s1.ts i s1.time i = _
      rw [upd_same, et]
    · change upd s1.par i (.arc a) j = _ at hj
      by_cases e : j = i
      · rw [e, upd_same] at hj; cases hj
      · rw [upd_ne _ _ e, ep] at hj
        exact hlt j hj

theorem adoptQueue_total {G : Graph} (hG : GOk G) {c0 t0 : Nat → K} {f0 : K} {fuel : Nat} (hf : G.nNodes < fuel) {rest : List Nat} : ∀ {n : Nat} {s : St K} {q : List Nat}, OrphInv G c0 t0 f0 s (q ++ rest) →
    (∀ j, s.par j = .orphan → j < G.nNodes) → (waiting G s).card < n → ∃ s', adoptQueue G fuel n s q = some s' ∧ SameFlow s s' ∧ ∀ j, s'.par j = .orphan → j < G.nNodes
  | 0, _, _, _, _, hn => absurd hn (by omega)
  | n + 1, s, [], _, hl, _ => ⟨s, by simp [adoptQueue], SameFlow.refl _, hl⟩
  | n + 1, s, i :: q, h, hl, hn => by
    obtain ⟨s1, q1, e, f, w, l1⟩ := processOrphan_total hG hf h hl
    obtain ⟨h1, -⟩ := processOrphan_spec hG h e
    obtain ⟨s2, e2, f2, l2⟩ := adoptQueue_total hG hf (n := n) h1 l1 (by omega)
    exact ⟨s2, by simp only [adoptQueue, e]; exact e2, f.trans f2, l2⟩

theorem adopt_total {G : Graph} (hG : GOk G) {c0 t0 : Nat → K} {f0 : K} {fuel : Nat} (hf : G.nNodes < fuel) : ∀ {q : List Nat} {s : St K}, OrphInv G c0 t0 f0 s q → (∀ j, s.par j = .orphan → j < G.nNodes) →
    ∃ s', adopt G fuel s q = some s' ∧ SameFlow s s'
  | [], s, _, _ => ⟨s, rfl, SameFlow.refl _⟩
  | i :: q, s, h, hl => by
    have hw : (waiting G s).card < fuel := by
      refine lt_of_le_of_lt ?_ hf
      have := card_le_card (filter_subset (fun j => s.par j ≠ .free ∧ s.ts j ≠ s.time) (range G.nNodes))
      rw [card_range] at this
      unfold waiting
      convert this
    obtain ⟨s1, e1, f1, l1⟩ := adoptQueue_total (q := [i]) hG hf h hl hw
    obtain ⟨h1, -⟩ := adoptQueue_spec (q := [i]) hG h e1
    obtain ⟨s2, e2, f2⟩ := adopt_total hG hf h1 l1
    exact ⟨s2, by simp only [adopt, e1]; exact e2, f1.trans f2⟩

/-- The nodes outside of the trees. -/
def frees (G : Graph) (s : St K) : Finset Nat := by classical exact (range G.nNodes).filter fun j => s.par j = .free

/-- Decreases in every iteration without augmentation. -/
def work (G : Graph) (s : St K) : Nat := 2 * (frees G s).card + s.q0.length + s.q1.length + (if s.cur.isSome then 1 else 0)

omit [AddCommGroup K] [LinearOrder K] [IsOrderedAddMonoid K] in
theorem setActive_work (s : St K) (i : Nat) : (setActive s i).q0.length + (setActive s i).q1.length ≤ s.q0.length + s.q1.length + 1 := by
  unfold setActive
  split
  · omega
  · simp; omega

omit [IsOrderedAddMonoid K] in
theorem grow_work {G : Graph} (hG : GOk G) {b : Bool} {i : Nat} : ∀ (l : List Nat) (s : St K), (∀ a ∈ l, a < G.nArcs) → work G (grow G b i l s).1 ≤ work G s
  | [], s, _ => le_refl _
  | a :: l, s, hl => by
    have hl' : ∀ a ∈ l, a < G.nArcs := fun a k => hl a (by simp [k])
    unfold grow
    split
    · dsimp only
      split
      · next k =>
        refine (grow_work hG l _ hl').trans ?_
        set t : St K := { s with sink := upd s.sink (G.head a) b, par := upd s.par (G.head a) (.arc (G.sister a)), ts := upd s.ts (G.head a) (s.ts i), dist := upd s.dist (G.head a) (s.dist i + 1) }
        have h1 : (frees G t).card < (frees G s).card := by
          refine card_lt_card ((ssubset_iff_of_subset fun j hj => ?_).2 ⟨G.head a, ?_, fun z => ?_⟩)
          · simp only [frees, mem_filter, mem_range] at hj ⊢
            refine ⟨hj.1, ?_⟩
            have h2 : upd s.par (G.head a) (.arc (G.sister a)) j = .free := hj.2
            by_cases e : j = G.head a
            · rw [e]; exact k
            · rwa [upd_ne _ _ e] at h2
          · simp only [frees, mem_filter, mem_range]
            exact ⟨hG.head_lt a (hl a (by simp)), k⟩
          · simp only [frees, mem_filter, mem_range] at z
            have h2 : upd s.par (G.head a) (.arc (G.sister a)) (G.head a) = .free := z.2
            rw [upd_same] at h2
            cases h2
        have h2 := setActive_work t (G.head a)
        have h3 : frees G (setActive t (G.head a)) = frees G t := by
          obtain ⟨q, e⟩ := setActive_eq t (G.head a)
          rw [e]; rfl
        have h4 : (setActive t (G.head a)).cur = s.cur := by
          obtain ⟨q, e⟩ := setActive_eq t (G.head a)
          rw [e]
        have h5 : t.q0.length + t.q1.length = s.q0.length + s.q1.length := rfl
        unfold work
        rw [h3, h4]
        omega
      split
      · exact le_refl _
      split
      · next k _ _ =>
        refine (grow_work hG l _ hl').trans ?_
        set t : St K := { s with par := upd s.par (G.head a) (.arc (G.sister a)), ts := upd s.ts (G.head a) (s.ts i), dist := upd s.dist (G.head a) (s.dist i + 1) }
        have h1 : frees G t ⊆ frees G s := by
          intro j hj
          simp only [frees, mem_filter, mem_range] at hj ⊢
          refine ⟨hj.1, ?_⟩
          have h2 : upd s.par (G.head a) (.arc (G.sister a)) j = .free := hj.2
          by_cases e : j = G.head a
          · rw [e, upd_same] at h2; cases h2
          · rwa [upd_ne _ _ e] at h2
        have h2 := card_le_card h1
        show 2 * (frees G t).card + s.q0.length + s.q1.length + (if s.cur.isSome then 1 else 0) ≤ _
        unfold work
        omega
      · exact grow_work hG l s hl'
    · exact grow_work hG l s hl'

omit [AddCommGroup K] [LinearOrder K] [IsOrderedAddMonoid K] in
theorem popActive_work {par : Nat → Par} : ∀ {l l' : List Nat} {i : Nat}, popActive par l = some (i, l') → l'.length < l.length
  | [], _, _, h => by simp [popActive] at h
  | j :: l, l', i, h => by
    unfold popActive at h
    split at h
    · simp only [Option.some.injEq, Prod.mk.injEq] at h
      obtain ⟨rfl, rfl⟩ := h
      simp
    · have := popActive_work h
      simp
      omega

omit [AddCommGroup K] [LinearOrder K] [IsOrderedAddMonoid K] in
theorem nextActive_work (G : Graph) {s s' : St K} {i : Nat} (h : nextActive s = (some i, s')) : work G s' < work G s := by
  unfold nextActive at h
  split at h
  · next k =>
    have := popActive_work k
    simp only [Prod.mk.injEq] at h
    obtain ⟨-, rfl⟩ := h
    show 2 * (frees G s).card + List.length _ + s.q1.length + (if s.cur.isSome then 1 else 0) < _
    unfold work
    simp only []
    omega
  · split at h
    · next k =>
      have := popActive_work k
      simp only [Prod.mk.injEq] at h
      obtain ⟨-, rfl⟩ := h
      show 2 * (frees G s).card + _ + ([] : List Nat).length + (if s.cur.isSome then 1 else 0) < _
      unfold work
      simp only [List.length_nil]
      omega
    · simp at h

omit [AddCommGroup K] [LinearOrder K] [IsOrderedAddMonoid K] in
theorem choose_work (G : Graph) {s s' : St K} {i : Nat} (h : choose s = (some i, s')) : work G s' < work G s := by
  unfold choose at h
  split at h
  · next j hj =>
    have h0 : work G ({ s with cur := none } : St K) < work G s := by
      show 2 * (frees G s).card + s.q0.length + s.q1.length + 0 < _
      unfold work
      rw [hj]
      simp
    split at h
    · simp only [Prod.mk.injEq] at h
      obtain ⟨-, rfl⟩ := h
      exact h0
    · exact (nextActive_work G h).trans h0
  · exact nextActive_work G h

/-- One iteration returns; it either adds to the flow or decreases the work. -/
theorem step_total {G : Graph} (hG : GOk G) {c0 t0 : Nat → K} {f0 : K} {fuel : Nat} (hf : G.nNodes < fuel) {s : St K} {i : Nat} (hT : TreeOk G s)
    (hP : Pass G s (fun k => s.flagged k ∨ k = i)) (hF : FlowOk G c0 t0 f0 s (fun _ => 0) 0) (hn : ∀ j, s.par j ≠ .orphan) (hi : s.par i ≠ .free) (hcur : s.cur = none) (hL : Live G s)
    (H : AddSubgroup K) (hU : Units H s) :
    ∃ s', step G fuel s i = some s' ∧ Units H s' ∧ ((s'.flow = s.flow ∧ work G s' ≤ work G s) ∨ s.flow < s'.flow) := by
  have hI : GrowInv G s s i (G.adj i) := ⟨hT, hL, hP, hn, hi, rfl, fun c hc => Or.inl hc, SameFlow.refl s, rfl, rfl⟩
  obtain ⟨s1, r, l', hg, h1, h2, h3⟩ := grow_spec hG (G.adj i) s (fun _ k => k) hI
  have hw := grow_work hG (b := s.sink i) (i := i) (G.adj i) s fun a ha => (hG.adj_mem i a ha).1
  rw [hg] at hw
  unfold step
  rw [hg]
  dsimp only
  have T1 : ∀ c, TreeOk G { s1 with time := s1.time + 1, cur := c } := fun c =>
    ⟨h1.tree.lt, h1.tree.tail, h1.tree.up, h1.tree.side, h1.tree.rank, h1.tree.root, h1.tree.dpos, fun j => (h1.tree.tsle j).trans (Nat.le_succ _)⟩
  have F1 := hF.congr h1.same
  have U1 := hU.congr h1.same
  cases r with
  | none => exact ⟨_, rfl, ⟨U1.rcap, U1.tr, U1.flow⟩, Or.inl ⟨h1.same.flow, hw⟩⟩
  | some a =>
    dsimp only
    have C := h3 a rfl
    have A : AdoptInv G c0 t0 f0 (St.flagged { s1 with time := s1.time + 1, cur := some i }) { s1 with time := s1.time + 1, cur := some i } [] := by
      refine ⟨T1 _, ⟨h1.live.arc, h1.live.term⟩, ?_, F1.congr ⟨rfl, rfl, rfl⟩, ⟨List.nodup_nil, fun j => ⟨fun k => absurd k (h1.noOrph j), fun k => by simp at k⟩⟩⟩
      intro c hc k1 k2 k3
      refine h1.pass c hc k1 (fun k => k2 ?_) k3
      rcases k with (k | k | k) | k
      · exact Or.inl k
      · exact Or.inr (Or.inl k)
      · have := h1.cur
        rw [k, hcur] at this
        cases this
      · exact Or.inr (Or.inr (by rw [k]))
    have CC : Contact G ({ s1 with time := s1.time + 1, cur := some i } : St K) a := ⟨C.lt, C.tailIn, C.headIn, C.tailSource, C.headSink, C.6⟩
    obtain ⟨s2, q, ha, f2, U2, l2⟩ := augment_total hG hf A CC H ⟨U1.rcap, U1.tr, U1.flow⟩
    obtain ⟨B, e1, e2, e3, e4, e5, e6⟩ := augment_spec hG A CC ha
    have O : OrphInv G c0 t0 f0 s2 q := by
      refine ⟨B.tree, B.pass.mono fun k hk => ?_, B.flow, B.orph, fun j hj => ?_, B.live⟩
      · simp only [St.flagged] at hk ⊢
        rw [e4, e5, e6]; exact hk
      · rw [e2, e3] at hj
        have := h1.tree.tsle j
        simp only [] at hj
        omega
    obtain ⟨s3, e7, f3⟩ := adopt_total hG hf O fun j hj => l2 j fun k => h1.noOrph j (by rw [← hj, k])
    rw [ha]
    refine ⟨s3, e7, U2.congr f3, Or.inr ?_⟩
    rw [f3.flow, ← h1.same.flow]
    exact f2

/-- `max_flow` returns if all capacities are multiples of a unit. -/
theorem maxFlow_total {G : Graph} (hG : GOk G) {c0 t0 : Nat → K} {f0 : K} {fuel : Nat} (hf : G.nNodes < fuel) {u B : K} (hu : 0 < u) (hB : ∀ s, FlowOk G c0 t0 f0 s (fun _ => 0) 0 → s.flow ≤ B) :
    ∀ (k w : Nat) (s : St K), MainInv G c0 t0 f0 s → Units (AddSubgroup.zmultiples u) s → B - s.flow = k • u → work G s ≤ w → ∃ n s', maxFlow G fuel n s = some s' := by
  intro k
  induction k using Nat.strong_induction_on with
  | _ k ihk =>
    intro w
    induction w with
    | zero =>
      intro s hI hU hk hw
      rcases hc : choose s with ⟨_ | i, s1⟩
      · exact ⟨1, s1, by simp [maxFlow, hc]⟩
      · have := choose_work G hc
        omega
    | succ w ihw =>
      intro s hI hU hk hw
      rcases hc : choose s with ⟨_ | i, s1⟩
      · exact ⟨1, s1, by simp [maxFlow, hc]⟩
      have hlt := choose_work G hc
      obtain ⟨e, ec, -, c⟩ := choose_spec hI hc
      obtain ⟨c1, c2⟩ := c i rfl
      have T1 : TreeOk G s1 := by
        rw [e]
        exact ⟨hI.tree.lt, hI.tree.tail, hI.tree.up, hI.tree.side, hI.tree.rank, hI.tree.root, hI.tree.dpos, hI.tree.tsle⟩
      have F1 := hI.flow.congr (s' := s1) ⟨by rw [e], by rw [e], by rw [e]⟩
      have n1 : ∀ j, s1.par j ≠ .orphan := by rw [show s1.par = s.par by rw [e]]; exact hI.noOrph
      have i1 : s1.par i ≠ .free := by rw [show s1.par = s.par by rw [e]]; exact c1
      have L1 : Live G s1 := by rw [e]; exact ⟨hI.live.arc, hI.live.term⟩
      obtain ⟨s2, hs, U2, h2⟩ := step_total hG hf T1 c2 F1 n1 i1 ec L1 _ (hU.congr (s' := s1) ⟨by rw [e], by rw [e], by rw [e]⟩)
      have I2 := step_spec hG T1 c2 F1 n1 i1 ec L1 hs
      have ef : s1.flow = s.flow := by rw [e]
      have done : (∃ n s', maxFlow G fuel n s2 = some s') → ∃ n s', maxFlow G fuel n s = some s' := by
        rintro ⟨n, s', h⟩
        exact ⟨n + 1, s', by simp only [maxFlow, hc, hs]; exact h⟩
      apply done
      rcases h2 with ⟨h2, h3⟩ | h2
      · exact ihw s2 I2 U2 (by rw [h2, ef]; exact hk) (by omega)
      · rw [ef] at h2
        obtain ⟨z, hz⟩ := AddSubgroup.mem_zmultiples_iff.1 (AddSubgroup.sub_mem _ U2.flow hU.flow)
        have h4 : B - s2.flow = ((k : ℤ) - z) • u := by
          rw [sub_zsmul, hz, natCast_zsmul, ← hk]
          abel
        have z0 : 0 < z := by
          have : 0 < z • u := by rw [hz]; exact sub_pos.2 h2
          by_contra hneg
          have := zsmul_le_zsmul_left hu.le (not_lt.1 hneg)
          rw [zero_zsmul] at this
          exact absurd this (not_le.2 ‹_›)
        have z1 : 0 ≤ (k : ℤ) - z := by
          have : 0 ≤ ((k : ℤ) - z) • u := by rw [← h4]; exact sub_nonneg.2 (hB s2 I2.flow)
          by_contra hneg
          have h5 := zsmul_lt_zsmul_left hu (not_le.1 hneg)
          rw [zero_zsmul] at h5
          exact absurd this (not_le.2 h5)
        obtain ⟨k', hk'⟩ := Int.eq_ofNat_of_zero_le z1
        refine ihk k' (by omega) (work G s2) s2 I2 U2 ?_ (le_refl _)
        rw [h4, hk']
        exact natCast_zsmul _ _

omit [LinearOrder K] [IsOrderedAddMonoid K] in
theorem getD_mem {l : List K} {H : AddSubgroup K} (h : ∀ x ∈ l, x ∈ H) (i : Nat) : l.getD i 0 ∈ H := by
  rw [List.getD_eq_getElem?_getD]
  cases k : l[i]? with
  | none => exact H.zero_mem
  | some x => exact h x (List.mem_of_getElem? k)

omit [IsOrderedAddMonoid K] in
theorem build_units {source sink : List K} {edges : List (Edge K)} {H : AddSubgroup K} (h1 : ∀ x ∈ source, x ∈ H) (h2 : ∀ x ∈ sink, x ∈ H) (h3 : ∀ e ∈ edges, e.2.2.1 ∈ H ∧ e.2.2.2 ∈ H) :
    Units H (build source sink edges).2 := by
  have hnew : Units H (new source sink).2 := by
    have hz : ∀ p ∈ source.zip sink, p.1 ∈ H ∧ p.2 ∈ H := fun p hp => ⟨h1 _ (List.of_mem_zip hp).1, h2 _ (List.of_mem_zip hp).2⟩
    have hf : ∀ (l : List (K × K)) (x : K), (∀ p ∈ l, p.1 ∈ H ∧ p.2 ∈ H) → x ∈ H → l.foldl (fun f p => f + if p.1 < p.2 then p.1 else p.2) x ∈ H := by
      intro l
      induction l with
      | nil => exact fun x _ hx => hx
      | cons p l ih =>
        intro x hl hx
        refine ih _ (fun q hq => hl q (by simp [hq])) (H.add_mem hx ?_)
        split
        · exact (hl p (by simp)).1
        · exact (hl p (by simp)).2
    have hfold : ∀ (l : List Nat) (s : St K), Units H s → Units H (l.foldl newStep s) := by
      intro l
      induction l with
      | nil => exact fun s hs => hs
      | cons i l ih =>
        intro s hs
        refine ih _ ?_
        unfold newStep
        dsimp only
        split
        · exact ⟨hs.rcap, hs.tr, hs.flow⟩
        · obtain ⟨q, e⟩ := setActive_eq ({ s with sink := upd s.sink i (decide (s.tr i < 0)) } : St K) i
          rw [e]
          exact ⟨hs.rcap, hs.tr, hs.flow⟩
    refine hfold _ _ ⟨fun _ => H.zero_mem, fun i => ?_, hf _ _ hz H.zero_mem⟩
    refine getD_mem (fun x hx => ?_) i
    obtain ⟨p, hp, rfl⟩ := List.mem_map.1 hx
    exact H.sub_mem (hz p hp).1 (hz p hp).2
  have hedge : ∀ (l : List (Edge K)) (g : Graph × St K), (∀ e ∈ l, e.2.2.1 ∈ H ∧ e.2.2.2 ∈ H) → Units H g.2 → Units H (l.foldl (fun g e => addEdge g e.1 e.2.1 e.2.2.1 e.2.2.2) g).2 := by
    intro l
    induction l with
    | nil => exact fun g _ hg => hg
    | cons e l ih =>
      intro g hl hg
      refine ih _ (fun q hq => hl q (by simp [hq])) ⟨fun a => ?_, hg.tr, hg.flow⟩
      show upd (upd g.2.rcap g.1.nArcs e.2.2.1) (g.1.nArcs + 1) e.2.2.2 a ∈ H
      simp only [upd]
      split
      · exact (hl e (by simp)).2
      · split
        · exact (hl e (by simp)).1
        · exact hg.rcap a
  exact hedge _ _ h3 hnew

/-- If all capacities are multiples of a unit, `max_flow` returns, whatever the network. The loops along the paths of parents and over the orphans need at most one step more than there are nodes. -/
theorem c18_returns_unit {source sink : List K} {edges : List (Edge K)} (h : InputOk source sink edges) {u : K} (hu : 0 < u) (h1 : ∀ x ∈ source, ∃ z : ℤ, x = z • u) (h2 : ∀ x ∈ sink, ∃ z : ℤ, x = z • u)
    (h3 : ∀ e ∈ edges, (∃ z : ℤ, e.2.2.1 = z • u) ∧ ∃ z : ℤ, e.2.2.2 = z • u) {fuel : Nat} (hf : source.length < fuel) :
    ∃ n s, maxFlow (build source sink edges).1 fuel n (build source sink edges).2 = some s := by
  have mem : ∀ {x : K}, (∃ z : ℤ, x = z • u) → x ∈ AddSubgroup.zmultiples u := fun ⟨z, hz⟩ => AddSubgroup.mem_zmultiples_iff.2 ⟨z, hz.symm⟩
  have hU := build_units (H := AddSubgroup.zmultiples u) (edges := edges) (fun x hx => mem (h1 x hx)) (fun x hx => mem (h2 x hx)) fun e he => ⟨mem (h3 e he).1, mem (h3 e he).2⟩
  have hB := build_ok h
  have hI := build_inv h
  set G := (build source sink edges).1
  set s := (build source sink edges).2
  set B := s.flow + ∑ i ∈ range G.nNodes, max 0 (s.tr i) with hBdef
  have hb : ∀ t, FlowOk G s.rcap s.tr s.flow t (fun _ => 0) 0 → t.flow ≤ B := by
    intro t ht
    have := ht.val
    rw [add_zero] at this
    rw [hBdef, ← this]
    exact le_add_of_nonneg_right (sum_nonneg fun i _ => le_max_left _ _)
  have hd : B - s.flow ∈ AddSubgroup.zmultiples u := by
    rw [hBdef, add_sub_cancel_left]
    refine AddSubgroup.sum_mem _ fun i _ => ?_
    rcases max_choice 0 (s.tr i) with e | e <;> rw [e]
    · exact AddSubgroup.zero_mem _
    · exact hU.tr i
  obtain ⟨z, hz⟩ := AddSubgroup.mem_zmultiples_iff.1 hd
  have z0 : 0 ≤ z := by
    by_contra hneg
    have h5 := zsmul_lt_zsmul_left hu (not_le.1 hneg)
    rw [zero_zsmul, hz] at h5
    exact absurd (sub_nonneg.2 (hb s hI.flow)) (not_le.2 h5)
  obtain ⟨k, rfl⟩ := Int.eq_ofNat_of_zero_le z0
  refine maxFlow_total hB.gok (by rw [hB.nodes]; exact hf) hu hb k _ s hI hU ?_ (le_refl _)
  rw [← hz]
  exact natCast_zsmul _ _
end

theorem common_unit : ∀ l : List ℚ, ∃ d : ℕ, 0 < d ∧ ∀ x ∈ l, ∃ z : ℤ, x = z • (1 / (d : ℚ))
  | [] => ⟨1, by omega, by simp⟩
  | x :: l => by
    obtain ⟨d, d0, hd⟩ := common_unit l
    have dq : (d : ℚ) ≠ 0 := by exact_mod_cast d0.ne'
    have xq : (x.den : ℚ) ≠ 0 := by exact_mod_cast x.den_ne_zero
    refine ⟨d * x.den, Nat.mul_pos d0 x.den_pos, fun y hy => ?_⟩
    rcases List.mem_cons.1 hy with rfl | hy
    · refine ⟨y.num * d, ?_⟩
      rw [zsmul_eq_mul]
      push_cast
      conv_lhs => rw [← Rat.num_div_den y]
      field_simp
    · obtain ⟨z, rfl⟩ := hd y hy
      refine ⟨z * x.den, ?_⟩
      rw [zsmul_eq_mul, zsmul_eq_mul]
      push_cast
      field_simp

/-- `max_flow` returns for all networks with finite capacities (all doubles are rational numbers): then the flow is the capacity of a minimum cut. -/
theorem c18_returns {source sink : List ℚ} {edges : List (Edge ℚ)} (h : InputOk source sink edges) {fuel : Nat} (hf : source.length < fuel) :
    ∃ n s, maxFlow (build source sink edges).1 fuel n (build source sink edges).2 = some s ∧ s.flow = cutCap source sink edges s.inSource ∧ ∀ S, s.flow ≤ cutCap source sink edges S := by
  obtain ⟨d, d0, hd⟩ := common_unit (source ++ sink ++ edges.map (fun e => e.2.2.1) ++ edges.map fun e => e.2.2.2)
  obtain ⟨n, s, e⟩ := c18_returns_unit h (u := 1 / (d : ℚ)) (by positivity) (fun x hx => hd x (by simp [hx])) (fun x hx => hd x (by simp [hx]))
    (fun e he => ⟨hd _ (by simp only [List.mem_append, List.mem_map]; exact Or.inl (Or.inr ⟨e, he, rfl⟩)), hd _ (by simp only [List.mem_append, List.mem_map]; exact Or.inr ⟨e, he, rfl⟩)⟩) hf
  exact ⟨n, s, e, c18_max_flow h e⟩

-- a network with fractions: one third and one half flow from node 0 over node 1 and node 2
example : InputOk ([5 / 6, 0, 0, 0] : List ℚ) [0, 0, 0, 1] [(0, 1, 1 / 3, 0), (0, 2, 1 / 2, 1 / 7), (1, 3, 1, 0), (2, 3, 1, 0)] := ⟨rfl, by decide +kernel, by decide +kernel⟩
example : ((maxFlow (build ([5 / 6, 0, 0, 0] : List ℚ) [0, 0, 0, 1] [(0, 1, 1 / 3, 0), (0, 2, 1 / 2, 1 / 7), (1, 3, 1, 0), (2, 3, 1, 0)]).1 5 30
    (build ([5 / 6, 0, 0, 0] : List ℚ) [0, 0, 0, 1] [(0, 1, 1 / 3, 0), (0, 2, 1 / 2, 1 / 7), (1, 3, 1, 0), (2, 3, 1, 0)]).2).map fun s => s.flow) = some (5 / 6) := by decide +kernel
end Verif.Cut
