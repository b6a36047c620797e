import Verif.Flow.Push
/-!
# `relabel`, `discharge` and `find_max_flow`
-/
namespace Verif.Flow

open Finset

variable {T : Type} [AddCommGroup T] [LinearOrder T]

/-- The minimum taken by `calc_new_label`. -/
theorem minLabel_spec {label : List Nat} {b : Nat} : ∀ (row : List (Arc T)) (m : Nat), (∀ a ∈ row, a.dist < label.length) → b ≤ m →
    (∀ a ∈ row, 0 < a.cap → b ≤ val label a.dist) →
    ∃ m', row.foldlM (fun m a => do if 0 < a.cap then pure (min m (← label[a.dist]?)) else pure m) m = some m' ∧ m' ≤ m ∧ b ≤ m' ∧
      ∀ a ∈ row, 0 < a.cap → m' ≤ val label a.dist := by
  intro row
  induction row with
  | nil => intro m _ hb _; exact ⟨m, rfl, le_rfl, hb, by simp⟩
  | cons a row ih =>
    intro m hl hb hrow
    have hl' : ∀ a ∈ row, a.dist < label.length := fun x hx => hl x (List.mem_cons_of_mem _ hx)
    have hrow' : ∀ a ∈ row, 0 < a.cap → b ≤ val label a.dist := fun x hx => hrow x (List.mem_cons_of_mem _ hx)
    rw [List.foldlM_cons]
    by_cases h : 0 < a.cap
    · obtain ⟨m', h1, h2, h3, h4⟩ := ih (min m (val label a.dist)) hl' (le_min hb (hrow a (by simp) h)) hrow'
      refine ⟨m', ?_, h2.trans (min_le_left _ _), h3, ?_⟩
      · have : (do if 0 < a.cap then pure (min m (← label[a.dist]?)) else pure m : Option Nat) = some (min m (val label a.dist)) := by
          rw [if_pos h]
          bstep (val_some (hl a (by simp)))
          rfl
        bstep this
        exact h1
      · intro x hx hx0
        rcases List.mem_cons.1 hx with rfl | hx
        · exact h2.trans (min_le_right _ _)
        · exact h4 x hx hx0
    · obtain ⟨m', h1, h2, h3, h4⟩ := ih m hl' hb hrow'
      refine ⟨m', ?_, h2, h3, ?_⟩
      · have : (do if 0 < a.cap then pure (min m (← label[a.dist]?)) else pure m : Option Nat) = some m := by
          rw [if_neg h]; rfl
        bstep this
        exact h1
      · intro x hx hx0
        rcases List.mem_cons.1 hx with rfl | hx
        · exact absurd hx0 h
        · exact h4 x hx hx0

theorem relabel_spec {n s t v l : Nat} {C : Nat → Nat → T} {g : PR T} (hv : v < n) (hvs : v ≠ s) (hvt : v ≠ t) (hl : l + 1 < n)
    (hg : DInv n s t C v g) (hlab : val g.label v = l + 1)
    (hadm : ∀ j a, arcAt g.net v j = some a → 0 < a.cap → val g.label a.dist ≠ l) :
    ∃ g' l', relabel g v = some (g', l') ∧ DInv n s t C v g' ∧ val g'.label v = l' ∧ l + 1 < l' ∧ l' ≤ n ∧
      g'.excess = g.excess ∧ g'.threshold = g.threshold ∧ meas n t g' < meas n t g := by
  have hw := hg.f.wf
  obtain ⟨row, hrow⟩ : ∃ row, g.net[v]? = some row := ⟨_, List.getElem?_eq_getElem (by rw [hw.len]; exact hv)⟩
  have hmem : ∀ a ∈ row, ∃ i, arcAt g.net v i = some a := fun a ha => by
    obtain ⟨i, hi⟩ := List.mem_iff_getElem?.1 ha; exact ⟨i, by rw [arcAt_row hrow]; exact hi⟩
  obtain ⟨m, h1, h2, h3, h4⟩ := minLabel_spec (label := g.label) (b := l + 1) row (n - 1)
    (fun a ha => by obtain ⟨i, hi⟩ := hmem a ha; rw [hg.f.llen]; exact hw.lt hi) (by omega)
    (fun a ha hc => by
      obtain ⟨i, hi⟩ := hmem a ha
      have h5 := hadm i a hi hc
      have h6 := hg.l.step v hv a.dist (hw.lt hi) (by rw [res_eq hw hi]; exact hc)
      omega)
  obtain ⟨lab, p1, p2, p3⟩ := put_spec (m + 1) (a := g.label) (i := v) (by rw [hg.f.llen]; exact hv)
  have hother : ∀ x, x ≠ v → val lab x = val g.label x := fun x hx => by rw [p3, if_neg hx]
  have hself : val lab v = m + 1 := by rw [p3, if_pos rfl]
  refine ⟨{ g with label := lab, progress := g.progress + 12 }, m + 1, ?_, ⟨?_, ?_, ?_⟩, hself, by omega, by omega, rfl, rfl, ?_⟩
  · unfold relabel newLabel
    rw [hg.f.nr]
    have : (do let row ← g.net[v]?; let m ← row.foldlM (fun m a => do if 0 < a.cap then pure (min m (← g.label[a.dist]?)) else pure m) (n - 1); pure (m + 1)) = some (m + 1) := by
      bstep hrow
      bstep h1
      rfl
    bstep this
    bstep p1
    rfl
  · have hf := hg.f
    exact ⟨hf.wf, by rw [p2]; exact hf.llen, hf.xlen, hf.src, hf.snk, hf.nr, hf.nonneg, hf.sum, hf.ex, hf.exn, hf.sat⟩
  · refine ⟨by rw [hother _ (Ne.symm hvt)]; exact hg.l.zero, by rw [hother _ (Ne.symm hvs)]; exact hg.l.top, ?_, ?_, ?_⟩
    · intro x hx hxt
      show 0 < val lab x
      by_cases e : x = v
      · rw [e, hself]; omega
      · rw [hother x e]; exact hg.l.pos x hx hxt
    · intro x hx
      show val lab x ≤ n
      by_cases e : x = v
      · rw [e, hself]; omega
      · rw [hother x e]; exact hg.l.le x hx
    · intro x hx y hy hr
      show val lab x ≤ val lab y + 1
      have hr : 0 < res g.net x y := hr
      have h0 := hg.l.step x hx y hy hr
      by_cases e : x = v
      · rw [e] at hr ⊢
        have hyv : y ≠ v := fun e' => by rw [e', res_self hw] at hr; exact lt_irrefl _ hr
        rw [hself, hother y hyv]
        obtain ⟨i, a, ha, ha1, ha2⟩ := res_ne (ne_of_gt hr)
        have ham : a ∈ row := by rw [arcAt_row hrow] at ha; exact List.mem_of_getElem? ha
        have := h4 a ham (by rw [ha2]; exact hr)
        rw [ha1] at this
        omega
      · rw [hother x e]
        by_cases e' : y = v
        · rw [e', hself]; rw [e'] at h0; omega
        · rw [hother y e']; exact h0
  · refine ⟨hg.q.nodup, fun x => ?_⟩
    show x ∈ g.queue ↔ x < n ∧ x ≠ t ∧ ¬ x = v ∧ val lab x < n ∧ 0 < val g.excess x
    rw [hg.q.mem]
    by_cases e : x = v
    · simp [e]
    · rw [hother x e]
  · unfold meas mu
    rw [Prod.Lex.toLex_lt_toLex]
    left
    refine sum_lt_sum (fun x hx => ?_) ⟨v, mem_range.2 hv, ?_⟩
    · show n - val lab x ≤ n - val g.label x
      by_cases e : x = v
      · rw [e, hself]; omega
      · rw [hother x e]
    · show n - val lab v < n - val g.label v
      rw [hself]; omega

variable [IsOrderedAddMonoid T]

/-- The state between two rounds of the main loop. -/
structure MInv (n s t : Nat) (C : Nat → Nat → T) (g : PR T) : Prop where
  f : FInv n s t C g
  l : LInv n s t g
  q : QInv n t (fun _ => False) g

theorem dischargeLoop_spec {n s t v : Nat} {C : Nat → Nat → T} (hv : v < n) (hvt : v ≠ t) :
    ∀ (fuel : Nat) (g : PR T), DInv n s t C v g → 0 < val g.excess v → n < fuel + val g.label v →
      ∃ g', dischargeLoop v fuel (val g.label v) g = some g' ∧ MInv n s t C g' ∧ meas n t g' ≤ meas n t g ∧
        (val g.label v < n → meas n t g' < meas n t g) := by
  intro fuel
  induction fuel with
  | zero => intro g hg _ hf; have := hg.l.le v hv; omega
  | succ fuel ih =>
    intro g hg hex hf
    by_cases hlt : val g.label v < n
    · obtain ⟨l, hl⟩ : ∃ l, val g.label v = l + 1 := ⟨val g.label v - 1, by have := hg.l.pos v hv hvt; omega⟩
      have hvs : v ≠ s := fun e => by rw [e, hg.l.top] at hlt; omega
      have hw := hg.f.wf
      obtain ⟨row, hrow⟩ : ∃ row, g.net[v]? = some row := ⟨_, List.getElem?_eq_getElem (by rw [hw.len]; exact hv)⟩
      obtain ⟨g1, done, p1, p2, p3, p4, p5, p6, p7, p8⟩ := pushLoop_spec hv hvs hvt (by omega : l + 1 < n) row.length 0 g hg hl hex
        (by rw [hrow]; simp) (by intro j hj; omega)
      have hpush : push g v (l + 1) = some (g1, done) := by
        unfold push
        bstep hrow
        exact p1
      cases done with
      | true =>
        obtain ⟨h0, hM⟩ := p7 rfl
        refine ⟨g1, ?_, ⟨p2.f, p2.l, ⟨p2.q.nodup, fun x => ?_⟩⟩, p6, fun _ => hM⟩
        · unfold dischargeLoop
          rw [if_pos (by rw [hg.f.nr]; exact hlt), hl]
          bstep hpush
          rfl
        · rw [p2.q.mem]
          by_cases e : x = v
          · subst e; simp [h0]
          · simp [e]
      | false =>
        obtain ⟨h0, hadm⟩ := p8 rfl
        obtain ⟨g2, l2, q1, q2, q3, q4, q5, q6, q7, q8⟩ := relabel_spec hv hvs hvt (by omega : l + 1 < n) p2 (by rw [p3, hl]) (by rw [p3]; exact hadm)
        obtain ⟨g3, r1, r2, r3, _⟩ := ih g2 q2 (by rw [q6]; exact h0) (by rw [q3]; omega)
        refine ⟨g3, ?_, r2, (r3.trans q8.le).trans p6, fun _ => (r3.trans_lt q8).trans_le p6⟩
        unfold dischargeLoop
        rw [if_pos (by rw [hg.f.nr]; exact hlt), hl]
        bstep hpush
        show (if false = true then _ else _) = _
        rw [if_neg (by simp)]
        bstep q1
        rw [q3] at r1
        exact r1
    · refine ⟨g, ?_, ⟨hg.f, hg.l, ⟨hg.q.nodup, fun x => ?_⟩⟩, le_rfl, fun h => absurd h hlt⟩
      · unfold dischargeLoop
        rw [if_neg (by rw [hg.f.nr]; exact hlt)]
      · rw [hg.q.mem]
        by_cases e : x = v
        · subst e; simp [hlt]
        · simp [e]

theorem Labelled.linv {n s t : Nat} {C : Nat → Nat → T} {g : PR T} {label queue : List Nat} (hf : FInv n s t C g) (hst : s ≠ t) (hs : s < n)
    (h : Labelled n t (res g.net) (val g.excess) label queue) (k : Nat) :
    MInv n s t C { g with label := label, queue := queue, progress := k } := by
  have hn : 0 < n := by omega
  refine ⟨⟨hf.wf, h.len, hf.xlen, hf.src, hf.snk, hf.nr, hf.nonneg, hf.sum, hf.ex, hf.exn, hf.sat⟩, ⟨h.zero, ?_, ?_, h.le, h.step⟩, ⟨h.nodup, fun x => ?_⟩⟩
  · have h1 := h.pot (fun x => if x = s then n else 0) ⟨by simp [hst.symm], fun u v hr => by
      have : u ≠ s := fun e => by rw [e, hf.sat] at hr; exact lt_irrefl _ hr
      simp [this]⟩ s hs
    have h2 := h.le s hs
    simp only [if_true] at h1
    show val label s = n
    by_contra hc
    have := h1 (by omega)
    omega
  · intro x hx hxt
    have h1 := h.pot (fun x => if x = t then 0 else 1) ⟨by simp, fun u v _ => by
      show (if u = t then 0 else 1) ≤ (if v = t then 0 else 1) + 1
      split <;> split <;> omega⟩ x hx
    simp only [hxt, if_false] at h1
    show 0 < val label x
    by_contra hc
    have := h1 (by omega)
    omega
  · show x ∈ queue ↔ _
    rw [h.mem]
    simp

/-- `global_relabel` does not raise the measure. -/
theorem Labelled.meas_le {n s t : Nat} {C : Nat → Nat → T} {g : PR T} {label queue : List Nat} (hf : FInv n s t C g) (hl : LInv n s t g)
    (h : Labelled n t (res g.net) (val g.excess) label queue) (k : Nat) :
    meas n t { g with label := label, queue := queue, progress := k } ≤ meas n t g := by
  have hge : ∀ x < n, val g.label x ≤ val label x := by
    intro x hx
    rcases (h.le x hx).lt_or_eq with h' | h'
    · have := h.pot (fun x => if x < n then val g.label x else 0) ⟨by
        show (if t < n then val g.label t else 0) = 0
        rw [hl.zero, ite_self], fun u v hr => by
        have hu : u < n := by
          by_contra hc; rw [res_out hf.wf (Or.inl (by omega))] at hr; exact lt_irrefl _ hr
        have hv : v < n := by
          by_contra hc; rw [res_out hf.wf (Or.inr (by omega))] at hr; exact lt_irrefl _ hr
        simp only [hu, hv, if_true]
        exact hl.step u hu v hv hr⟩ x hx h'
      simpa [hx] using this
    · rw [h']; exact hl.le x hx
  by_cases heq : ∀ x < n, val g.label x = val label x
  · apply le_of_eq
    unfold meas mu
    show toLex _ = toLex _
    congr 2
    · exact sum_congr rfl fun x hx => by rw [← heq x (mem_range.1 hx)]
    · congr 2
      · congr 1
        refine filter_congr fun p hp => ?_
        rw [mem_product, mem_range, mem_range] at hp
        show 0 < res g.net p.1 p.2 ∧ val label p.1 = val label p.2 + 1 ↔ _
        rw [← heq _ hp.1, ← heq _ hp.2]
      · refine sum_congr rfl fun x hx => ?_
        show (if x ≠ t ∧ val label x < n ∧ 0 < val g.excess x then val label x else 0) = _
        rw [← heq x (mem_range.1 hx)]
  · apply le_of_lt
    unfold meas mu
    rw [Prod.Lex.toLex_lt_toLex]
    left
    obtain ⟨x, hx⟩ := not_forall.1 heq
    obtain ⟨hx, hne⟩ := Classical.not_imp.1 hx
    have h1 := hge x hx
    have h2 := h.le x hx
    refine sum_lt_sum (fun y hy => ?_) ⟨x, mem_range.2 hx, ?_⟩
    · show n - val label y ≤ n - val g.label y
      have := hge y (mem_range.1 hy); omega
    · show n - val label x < n - val g.label x
      omega

theorem mainLoop_spec {n s t : Nat} {C : Nat → Nat → T} (hst : s ≠ t) (hs : s < n) (ht : t < n) :
    ∀ (m : ℕ ×ₗ (ℕ ×ₗ ℕ)) (g : PR T), MInv n s t C g → meas n t g = m →
      ∃ k g', mainLoop k g = some g' ∧ MInv n s t C g' ∧ g'.queue = [] := by
  intro m
  induction m using WellFoundedLT.induction with
  | _ m ih =>
    intro g hg hm
    cases hq : g.queue with
    | nil => exact ⟨1, g, by unfold mainLoop; rw [hq], hg, hq⟩
    | cons v queue =>
      obtain ⟨hv, hvt, _, hvn, hvx⟩ := (hg.q.mem v).1 (by rw [hq]; simp)
      have hnd := hg.q.nodup
      rw [hq, List.nodup_cons] at hnd
      have hD : DInv n s t C v { g with queue := queue } := by
        have hf := hg.f
        refine ⟨⟨hf.wf, hf.llen, hf.xlen, hf.src, hf.snk, hf.nr, hf.nonneg, hf.sum, hf.ex, hf.exn, hf.sat⟩, ⟨hg.l.zero, hg.l.top, hg.l.pos, hg.l.le, hg.l.step⟩, ⟨hnd.2, fun x => ?_⟩⟩
        have := hg.q.mem x
        rw [hq, List.mem_cons] at this
        show x ∈ queue ↔ x < n ∧ x ≠ t ∧ ¬ x = v ∧ val g.label x < n ∧ 0 < val g.excess x
        by_cases e : x = v
        · subst e; simp [hnd.1]
        · simp only [e, false_or, not_false_eq_true, true_and] at this ⊢
          exact this
      obtain ⟨g1, h1, h2, _, h3⟩ := dischargeLoop_spec hv hvt (n + 1) { g with queue := queue } hD hvx (by omega)
      have h3 : meas n t g1 < meas n t g := h3 hvn
      have hdis : discharge { g with queue := queue } v = some g1 := by
        unfold discharge
        bstep (val_some (a := g.label) (i := v) (by rw [hg.f.llen]; exact hv))
        exact (congrArg (fun k => dischargeLoop v (k + 1) (val g.label v) { g with queue := queue }) hg.f.nr).trans h1
      by_cases hth : g1.threshold * 2 ≤ g1.progress
      · obtain ⟨label, q, r1, r2⟩ := globalRelabel_spec (g := { g1 with progress := 0 }) h2.f.wf h2.f.llen h2.f.xlen (by rw [h2.f.snk]; exact ht) h2.f.nr
        have r2 : Labelled n t (res g1.net) (val g1.excess) label q := by have := r2; rwa [h2.f.snk] at this
        obtain ⟨k, g', q1, q2, q3⟩ := ih (meas n t { g1 with label := label, queue := q, progress := 0 })
          (by rw [← hm]; exact (r2.meas_le h2.f h2.l 0).trans_lt h3) { g1 with label := label, queue := q, progress := 0 } (r2.linv h2.f hst hs 0) rfl
        refine ⟨k + 1, g', ?_, q2, q3⟩
        unfold mainLoop
        rw [hq]
        show (do let g ← discharge { g with queue := queue } v; _) = _
        bstep hdis
        rw [if_pos hth]
        bstep r1
        exact q1
      · obtain ⟨k, g', q1, q2, q3⟩ := ih (meas n t g1) (by rw [← hm]; exact h3) g1 h2 rfl
        refine ⟨k + 1, g', ?_, q2, q3⟩
        unfold mainLoop
        rw [hq]
        show (do let g ← discharge { g with queue := queue } v; _) = _
        bstep hdis
        rw [if_neg hth]
        exact q1

omit [IsOrderedAddMonoid T] in
/-- More fuel does not change the result. -/
theorem mainLoop_mono : ∀ (k : Nat) (g g' : PR T), mainLoop k g = some g' → mainLoop (k + 1) g = some g' := by
  intro k
  induction k with
  | zero => intro g g' h; cases h
  | succ k ih =>
    intro g g' h
    unfold mainLoop at h ⊢
    cases hq : g.queue with
    | nil => rw [hq] at h; exact h
    | cons v queue =>
      rw [hq] at h
      simp only at h ⊢
      cases hd : discharge { g with queue := queue } v with
      | none => rw [hd] at h; cases h
      | some g1 =>
        rw [hd] at h
        refine (bind_of rfl).trans ?_
        replace h := (bind_of rfl).symm.trans h
        by_cases hth : g1.threshold * 2 ≤ g1.progress
        · rw [if_pos hth] at h ⊢
          cases hr : globalRelabel { g1 with progress := 0 } with
          | none => rw [hr] at h; cases h
          | some g2 =>
            rw [hr] at h
            refine (bind_of rfl).trans ?_
            replace h := (bind_of rfl).symm.trans h
            exact ih _ _ h
        · rw [if_neg hth] at h ⊢
          exact ih _ _ h

omit [IsOrderedAddMonoid T] in
theorem mainLoop_le {k k' : Nat} (h : k ≤ k') {g g' : PR T} (h1 : mainLoop k g = some g') : mainLoop k' g = some g' := by
  induction h with
  | refl => exact h1
  | step _ ih => exact mainLoop_mono _ _ _ ih

theorem findMaxFlow_spec {n s t : Nat} {C : Nat → Nat → T} (hst : s ≠ t) (hs : s < n) (ht : t < n) {g : PR T} (hf : FInv n s t C g) :
    ∃ k g', (∀ k' ≥ k, findMaxFlow k' g = some g') ∧ MInv n s t C g' ∧ g'.queue = [] := by
  obtain ⟨label, q, r1, r2⟩ := globalRelabel_spec (g := g) hf.wf hf.llen hf.xlen (by rw [hf.snk]; exact ht) hf.nr
  rw [hf.snk] at r2
  obtain ⟨k, g', q1, q2, q3⟩ := mainLoop_spec (C := C) hst hs ht _ { g with label := label, queue := q } (r2.linv hf hst hs g.progress) rfl
  refine ⟨k, g', fun k' hk => ?_, q2, q3⟩
  unfold findMaxFlow
  bstep r1
  exact mainLoop_le hk q1

end Verif.Flow
