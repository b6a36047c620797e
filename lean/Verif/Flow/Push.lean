import Verif.Flow.Relabel
import Mathlib.Data.Prod.Lex
import Mathlib.Algebra.Order.BigOperators.Group.Finset
import Mathlib.Algebra.BigOperators.Group.Finset.Piecewise
import Mathlib.Algebra.Order.Group.Defs
import Mathlib.Algebra.Order.Group.Nat
/-!
# `push`, `relabel`, `discharge` and the main loop
-/
namespace Verif.Flow

open Finset

variable {T : Type} [AddCommGroup T] [LinearOrder T]

/-- The residual network is that of a preflow for the capacities `C` which saturates the arcs of the source. -/
structure FInv (n s t : Nat) (C : Nat → Nat → T) (g : PR T) : Prop where
  wf : WF n g.net
  llen : g.label.length = n
  xlen : g.excess.length = n
  src : g.source = s
  snk : g.sink = t
  nr : g.notReached = n
  nonneg : ∀ u v, 0 ≤ res g.net u v
  sum : ∀ u v, res g.net u v + res g.net v u = C u v + C v u
  ex : ∀ v < n, v ≠ s → val g.excess v = ∑ u ∈ range n, (res g.net v u - C v u)
  exn : ∀ v < n, v ≠ s → 0 ≤ val g.excess v
  sat : ∀ u, res g.net s u = 0

/-- The labels are valid. -/
structure LInv (n s t : Nat) (g : PR T) : Prop where
  zero : val g.label t = 0
  top : val g.label s = n
  pos : ∀ x < n, x ≠ t → 0 < val g.label x
  le : ∀ x < n, val g.label x ≤ n
  step : ∀ u < n, ∀ v < n, 0 < res g.net u v → val g.label u ≤ val g.label v + 1

/-- The queue holds the active nodes, without `v`. -/
structure QInv (n t : Nat) (v : Nat → Prop) (g : PR T) : Prop where
  nodup : g.queue.Nodup
  mem : ∀ x, x ∈ g.queue ↔ x < n ∧ x ≠ t ∧ ¬ v x ∧ val g.label x < n ∧ 0 < val g.excess x

/-- Room for labels to grow; admissible arcs; labels of active nodes. -/
def mu (n t : Nat) (R : Nat → Nat → T) (L : Nat → Nat) (E : Nat → T) : ℕ ×ₗ (ℕ ×ₗ ℕ) :=
  toLex (∑ x ∈ range n, (n - L x), toLex (((range n ×ˢ range n).filter fun p => 0 < R p.1 p.2 ∧ L p.1 = L p.2 + 1).card,
    ∑ x ∈ range n, if x ≠ t ∧ L x < n ∧ 0 < E x then L x else 0))

/-- Measure of a state. -/
def meas (n t : Nat) (g : PR T) : ℕ ×ₗ (ℕ ×ₗ ℕ) := mu n t (res g.net) (val g.label) (val g.excess)

theorem sum_move {n u v : Nat} (hu : u < n) (hv : v < n) (huv : u ≠ v) (R C : Nat → Nat → T) (δ : T) (x : Nat) :
    ∑ y ∈ range n, (move R v u δ x y - C x y) = (∑ y ∈ range n, (R x y - C x y)) + (if x = v then -δ else if x = u then δ else 0) := by
  by_cases h1 : x = v
  · subst h1
    rw [if_pos rfl, ← sum_erase_add _ _ (mem_range.2 hu), ← sum_erase_add (range n) (fun y => R x y - C x y) (mem_range.2 hu)]
    have : ∑ y ∈ (range n).erase u, (move R x u δ x y - C x y) = ∑ y ∈ (range n).erase u, (R x y - C x y) := by
      refine sum_congr rfl fun y hy => ?_
      have hyu := (mem_erase.1 hy).1
      rw [move, if_neg (fun e => hyu e.2), if_neg (fun e => huv e.1.symm)]
    rw [this, move, if_pos ⟨rfl, rfl⟩]
    abel
  · rw [if_neg h1]
    by_cases h2 : x = u
    · subst h2
      rw [if_pos rfl, ← sum_erase_add _ _ (mem_range.2 hv), ← sum_erase_add (range n) (fun y => R x y - C x y) (mem_range.2 hv)]
      have : ∑ y ∈ (range n).erase v, (move R v x δ x y - C x y) = ∑ y ∈ (range n).erase v, (R x y - C x y) := by
        refine sum_congr rfl fun y hy => ?_
        have hyu := (mem_erase.1 hy).1
        rw [move, if_neg (fun e => h1 e.1), if_neg (fun e => hyu e.2)]
      rw [this, move, if_neg (fun e => h1 e.1), if_pos ⟨rfl, rfl⟩]
      abel
    · rw [if_neg h2, add_zero]
      refine sum_congr rfl fun y _ => ?_
      rw [move, if_neg (fun e => h1 e.1), if_neg (fun e => h2 e.1)]

theorem move_pair {u v : Nat} (huv : u ≠ v) (R : Nat → Nat → T) (δ : T) (x y : Nat) :
    move R v u δ x y + move R v u δ y x = R x y + R y x := by
  unfold move
  by_cases h1 : x = v ∧ y = u
  · rw [if_pos h1, if_neg (fun e => huv (e.2.symm.trans h1.1)), if_pos ⟨h1.2, h1.1⟩]; abel
  · rw [if_neg h1]
    by_cases h2 : x = u ∧ y = v
    · rw [if_pos h2, if_pos ⟨h2.2, h2.1⟩]; abel
    · rw [if_neg h2, if_neg (fun e => h2 ⟨e.2, e.1⟩), if_neg (fun e => h1 ⟨e.2, e.1⟩)]

/-- The effect of a push of `δ` from `v` to `u`. -/
structure Pushed (n t v u : Nat) (δ : T) (g g' : PR T) : Prop where
  label : g'.label = g.label
  progress : g'.progress = g.progress
  threshold : g'.threshold = g.threshold
  deg : ∀ x : Nat, (g'.net[x]?).map List.length = (g.net[x]?).map List.length
  res : ∀ x y, res g'.net x y = move (res g.net) v u δ x y
  ex : ∀ x, val g'.excess x = if x = v then val g.excess x - δ else if x = u then val g.excess x + δ else val g.excess x

variable [IsOrderedAddMonoid T]

theorem Pushed.finv {n s t v u : Nat} {δ : T} {C : Nat → Nat → T} {g g' : PR T} (h : Pushed n t v u δ g g') (hg : FInv n s t C g)
    (hw : WF n g'.net) (hx : g'.excess.length = n) (hsrc : g'.source = s) (hsnk : g'.sink = t) (hnr : g'.notReached = n)
    (hu : u < n) (hv : v < n) (huv : u ≠ v) (hus : u ≠ s) (hvs : v ≠ s) (hδ : 0 ≤ δ) (hδ1 : δ ≤ Flow.res g.net v u) (hδ2 : δ ≤ val g.excess v) :
    FInv n s t C g' := by
  refine ⟨hw, by rw [h.label]; exact hg.llen, hx, hsrc, hsnk, hnr, ?_, ?_, ?_, ?_, ?_⟩
  · intro x y
    rw [h.res, move]
    split
    · next e => rw [e.1, e.2]; exact sub_nonneg.2 hδ1
    · split
      · exact add_nonneg (hg.nonneg x y) hδ
      · exact hg.nonneg x y
  · intro x y
    rw [h.res, h.res, move_pair huv, hg.sum]
  · intro x hx hxs
    simp only [h.res]
    rw [sum_move hu hv huv, ← hg.ex x hx hxs, h.ex]
    split
    · rw [sub_eq_add_neg]
    · split
      · rfl
      · rw [add_zero]
  · intro x hx hxs
    rw [h.ex]
    split
    · next e => rw [e]; exact sub_nonneg.2 hδ2
    · split
      · exact add_nonneg (hg.exn x hx hxs) hδ
      · exact hg.exn x hx hxs
  · intro y
    rw [h.res, move, if_neg (fun e => hvs e.1.symm), if_neg (fun e => hus e.1.symm), hg.sat]

omit [IsOrderedAddMonoid T] in
theorem Pushed.linv {n s t v u : Nat} {δ : T} {g g' : PR T} (h : Pushed n t v u δ g g') (hg : LInv n s t g)
    (hδ : 0 < δ) (hδ1 : 0 < Flow.res g.net v u) (hl : val g.label v = val g.label u + 1) : LInv n s t g' := by
  refine ⟨by rw [h.label]; exact hg.zero, by rw [h.label]; exact hg.top, by rw [h.label]; exact hg.pos, by rw [h.label]; exact hg.le, ?_⟩
  intro x hx y hy hr
  rw [h.label]
  rw [h.res, move] at hr
  split at hr
  · next e => rw [e.1, e.2]; omega
  · split at hr
    · next e => rw [e.1, e.2]; omega
    · exact hg.step x hx y hy hr

/-- A push lowers the measure. -/
theorem Pushed.meas_lt {n s t v u : Nat} {C : Nat → Nat → T} {δ : T} {g g' : PR T} (h : Pushed n t v u δ g g') (hg : FInv n s t C g) (hL : LInv n s t g)
    (hu : u < n) (hv : v < n) (huv : u ≠ v) (hvt : v ≠ t) (hln : val g.label v < n)
    (hδ : 0 < δ) (hδ1 : 0 < Flow.res g.net v u) (hl : val g.label v = val g.label u + 1)
    (hex : 0 < val g.excess v) (hmin : δ = Flow.res g.net v u ∨ δ < Flow.res g.net v u ∧ δ = val g.excess v) : meas n t g' < meas n t g := by
  have hsub : ((range n ×ˢ range n).filter fun p => 0 < Flow.res g'.net p.1 p.2 ∧ val g.label p.1 = val g.label p.2 + 1)
      ⊆ ((range n ×ˢ range n).filter fun p => 0 < Flow.res g.net p.1 p.2 ∧ val g.label p.1 = val g.label p.2 + 1) := by
    intro p hp
    rw [mem_filter] at hp ⊢
    refine ⟨hp.1, ?_, hp.2.2⟩
    have hr := hp.2.1
    rw [h.res, move] at hr
    split at hr
    · next e => rw [e.1, e.2]; exact hδ1
    · split at hr
      · next e => have := hp.2.2; rw [e.1, e.2] at this; omega
      · exact hr
  unfold meas mu
  rw [h.label, Prod.Lex.toLex_lt_toLex]
  refine Or.inr ⟨rfl, ?_⟩
  rw [Prod.Lex.toLex_lt_toLex]
  rcases hmin with hm | hm
  · left
    refine card_lt_card ⟨hsub, fun hc => ?_⟩
    have := @hc (v, u) (mem_filter.2 ⟨mem_product.2 ⟨mem_range.2 hv, mem_range.2 hu⟩, hδ1, hl⟩)
    rw [mem_filter] at this
    have h1 : 0 < Flow.res g'.net v u := this.2.1
    rw [h.res, move, if_pos ⟨rfl, rfl⟩, hm, sub_self] at h1
    exact lt_irrefl _ h1
  · right
    refine ⟨?_, ?_⟩
    · refine le_antisymm (card_le_card hsub) (card_le_card ?_)
      intro p hp
      rw [mem_filter] at hp ⊢
      refine ⟨hp.1, ?_, hp.2.2⟩
      rw [h.res, move]
      split
      · next e => rw [e.1, e.2]; exact sub_pos.2 hm.1
      · split
        · next e => exact add_pos_of_nonneg_of_pos (hg.nonneg _ _) hδ
        · exact hp.2.1
    · have hev : val g'.excess v = 0 := by rw [h.ex, if_pos rfl, hm.2, sub_self]
      have e1 : ∀ F : Nat → Nat, (∑ x ∈ range n, F x) = (∑ x ∈ ((range n).erase v).erase u, F x) + F u + F v := by
        intro F
        rw [← sum_erase_add _ _ (mem_range.2 hv), ← sum_erase_add _ _ (mem_erase.2 ⟨huv, mem_range.2 hu⟩)]
      rw [e1, e1]
      have e2 : (∑ x ∈ ((range n).erase v).erase u, if x ≠ t ∧ val g.label x < n ∧ 0 < val g'.excess x then val g.label x else 0)
          = ∑ x ∈ ((range n).erase v).erase u, if x ≠ t ∧ val g.label x < n ∧ 0 < val g.excess x then val g.label x else 0 := by
        refine sum_congr rfl fun x hx => ?_
        have h1 := (mem_erase.1 hx).1
        have h2 := (mem_erase.1 (mem_erase.1 hx).2).1
        rw [h.ex, if_neg h2, if_neg h1]
      rw [e2]
      have e3 : (if v ≠ t ∧ val g.label v < n ∧ 0 < val g'.excess v then val g.label v else 0) = 0 := by
        rw [if_neg]; rintro ⟨_, _, h3⟩; rw [hev] at h3; exact lt_irrefl _ h3
      have e4 : (if v ≠ t ∧ val g.label v < n ∧ 0 < val g.excess v then val g.label v else 0) = val g.label v := by
        rw [if_pos ⟨hvt, hln, hex⟩]
      have e5 : (if u ≠ t ∧ val g.label u < n ∧ 0 < val g'.excess u then val g.label u else 0) ≤ val g.label u := by
        split <;> omega
      rw [e3, e4]
      omega

/-- The state between the parts of `discharge v`. -/
structure DInv (n s t : Nat) (C : Nat → Nat → T) (v : Nat) (g : PR T) : Prop where
  f : FInv n s t C g
  l : LInv n s t g
  q : QInv n t (· = v) g

theorem pushLoop_spec {n s t v l : Nat} {C : Nat → Nat → T} (hv : v < n) (hvs : v ≠ s) (hvt : v ≠ t) (hl : l + 1 < n) :
    ∀ (k i : Nat) (g : PR T), DInv n s t C v g → val g.label v = l + 1 → 0 < val g.excess v →
      (g.net[v]?).map List.length = some (i + k) →
      (∀ j < i, ∀ a, arcAt g.net v j = some a → 0 < a.cap → val g.label a.dist ≠ l) →
      ∃ g' done, pushLoop v l k i g = some (g', done) ∧ DInv n s t C v g' ∧ g'.label = g.label ∧ g'.progress = g.progress ∧
        g'.threshold = g.threshold ∧ meas n t g' ≤ meas n t g ∧
        (done = true → val g'.excess v = 0 ∧ meas n t g' < meas n t g) ∧
        (done = false → 0 < val g'.excess v ∧ ∀ j a, arcAt g'.net v j = some a → 0 < a.cap → val g.label a.dist ≠ l) := by
  intro k
  induction k with
  | zero =>
    intro i g hg hlab hex hdeg hpre
    refine ⟨g, false, rfl, hg, rfl, rfl, rfl, le_rfl, by simp, fun _ => ⟨hex, fun j a ha hc => ?_⟩⟩
    refine hpre j ?_ a ha hc
    obtain ⟨row, h1, h2⟩ := row_of_arcAt ha
    rw [h1] at hdeg
    have := (List.getElem?_eq_some_iff.1 h2).1
    simp only [Option.map_some, Option.some.injEq] at hdeg
    omega
  | succ k ih =>
    intro i g hg hlab hex hdeg hpre
    have hw := hg.f.wf
    obtain ⟨row, hrow⟩ : ∃ row, g.net[v]? = some row := ⟨_, List.getElem?_eq_getElem (by rw [hw.len]; exact hv)⟩
    have hlen : row.length = i + (k + 1) := by rw [hrow] at hdeg; simpa using hdeg
    obtain ⟨a, ha⟩ : ∃ a, arcAt g.net v i = some a := ⟨row[i]'(by omega), by rw [arcAt_row hrow, List.getElem?_eq_getElem]⟩
    have hal := hw.lt ha
    have hadm : ∀ b : Bool, (b = true ↔ 0 < a.cap ∧ val g.label a.dist = l) →
        admissible g.label a l = some b := by
      intro b hb
      unfold admissible
      by_cases h : 0 < a.cap
      · rw [if_pos h]
        bstep (val_some (a := g.label) (i := a.dist) (by rw [hg.f.llen]; exact hal))
        refine congrArg some ?_
        rw [Bool.eq_iff_iff, hb]
        simp [h]
      · rw [if_neg h]
        have : b = false := by
          rw [Bool.eq_false_iff]; exact fun e => h (hb.1 e).1
        rw [this]; rfl
    by_cases hc : 0 < a.cap ∧ val g.label a.dist = l
    · -- a push
      have hR : res g.net v a.dist = a.cap := res_eq hw ha
      have hne := hw.ne ha
      have hds : a.dist ≠ s := fun e => by have := hg.l.top; rw [← e] at this; omega
      set δ := if a.cap < val g.excess v then a.cap else val g.excess v with hδdef
      have hδ1 : δ ≤ a.cap := by
        rw [hδdef]; split
        · exact le_rfl
        · next h => exact not_lt.1 h
      have hδ2 : δ ≤ val g.excess v := by
        rw [hδdef]; split
        · next h => exact h.le
        · exact le_rfl
      have hδ : 0 < δ := by
        rw [hδdef]; split
        · exact hc.1
        · exact hex
      obtain ⟨x1, hx1, hx1l, hx1v⟩ := put_spec (val g.excess v + -δ) (a := g.excess) (i := v) (by rw [hg.f.xlen]; exact hv)
      obtain ⟨x2, hx2, hx2l, hx2v⟩ := put_spec (val x1 a.dist + δ) (a := x1) (i := a.dist) (by rw [hx1l, hg.f.xlen]; exact hal)
      obtain ⟨net1, net2, hn1, hn2, hw2, hm⟩ := move_spec hw ha δ
      set queue := if val g.excess a.dist = 0 ∧ a.dist ≠ g.sink then g.queue ++ [a.dist] else g.queue with hqdef
      set g1 : PR T := { g with net := net2, excess := x2, queue := queue } with hg1
      have hx2len : x2.length = n := by rw [hx2l, hx1l, hg.f.xlen]
      have hP : Pushed n t v a.dist δ g g1 := by
        refine ⟨rfl, rfl, rfl, hm.deg, hm.res, fun x => ?_⟩
        show val x2 x = _
        rw [hx2v, hx1v, hx1v, if_neg hne]
        by_cases h1 : x = v
        · subst h1; rw [if_neg hne.symm, if_pos rfl, if_pos rfl, sub_eq_add_neg]
        · rw [if_neg h1, if_neg h1]
          by_cases h2 : x = a.dist
          · rw [if_pos h2, if_pos h2, h2]
          · rw [if_neg h2, if_neg h2]
      have hF := hP.finv hg.f hw2 hx2len hg.f.src hg.f.snk hg.f.nr hal hv hne hds hvs hδ.le (by rw [hR]; exact hδ1) hδ2
      have hL := hP.linv hg.l hδ (by rw [hR]; exact hc.1) (by rw [hlab, hc.2])
      have hM : meas n t g1 < meas n t g := hP.meas_lt hg.f hg.l hal hv hne hvt (by omega) hδ (by rw [hR]; exact hc.1) (by rw [hlab, hc.2]) hex (by
        rw [hR, hδdef]
        by_cases h : a.cap < val g.excess v
        · left; rw [if_pos h]
        · rcases (not_lt.1 h).lt_or_eq with h' | h'
          · right; rw [if_neg h]; exact ⟨h', rfl⟩
          · left; rw [if_neg h, h'])
      have hev : val x2 v = val g.excess v - δ := by rw [hx2v, if_neg hne.symm, hx1v, if_pos rfl, sub_eq_add_neg]
      have hQ : QInv n t (· = v) g1 := by
        have hd := hg.f.exn a.dist hal hds
        have hnotq : val g.excess a.dist = 0 → a.dist ∉ g.queue := fun h0 h => by
          have := ((hg.q.mem _).1 h).2.2.2.2
          rw [h0] at this; exact lt_irrefl _ this
        have hpos : 0 < val x2 a.dist := by
          have h3 := hP.ex a.dist
          rw [if_neg hne, if_pos rfl] at h3
          have h4 : val x2 a.dist = val g.excess a.dist + δ := h3
          rw [h4]; exact add_pos_of_nonneg_of_pos hd hδ
        refine ⟨?_, fun x => ?_⟩
        · show queue.Nodup
          rw [hqdef]
          split
          · next h =>
            rw [List.nodup_append]
            refine ⟨hg.q.nodup, by simp, fun p hp q hq => ?_⟩
            rw [List.mem_singleton.1 hq]
            exact fun e => hnotq h.1 (e ▸ hp)
          · exact hg.q.nodup
        · show x ∈ queue ↔ x < n ∧ x ≠ t ∧ ¬ x = v ∧ val g.label x < n ∧ 0 < val x2 x
          by_cases hx : x = a.dist
          · subst hx
            rw [hqdef, hg.f.snk]
            by_cases h : val g.excess a.dist = 0 ∧ a.dist ≠ t
            · rw [if_pos h]
              exact ⟨fun _ => ⟨hal, h.2, hne, by rw [hc.2]; omega, hpos⟩, fun _ => by simp⟩
            · rw [if_neg h, hg.q.mem]
              refine ⟨fun h' => ⟨h'.1, h'.2.1, h'.2.2.1, h'.2.2.2.1, hpos⟩, fun h' => ⟨h'.1, h'.2.1, h'.2.2.1, h'.2.2.2.1, ?_⟩⟩
              exact lt_of_le_of_ne hd fun e => h ⟨e.symm, h'.2.1⟩
          · have h1 : x ∈ queue ↔ x ∈ g.queue := by
              rw [hqdef]; split
              · simp [hx]
              · rfl
            rw [h1, hg.q.mem]
            by_cases hxv : x = v
            · simp [hxv]
            · have h3 := hP.ex x
              rw [if_neg hxv, if_neg hx] at h3
              have h4 : val x2 x = val g.excess x := h3
              rw [h4]
      have hD : DInv n s t C v g1 := ⟨hF, hL, hQ⟩
      have hrun : pushLoop v l (k + 1) i g = if val x2 v = 0 then pure (g1, true) else pushLoop v l k (i + 1) g1 := by
        show (do let a ← arcAt g.net v i; _) = _
        bstep ha
        bstep (hadm true (by simp [hc]))
        rw [if_pos rfl]
        bstep (val_some (a := g.excess) (i := v) (by rw [hg.f.xlen]; exact hv))
        bstep (val_some (a := g.excess) (i := a.dist) (by rw [hg.f.xlen]; exact hal))
        have ha1 : addExcess g.excess v (-δ) = some x1 := by
          unfold addExcess
          bstep (val_some (a := g.excess) (i := v) (by rw [hg.f.xlen]; exact hv))
          exact hx1
        have ha2 : addExcess x1 a.dist δ = some x2 := by
          unfold addExcess
          bstep (val_some (a := x1) (i := a.dist) (by rw [hx1l, hg.f.xlen]; exact hal))
          exact hx2
        bstep ha1
        bstep ha2
        bstep hn1
        bstep hn2
        bstep (val_some (a := x2) (i := v) (by rw [hx2len]; exact hv))
        rfl
      rw [hrun]
      by_cases h0 : val x2 v = 0
      · rw [if_pos h0]
        exact ⟨g1, true, rfl, hD, rfl, rfl, rfl, hM.le, fun _ => ⟨h0, hM⟩, by simp⟩
      · rw [if_neg h0]
        have hpos : 0 < val x2 v := lt_of_le_of_ne (by rw [hev]; exact sub_nonneg.2 hδ2) (Ne.symm h0)
        have hcap0 : a.cap - δ = 0 := by
          rw [hδdef]
          by_cases h : a.cap < val g.excess v
          · rw [if_pos h, sub_self]
          · exfalso; apply h0; rw [hev, hδdef, if_neg h, sub_self]
        obtain ⟨g', done, p1, p2, p3, p4, p5, p6, p7, p8⟩ := ih (i + 1) g1 hD hlab hpos (by
            show (net2[v]?).map List.length = _
            rw [hm.deg, hdeg]; congr 1; omega) (by
          intro j hj b hb hb0
          show val g.label b.dist ≠ l
          have hb : arcAt net2 v j = some b := hb
          rcases Nat.lt_succ_iff_lt_or_eq.1 hj with hj | hj
          · rw [hm.row j (by omega)] at hb
            exact hpre j hj b hb hb0
          · rw [hj, hm.self] at hb
            cases hb
            exact absurd hb0 (by show ¬ 0 < a.cap - δ; rw [hcap0]; exact lt_irrefl _))
        exact ⟨g', done, p1, p2, p3, p4, p5, p6.trans hM.le, fun h => ⟨(p7 h).1, (p7 h).2.trans hM⟩, p8⟩
    · obtain ⟨g', done, p1, p2⟩ := ih (i + 1) g hg hlab hex (by rw [hdeg]; congr 1; omega) (by
        intro j hj b hb hb0
        rcases Nat.lt_succ_iff_lt_or_eq.1 hj with hj | hj
        · exact hpre j hj b hb hb0
        · rw [hj, ha] at hb
          cases hb
          exact fun e => hc ⟨hb0, e⟩)
      refine ⟨g', done, ?_, p2⟩
      show (do let a ← arcAt g.net v i; _) = _
      bstep ha
      bstep (hadm false (by simp only [Bool.false_eq_true, false_iff]; exact hc))
      rw [if_neg (by simp)]
      exact p1

end Verif.Flow
