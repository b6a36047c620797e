import Verif.Flow.Net
import Mathlib.Data.Finset.Card
/-!
# `global_relabel`
-/
namespace Verif.Flow

open Finset

variable {T : Type} [AddCommGroup T] [LinearOrder T]

/-- `a[i]`, with `0` outside. -/
def val {α : Type} [Zero α] (a : List α) (i : Nat) : α := a.getD i 0

section
variable {α : Type} [Zero α]

theorem val_some {a : List α} {i : Nat} (h : i < a.length) : a[i]? = some (val a i) := by
  rw [val, List.getD_eq_getElem?_getD, List.getElem?_eq_getElem h, Option.getD_some]

theorem val_set {a : List α} {i : Nat} (x : α) (h : i < a.length) (j : Nat) : val (a.set i x) j = if j = i then x else val a j := by
  rw [val, val, List.getD_eq_getElem?_getD, List.getD_eq_getElem?_getD, List.getElem?_set]
  by_cases hj : i = j
  · subst hj; simp [h]
  · rw [if_neg hj, if_neg (fun e => hj e.symm)]

theorem put_spec {a : List α} {i : Nat} (x : α) (h : i < a.length) :
    ∃ b, put a i x = some b ∧ b.length = a.length ∧ ∀ j, val b j = if j = i then x else val a j :=
  ⟨_, by rw [put, if_pos h], by simp, val_set x h⟩

end

/-- Nodes without a label. -/
def unl (n : Nat) (l : List Nat) : Nat := ((range n).filter fun x => val l x = n).card

theorem unl_set {n v d : Nat} {l l' : List Nat} (hv : v < n) (hl : val l v = n) (hd : d < n) (h : ∀ j, val l' j = if j = v then d else val l j) :
    unl n l' + 1 = unl n l := by
  have hm : v ∈ (range n).filter fun x => val l x = n := mem_filter.2 ⟨mem_range.2 hv, hl⟩
  have : ((range n).filter fun x => val l' x = n) = ((range n).filter fun x => val l x = n).erase v := by
    ext x
    rw [mem_filter, mem_erase, mem_filter, h]
    by_cases hx : x = v
    · subst hx; simp; omega
    · simp [hx]
  rw [unl, unl, this, card_erase_add_one hm]

/-- Labels that take every value below one of them leave room for another node. -/
theorem cover_lt {n k : Nat} {l : List Nat} {v : Nat} (hv : v < n) (hvn : val l v = n) (hk : k < n)
    (h : ∀ j ≤ k, ∃ y < n, val l y = j) : k + 1 < n := by
  have h1 : range (k + 1) ⊆ ((range n).erase v).image (val l) := by
    intro j hj
    obtain ⟨y, hy, hy2⟩ := h j (by have := mem_range.1 hj; omega)
    refine mem_image.2 ⟨y, mem_erase.2 ⟨fun e => ?_, mem_range.2 hy⟩, hy2⟩
    subst e
    have := mem_range.1 hj
    omega
  have h2 := (card_le_card h1).trans card_image_le
  rw [card_range, card_erase_of_mem (mem_range.2 hv), card_range] at h2
  omega

/-- `φ` is a lower bound of the distance to the sink. -/
def Potential (sink : Nat) (R : Nat → Nat → T) (φ : Nat → Nat) : Prop := φ sink = 0 ∧ ∀ u v, 0 < R u v → φ u ≤ φ v + 1

/-- The state of the search: `d` is the distance of the node under work; `cur` is that node or `n`. -/
structure BInv (n sink : Nat) (R : Nat → Nat → T) (ex : Nat → T) (d cur : Nat) (s : Bfs) : Prop where
  len : s.label.length = n
  zero : val s.label sink = 0
  le : ∀ x < n, val s.label x ≤ n
  dq : ∀ e ∈ s.dq, e.1 < n ∧ val s.label e.1 = e.2 ∧ e.2 < n ∧ d ≤ e.2 ∧ e.2 ≤ d + 1
  sorted : s.dq.Pairwise fun a b => a.2 ≤ b.2
  bound : ∀ x < n, val s.label x < n → val s.label x ≤ d + 1
  done : ∀ v < n, val s.label v < n → v ≠ cur → (∀ e ∈ s.dq, e.1 ≠ v) → ∀ u < n, 0 < R u v → val s.label u ≤ val s.label v + 1
  cover : ∀ x < n, val s.label x < n → ∀ k ≤ val s.label x, ∃ y < n, val s.label y = k
  pot : ∀ φ, Potential sink R φ → ∀ x < n, val s.label x < n → φ x ≤ val s.label x
  nodup : s.queue.Nodup
  mem : ∀ x, x ∈ s.queue ↔ x < n ∧ x ≠ sink ∧ val s.label x < n ∧ 0 < ex x

/-- Result of the `for` loop over a part of a row. -/
structure RowRes (n : Nat) (s s' : Bfs) : Prop where
  keep : ∀ x < n, val s.label x < n → val s'.label x = val s.label x
  meas : s'.dq.length + unl n s'.label = s.dq.length + unl n s.label

theorem bfsArc_spec {n sink d v : Nat} {net : Net T} {excess : List T} (hw : WF n net) (hx : excess.length = n) (hd : d < n)
    {i : Nat} {a : Arc T} (ha : arcAt net v i = some a) {s : Bfs} (hv : v < n) (hlab : val s.label v = d)
    (hs : BInv n sink (res net) (val excess) d v s) :
    ∃ s', bfsArc net excess n d s a = some s' ∧ BInv n sink (res net) (val excess) d v s' ∧ RowRes n s s' ∧
      (0 < res net a.dist v → val s'.label a.dist < n) := by
  obtain ⟨b, hb, hb1, hb2⟩ := hw.pair ha
  have hcap : b.cap = res net a.dist v := by rw [← res_eq hw hb, hb1]
  have hdl := hw.lt ha
  unfold bfsArc
  by_cases hp : 0 < res net a.dist v
  · by_cases hl : val s.label a.dist = n
    · obtain ⟨lab, h1, h2, h3⟩ := put_spec (d + 1) (a := s.label) (i := a.dist) (by rw [hs.len]; exact hdl)
      have hsink : a.dist ≠ sink := fun e => by rw [e, hs.zero] at hl; omega
      have hd1 : d + 1 < n := cover_lt hdl hl hd (by rw [← hlab]; exact hs.cover v hv (by omega))
      have hother : ∀ x, x ≠ a.dist → val lab x = val s.label x := fun x hx => by rw [h3, if_neg hx]
      have hself : val lab a.dist = d + 1 := by rw [h3, if_pos rfl]
      have hlt : ∀ x, val s.label x < n → x ≠ a.dist := fun x h e => by rw [e, hl] at h; omega
      refine ⟨⟨lab, s.dq ++ [(a.dist, d + 1)], if 0 < val excess a.dist then s.queue ++ [a.dist] else s.queue⟩, ?_, ?_, ?_, ?_⟩
      · bstep hb
        rw [if_pos (by rw [hcap]; exact hp)]
        bstep (val_some (a := s.label) (i := a.dist) (by rw [hs.len]; exact hdl))
        rw [if_pos hl]
        bstep h1
        bstep (val_some (a := excess) (i := a.dist) (by rw [hx]; exact hdl))
        rfl
      · refine ⟨by rw [h2, hs.len], by rw [hother _ hsink.symm]; exact hs.zero, ?_, ?_, ?_, ?_, ?_, ?_, ?_, ?_, ?_⟩
        · intro x hx
          by_cases e : x = a.dist
          · rw [e]; simp only [hself]; omega
          · simp only [hother x e]; exact hs.le x hx
        · intro e he
          rcases List.mem_append.1 he with he | he
          · obtain ⟨q1, q2, q3, q4⟩ := hs.dq e he
            exact ⟨q1, by rw [hother _ (hlt _ (by omega))]; exact q2, q3, q4⟩
          · rw [List.mem_singleton.1 he]
            exact ⟨hdl, hself, hd1, by simp, by simp⟩
        · rw [List.pairwise_append]
          refine ⟨hs.sorted, List.pairwise_singleton _ _, fun p hp q hq => ?_⟩
          rw [List.mem_singleton.1 hq]
          exact (hs.dq p hp).2.2.2.2
        · intro x hx hxn
          by_cases e : x = a.dist
          · rw [e]; simp only [hself]; omega
          · simp only [hother x e] at hxn ⊢; exact hs.bound x hx hxn
        · intro w hw' hwn hwc hwq u hu hru
          have hwa : w ≠ a.dist := fun e => hwq (a.dist, d + 1) (by simp) e.symm
          simp only [hother w hwa] at hwn ⊢
          have := hs.done w hw' hwn hwc (fun e he => hwq e (List.mem_append_left _ he)) u hu hru
          by_cases e : u = a.dist
          · rw [e, hl] at this; rw [e]; simp only [hself]; omega
          · simp only [hother u e]; exact this
        · intro x hx hxn k hk
          by_cases e : x = a.dist
          · rw [e] at hk
            simp only [hself] at hk
            rcases Nat.lt_or_ge k (d + 1) with hk' | hk'
            · obtain ⟨y, hy, hy2⟩ := hs.cover v hv (by omega) k (by omega)
              exact ⟨y, hy, by simp only [hother y (hlt y (by omega))]; exact hy2⟩
            · exact ⟨a.dist, hdl, by simp only [hself]; omega⟩
          · simp only [hother x e] at hxn hk
            obtain ⟨y, hy, hy2⟩ := hs.cover x hx hxn k hk
            exact ⟨y, hy, by simp only [hother y (hlt y (by omega))]; exact hy2⟩
        · intro φ hφ x hx hxn
          by_cases e : x = a.dist
          · rw [e]
            simp only [hself]
            have h1 := hφ.2 a.dist v hp
            have h2 := hs.pot φ hφ v hv (by omega)
            omega
          · simp only [hother x e] at hxn ⊢; exact hs.pot φ hφ x hx hxn
        · have hnot : a.dist ∉ s.queue := fun h => by have := ((hs.mem a.dist).1 h).2.2.1; omega
          show (if 0 < val excess a.dist then s.queue ++ [a.dist] else s.queue).Nodup
          split
          · rw [List.nodup_append]
            refine ⟨hs.nodup, by simp, fun p hp q hq => ?_⟩
            rw [List.mem_singleton.1 hq]
            exact fun e => hnot (e ▸ hp)
          · exact hs.nodup
        · intro x
          show x ∈ (if 0 < val excess a.dist then s.queue ++ [a.dist] else s.queue) ↔ _
          by_cases e : x = a.dist
          · subst e
            simp only [hself]
            by_cases h : 0 < val excess a.dist
            · simp only [h, if_true, and_true]
              exact ⟨fun _ => ⟨hdl, hsink, hd1⟩, fun _ => by simp⟩
            · simp only [h, if_false, and_false, iff_false]
              exact fun h' => h ((hs.mem a.dist).1 h').2.2.2
          · simp only [hother x e]
            rw [← hs.mem x]
            split
            · simp [e]
            · rfl
      · refine ⟨fun x _ hxn => hother x (hlt x hxn), ?_⟩
        have := unl_set (l := s.label) (l' := lab) hdl hl hd1 h3
        simp only [List.length_append, List.length_singleton]
        omega
      · intro _; simp only [hself]; exact hd1
    · refine ⟨s, ?_, hs, ⟨fun _ _ _ => rfl, rfl⟩, fun _ => by have := hs.le a.dist hdl; omega⟩
      bstep hb
      rw [if_pos (by rw [hcap]; exact hp)]
      bstep (val_some (a := s.label) (i := a.dist) (by rw [hs.len]; exact hdl))
      rw [if_neg hl]
      rfl
  · refine ⟨s, ?_, hs, ⟨fun _ _ _ => rfl, rfl⟩, fun h => absurd h hp⟩
    bstep hb
    rw [if_neg (by rw [hcap]; exact hp)]
    rfl

theorem bfsRow_spec {n sink d v : Nat} {net : Net T} {excess : List T} (hw : WF n net) (hx : excess.length = n) (hd : d < n) (hv : v < n) :
    ∀ (row : List (Arc T)), (∀ a ∈ row, ∃ i, arcAt net v i = some a) → ∀ s : Bfs, val s.label v = d →
    BInv n sink (res net) (val excess) d v s →
    ∃ s', row.foldlM (bfsArc net excess n d) s = some s' ∧ BInv n sink (res net) (val excess) d v s' ∧ RowRes n s s' ∧
      ∀ a ∈ row, 0 < res net a.dist v → val s'.label a.dist < n := by
  intro row
  induction row with
  | nil => intro _ s _ hs; exact ⟨s, rfl, hs, ⟨fun _ _ _ => rfl, rfl⟩, by simp⟩
  | cons a row ih =>
    intro hrow s hlab hs
    obtain ⟨i, hi⟩ := hrow a (by simp)
    obtain ⟨s1, h1, h2, h3, h4⟩ := bfsArc_spec hw hx hd hi hv hlab hs
    obtain ⟨s2, g1, g2, g3, g4⟩ := ih (fun b hb => hrow b (List.mem_cons_of_mem _ hb)) s1 (by rw [h3.keep v hv (by omega)]; exact hlab) h2
    refine ⟨s2, ?_, g2, ⟨?_, g3.meas.trans h3.meas⟩, ?_⟩
    · rw [List.foldlM_cons]; bstep h1; exact g1
    · intro x hx' hxn
      have := h3.keep x hx' hxn
      rw [g3.keep x hx' (by omega), this]
    · intro b hb hp
      rcases List.mem_cons.1 hb with rfl | hb
      · have := h4 hp
        rw [g3.keep _ (hw.lt hi) this]; exact this
      · exact g4 b hb hp

theorem bfsLoop_spec {n sink : Nat} {net : Net T} {excess : List T} (hw : WF n net) (hx : excess.length = n) :
    ∀ (fuel d : Nat) (s : Bfs), s.dq.length + unl n s.label < fuel → BInv n sink (res net) (val excess) d n s →
    ∃ s' d', bfsLoop net excess n fuel s = some s' ∧ BInv n sink (res net) (val excess) d' n s' ∧ s'.dq = [] := by
  intro fuel
  induction fuel with
  | zero => intro d s h; omega
  | succ fuel ih =>
    intro d s hf hs
    obtain ⟨lab, dq, queue⟩ := s
    cases dq with
    | nil => exact ⟨_, d, rfl, hs, rfl⟩
    | cons e dq =>
      obtain ⟨v, dv⟩ := e
      obtain ⟨q1, q2, q3, q4, q5⟩ := hs.dq (v, dv) (by simp)
      have hsort := List.pairwise_cons.1 hs.sorted
      have hv : v < n := q1
      have hlv : val lab v = dv := q2
      have hdv : dv < n := q3
      obtain ⟨row, hrow⟩ : ∃ row, net[v]? = some row := ⟨_, List.getElem?_eq_getElem (by rw [hw.len]; exact hv)⟩
      have hs' : BInv n sink (res net) (val excess) dv v ⟨lab, dq, queue⟩ := by
        refine ⟨hs.len, hs.zero, hs.le, ?_, hsort.2, ?_, ?_, hs.cover, hs.pot, hs.nodup, hs.mem⟩
        · intro e he
          obtain ⟨p1, p2, p3, p4, p5⟩ := hs.dq e (List.mem_cons_of_mem _ he)
          have := hsort.1 e he
          exact ⟨p1, p2, p3, this, by omega⟩
        · intro x hx hxn
          have h5 : val lab x ≤ d + 1 := hs.bound x hx hxn
          have h6 : d ≤ dv := q4
          show val lab x ≤ dv + 1
          omega
        · intro w hw' hwn hwc hwq u hu hru
          refine hs.done w hw' hwn (by omega) ?_ u hu hru
          intro e he
          rcases List.mem_cons.1 he with rfl | he
          · exact fun e => hwc e.symm
          · exact hwq e he
      obtain ⟨s1, h1, h2, h3, h4⟩ := bfsRow_spec hw hx hdv hv row
        (fun a ha => by obtain ⟨i, hi⟩ := List.mem_iff_getElem?.1 ha; exact ⟨i, by rw [arcAt_row hrow]; exact hi⟩) ⟨lab, dq, queue⟩ hlv hs'
      have hlv1 : val s1.label v = dv := by rw [h3.keep v hv (by show val lab v < n; omega)]; exact hlv
      have hs1 : BInv n sink (res net) (val excess) dv n s1 := by
        refine ⟨h2.len, h2.zero, h2.le, h2.dq, h2.sorted, h2.bound, ?_, h2.cover, h2.pot, h2.nodup, h2.mem⟩
        intro w hw' hwn _ hwq u hu hru
        by_cases hwv : w = v
        · subst hwv
          obtain ⟨j, a, ha, ha1, _⟩ := res_ne (ne_of_gt hru)
          obtain ⟨b, hb, hb1, _⟩ := hw.pair ha
          rw [ha1, arcAt_row hrow] at hb
          have := h4 b (List.mem_of_getElem? hb) (by rw [hb1]; exact hru)
          rw [hb1] at this
          rw [hlv1]
          exact h2.bound u hu this
        · exact h2.done w hw' hwn hwv hwq u hu hru
      obtain ⟨s2, d2, g1, g2, g3⟩ := ih dv s1 (by
        have h5 : s1.dq.length + unl n s1.label = dq.length + unl n lab := h3.meas
        have h6 : dq.length + 1 + unl n lab < fuel + 1 := hf
        omega) hs1
      refine ⟨s2, d2, ?_, g2, g3⟩
      show (do let row ← net[v]?; let s ← row.foldlM (bfsArc net excess n dv) ⟨lab, dq, queue⟩; bfsLoop net excess n fuel s) = _
      bstep hrow
      bstep h1
      exact g1

/-- What `global_relabel` computes. -/
structure Labelled (n sink : Nat) (R : Nat → Nat → T) (ex : Nat → T) (label queue : List Nat) : Prop where
  len : label.length = n
  zero : val label sink = 0
  le : ∀ x < n, val label x ≤ n
  step : ∀ u < n, ∀ v < n, 0 < R u v → val label u ≤ val label v + 1
  pot : ∀ φ, Potential sink R φ → ∀ x < n, val label x < n → φ x ≤ val label x
  nodup : queue.Nodup
  mem : ∀ x, x ∈ queue ↔ x < n ∧ x ≠ sink ∧ val label x < n ∧ 0 < ex x

theorem globalRelabel_spec {n : Nat} {g : PR T} (hw : WF n g.net) (hl : g.label.length = n) (hx : g.excess.length = n)
    (hs : g.sink < n) (hn : g.notReached = n) :
    ∃ label queue, globalRelabel g = some { g with label := label, queue := queue } ∧
      Labelled n g.sink (res g.net) (val g.excess) label queue := by
  have hrep : (g.label.map fun _ => n) = List.replicate n n := by rw [List.map_const', hl]
  have hval : ∀ x < n, val (List.replicate n n) x = n := fun x hx => by
    rw [val, List.getD_eq_getElem?_getD, List.getElem?_replicate, if_pos hx, Option.getD_some]
  obtain ⟨lab, h1, h2, h3⟩ := put_spec 0 (a := List.replicate n n) (i := g.sink) (by simpa using hs)
  have hinit : BInv n g.sink (res g.net) (val g.excess) 0 n ⟨lab, [(g.sink, 0)], []⟩ := by
    have hz : ∀ x < n, val lab x < n → x = g.sink := by
      intro x hx hxn
      by_contra e
      rw [h3, if_neg e, hval x hx] at hxn
      omega
    have h0 : val lab g.sink = 0 := by rw [h3, if_pos rfl]
    refine ⟨by rw [h2]; simp, h0, ?_, ?_, by simp, ?_, ?_, ?_, ?_, by simp, ?_⟩
    · intro x hx
      show val lab x ≤ n
      rw [h3]
      split
      · omega
      · rw [hval x hx]
    · intro e he
      rw [List.mem_singleton.1 he]
      exact ⟨hs, h0, by show 0 < n; omega, le_rfl, by show 0 ≤ 1; omega⟩
    · intro x hx hxn
      rw [hz x hx hxn]
      show val lab g.sink ≤ _
      omega
    · intro v hv hvn _ hvq
      exact absurd (hz v hv hvn).symm (hvq (g.sink, 0) (by simp))
    · intro x hx hxn k hk
      rw [hz x hx hxn] at hk
      have hk : k ≤ val lab g.sink := hk
      exact ⟨g.sink, hs, by show val lab g.sink = k; omega⟩
    · intro φ hφ x hx hxn
      rw [hz x hx hxn, hφ.1]
      exact Nat.zero_le _
    · intro x
      refine ⟨fun h => absurd h List.not_mem_nil, fun h => absurd (hz x h.1 h.2.2.1) h.2.1⟩
  have hu : unl n lab + 1 = unl n (List.replicate n n) := unl_set hs (hval _ hs) (by omega) h3
  have hu2 : unl n (List.replicate n n) ≤ n := (card_filter_le _ _).trans (by rw [card_range])
  obtain ⟨s', d', g1, g2, g3⟩ := bfsLoop_spec hw hx (n + 1) 0 ⟨lab, [(g.sink, 0)], []⟩ (by
    show 1 + unl n lab < n + 1; omega) hinit
  refine ⟨s'.label, s'.queue, ?_, g2.len, g2.zero, g2.le, ?_, g2.pot, g2.nodup, g2.mem⟩
  · unfold globalRelabel
    rw [hn, hl, hrep]
    bstep h1
    bstep g1
    rfl
  · intro u hu v hv hr
    rcases (g2.le v hv).lt_or_eq with h | h
    · exact g2.done v hv h (by omega) (by rw [g3]; simp) u hu hr
    · have := g2.le u hu
      omega

end Verif.Flow
