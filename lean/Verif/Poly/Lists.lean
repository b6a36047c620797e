import Mathlib.Data.List.Basic
import Mathlib.Data.List.Rotate
import Mathlib.Data.List.Chain
import Mathlib.Data.List.Nodup
import Mathlib.Data.List.NodupEquivFin
import Mathlib.Data.Fintype.Card
/-!
# List functions of `src/polygonlization/bsp_complex.rs`: `insert_coplanar_triangles`, `make_loop`, `merge_colinear_edges`
-/
namespace Verif.Poly

/-! ### `insert_coplanar_triangles` (lines 1419-1427) -/

/-- `slice::binary_search` on an ascending list without repetitions: `none` is `Ok(_)`, `some pos` is `Err(pos)`. -/
def searchErr (dest : List Nat) (x : Nat) : Option Nat := if x ∈ dest then none else some (dest.countP (· < x))

/-- The body of the loop. -/
def insertStep (n : Nat) (dest : List Nat) (x : Nat) : List Nat :=
  if x < n then
    match searchErr dest x with
    | none => dest
    | some pos => dest.take pos ++ x :: dest.drop pos
  else dest

/-- `insert_coplanar_triangles` (lines 1419-1427). -/
def insertCoplanar (src dest : List Nat) (n : Nat) : List Nat := src.foldl (insertStep n) dest

theorem countP_split {x : Nat} : ∀ {l : List Nat}, l.Pairwise (· < ·) → x ∉ l →
    (∀ y ∈ l.take (l.countP (· < x)), y < x) ∧ ∀ y ∈ l.drop (l.countP (· < x)), x < y
  | [], _, _ => by simp
  | a :: l, h, hx => by
    obtain ⟨h1, h2⟩ := List.pairwise_cons.1 h
    have hx1 : x ≠ a := fun e => hx (by rw [e]; simp)
    have hx2 : x ∉ l := fun e => hx (List.mem_cons_of_mem _ e)
    obtain ⟨i1, i2⟩ := countP_split h2 hx2
    by_cases hax : a < x
    · rw [List.countP_cons_of_pos (by simpa using hax), List.take_succ_cons, List.drop_succ_cons]
      refine ⟨fun y hy => ?_, i2⟩
      rcases List.mem_cons.1 hy with rfl | hy
      · exact hax
      · exact i1 y hy
    · have : l.countP (· < x) = 0 := List.countP_eq_zero.2 fun b hb => by
        have := h1 b hb
        simp only [decide_eq_true_eq]; omega
      rw [List.countP_cons_of_neg (by simpa using hax), this, List.take_zero, List.drop_zero]
      refine ⟨by simp, fun y hy => ?_⟩
      rcases List.mem_cons.1 hy with rfl | hy
      · omega
      · have := h1 y hy; omega

/-- C57. The list stays strictly ascending and gains exactly the members of `src` below `n_constraints`. -/
theorem c57_insert_coplanar (n : Nat) : ∀ (src dest : List Nat), dest.Pairwise (· < ·) →
    (insertCoplanar src dest n).Pairwise (· < ·) ∧ ∀ x, x ∈ insertCoplanar src dest n ↔ x ∈ dest ∨ (x ∈ src ∧ x < n)
  | [], dest, h => ⟨h, by simp [insertCoplanar]⟩
  | a :: src, dest, h => by
    have step : (insertStep n dest a).Pairwise (· < ·) ∧ ∀ x, x ∈ insertStep n dest a ↔ x ∈ dest ∨ (x = a ∧ a < n) := by
      unfold insertStep searchErr
      by_cases ha : a < n
      · rw [if_pos ha]
        by_cases hm : a ∈ dest
        · rw [if_pos hm]
          refine ⟨h, fun x => ⟨Or.inl, ?_⟩⟩
          rintro (hx | ⟨rfl, _⟩)
          · exact hx
          · exact hm
        · rw [if_neg hm]
          obtain ⟨s1, s2⟩ := countP_split h hm
          have hsplit := List.take_append_drop (dest.countP (· < a)) dest
          have hd := h
          rw [← hsplit] at hd
          obtain ⟨d1, d2, d3⟩ := List.pairwise_append.1 hd
          refine ⟨List.pairwise_append.2 ⟨d1, List.pairwise_cons.2 ⟨s2, d2⟩, ?_⟩, fun x => ?_⟩
          · intro y hy z hz
            rcases List.mem_cons.1 hz with rfl | hz
            · exact s1 y hy
            · exact d3 y hy z hz
          · have : x ∈ dest ↔ x ∈ dest.take (dest.countP (· < a)) ∨ x ∈ dest.drop (dest.countP (· < a)) := by
              rw [← List.mem_append, hsplit]
            rw [this]
            simp only [List.mem_append, List.mem_cons]
            tauto
      · rw [if_neg ha]
        exact ⟨h, fun x => by tauto⟩
    obtain ⟨i1, i2⟩ := c57_insert_coplanar n src (insertStep n dest a) step.1
    refine ⟨i1, fun x => ?_⟩
    rw [show insertCoplanar (a :: src) dest n = insertCoplanar src (insertStep n dest a) n from rfl, i2, step.2]
    simp only [List.mem_cons]
    constructor
    · rintro ((h | ⟨rfl, h⟩) | ⟨h, h'⟩) <;> tauto
    · rintro (h | ⟨rfl | h, h'⟩) <;> tauto

example : insertCoplanar [7, 2, 9, 5, 2] [1, 5, 8] 9 = [1, 2, 5, 7, 8] := by decide

/-! ### `make_loop` (lines 1738-1772) -/

/-- `map[&key]`: the map sends a start to the index of the last piece with this start; `none` is a panic. -/
def indexOfStart (pieces : List (Nat × Nat)) (key : Nat) : Option Nat :=
  (List.range pieces.length).reverse.find? fun i => (pieces[i]?.map Prod.fst) == some key

/-- The loop (lines 1762-1770). -/
def loopFrom (pieces : List (Nat × Nat)) : Nat → Nat → List Nat → Option (List Nat)
  | 0, _, _ => none
  | fuel + 1, curr, result => do
    let p ← pieces[curr]?
    let next ← indexOfStart pieces p.2
    if next = 0 then pure result else loopFrom pieces fuel next (result ++ [next])

/-- `make_loop` (lines 1738-1772). A piece is reduced to the numbers of its start and its end vertex (the two closures). -/
def makeLoop (fuel : Nat) (pieces : List (Nat × Nat)) : Option (List (Nat × Nat)) := do
  let ids ← loopFrom pieces fuel 0 [0]
  ids.mapM fun i => pieces[i]?

theorem indexOfStart_spec {pieces : List (Nat × Nat)} {key i : Nat} (h : indexOfStart pieces key = some i) :
    ∃ p, pieces[i]? = some p ∧ p.1 = key := by
  unfold indexOfStart at h
  have := List.find?_some h
  cases hp : pieces[i]? with
  | none => rw [hp] at this; simp at this
  | some p => rw [hp] at this; exact ⟨p, rfl, by simpa using this⟩

theorem indexOfStart_some {pieces : List (Nat × Nat)} {key : Nat} (h : key ∈ pieces.map Prod.fst) : ∃ i, indexOfStart pieces key = some i := by
  unfold indexOfStart
  rw [← Option.isSome_iff_exists, List.find?_isSome]
  obtain ⟨p, hp, rfl⟩ := List.mem_map.1 h
  obtain ⟨i, hi, rfl⟩ := List.mem_iff_getElem.1 hp
  exact ⟨i, by simpa using hi, by simp [List.getElem?_eq_getElem hi]⟩

/-- Consecutive indices of a chain fit together. -/
def Fits (pieces : List (Nat × Nat)) (i j : Nat) : Prop := ∃ p q, pieces[i]? = some p ∧ pieces[j]? = some q ∧ p.2 = q.1

theorem loopFrom_spec {pieces : List (Nat × Nat)} (he : (pieces.map Prod.snd).Nodup) (hes : ∀ p ∈ pieces, p.2 ∈ pieces.map Prod.fst) :
    ∀ (fuel curr : Nat) (result : List Nat), result.Nodup → (∀ i ∈ result, i < pieces.length) → pieces.length < fuel + result.length →
      result.head? = some 0 → result.getLast? = some curr → result.IsChain (Fits pieces) →
      ∃ ids, loopFrom pieces fuel curr result = some ids ∧ ids.Nodup ∧ (∀ i ∈ ids, i < pieces.length) ∧ ids.head? = some 0 ∧
        ids.IsChain (Fits pieces) ∧ ∃ last, ids.getLast? = some last ∧ Fits pieces last 0 := by
  intro fuel
  induction fuel with
  | zero =>
    intro curr result h1 h2 h3 _ _ _
    have := List.Nodup.length_le_card (α := Fin pieces.length) (l := result.pmap Fin.mk h2) (h1.pmap fun _ _ _ _ e => by simpa using e)
    simp at this
    omega
  | succ fuel ih =>
    intro curr result h1 h2 h3 h4 h5 h6
    have hc : curr ∈ result := List.mem_of_getLast? h5
    have hcl := h2 curr hc
    have hp : pieces[curr]? = some pieces[curr] := List.getElem?_eq_getElem hcl
    obtain ⟨next, hn⟩ := indexOfStart_some (hes _ (List.getElem_mem hcl))
    obtain ⟨q, hq, hqe⟩ := indexOfStart_spec hn
    have hnl : next < pieces.length := (List.getElem?_eq_some_iff.1 hq).1
    have hfit : Fits pieces curr next := ⟨_, q, hp, hq, hqe.symm⟩
    have run : loopFrom pieces (fuel + 1) curr result = if next = 0 then some result else loopFrom pieces fuel next (result ++ [next]) := by
      show ((pieces[curr]?).bind fun p => (indexOfStart pieces p.2).bind fun next => if next = 0 then pure result else loopFrom pieces fuel next (result ++ [next])) = _
      rw [hp]
      show ((indexOfStart pieces pieces[curr].2).bind fun next => if next = 0 then pure result else loopFrom pieces fuel next (result ++ [next])) = _
      rw [hn]; rfl
    rw [run]
    by_cases h0 : next = 0
    · rw [if_pos h0]
      exact ⟨result, rfl, h1, h2, h4, h6, curr, h5, h0 ▸ hfit⟩
    · rw [if_neg h0]
      have hnew : next ∉ result := by
        intro hmem
        obtain ⟨k, hk, hke⟩ := List.mem_iff_getElem.1 hmem
        have hkpos : k ≠ 0 := by
          rintro rfl
          rw [List.head?_eq_getElem?, List.getElem?_eq_getElem hk, hke] at h4
          exact h0 (Option.some.inj h4)
        obtain ⟨j, rfl⟩ := Nat.exists_eq_succ_of_ne_zero hkpos
        have hf := List.isChain_iff_getElem.1 h6 j hk
        obtain ⟨a, b, ha, hb, hab⟩ := hf
        rw [hke, hq] at hb; cases hb
        -- the predecessor of `next` in the chain ends where `curr` ends
        have hj : j < result.length := by omega
        have hjl := h2 _ (List.getElem_mem hj)
        have hend : pieces[curr].2 = pieces[result[j]].2 := by
          rw [List.getElem?_eq_getElem hjl] at ha; cases ha
          rw [hab, hqe]
        have hcj : curr = result[j] := by
          have := (List.Nodup.getElem_inj_iff he (i := curr) (j := result[j]) (hi := by simpa using hcl) (hj := by simpa using hjl)).1
            (by simpa using hend)
          exact this
        rw [List.getLast?_eq_getElem?, List.getElem?_eq_getElem (by omega), Option.some.injEq] at h5
        have := (List.Nodup.getElem_inj_iff h1).1 (h5.trans hcj)
        omega
      refine ih next (result ++ [next]) ?_ ?_ ?_ ?_ ?_ ?_
      · exact List.nodup_append.2 ⟨h1, by simp, fun a ha b hb => by rintro rfl; exact hnew (List.mem_singleton.1 hb ▸ ha)⟩
      · intro i hi
        rcases List.mem_append.1 hi with hi | hi
        · exact h2 i hi
        · rw [List.mem_singleton.1 hi]; exact hnl
      · rw [List.length_append, List.length_singleton]; omega
      · rw [List.head?_append, h4]; rfl
      · simp
      · refine List.isChain_append.2 ⟨h6, by simp, ?_⟩
        intro x hx y hy
        rw [h5] at hx
        simp only [List.head?_cons, Option.mem_def, Option.some.injEq] at hx hy
        rw [← hx, ← hy]; exact hfit

/-- C56. Pieces with distinct starts and ends, every end being the start of some piece: `make_loop` ends and returns a chain of
distinct pieces that begins with the first piece, each one starting where the one before ends, and closes up. -/
theorem c56_make_loop {pieces : List (Nat × Nat)} (h0 : pieces ≠ []) (hs : (pieces.map Prod.fst).Nodup) (he : (pieces.map Prod.snd).Nodup)
    (hes : ∀ p ∈ pieces, p.2 ∈ pieces.map Prod.fst) :
    ∃ res : List (Nat × Nat), (∀ fuel, pieces.length ≤ fuel → makeLoop fuel pieces = some res) ∧ res.head? = pieces.head? ∧ (res.map Prod.fst).Nodup ∧
      (∀ p ∈ res, p ∈ pieces) ∧ res.IsChain (fun p q => p.2 = q.1) ∧ res.getLast?.map Prod.snd = res.head?.map Prod.fst := by
  have hlen : 0 < pieces.length := List.length_pos_iff.2 h0
  have main : ∀ fuel, pieces.length ≤ fuel → ∃ ids, loopFrom pieces fuel 0 [0] = some ids ∧ ids.Nodup ∧ (∀ i ∈ ids, i < pieces.length) ∧ ids.head? = some 0 ∧
        ids.IsChain (Fits pieces) ∧ ∃ last, ids.getLast? = some last ∧ Fits pieces last 0 := fun fuel hf =>
    loopFrom_spec he hes fuel 0 [0] (by simp) (by simpa using hlen) (by simp; omega) rfl rfl (by simp)
  have mono : ∀ (k k' curr : Nat) (r ids : List Nat), k ≤ k' → loopFrom pieces k curr r = some ids → loopFrom pieces k' curr r = some ids := by
    intro k
    induction k with
    | zero => intro _ _ _ _ _ h; cases h
    | succ k ih =>
      intro k' curr r ids hk h
      obtain ⟨k', rfl⟩ : ∃ j, k' = j + 1 := ⟨k' - 1, by omega⟩
      simp only [loopFrom, Option.bind_eq_bind, Option.bind_eq_some_iff] at h ⊢
      obtain ⟨p, hp, next, hn, h⟩ := h
      refine ⟨p, hp, next, hn, ?_⟩
      split at h
      · rw [if_pos ‹_›]; exact h
      · rw [if_neg ‹_›]; exact ih k' _ _ _ (by omega) h
  obtain ⟨ids, e1, e2, e3, e4, e5, last, e6, e7⟩ := main pieces.length (le_refl _)
  have hmap : ∀ l : List Nat, (∀ i ∈ l, i < pieces.length) → l.mapM (fun i => pieces[i]?) = some (l.filterMap fun i => pieces[i]?) := by
    intro l
    induction l with
    | nil => intro _; rfl
    | cons i l ih =>
      intro hl
      have hi := List.getElem?_eq_getElem (l := pieces) (hl i (by simp))
      rw [List.mapM_cons, hi, ih fun j hj => hl j (List.mem_cons_of_mem _ hj), List.filterMap_cons_some hi]; rfl
  have hfst : ∀ l : List Nat, (∀ i ∈ l, i < pieces.length) → l.Nodup → ((l.filterMap fun i => pieces[i]?).map Prod.fst).Nodup := by
    intro l
    induction l with
    | nil => intro _ _; simp
    | cons i l ih =>
      intro hl hn
      have hil := hl i (by simp)
      have hi : pieces[i]? = some pieces[i] := List.getElem?_eq_getElem hil
      rw [List.filterMap_cons_some hi, List.map_cons, List.nodup_cons]
      refine ⟨?_, ih (fun j hj => hl j (List.mem_cons_of_mem _ hj)) (List.nodup_cons.1 hn).2⟩
      intro hc
      obtain ⟨q, hq, hqe⟩ := List.mem_map.1 hc
      obtain ⟨j, hj, hjq⟩ := List.mem_filterMap.1 hq
      have hjl := hl j (List.mem_cons_of_mem _ hj)
      rw [List.getElem?_eq_getElem hjl] at hjq; cases hjq
      have := (List.Nodup.getElem_inj_iff hs (i := j) (j := i) (hi := by simpa using hjl) (hj := by simpa using hil)).1 (by simpa using hqe)
      exact (List.nodup_cons.1 hn).1 (this ▸ hj)
  have hchain : ∀ l : List Nat, (∀ i ∈ l, i < pieces.length) → l.IsChain (Fits pieces) →
      (l.filterMap fun i => pieces[i]?).IsChain (fun p q => p.2 = q.1) := by
    intro l
    induction l with
    | nil => intro _ _; simp
    | cons i l ih =>
      intro hl hn
      have hi := List.getElem?_eq_getElem (l := pieces) (hl i (by simp))
      rw [List.filterMap_cons_some hi]
      cases l with
      | nil => simp
      | cons j l =>
        have hj := List.getElem?_eq_getElem (l := pieces) (hl j (by simp))
        have i2 := ih (fun k hk => hl k (List.mem_cons_of_mem _ hk)) (List.isChain_cons_cons.1 hn).2
        rw [List.filterMap_cons_some hj] at i2 ⊢
        refine List.isChain_cons_cons.2 ⟨?_, i2⟩
        obtain ⟨p, q, hp, hq, hpq⟩ := (List.isChain_cons_cons.1 hn).1
        rw [hi] at hp; rw [hj] at hq; cases hp; cases hq
        exact hpq
  have hlast : ∀ l : List Nat, (∀ i ∈ l, i < pieces.length) → (l.filterMap fun i => pieces[i]?).getLast? = l.getLast?.bind fun i => pieces[i]? := by
    intro l hl
    rcases List.eq_nil_or_concat l with rfl | ⟨l', b, rfl⟩
    · rfl
    · have hb := List.getElem?_eq_getElem (l := pieces) (hl b (by simp))
      rw [List.concat_eq_append, List.filterMap_append, List.filterMap_cons_some hb]
      simp [hb]
  refine ⟨ids.filterMap fun i => pieces[i]?, fun fuel hf => ?_, ?_, hfst ids e3 e2, ?_, hchain ids e3 e5, ?_⟩
  · unfold makeLoop
    rw [mono _ _ _ _ _ hf e1]
    exact hmap ids e3
  · cases ids with
    | nil => cases e4
    | cons i ids =>
      cases e4
      have : pieces[0]? = some pieces[0] := List.getElem?_eq_getElem hlen
      rw [List.filterMap_cons_some this, List.head?_cons, List.head?_eq_getElem?, this]
  · intro p hp
    obtain ⟨i, _, hi⟩ := List.mem_filterMap.1 hp
    exact List.mem_of_getElem? hi
  · obtain ⟨p, q, hp, hq, hpq⟩ := e7
    rw [hlast ids e3, e6]
    cases ids with
    | nil => cases e4
    | cons i ids =>
      cases e4
      rw [List.filterMap_cons_some hq, List.head?_cons]
      show (pieces[last]?).map Prod.snd = some q.1
      rw [hp, ← hpq]; rfl

/-- Four pieces, given out of order. -/
example : makeLoop 4 [(1, 5), (7, 1), (3, 7), (5, 3)] = some [(1, 5), (5, 3), (3, 7), (7, 1)] := by decide

/-- Distinct ends are needed: here every end is a start and the starts are distinct, but the loop never ends. -/
theorem c56_needs_distinct_ends : ∀ fuel, makeLoop fuel [(0, 1), (1, 2), (2, 1)] = none := by
  have key : ∀ fuel r, loopFrom [(0, 1), (1, 2), (2, 1)] fuel 1 r = none ∧ loopFrom [(0, 1), (1, 2), (2, 1)] fuel 2 r = none := by
    intro fuel
    induction fuel with
    | zero => intro r; exact ⟨rfl, rfl⟩
    | succ k ih => intro r; exact ⟨(ih (r ++ [2])).2, (ih (r ++ [1])).1⟩
  intro fuel
  cases fuel with
  | zero => rfl
  | succ k =>
    unfold makeLoop
    rw [show loopFrom [(0, 1), (1, 2), (2, 1)] (k + 1) 0 [0] = loopFrom [(0, 1), (1, 2), (2, 1)] k 1 [0, 1] from rfl, (key k _).1]; rfl

/-! ### `merge_colinear_edges` (lines 1059-1188) -/

variable {α β : Type}

/-- One round of the grouping loop (lines 1104-1145) for an edge that is in no group yet. The caller passes an `edge_in_group` filled with
`INVALID_IND` that nobody writes to, so this is the only case and `start_idx` is `0`. State: finished groups, `cur_group`. -/
def groupStep (col : α → α → Bool) (s : List (List α) × List α) (he : α) : List (List α) × List α :=
  match s.2.getLast? with
  | some prev => if col prev he then (s.1, s.2 ++ [he]) else (s.1 ++ [s.2], [he])
  | none => (s.1, s.2 ++ [he])

/-- `merge_colinear_edges` (lines 1059-1188): `col` is the closure `colinear`, `endV` the closure `end_vertex`. `none` is a panic: an empty
outline, or `halfedges[0]` with no finished group. -/
def mergeColinear (col : α → α → Bool) (endV : α → β) (outline : List α) : Option (List β) := do
  if outline.isEmpty then none
  else
    let (groups, cur) := outline.foldl (groupStep col) ([], [])
    let first ← groups[0]?
    let f0 ← first[0]?
    let last ← cur.getLast?
    let groups := if col last f0 then groups.set 0 (cur ++ first) else groups ++ [cur]
    groups.mapM fun g => g.getLast?.map endV

/-- Specification: the end vertices of the edges whose cyclic successor is not colinear with them. -/
def corners (col : α → α → Bool) (endV : α → β) (outline : List α) : List β :=
  ((outline.zip (outline.rotate 1)).filter fun p => !col p.1 p.2).map fun p => endV p.1

/-- The corners at the end of `c` and of the elements of the list except the last. -/
def inner (col : α → α → Bool) : α → List α → List α
  | _, [] => []
  | c, x :: xs => if col c x then inner col x xs else c :: inner col x xs

theorem group_spec (col : α → α → Bool) : ∀ (rest : List α) (c : α) (gs : List (List α)) (cur : List α), cur.getLast? = some c →
    (∀ g ∈ gs, g ≠ []) → ∃ gs' cur', rest.foldl (groupStep col) (gs, cur) = (gs', cur') ∧ (∀ g ∈ gs', g ≠ []) ∧
      gs'.map List.getLast? = gs.map List.getLast? ++ (inner col c rest).map some ∧ cur'.getLast? = (c :: rest).getLast? ∧
      ((gs' ++ [cur'])[0]?.bind (·[0]?)) = ((gs ++ [cur])[0]?.bind (·[0]?))
  | [], c, gs, cur, h, hg => ⟨gs, cur, rfl, hg, by simp [inner], by simpa using h, rfl⟩
  | x :: rest, c, gs, cur, h, hg => by
    have hne : cur ≠ [] := by rintro rfl; cases h
    by_cases hc : col c x = true
    · obtain ⟨gs', cur', h1, h2, h3, h4, h5⟩ := group_spec col rest x gs (cur ++ [x]) (by simp) hg
      refine ⟨gs', cur', ?_, h2, ?_, ?_, ?_⟩
      · rw [List.foldl_cons, show groupStep col (gs, cur) x = (gs, cur ++ [x]) by unfold groupStep; simp [h, hc]]; exact h1
      · rw [h3]; simp [inner, hc]
      · rw [h4, List.getLast?_cons_cons]
      · rw [h5]
        cases gs with
        | nil => cases cur with
          | nil => exact absurd rfl hne
          | cons a cur => rfl
        | cons g gs => rfl
    · obtain ⟨gs', cur', h1, h2, h3, h4, h5⟩ := group_spec col rest x (gs ++ [cur]) [x] rfl
        (by intro g hg'; rcases List.mem_append.1 hg' with hg' | hg'
            · exact hg g hg'
            · rw [List.mem_singleton.1 hg']; exact hne)
      refine ⟨gs', cur', ?_, h2, ?_, ?_, ?_⟩
      · rw [List.foldl_cons, show groupStep col (gs, cur) x = (gs ++ [cur], [x]) by unfold groupStep; simp [h, hc]]; exact h1
      · rw [h3]; simp [inner, hc, h]
      · rw [h4, List.getLast?_cons_cons]
      · rw [h5]
        cases gs with
        | nil => rfl
        | cons g gs => rfl

theorem mapM_last (endV : α → β) : ∀ (gs : List (List α)) (ls : List α), gs.map List.getLast? = ls.map some →
    gs.mapM (fun g => g.getLast?.map endV) = some (ls.map endV)
  | [], [], _ => rfl
  | [], _ :: _, h => by simp at h
  | _ :: _, [], h => by simp at h
  | g :: gs, l :: ls, h => by
    rw [List.map_cons, List.map_cons, List.cons.injEq] at h
    rw [List.mapM_cons, h.1, mapM_last endV gs ls h.2]; rfl

theorem zip_inner (col : α → α → Bool) : ∀ (rest : List α) (c a l : α), (c :: rest).getLast? = some l →
    (((c :: rest).zip (rest ++ [a])).filter (fun p => !col p.1 p.2)).map Prod.fst = inner col c rest ++ if col l a then [] else [l]
  | [], c, a, l, h => by
    simp only [List.getLast?_singleton, Option.some.injEq] at h
    subst h
    cases hc : col c a <;> simp [inner, hc]
  | x :: rest, c, a, l, h => by
    rw [List.getLast?_cons_cons] at h
    have ih := zip_inner col rest x a l h
    rw [List.cons_append, List.zip_cons_cons]
    cases hc : col c x
    · rw [List.filter_cons_of_pos (by simp [hc]), List.map_cons, ih]; simp [inner, hc]
    · rw [List.filter_cons_of_neg (by simp [hc]), ih]; simp [inner, hc]

theorem corners_cons (col : α → α → Bool) (endV : α → β) (a l : α) (rest : List α) (h : (a :: rest).getLast? = some l) :
    corners col endV (a :: rest) = (inner col a rest ++ if col l a then [] else [l]).map endV := by
  unfold corners
  rw [← zip_inner col rest a a l h, List.map_map, List.rotate_cons_succ, List.rotate_zero]
  rfl

theorem inner_eq_nil (col : α → α → Bool) : ∀ (rest : List α) (c : α), inner col c rest = [] ↔ (c :: rest).IsChain fun a b => col a b = true
  | [], c => by simp [inner]
  | x :: rest, c => by
    rw [List.isChain_cons_cons, ← inner_eq_nil col rest x]
    cases hc : col c x <;> simp [inner, hc]

/-- C54. If some edge of the outline is not colinear with the next one in the list, the result is exactly the list of corners. -/
theorem c54_merge_colinear (col : α → α → Bool) (endV : α → β) (outline : List α) (h : ¬ outline.IsChain fun a b => col a b = true) :
    mergeColinear col endV outline = some (corners col endV outline) := by
  match outline, h with
  | [], h => exact absurd (by simp) h
  | a :: rest, h =>
    obtain ⟨gs, cur, h1, h2, h3, h4, h5⟩ := group_spec col rest a [] [a] rfl (by simp)
    rw [List.map_nil, List.nil_append] at h3
    obtain ⟨l, hl⟩ : ∃ l, (a :: rest).getLast? = some l := ⟨_, List.getLast?_eq_some_getLast (by simp)⟩
    have hne : inner col a rest ≠ [] := fun e => h ((inner_eq_nil col rest a).1 e)
    match gs, h2, h3, h5, h1 with
    | [], _, h3, _, _ => exact absurd (by simpa using h3) hne
    | g :: gs, h2, h3, h5, h1 =>
      have hf : g[0]? = some a := by simpa using h5
      have hcur : cur.getLast? = some l := by rw [h4, hl]
      have run : mergeColinear col endV (a :: rest) = (if col l a then (g :: gs).set 0 (cur ++ g) else (g :: gs) ++ [cur]).mapM fun g => g.getLast?.map endV := by
        unfold mergeColinear
        rw [if_neg (by simp), List.foldl_cons, show groupStep col ([], []) a = ([], [a]) from rfl, h1]
        show ((g[0]?).bind fun f0 => cur.getLast?.bind fun last => (if col last f0 then (g :: gs).set 0 (cur ++ g) else (g :: gs) ++ [cur]).mapM fun g => g.getLast?.map endV) = _
        rw [hf]
        show (cur.getLast?.bind fun last => (if col last a then (g :: gs).set 0 (cur ++ g) else (g :: gs) ++ [cur]).mapM fun g => g.getLast?.map endV) = _
        rw [hcur]; rfl
      rw [run, corners_cons col endV a l rest hl]
      cases hc : col l a
      · simp only [Bool.false_eq_true, if_false]
        refine mapM_last endV _ _ ?_
        rw [List.map_append, h3, List.map_append, List.map_singleton, hcur]; rfl
      · simp only [if_true, List.append_nil, List.set_cons_zero]
        refine mapM_last endV _ _ ?_
        rw [← h3, List.map_cons, List.map_cons]
        congr 1
        rw [List.getLast?_append]
        cases hg : g.getLast? with
        | none => exact absurd (List.getLast?_eq_none_iff.1 hg) (h2 g (by simp))
        | some x => rfl

/-- Otherwise (an empty outline, or all consecutive edges colinear) the function panics. -/
theorem c54_panics (col : α → α → Bool) (endV : α → β) (outline : List α) (h : outline.IsChain fun a b => col a b = true) :
    mergeColinear col endV outline = none := by
  match outline, h with
  | [], _ => rfl
  | a :: rest, h =>
    obtain ⟨gs, cur, h1, h2, h3, _, _⟩ := group_spec col rest a [] [a] rfl (by simp)
    rw [(inner_eq_nil col rest a).2 h] at h3
    have : gs = [] := by simpa using h3
    subst this
    unfold mergeColinear
    rw [if_neg (by simp), List.foldl_cons, show groupStep col ([], []) a = ([], [a]) from rfl, h1]; rfl

/-- A square whose first side consists of three edges and starts in the middle of the list. -/
example : mergeColinear (fun a b : Nat × Nat => a.2 == b.2) Prod.fst [(0, 7), (1, 8), (2, 8), (3, 9), (4, 6), (5, 7)] = some [0, 2, 3, 4] := by decide

end Verif.Poly
