import Verif.Flow.Model
import Verif.Flow.Spec
import Mathlib.Tactic.Abel
/-!
# Residual networks as matrices
-/
namespace Verif.Flow

variable {T : Type} [AddCommGroup T] [LinearOrder T]

theorem bind_of {α β : Type} {x : Option α} {a : α} {f : α → Option β} (h : x = some a) : (x >>= f) = f a := by rw [h]; rfl

/-- One step of a `do` block. -/
macro "bstep " h:term : tactic => `(tactic| refine (bind_of $h).trans ?_)

/-- Residual capacity from `u` to `v`. -/
def res (net : Net T) (u v : Nat) : T := ((net.getD u []).find? fun a => a.dist == v).elim 0 (·.cap)

/-- At most one arc per pair of nodes, no loops, and every arc knows its reverse. -/
structure WF (n : Nat) (net : Net T) : Prop where
  len : net.length = n
  inj : ∀ {u i j a b}, arcAt net u i = some a → arcAt net u j = some b → a.dist = b.dist → i = j
  lt : ∀ {u i a}, arcAt net u i = some a → a.dist < n
  ne : ∀ {u i a}, arcAt net u i = some a → a.dist ≠ u
  pair : ∀ {u i a}, arcAt net u i = some a → ∃ b, arcAt net a.dist a.reverse = some b ∧ b.dist = u ∧ b.reverse = i

omit [AddCommGroup T] [LinearOrder T] in
theorem arcAt_row {net : Net T} {u : Nat} {row : List (Arc T)} (h : net[u]? = some row) (i : Nat) : arcAt net u i = row[i]? := by
  rw [arcAt, h]; rfl

omit [AddCommGroup T] [LinearOrder T] in
theorem row_of_arcAt {net : Net T} {u i : Nat} {a : Arc T} (h : arcAt net u i = some a) : ∃ row, net[u]? = some row ∧ row[i]? = some a := by
  unfold arcAt at h
  cases hr : net[u]? with
  | none => rw [hr] at h; cases h
  | some row => rw [hr] at h; exact ⟨row, rfl, h⟩

omit [AddCommGroup T] [LinearOrder T] in
theorem arcAt_lt {net : Net T} {u i : Nat} {a : Arc T} (h : arcAt net u i = some a) : u < net.length := by
  obtain ⟨row, h1, _⟩ := row_of_arcAt h
  exact (List.getElem?_eq_some_iff.1 h1).1

omit [LinearOrder T] in
theorem res_row {net : Net T} {u : Nat} {row : List (Arc T)} (h : net[u]? = some row) (v : Nat) :
    res net u v = (row.find? fun a => a.dist == v).elim 0 (·.cap) := by
  rw [res, List.getD_eq_getElem?_getD, h, Option.getD_some]

omit [LinearOrder T] in
theorem res_eq {n : Nat} {net : Net T} (hw : WF n net) {u i : Nat} {a : Arc T} (h : arcAt net u i = some a) : res net u a.dist = a.cap := by
  obtain ⟨row, h1, h2⟩ := row_of_arcAt h
  rw [res_row h1]
  cases hf : row.find? fun b => b.dist == a.dist with
  | none =>
    have := List.find?_eq_none.1 hf a (List.mem_of_getElem? h2)
    simp at this
  | some b =>
    have hb := List.find?_some hf
    obtain ⟨j, hj⟩ := List.mem_iff_getElem?.1 (List.mem_of_find?_eq_some hf)
    have : j = i := hw.inj (u := u) (by rw [arcAt_row h1, hj]) h (by simpa using hb)
    subst this
    rw [hj] at h2
    cases h2
    rfl

omit [LinearOrder T] in
theorem res_ne {net : Net T} {u v : Nat} (h : res net u v ≠ 0) : ∃ i a, arcAt net u i = some a ∧ a.dist = v ∧ a.cap = res net u v := by
  cases hr : net[u]? with
  | none => rw [res, List.getD_eq_getElem?_getD, hr] at h; simp at h
  | some row =>
    rw [res_row hr] at h ⊢
    cases hf : row.find? fun b => b.dist == v with
    | none => rw [hf] at h; simp at h
    | some b =>
      obtain ⟨j, hj⟩ := List.mem_iff_getElem?.1 (List.mem_of_find?_eq_some hf)
      have hb := List.find?_some hf
      exact ⟨j, b, by rw [arcAt_row hr, hj], by simpa using hb, rfl⟩

omit [LinearOrder T] in
theorem res_zero {net : Net T} {u v : Nat} (h : ∀ i a, arcAt net u i = some a → a.dist ≠ v) : res net u v = 0 := by
  by_contra hc
  obtain ⟨i, a, h1, h2, _⟩ := res_ne hc
  exact h i a h1 h2

omit [LinearOrder T] in
theorem res_self {n : Nat} {net : Net T} (hw : WF n net) (u : Nat) : res net u u = 0 := res_zero fun _ _ h => hw.ne h

omit [LinearOrder T] in
theorem res_out {n : Nat} {net : Net T} (hw : WF n net) {u v : Nat} (h : n ≤ u ∨ n ≤ v) : res net u v = 0 := res_zero fun _ _ ha e => by
  rcases h with h | h
  · have := arcAt_lt ha; rw [hw.len] at this; omega
  · have := hw.lt ha; omega

/-- `net'` differs from `net` in the capacity of the arc `(u, i)` only. -/
structure CapAt (net net' : Net T) (u i : Nat) (a : Arc T) (c : T) : Prop where
  len : net'.length = net.length
  deg : ∀ x : Nat, (net'[x]?).map List.length = (net[x]?).map List.length
  arc : ∀ x j, arcAt net' x j = if x = u ∧ j = i then some ⟨a.dist, a.reverse, c⟩ else arcAt net x j

omit [LinearOrder T] in
theorem addCap_spec {net : Net T} {u i : Nat} {a : Arc T} (h : arcAt net u i = some a) (δ : T) :
    ∃ net', addCap net u i δ = some net' ∧ CapAt net net' u i a (a.cap + δ) := by
  obtain ⟨row, h1, h2⟩ := row_of_arcAt h
  have hu : u < net.length := arcAt_lt h
  have hi : i < row.length := (List.getElem?_eq_some_iff.1 h2).1
  refine ⟨net.set u (row.set i ⟨a.dist, a.reverse, a.cap + δ⟩), ?_, by simp, ?_, ?_⟩
  · unfold addCap
    bstep h1
    bstep h2
    rfl
  · intro x
    rw [List.getElem?_set]
    by_cases hx : u = x
    · subst hx; rw [if_pos rfl, if_pos hu, h1]; simp
    · simp [hx]
  · intro x j
    unfold arcAt
    rw [List.getElem?_set]
    by_cases hx : u = x
    · subst hx
      rw [if_pos rfl, if_pos hu, Option.bind_some, List.getElem?_set]
      by_cases hj : i = j
      · subst hj; simp [hi]
      · rw [if_neg hj, if_neg (fun e => hj e.2.symm), h1, Option.bind_some]
    · rw [if_neg hx, if_neg (fun e => hx e.1.symm)]

omit [LinearOrder T] in
theorem CapAt.wf {n : Nat} {net net' : Net T} {u i : Nat} {a : Arc T} {c : T} (hw : WF n net) (h : arcAt net u i = some a)
    (hc : CapAt net net' u i a c) : WF n net' := by
  have key : ∀ {x j b}, arcAt net' x j = some b → ∃ b', arcAt net x j = some b' ∧ b'.dist = b.dist ∧ b'.reverse = b.reverse := by
    intro x j b hb
    rw [hc.arc] at hb
    split at hb
    · next e => cases hb; exact ⟨a, by rw [e.1, e.2, h], rfl, rfl⟩
    · exact ⟨b, hb, rfl, rfl⟩
  have key' : ∀ {x j b}, arcAt net x j = some b → ∃ b', arcAt net' x j = some b' ∧ b'.dist = b.dist ∧ b'.reverse = b.reverse := by
    intro x j b hb
    rw [hc.arc]
    split
    · next e => rw [e.1, e.2, h] at hb; cases hb; exact ⟨_, rfl, rfl, rfl⟩
    · exact ⟨b, hb, rfl, rfl⟩
  refine ⟨hc.len.trans hw.len, ?_, ?_, ?_, ?_⟩
  · intro x j k b b' h1 h2 h3
    obtain ⟨p, hp, hp1, _⟩ := key h1
    obtain ⟨q, hq, hq1, _⟩ := key h2
    exact hw.inj hp hq (by rw [hp1, hq1, h3])
  · intro x j b h1
    obtain ⟨p, hp, hp1, _⟩ := key h1
    rw [← hp1]; exact hw.lt hp
  · intro x j b h1
    obtain ⟨p, hp, hp1, _⟩ := key h1
    rw [← hp1]; exact hw.ne hp
  · intro x j b h1
    obtain ⟨p, hp, hp1, hp2⟩ := key h1
    obtain ⟨q, hq, hq1, hq2⟩ := hw.pair hp
    obtain ⟨r, hr, hr1, hr2⟩ := key' hq
    exact ⟨r, by rw [← hp1, ← hp2, hr], by rw [hr1, hq1], by rw [hr2, hq2]⟩

omit [LinearOrder T] in
theorem CapAt.res {n : Nat} {net net' : Net T} {u i : Nat} {a : Arc T} {c : T} (hw : WF n net) (h : arcAt net u i = some a)
    (hc : CapAt net net' u i a c) (x y : Nat) : res net' x y = if x = u ∧ y = a.dist then c else res net x y := by
  have hw' := hc.wf hw h
  by_cases hx : x = u ∧ y = a.dist
  · rw [if_pos hx, hx.1, hx.2]
    have : arcAt net' u i = some ⟨a.dist, a.reverse, c⟩ := by rw [hc.arc, if_pos ⟨rfl, rfl⟩]
    exact res_eq hw' this
  · rw [if_neg hx]
    by_cases h0 : ∃ j b, arcAt net x j = some b ∧ b.dist = y
    · obtain ⟨j, b, hb, rfl⟩ := h0
      have : arcAt net' x j = some b := by
        rw [hc.arc, if_neg ?_, hb]
        rintro ⟨e1, e2⟩
        rw [e1, e2, h] at hb
        cases hb
        exact hx ⟨e1, rfl⟩
      rw [res_eq hw hb, res_eq hw' this]
    · have h1 : ∀ j b, arcAt net x j = some b → b.dist ≠ y := fun j b hb e => h0 ⟨j, b, hb, e⟩
      rw [res_zero h1, res_zero]
      intro j b hb
      rw [hc.arc] at hb
      split at hb
      · next e => cases hb; exact h1 i a (by rw [e.1, h])
      · exact h1 j b hb

/-- `δ` moves from the arc `u → v` to the arc `v → u`. -/
def move (R : Nat → Nat → T) (u v : Nat) (δ : T) (x y : Nat) : T :=
  if x = u ∧ y = v then R x y - δ else if x = v ∧ y = u then R x y + δ else R x y

/-- What a push along the arc `(u, i)` does to the network. -/
structure Moved (net net' : Net T) (u i : Nat) (a : Arc T) (δ : T) : Prop where
  deg : ∀ x : Nat, (net'[x]?).map List.length = (net[x]?).map List.length
  res : ∀ x y, res net' x y = move (res net) u a.dist δ x y
  row : ∀ j, j ≠ i → arcAt net' u j = arcAt net u j
  self : arcAt net' u i = some ⟨a.dist, a.reverse, a.cap - δ⟩
  other : ∀ x j, ¬ (x = u ∧ j = i) → ¬ (x = a.dist ∧ j = a.reverse) → arcAt net' x j = arcAt net x j

omit [LinearOrder T] in
/-- The two updates of a push. -/
theorem move_spec {n : Nat} {net : Net T} {u i : Nat} {a : Arc T} (hw : WF n net) (h : arcAt net u i = some a) (δ : T) :
    ∃ net1 net2, addCap net u i (-δ) = some net1 ∧ addCap net1 a.dist a.reverse δ = some net2 ∧ WF n net2 ∧ Moved net net2 u i a δ := by
  have hne := hw.ne h
  obtain ⟨b, hb, hb1, hb2⟩ := hw.pair h
  obtain ⟨net1, h1, hc1⟩ := addCap_spec h (-δ)
  have hw1 := hc1.wf hw h
  have hb' : arcAt net1 a.dist a.reverse = some b := by rw [hc1.arc, if_neg (fun e => hne e.1), hb]
  obtain ⟨net2, h2, hc2⟩ := addCap_spec hb' δ
  refine ⟨net1, net2, h1, h2, hc2.wf hw1 hb', ⟨fun x => (hc2.deg x).trans (hc1.deg x), fun x y => ?_, fun j hj => ?_, ?_, fun x j h1 h2 => ?_⟩⟩
  · rw [hc2.res hw1 hb', hc1.res hw h, hb1, move]
    by_cases e1 : x = a.dist ∧ y = u
    · have e2 : ¬ (x = u ∧ y = a.dist) := fun e => hne (e1.1.symm.trans e.1)
      rw [if_pos e1, if_neg e2, if_pos e1, e1.1, e1.2, ← hb1, res_eq hw hb]
    · rw [if_neg e1]
      by_cases e2 : x = u ∧ y = a.dist
      · rw [if_pos e2, if_pos e2, e2.1, e2.2, res_eq hw h, sub_eq_add_neg]
      · rw [if_neg e2, if_neg e2, if_neg e1]
  · rw [hc2.arc, if_neg (fun e => hne e.1.symm), hc1.arc, if_neg (fun e => hj e.2)]
  · rw [hc2.arc, if_neg (fun e => hne e.1.symm), hc1.arc, if_pos ⟨rfl, rfl⟩, sub_eq_add_neg]
  · rw [hc2.arc, if_neg h2, hc1.arc, if_neg h1]

end Verif.Flow
