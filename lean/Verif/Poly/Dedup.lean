import Mathlib.Data.Rat.Floor
import Mathlib.Data.Prod.Lex
import Mathlib.Data.Int.Log
import Mathlib.Algebra.Order.Ring.Rat
import Mathlib.Data.List.Flatten
import Mathlib.Tactic.Linarith
/-!
# `remove_duplicates` (`src/polygonlization/mod.rs` lines 13-54)

Coordinates are rational numbers and arithmetic is exact. (The code divides and multiplies by a power of two and rounds to an integer, so
this only differs from `f64` on overflow and underflow.) `none` is a panic.
-/
namespace Verif.Poly

/-- A point; the order is the one of slices, lexicographic. -/
abbrev P3 := ℚ ×ₗ (ℚ ×ₗ ℚ)

/-- `point` (lines 13-16). -/
def point (points : List ℚ) (i : Nat) : Option P3 := do
  pure (toLex (← points[i * 3]?, toLex (← points[i * 3 + 1]?, ← points[i * 3 + 2]?)))

/-- `f64::round`: to the nearest integer, halves away from zero. -/
def roundAway (x : ℚ) : ℚ := if 0 ≤ x then (⌊x + 1 / 2⌋ : ℤ) else -(⌊-x + 1 / 2⌋ : ℤ)

/-- `(x / base).round() * base` (line 27). -/
def approx (base x : ℚ) : ℚ := roundAway (x / base) * base

/-- `2.0f64.powi(get_exponent(epsilon) - 1)` (lines 25-26); `get_exponent` (`predicates/mod.rs` lines 77-83) of a normal positive
number is the floor of its binary logarithm. -/
def gridBase (eps : ℚ) : ℚ := (2 : ℚ) ^ (Int.log 2 eps - 1)

/-- The loop of lines 33-41. `prev` is `indices[k - 1]`, the list holds `indices[k..]`. -/
def dedupLoop (points : List ℚ) : Nat → List Nat → List Nat → List Nat → Option (List Nat × List Nat)
  | _, [], pmap, out => some (pmap, out)
  | prev, i :: rest, pmap, out => do
    let p ← point points i
    let q ← point points prev
    if i < pmap.length then
      if p = q then dedupLoop points i rest (pmap.set i (out.length - 1)) out
      else dedupLoop points i rest (pmap.set i out.length) (out ++ [i])
    else none

/-- `remove_duplicates` (lines 18-54) on the grid `base`, with `epsilon != 0`. `order` is the outcome of `sort_unstable_by`, which
leaves the order of equal points open. -/
def removeDuplicatesGrid (points : List ℚ) (base : ℚ) (order : List Nat) : Option (List ℚ × List Nat) :=
  match order with
  | [] => none
  | first :: rest => do
    let n := points.length / 3
    let (pmap, out) ← dedupLoop points first rest (List.replicate n 0) [first]
    let approxPoints := points.map (approx base)
    let coords ← out.mapM fun i => do
      pure [← approxPoints[i * 3]?, ← approxPoints[i * 3 + 1]?, ← approxPoints[i * 3 + 2]?]
    pure (coords.flatten, pmap)

/-- `remove_duplicates` (lines 18-54). -/
def removeDuplicates (points : List ℚ) (eps : ℚ) (order : List Nat) : Option (List ℚ × List Nat) :=
  if eps = 0 then some (points, List.range points.length) else removeDuplicatesGrid points (gridBase eps) order

/-- What `sort_unstable_by` guarantees: a permutation of `0..n` along which the points do not decrease. -/
def Sorted (points : List ℚ) (n : Nat) (order : List Nat) : Prop :=
  order.Perm (List.range n) ∧ order.Pairwise fun i j => ∀ p q, point points i = some p → point points j = some q → p ≤ q

theorem point_some {points : List ℚ} {n i : Nat} (h : points.length = 3 * n) (hi : i < n) : ∃ p, point points i = some p := by
  unfold point
  rw [List.getElem?_eq_getElem (show i * 3 < points.length by omega), List.getElem?_eq_getElem (show i * 3 + 1 < points.length by omega),
    List.getElem?_eq_getElem (show i * 3 + 2 < points.length by omega)]
  exact ⟨_, rfl⟩

/-- Two points are equal iff their three coordinates are. -/
theorem point_eq_iff {points : List ℚ} {n i j : Nat} (h : points.length = 3 * n) (hi : i < n) (hj : j < n) :
    point points i = point points j ↔ ∀ k < 3, points[i * 3 + k]? = points[j * 3 + k]? := by
  have e : ∀ l < n, ∀ k < 3, ∃ x, points[l * 3 + k]? = some x := fun l hl k hk =>
    ⟨_, List.getElem?_eq_getElem (show l * 3 + k < points.length by omega)⟩
  obtain ⟨a0, ha0⟩ := e i hi 0 (by omega)
  obtain ⟨a1, ha1⟩ := e i hi 1 (by omega)
  obtain ⟨a2, ha2⟩ := e i hi 2 (by omega)
  obtain ⟨b0, hb0⟩ := e j hj 0 (by omega)
  obtain ⟨b1, hb1⟩ := e j hj 1 (by omega)
  obtain ⟨b2, hb2⟩ := e j hj 2 (by omega)
  have p1 : point points i = some (toLex (a0, toLex (a1, a2))) := by
    unfold point; rw [show i * 3 = i * 3 + 0 from rfl, ha0, ha1, ha2]; rfl
  have p2 : point points j = some (toLex (b0, toLex (b1, b2))) := by
    unfold point; rw [show j * 3 = j * 3 + 0 from rfl, hb0, hb1, hb2]; rfl
  rw [p1, p2]
  constructor
  · intro hp
    have h1 : a0 = b0 ∧ a1 = b1 ∧ a2 = b2 := by
      rw [Option.some.injEq] at hp
      have := congrArg ofLex hp
      simp only [ofLex_toLex, Prod.mk.injEq] at this
      have h2 := congrArg ofLex this.2
      simp only [ofLex_toLex, Prod.mk.injEq] at h2
      exact ⟨this.1, h2⟩
    intro k hk
    have : k = 0 ∨ k = 1 ∨ k = 2 := by omega
    rcases this with rfl | rfl | rfl
    · rw [ha0, hb0, h1.1]
    · rw [ha1, hb1, h1.2.1]
    · rw [ha2, hb2, h1.2.2]
  · intro hk
    have k0 := hk 0 (by omega)
    have k1 := hk 1 (by omega)
    have k2 := hk 2 (by omega)
    rw [ha0, hb0, Option.some.injEq] at k0
    rw [ha1, hb1, Option.some.injEq] at k1
    rw [ha2, hb2, Option.some.injEq] at k2
    rw [k0, k1, k2]

/-- State of the loop: `done` are the indices already handled, the last one is `prev`. -/
structure DInv (points : List ℚ) (n : Nat) (done : List Nat) (prev : Nat) (pmap out : List Nat) : Prop where
  len : pmap.length = n
  image : ∀ i ∈ done, ∃ m r, pmap[i]? = some m ∧ out[m]? = some r ∧ point points r = point points i
  back : ∀ m r, out[m]? = some r → r ∈ done ∧ pmap[r]? = some m
  asc : out.Pairwise fun i j => ∀ p q, point points i = some p → point points j = some q → p < q
  last : ∃ r, out[out.length - 1]? = some r ∧ point points r = point points prev
  ne : out ≠ []

theorem dedupLoop_spec {points : List ℚ} {n : Nat} (hp : points.length = 3 * n) : ∀ (rest : List Nat) (prev : Nat) (done pmap out : List Nat),
    DInv points n done prev pmap out → prev ∈ done → (∀ i ∈ done, i < n) → (∀ i ∈ rest, i < n) → (∀ i ∈ rest, i ∉ done) → rest.Nodup →
    (prev :: rest).Pairwise (fun i j => ∀ p q, point points i = some p → point points j = some q → p ≤ q) →
    (∀ i ∈ done, ∀ p q, point points i = some p → point points prev = some q → p ≤ q) →
    ∃ pmap' out' last, dedupLoop points prev rest pmap out = some (pmap', out') ∧ DInv points n (done ++ rest) last pmap' out'
  | [], prev, done, pmap, out, h, _, _, _, _, _, _, _ => ⟨pmap, out, prev, rfl, by rw [List.append_nil]; exact h⟩
  | i :: rest, prev, done, pmap, out, h, hprev, hd, hr, hnd, hnn, hs, hle => by
    have hi := hr i (by simp)
    obtain ⟨p, hpi⟩ := point_some hp hi
    obtain ⟨q, hpq⟩ := point_some hp (hd prev hprev)
    have hqp : q ≤ p := (List.pairwise_cons.1 hs).1 i (by simp) q p hpq hpi
    have hnotin : i ∉ done := hnd i (by simp)
    obtain ⟨rl, hrl, hrp⟩ := h.last
    have hout : out.length ≠ 0 := fun e => h.ne (List.length_eq_zero_iff.1 e)
    have hset : ∀ (v x : Nat), (pmap.set i v)[x]? = if x = i then some v else pmap[x]? := by
      intro v x
      by_cases hx : x = i
      · subst hx; rw [if_pos rfl, List.getElem?_set_self (by rw [h.len]; exact hi)]
      · rw [if_neg hx, List.getElem?_set_ne (Ne.symm hx)]
    have hrest : (∀ j ∈ done ++ [i], j < n) ∧ (∀ j ∈ rest, j < n) ∧ (∀ j ∈ rest, j ∉ done ++ [i]) := by
      refine ⟨?_, fun j hj => hr j (List.mem_cons_of_mem _ hj), ?_⟩
      · intro j hj
        rcases List.mem_append.1 hj with hj | hj
        · exact hd j hj
        · rw [List.mem_singleton.1 hj]; exact hi
      · intro j hj hc
        rcases List.mem_append.1 hc with hc | hc
        · exact hnd j (List.mem_cons_of_mem _ hj) hc
        · rw [List.mem_singleton.1 hc] at hj
          exact (List.nodup_cons.1 hnn).1 hj
    have hle' : ∀ j ∈ done ++ [i], ∀ a b, point points j = some a → point points i = some b → a ≤ b := by
      intro j hj a b ha hb
      rw [hpi] at hb; cases hb
      rcases List.mem_append.1 hj with hj | hj
      · exact le_trans (hle j hj a q ha hpq) hqp
      · rw [List.mem_singleton.1 hj, hpi] at ha; cases ha; exact le_refl _
    have happ : done ++ i :: rest = (done ++ [i]) ++ rest := by simp
    rw [happ]
    by_cases e : p = q
    · have key : DInv points n (done ++ [i]) i (pmap.set i (out.length - 1)) out := by
        refine ⟨by rw [List.length_set]; exact h.len, ?_, ?_, h.asc, ⟨rl, hrl, by rw [hrp, hpq, hpi, e]⟩, h.ne⟩
        · intro j hj
          rcases List.mem_append.1 hj with hj | hj
          · obtain ⟨m, r, h1, h2, h3⟩ := h.image j hj
            have : j ≠ i := fun e => hnotin (e ▸ hj)
            exact ⟨m, r, by rw [hset, if_neg this]; exact h1, h2, h3⟩
          · rw [List.mem_singleton.1 hj]
            exact ⟨out.length - 1, rl, by rw [hset, if_pos rfl], hrl, by rw [hrp, hpq, hpi, e]⟩
        · intro m r hm
          obtain ⟨h1, h2⟩ := h.back m r hm
          have : r ≠ i := fun e => hnotin (e ▸ h1)
          exact ⟨List.mem_append_left _ h1, by rw [hset, if_neg this]; exact h2⟩
      obtain ⟨pm, o, l, h1, h2⟩ := dedupLoop_spec hp rest i (done ++ [i]) _ _ key (by simp) hrest.1 hrest.2.1 hrest.2.2 (List.nodup_cons.1 hnn).2
        (List.pairwise_cons.1 hs).2 hle'
      refine ⟨pm, o, l, ?_, h2⟩
      rw [← h1]
      simp only [dedupLoop, hpi, hpq, Option.bind_eq_bind, Option.bind_some]
      rw [if_pos (by rw [h.len]; exact hi), if_pos e]
    · have hlt : q < p := lt_of_le_of_ne hqp (Ne.symm e)
      have key : DInv points n (done ++ [i]) i (pmap.set i out.length) (out ++ [i]) := by
        refine ⟨by rw [List.length_set]; exact h.len, ?_, ?_, ?_, ⟨i, by simp, rfl⟩, by simp⟩
        · intro j hj
          rcases List.mem_append.1 hj with hj | hj
          · obtain ⟨m, r, h1, h2, h3⟩ := h.image j hj
            have : j ≠ i := fun e => hnotin (e ▸ hj)
            exact ⟨m, r, by rw [hset, if_neg this]; exact h1, by rw [List.getElem?_append_left (List.getElem?_eq_some_iff.1 h2).1]; exact h2, h3⟩
          · rw [List.mem_singleton.1 hj]
            exact ⟨out.length, i, by rw [hset, if_pos rfl], by simp, rfl⟩
        · intro m r hm
          by_cases hmo : m < out.length
          · rw [List.getElem?_append_left hmo] at hm
            obtain ⟨h1, h2⟩ := h.back m r hm
            have : r ≠ i := fun e => hnotin (e ▸ h1)
            exact ⟨List.mem_append_left _ h1, by rw [hset, if_neg this]; exact h2⟩
          · have hm' : m < (out ++ [i]).length := (List.getElem?_eq_some_iff.1 hm).1
            have : m = out.length := by rw [List.length_append, List.length_singleton] at hm'; omega
            subst this
            rw [List.getElem?_append_right (le_refl _), Nat.sub_self] at hm
            cases hm
            exact ⟨by simp, by rw [hset, if_pos rfl]⟩
        · refine List.pairwise_append.2 ⟨h.asc, by simp, ?_⟩
          intro a ha b hb x y hx hy
          rw [List.mem_singleton.1 hb, hpi] at hy
          cases hy
          obtain ⟨m, hm⟩ := List.mem_iff_getElem?.1 ha
          exact lt_of_le_of_lt (hle a (h.back m a hm).1 x q hx hpq) hlt
      obtain ⟨pm, o, l, h1, h2⟩ := dedupLoop_spec hp rest i (done ++ [i]) _ _ key (by simp) hrest.1 hrest.2.1 hrest.2.2 (List.nodup_cons.1 hnn).2
        (List.pairwise_cons.1 hs).2 hle'
      refine ⟨pm, o, l, ?_, h2⟩
      rw [← h1]
      simp only [dedupLoop, hpi, hpq, Option.bind_eq_bind, Option.bind_some]
      rw [if_pos (by rw [h.len]; exact hi), if_neg e]

theorem flat3 {α : Type} : ∀ (l : List (List α)) (m k : Nat), (∀ x ∈ l, x.length = 3) → k < 3 →
    l.flatten[m * 3 + k]? = l[m]?.bind (·[k]?)
  | [], m, k, _, _ => by simp
  | a :: l, 0, k, h, hk => by
    rw [List.flatten_cons, List.getElem?_append_left (by rw [h a (by simp)]; omega)]
    simp
  | a :: l, m + 1, k, h, hk => by
    have ha := h a (by simp)
    rw [List.flatten_cons, List.getElem?_append_right (by omega), show (m + 1) * 3 + k - a.length = m * 3 + k by omega,
      flat3 l m k (fun x hx => h x (List.mem_cons_of_mem _ hx)) hk, List.getElem?_cons_succ]

theorem flat3_length {α : Type} : ∀ (l : List (List α)), (∀ x ∈ l, x.length = 3) → l.flatten.length = 3 * l.length
  | [], _ => rfl
  | a :: l, h => by
    rw [List.flatten_cons, List.length_append, h a (by simp), flat3_length l (fun x hx => h x (List.mem_cons_of_mem _ hx)), List.length_cons]
    omega

theorem mapM_rows (points : List ℚ) (n : Nat) (hp : points.length = 3 * n) : ∀ out : List Nat, (∀ i ∈ out, i < n) →
    ∃ rows : List (List ℚ), (out.mapM fun i => (do pure [← points[i * 3]?, ← points[i * 3 + 1]?, ← points[i * 3 + 2]?] : Option (List ℚ))) = some rows ∧
      rows.length = out.length ∧ (∀ r ∈ rows, r.length = 3) ∧
      ∀ m i : Nat, out[m]? = some i → ∀ k < 3, rows[m]?.bind (fun r : List ℚ => r[k]?) = points[i * 3 + k]?
  | [], _ => ⟨[], rfl, rfl, by simp, by simp⟩
  | i :: out, h => by
    obtain ⟨rows, h1, h2, h3, h4⟩ := mapM_rows points n hp out (fun x hx => h x (List.mem_cons_of_mem _ hx))
    have hi := h i (by simp)
    have e0 := List.getElem?_eq_getElem (show i * 3 < points.length by omega)
    have e1 := List.getElem?_eq_getElem (show i * 3 + 1 < points.length by omega)
    have e2 := List.getElem?_eq_getElem (show i * 3 + 2 < points.length by omega)
    refine ⟨[points[i * 3], points[i * 3 + 1], points[i * 3 + 2]] :: rows, ?_, by simp [h2], ?_, ?_⟩
    · rw [List.mapM_cons, h1, e0, e1, e2]; rfl
    · intro r hr
      rcases List.mem_cons.1 hr with rfl | hr
      · rfl
      · exact h3 r hr
    · intro m j hm k hk
      cases m with
      | zero =>
        cases hm
        have : k = 0 ∨ k = 1 ∨ k = 2 := by omega
        rcases this with rfl | rfl | rfl
        · simp [e0]
        · simp [e1]
        · simp [e2]
      | succ m =>
        rw [List.getElem?_cons_succ] at hm ⊢
        exact h4 m j hm k hk

/-- Everything about the result at once. -/
theorem grid_spec {points : List ℚ} {n : Nat} {order : List Nat} (base : ℚ) (hp : points.length = 3 * n) (hn : 0 < n) (hs : Sorted points n order) :
    ∃ (coords : List ℚ) (pmap out : List Nat) (last : Nat), removeDuplicatesGrid points base order = some (coords, pmap) ∧
      DInv points n order last pmap out ∧ coords.length = 3 * out.length ∧
      ∀ m r, out[m]? = some r → ∀ k < 3, coords[m * 3 + k]? = (points[r * 3 + k]?).map (approx base) := by
  obtain ⟨hperm, hpw⟩ := hs
  have hlt : ∀ i ∈ order, i < n := fun i hi => List.mem_range.1 (hperm.mem_iff.1 hi)
  have hnd : order.Nodup := hperm.nodup_iff.2 List.nodup_range
  match order, hperm, hpw, hlt, hnd with
  | [], hperm, _, _, _ => exact absurd hperm.length_eq (by simp; omega)
  | first :: rest, hperm, hpw, hlt, hnd =>
    have hf := hlt first (by simp)
    have h0 : DInv points n [first] first (List.replicate n 0) [first] := by
      refine ⟨List.length_replicate, ?_, ?_, by simp, ⟨first, rfl, rfl⟩, by simp⟩
      · intro i hi
        rw [List.mem_singleton.1 hi]
        exact ⟨0, first, by rw [List.getElem?_replicate, if_pos hf], rfl, rfl⟩
      · intro m r hm
        cases m with
        | zero => cases hm; exact ⟨by simp, by rw [List.getElem?_replicate, if_pos hf]⟩
        | succ m => simp at hm
    obtain ⟨pmap, out, last, h1, h2⟩ := dedupLoop_spec hp rest first [first] _ _ h0 (by simp) (by simpa using hf)
      (fun i hi => hlt i (List.mem_cons_of_mem _ hi)) (fun i hi hc => (List.nodup_cons.1 hnd).1 (List.mem_singleton.1 hc ▸ hi)) (List.nodup_cons.1 hnd).2 hpw
      (by intro i hi p q h1 h2; rw [List.mem_singleton.1 hi, h2] at h1; cases h1; exact le_refl _)
    rw [List.singleton_append] at h2
    have hout : ∀ i ∈ out, i < n := by
      intro i hi
      obtain ⟨m, hm⟩ := List.mem_iff_getElem?.1 hi
      exact hlt i (h2.back m i hm).1
    obtain ⟨rows, r1, r2, r3, r4⟩ := mapM_rows (points.map (approx base)) n (by rw [List.length_map]; exact hp) out hout
    refine ⟨rows.flatten, pmap, out, last, ?_, h2, by rw [flat3_length _ r3, r2], ?_⟩
    · have hn3 : points.length / 3 = n := by omega
      unfold removeDuplicatesGrid
      simp only [hn3, h1, Option.bind_eq_bind, Option.bind_some]
      exact congrArg (fun o : Option (List (List ℚ)) => o.bind fun a => some (a.flatten, pmap)) r1
    · intro m r hm k hk
      rw [flat3 _ _ _ r3 hk, r4 m r hm k hk, List.getElem?_map]

/-- C49. For `epsilon != 0` and every outcome of the unstable sort: `out[map[i]]` is point `i` rounded to the grid, two input points have
the same image iff they are equal, every output point is the image of some input point. -/
theorem c49_remove_duplicates {points : List ℚ} {n : Nat} {order : List Nat} {eps : ℚ} (he : eps ≠ 0) (hp : points.length = 3 * n) (hn : 0 < n)
    (hs : Sorted points n order) :
    ∃ (out : List ℚ) (pmap : List Nat), removeDuplicates points eps order = some (out, pmap) ∧ pmap.length = n ∧
      (∀ i m, pmap[i]? = some m → ∀ k < 3, ∃ x, points[i * 3 + k]? = some x ∧ out[m * 3 + k]? = some (approx (gridBase eps) x)) ∧
      (∀ i j, i < n → j < n → (pmap[i]? = pmap[j]? ↔ ∀ k < 3, points[i * 3 + k]? = points[j * 3 + k]?)) ∧
      (∃ r, out.length = 3 * r ∧ ∀ m < r, ∃ i < n, pmap[i]? = some m) := by
  obtain ⟨coords, pmap, out, last, h1, h2, h3, h4⟩ := grid_spec (gridBase eps) hp hn hs
  have hmem : ∀ i < n, i ∈ order := fun i hi => hs.1.mem_iff.2 (List.mem_range.2 hi)
  have hlt : ∀ i ∈ order, i < n := fun i hi => List.mem_range.1 (hs.1.mem_iff.1 hi)
  refine ⟨coords, pmap, by unfold removeDuplicates; rw [if_neg he]; exact h1, h2.len, ?_, ?_, out.length, h3, ?_⟩
  · intro i m hm k hk
    have hi : i < n := by rw [← h2.len]; exact (List.getElem?_eq_some_iff.1 hm).1
    obtain ⟨m', r, e1, e2, e3⟩ := h2.image i (hmem i hi)
    rw [hm] at e1; cases e1
    have hr := hlt r (h2.back m r e2).1
    have e4 := h4 m r e2 k hk
    have e5 := (point_eq_iff hp hr hi).1 e3 k hk
    refine ⟨points[i * 3 + k]'(by omega), List.getElem?_eq_getElem _, ?_⟩
    rw [e4, e5, List.getElem?_eq_getElem (by omega)]; rfl
  · intro i j hi hj
    obtain ⟨m, r, a1, a2, a3⟩ := h2.image i (hmem i hi)
    obtain ⟨m', r', b1, b2, b3⟩ := h2.image j (hmem j hj)
    rw [← point_eq_iff hp hi hj, a1, b1]
    constructor
    · intro e; cases e
      rw [a2] at b2; cases b2
      rw [← a3, ← b3]
    · intro e
      have hrr : point points r = point points r' := by rw [a3, b3, e]
      obtain ⟨p, hpr⟩ := point_some hp (hlt r (h2.back m r a2).1)
      by_contra hne
      have hmm : m ≠ m' := fun h => hne (by rw [h])
      have asc := List.pairwise_iff_getElem.1 h2.asc
      obtain ⟨l1, g1⟩ := List.getElem?_eq_some_iff.1 a2
      obtain ⟨l2, g2⟩ := List.getElem?_eq_some_iff.1 b2
      rcases Nat.lt_or_gt_of_ne hmm with h | h
      · exact lt_irrefl p (asc m m' l1 l2 h p p (by rw [g1]; exact hpr) (by rw [g2, ← hrr]; exact hpr))
      · exact lt_irrefl p (asc m' m l2 l1 h p p (by rw [g2, ← hrr]; exact hpr) (by rw [g1]; exact hpr))
  · intro m hm
    obtain ⟨e1, e2⟩ := h2.back m out[m] (List.getElem?_eq_getElem hm)
    exact ⟨_, hlt _ e1, e2⟩

/-- With `epsilon == 0` nothing is merged and the map is the identity. -/
theorem c49_zero (points : List ℚ) (order : List Nat) : removeDuplicates points 0 order = some (points, List.range points.length) := by
  unfold removeDuplicates; rw [if_pos rfl]

theorem gridBase_one : gridBase 1 = 1 / 2 := by
  unfold gridBase; rw [show Int.log 2 (1 : ℚ) = 0 from Int.log_one_right 2]; norm_num

theorem roundAway_near (x : ℚ) : |roundAway x - x| ≤ 1 / 2 ∧ ∃ z : ℤ, roundAway x = z := by
  unfold roundAway
  split
  · have h1 := Int.floor_le (x + 1 / 2)
    have h2 := Int.lt_floor_add_one (x + 1 / 2)
    exact ⟨by rw [abs_le]; constructor <;> linarith, _, rfl⟩
  · have h1 := Int.floor_le (-x + 1 / 2)
    have h2 := Int.lt_floor_add_one (-x + 1 / 2)
    exact ⟨by rw [abs_le]; constructor <;> linarith, -⌊-x + 1 / 2⌋, by push_cast; rfl⟩

theorem gridBase_pos (eps : ℚ) : 0 < gridBase eps := zpow_pos (by norm_num) _

theorem gridBase_le {eps : ℚ} (h : 0 < eps) : gridBase eps ≤ eps / 2 := by
  have := Int.zpow_log_le_self (b := 2) (by norm_num) h
  unfold gridBase
  rw [zpow_sub₀ (by norm_num : (2 : ℚ) ≠ 0), zpow_one]
  have h2 : ((2 : ℕ) : ℚ) ^ Int.log 2 eps = (2 : ℚ) ^ Int.log 2 eps := by norm_num
  rw [h2] at this
  linarith

/-- Rounding moves a coordinate by at most a quarter of `epsilon`, to a multiple of a power of two. -/
theorem approx_near {eps : ℚ} (h : 0 < eps) (x : ℚ) : |approx (gridBase eps) x - x| ≤ eps / 4 ∧ ∃ z e : ℤ, approx (gridBase eps) x = z * 2 ^ e := by
  have hb := gridBase_pos eps
  have hl := gridBase_le h
  obtain ⟨h1, z, h2⟩ := roundAway_near (x / gridBase eps)
  refine ⟨?_, z, Int.log 2 eps - 1, by unfold approx; rw [h2]; rfl⟩
  have e : approx (gridBase eps) x - x = (roundAway (x / gridBase eps) - x / gridBase eps) * gridBase eps := by
    unfold approx
    rw [sub_mul, div_mul_cancel₀ _ (ne_of_gt hb)]
  rw [e, abs_mul, abs_of_pos hb]
  have := mul_le_mul_of_nonneg_right h1 hb.le
  linarith

/-- **C49, distance.** The representative of a point differs from it by at most `epsilon / 4` in each coordinate. -/
theorem c49_near {points : List ℚ} {n : Nat} {order : List Nat} {eps : ℚ} (he : 0 < eps) (hp : points.length = 3 * n) (hn : 0 < n) (hs : Sorted points n order) :
    ∃ (out : List ℚ) (pmap : List Nat), removeDuplicates points eps order = some (out, pmap) ∧ pmap.length = n ∧
      ∀ i m, pmap[i]? = some m → ∀ k < 3, ∃ x y : ℚ, points[i * 3 + k]? = some x ∧ out[m * 3 + k]? = some y ∧ |y - x| ≤ eps / 4 ∧ ∃ z e : ℤ, y = z * 2 ^ e := by
  obtain ⟨out, pmap, h1, h2, h3, -⟩ := c49_remove_duplicates (ne_of_gt he) hp hn hs
  refine ⟨out, pmap, h1, h2, fun i m hm k hk => ?_⟩
  obtain ⟨x, hx, hy⟩ := h3 i m hm k hk
  exact ⟨x, _, hx, hy, approx_near he x⟩

/-- A test for concrete lists. -/
def leAt (points : List ℚ) (i j : Nat) : Bool :=
  match point points i, point points j with
  | some p, some q => decide (p ≤ q)
  | _, _ => true

theorem sorted_of {points : List ℚ} {n : Nat} {order : List Nat} (h1 : order.Perm (List.range n)) (h2 : order.Pairwise fun i j => leAt points i j = true) :
    Sorted points n order := by
  refine ⟨h1, h2.imp fun {i j} h p q hp hq => ?_⟩
  unfold leAt at h
  rw [hp, hq] at h
  exact of_decide_eq_true h

/-- Three points, two of them equal. -/
example : Sorted [1, 0, 0, 1/8, 2, 3, 1, 0, 0] 3 [1, 2, 0] ∧ removeDuplicates [1, 0, 0, 1/8, 2, 3, 1, 0, 0] 1 [1, 2, 0] = some ([0, 2, 3, 1, 0, 0], [1, 0, 1]) := by
  refine ⟨sorted_of (by decide) (by decide +kernel), ?_⟩
  unfold removeDuplicates; rw [gridBase_one]; decide +kernel

/-- C50 fails: two different points nearer than the grid width give two equal output points. -/
theorem c50_refuted : ∃ (points : List ℚ) (order : List Nat) (out : List ℚ) (pmap : List Nat), Sorted points 2 order ∧ points.length = 6 ∧
    removeDuplicates points 1 order = some (out, pmap) ∧ out.length = 6 ∧ ∀ k < 3, out[k]? = out[3 + k]? := by
  refine ⟨[0, 0, 0, 1/8, 0, 0], [0, 1], [0, 0, 0, 0, 0, 0], [0, 1], sorted_of (by decide) (by decide +kernel), rfl, ?_, rfl, by decide⟩
  unfold removeDuplicates; rw [gridBase_one]; decide +kernel

/-- C50, partial: the output points are pairwise distinct if different input points never round to the same grid point. Missing is that
condition: the code compares the points before rounding (`c50_refuted`). -/
theorem c50_distinct_partial {points : List ℚ} {n : Nat} {order : List Nat} {eps : ℚ} (he : eps ≠ 0) (hp : points.length = 3 * n) (hn : 0 < n)
    (hs : Sorted points n order)
    (hr : ∀ i < n, ∀ j < n, (∀ k < 3, (points[i * 3 + k]?).map (approx (gridBase eps)) = (points[j * 3 + k]?).map (approx (gridBase eps))) →
      ∀ k < 3, points[i * 3 + k]? = points[j * 3 + k]?) :
    ∃ (out : List ℚ) (pmap : List Nat) (r : Nat), removeDuplicates points eps order = some (out, pmap) ∧ out.length = 3 * r ∧
      ∀ a < r, ∀ b < r, (∀ k < 3, out[a * 3 + k]? = out[b * 3 + k]?) → a = b := by
  obtain ⟨out, pmap, h1, h2, h3, h4, r, h5, h6⟩ := c49_remove_duplicates he hp hn hs
  refine ⟨out, pmap, r, h1, h5, fun a ha b hb hab => ?_⟩
  obtain ⟨i, hi, ei⟩ := h6 a ha
  obtain ⟨j, hj, ej⟩ := h6 b hb
  have : pmap[i]? = pmap[j]? := (h4 i j hi hj).2 (hr i hi j hj fun k hk => by
    obtain ⟨x, x1, x2⟩ := h3 i a ei k hk
    obtain ⟨y, y1, y2⟩ := h3 j b ej k hk
    rw [x1, y1, Option.map_some, Option.map_some, ← x2, ← y2]
    exact hab k hk)
  rw [ei, ej] at this
  exact Option.some.inj this

end Verif.Poly
