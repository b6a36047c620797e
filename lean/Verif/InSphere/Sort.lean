import Verif.InSphere.Model
import Mathlib.Data.List.Sort
import Mathlib.Data.List.Perm.Basic
import Mathlib.Algebra.BigOperators.Group.List.Basic
import Mathlib.Tactic.Ring
import Mathlib.Tactic.Linarith
/-!
# The bubble sort of `insphere_s` and its parity
-/
namespace Verif.InSphere

/-- `1` if in order, else `-1`. -/
def cmpSign (x y : Nat) : Int := if x < y then 1 else -1

theorem cmpSign_swap {x y : Nat} (h : x ≠ y) : cmpSign y x = -cmpSign x y := by
  unfold cmpSign; split <;> split <;> omega

/-- Sign of the permutation sorting a list of distinct numbers: product over all pairs. -/
def sgn : List Nat → Int
  | [] => 1
  | x :: l => (l.map (cmpSign x)).prod * sgn l

theorem sgn_swap {x y : Nat} (h : x ≠ y) (l : List Nat) : sgn (y :: x :: l) = -sgn (x :: y :: l) := by
  simp only [sgn, List.map_cons, List.prod_cons, cmpSign_swap h]; ring

theorem sgn_sorted : ∀ {l : List Nat}, l.Pairwise (· < ·) → sgn l = 1 := by
  intro l h
  induction h with
  | nil => rfl
  | @cons x l hx _ ih =>
    have : (l.map (cmpSign x)).prod = 1 := by
      rw [List.prod_eq_one]
      intro z hz
      obtain ⟨y, hy, rfl⟩ := List.mem_map.1 hz
      simp [cmpSign, hx y hy]
    rw [sgn, this, ih, one_mul]

theorem pass_perm : ∀ (n : Nat) (l : List Nat), (pass n l).1.Perm l := by
  intro n
  induction n with
  | zero => intro l; simp [pass]
  | succ n ih =>
    intro l
    match l with
    | [] => simp [pass]
    | [x] => simp [pass]
    | x :: y :: l =>
      unfold pass
      split
      · exact ((ih _).cons y).trans (.swap _ _ _)
      · exact (ih _).cons x

theorem pass_sgn : ∀ (n : Nat) (l : List Nat), l.Nodup → (-1) ^ (pass n l).2 * sgn (pass n l).1 = sgn l := by
  intro n
  induction n with
  | zero => intro l _; simp [pass]
  | succ n ih =>
    intro l hl
    match l, hl with
    | [], _ => simp [pass]
    | [x], _ => simp [pass]
    | x :: y :: l, hnd =>
      have hxy : x ≠ y := by rintro rfl; simp at hnd
      have hnx : (x :: l).Nodup := by
        simp only [List.nodup_cons, List.mem_cons, not_or] at hnd ⊢; exact ⟨hnd.1.2, hnd.2.2⟩
      have hny : (y :: l).Nodup := hnd.tail
      unfold pass
      split
      · rw [sgn_swap hxy.symm]
        have h := ih _ hnx
        have hp := (((pass_perm n (x :: l)).map (cmpSign y))).prod_eq
        simp only
        rw [sgn, hp, sgn.eq_2 y, ← h]; ring
      · have h := ih _ hny
        have hp := (((pass_perm n (y :: l)).map (cmpSign x))).prod_eq
        simp only
        rw [sgn, hp, sgn.eq_2 x, ← h]; ring

/-- A pass over the first `n` pairs moves the largest of the first `n + 1` elements to position `n` and leaves the rest. -/
theorem pass_max : ∀ (n : Nat) (l : List Nat), n < l.length →
    ∃ A m, (pass n l).1 = A ++ m :: l.drop (n + 1) ∧ A.length = n ∧ (∀ x ∈ A, x ≤ m) := by
  intro n
  induction n with
  | zero =>
    intro l hl
    match l, hl with
    | x :: l, _ => exact ⟨[], x, by simp [pass], rfl, by simp⟩
  | succ n ih =>
    intro l hl
    match l, hl with
    | x :: y :: l, hl =>
      simp only [List.length_cons] at hl
      have hmem : ∀ (w : Nat) (A : List Nat) (m : Nat), (pass n (w :: l)).1 = A ++ m :: (w :: l).drop (n + 1) → A.length = n →
          (∀ x ∈ A, x ≤ m) → w ≤ m := by
        intro w A m e hA hm
        have hp := pass_perm n (w :: l)
        rw [e] at hp
        have : (A ++ [m]).Perm ((w :: l).take (n + 1)) := by
          have h1 : (A ++ [m] ++ (w :: l).drop (n + 1)).Perm ((w :: l).take (n + 1) ++ (w :: l).drop (n + 1)) := by
            rw [List.take_append_drop]; simpa using hp
          exact (List.perm_append_right_iff _).1 h1
        have hw : w ∈ A ++ [m] := this.mem_iff.2 (by simp)
        rcases List.mem_append.1 hw with h | h
        · exact hm w h
        · simp at h; omega
      unfold pass
      split
      · rename_i hc
        obtain ⟨A, m, e, hA, hm⟩ := ih (x :: l) (by simp; omega)
        have := hmem x A m e hA hm
        refine ⟨y :: A, m, by simp [e], by simp [hA], ?_⟩
        intro z hz
        rcases List.mem_cons.1 hz with rfl | hz
        · omega
        · exact hm z hz
      · rename_i hc
        obtain ⟨A, m, e, hA, hm⟩ := ih (y :: l) (by simp; omega)
        have := hmem y A m e hA hm
        refine ⟨x :: A, m, by simp [e], by simp [hA], ?_⟩
        intro z hz
        rcases List.mem_cons.1 hz with rfl | hz
        · omega
        · exact hm z hz

/-- A pass without swaps changes nothing, and the first `n + 1` elements were in order. -/
theorem pass_zero : ∀ (n : Nat) (l : List Nat), (pass n l).2 = 0 → (pass n l).1 = l ∧ (l.take (n + 1)).Pairwise (· ≤ ·) := by
  intro n
  induction n with
  | zero =>
    intro l _
    match l with
    | [] => simp [pass]
    | x :: l => simp [pass]
  | succ n ih =>
    intro l h
    match l, h with
    | [], _ => simp [pass]
    | [x], _ => simp [pass]
    | x :: y :: l, h =>
      unfold pass at h ⊢
      split at h
      · simp at h
      · rename_i hc
        rw [if_neg hc]
        obtain ⟨h1, h2⟩ := ih _ h
        refine ⟨by simp [h1], ?_⟩
        rw [List.take_succ_cons]
        refine List.pairwise_cons.2 ⟨?_, h2⟩
        rw [List.take_succ_cons] at h2 ⊢
        intro z hz
        rcases List.mem_cons.1 hz with rfl | hz
        · omega
        · have := (List.pairwise_cons.1 h2).1 z hz; omega

theorem bubble_sorted : ∀ (n : Nat) (A B : List Nat) (swaps : Nat), A.length = n → B.Pairwise (· ≤ ·) →
    (∀ x ∈ A, ∀ y ∈ B, x ≤ y) → (bubble n (A ++ B) swaps).1.Pairwise (· ≤ ·) := by
  intro n
  induction n with
  | zero =>
    intro A B swaps hA hB _
    obtain rfl := List.eq_nil_of_length_eq_zero hA
    simpa [bubble] using hB
  | succ n ih =>
    intro A B swaps hA hB hAB
    unfold bubble
    split
    · rename_i h0
      obtain ⟨h1, h2⟩ := pass_zero _ _ h0
      rw [h1]
      rw [List.take_append_of_le_length (by omega), List.take_of_length_le (by omega)] at h2
      exact List.pairwise_append.2 ⟨h2, hB, hAB⟩
    · obtain ⟨A', m, e, hA', hm⟩ := pass_max n (A ++ B) (by simp; omega)
      have hp := pass_perm n (A ++ B)
      rw [List.drop_append_of_le_length (by omega), List.drop_of_length_le (by omega), List.nil_append] at e
      rw [e] at hp ⊢
      have hp' : (A' ++ [m]).Perm A := by
        apply (List.perm_append_right_iff B).1
        simpa using hp
      refine ih A' (m :: B) _ hA' (List.pairwise_cons.2 ⟨fun y hy => hAB m (hp'.mem_iff.1 (by simp)) y hy, hB⟩) ?_
      intro x hx y hy
      rcases List.mem_cons.1 hy with rfl | hy
      · exact hm x hx
      · exact hAB x (hp'.mem_iff.1 (by simp [hx])) y hy

theorem bubble_perm : ∀ (n : Nat) (l : List Nat) (swaps : Nat), (bubble n l swaps).1.Perm l := by
  intro n
  induction n with
  | zero => intro l s; simp [bubble]
  | succ n ih =>
    intro l s
    unfold bubble
    split
    · exact pass_perm n l
    · exact (ih _ _).trans (pass_perm n l)

theorem bubble_sgn : ∀ (n : Nat) (l : List Nat) (swaps : Nat), l.Nodup →
    (-1) ^ (bubble n l swaps).2 * sgn (bubble n l swaps).1 = (-1) ^ swaps * sgn l := by
  intro n
  induction n with
  | zero => intro l s _; simp [bubble]
  | succ n ih =>
    intro l s hl
    unfold bubble
    have hp := pass_sgn n l hl
    split
    · rename_i h0
      rw [h0] at hp
      simp only
      rw [← hp]; ring
    · rw [ih _ _ ((pass_perm n l).nodup_iff.2 hl), ← hp, pow_add]; ring

/-- The sort on a duplicate-free array: sorted result, same elements, and the parity of the swaps is the sign of the
sorting permutation. -/
theorem bubble_spec (l : List Nat) (hl : l.Nodup) :
    ∃ r s, bubble l.length l 0 = (r, s) ∧ r.Pairwise (· < ·) ∧ r.Perm l ∧ (-1) ^ s = sgn l := by
  have hsort := bubble_sorted l.length l [] 0 rfl List.Pairwise.nil (by simp)
  have hperm := bubble_perm l.length l 0
  have hsgn := bubble_sgn l.length l 0 hl
  rw [List.append_nil] at hsort
  have hlt : (bubble l.length l 0).1.Pairwise (· < ·) := by
    have hnd := hperm.nodup_iff.2 hl
    exact (hsort.and hnd).imp fun h => lt_of_le_of_ne h.1 h.2
  refine ⟨_, _, rfl, hlt, hperm, ?_⟩
  rw [sgn_sorted hlt] at hsgn
  simpa using hsgn

end Verif.InSphere
