import Mathlib.Data.List.Rotate
import Mathlib.Data.List.Perm.Basic
import Mathlib.Algebra.BigOperators.Group.List.Basic
import Mathlib.Data.Int.Basic
import Mathlib.Tactic.Ring
import Mathlib.Tactic.Linarith
/-!
# Faces as cycles of half-edges, and their boundaries

The mesh of the BSP complex (`SurfaceMesh`, `src/mesh/surface_mesh.rs`) is represented by the cycles of its faces.
-/
namespace Verif.Bsp

/-- A face: for each of its half-edges the vertex at its tail and its edge, in the order of `mesh.face(fid).halfedges()`. -/
abbrev Cycle := List (Nat × Nat)

/-- A half-edge: `he_vertex`, `he_edge`, `he_tip_vertex`. -/
structure HE where
  tail : Nat
  edge : Nat
  tip : Nat
deriving Repr, DecidableEq

/-- The first tail of a list, or `z`. -/
def firstTail (l : Cycle) (z : Nat) : Nat := (l.head?.map Prod.fst).getD z

/-- The half-edges along a list that leads to `z`. -/
def path : Cycle → Nat → List HE
  | [], _ => []
  | x :: l, z => ⟨x.1, x.2, firstTail l z⟩ :: path l z

/-- The half-edges of a face. -/
def hes (c : Cycle) : List HE := path c (firstTail c 0)

/-- How often a half-edge leaves vertex `u` along edge `e` minus how often it arrives. -/
def inc (h : HE) (e u : Nat) : Int :=
  if h.edge = e then (if h.tail = u then 1 else 0) - (if h.tip = u then 1 else 0) else 0

/-- The same for a list of half-edges: the boundary chain. -/
def bd (l : List HE) (e u : Nat) : Int := (l.map fun h => inc h e u).sum

/-- The half-edge in the other direction. -/
def HE.rev (h : HE) : HE := ⟨h.tip, h.edge, h.tail⟩

theorem inc_rev (h : HE) (e u : Nat) : inc h.rev e u = - inc h e u := by
  unfold inc HE.rev; split <;> ring

theorem bd_nil (e u : Nat) : bd [] e u = 0 := rfl
theorem bd_cons (h : HE) (l : List HE) (e u : Nat) : bd (h :: l) e u = inc h e u + bd l e u := by simp [bd]
theorem bd_append (l r : List HE) (e u : Nat) : bd (l ++ r) e u = bd l e u + bd r e u := by simp [bd]
theorem bd_perm {l r : List HE} (h : l.Perm r) (e u : Nat) : bd l e u = bd r e u := (h.map _).sum_eq

theorem bd_rev (l : List HE) (e u : Nat) : bd (l.reverse.map HE.rev) e u = - bd l e u := by
  induction l with
  | nil => rfl
  | cons h l ih => rw [List.reverse_cons, List.map_append, bd_append, ih, bd_cons, List.map_singleton, bd_cons, bd_nil, inc_rev]; ring

theorem bd_flatten (l : List (List HE)) (e u : Nat) : bd l.flatten e u = (l.map fun p => bd p e u).sum := by
  induction l with
  | nil => rfl
  | cons p l ih => rw [List.flatten_cons, bd_append, ih]; simp

theorem bd_filter (l : List HE) (p : HE → Bool) (e u : Nat) : bd l e u = bd (l.filter p) e u + bd (l.filter fun h => !p h) e u := by
  induction l with
  | nil => rfl
  | cons h l ih =>
    by_cases hp : p h = true
    · rw [List.filter_cons_of_pos hp, List.filter_cons_of_neg (by simp [hp]), bd_cons, bd_cons, ih]; ring
    · rw [List.filter_cons_of_neg hp, List.filter_cons_of_pos (by simpa using hp), bd_cons, bd_cons, ih]; ring

/-- No half-edge on the edge. -/
theorem bd_zero {l : List HE} {e : Nat} (h : ∀ x ∈ l, x.edge ≠ e) (u : Nat) : bd l e u = 0 := by
  induction l with
  | nil => rfl
  | cons x l ih =>
    rw [bd_cons, ih (fun y hy => h y (List.mem_cons_of_mem _ hy)), inc, if_neg (h x (by simp))]; rfl

/-! ### Paths -/

theorem firstTail_append (l r : Cycle) (z : Nat) : firstTail (l ++ r) z = firstTail l (firstTail r z) := by
  cases l <;> rfl

theorem path_append (l r : Cycle) (z : Nat) : path (l ++ r) z = path l (firstTail r z) ++ path r z := by
  induction l with
  | nil => rfl
  | cons x l ih => simp only [List.cons_append, path, ih, firstTail_append]

theorem path_length (l : Cycle) (z : Nat) : (path l z).length = l.length := by
  induction l with
  | nil => rfl
  | cons x l ih => simp [path, ih]

theorem path_map (l : Cycle) (z : Nat) : (path l z).map (fun h => (h.tail, h.edge)) = l := by
  induction l with
  | nil => rfl
  | cons x l ih => simp [path, ih]

theorem path_tail {l : Cycle} {z : Nat} {h : HE} (hh : h ∈ path l z) : (h.tail, h.edge) ∈ l := by
  have := List.mem_map_of_mem (f := fun h : HE => (h.tail, h.edge)) hh
  rwa [path_map] at this

theorem path_tip {l : Cycle} {z : Nat} {h : HE} (hh : h ∈ path l z) : h.tip = z ∨ ∃ x ∈ l, x.1 = h.tip := by
  induction l with
  | nil => cases hh
  | cons x l ih =>
    rcases List.mem_cons.1 hh with rfl | hh
    · cases l with
      | nil => exact Or.inl rfl
      | cons y l => exact Or.inr ⟨y, by simp, rfl⟩
    · rcases ih hh with h | ⟨y, hy, h⟩
      · exact Or.inl h
      · exact Or.inr ⟨y, List.mem_cons_of_mem _ hy, h⟩

theorem hes_cons (x : Nat × Nat) (l : Cycle) : hes (x :: l) = path (x :: l) x.1 := rfl

theorem hes_tail {c : Cycle} {h : HE} (hh : h ∈ hes c) : (h.tail, h.edge) ∈ c := path_tail hh

theorem hes_tip {c : Cycle} {h : HE} (hh : h ∈ hes c) : ∃ x ∈ c, x.1 = h.tip := by
  cases c with
  | nil => cases hh
  | cons x l =>
    rcases path_tip hh with h | h
    · exact ⟨x, by simp, h.symm⟩
    · exact h

theorem hes_map (c : Cycle) : (hes c).map (fun h => (h.tail, h.edge)) = c := path_map _ _

/-- Every element of a cycle is the tail of a half-edge. -/
theorem mem_hes {c : Cycle} {x : Nat × Nat} (hx : x ∈ c) : ∃ h ∈ hes c, h.tail = x.1 ∧ h.edge = x.2 := by
  rw [← hes_map c] at hx
  obtain ⟨h, h1, rfl⟩ := List.mem_map.1 hx
  exact ⟨h, h1, rfl, rfl⟩

theorem hes_append (l r : Cycle) : hes (l ++ r) = path l (firstTail r (firstTail l 0)) ++ path r (firstTail l (firstTail r 0)) := by
  unfold hes
  rw [path_append, firstTail_append]
  cases l with
  | nil => cases r <;> rfl
  | cons x l => cases r <;> rfl

/-- Rotating a cycle rotates its half-edges. -/
theorem hes_swap (l r : Cycle) : hes (l ++ r) = path l (firstTail r (firstTail l 0)) ++ path r (firstTail l (firstTail r 0)) ∧
    hes (r ++ l) = path r (firstTail l (firstTail r 0)) ++ path l (firstTail r (firstTail l 0)) :=
  ⟨hes_append l r, hes_append r l⟩

theorem hes_rotated {c c' : Cycle} (h : c ~r c') : hes c ~r hes c' := by
  obtain ⟨n, rfl⟩ := h
  rw [List.rotate_eq_drop_append_take_mod]
  have e : c = c.take (n % c.length) ++ c.drop (n % c.length) := (List.take_append_drop _ _).symm
  conv_lhs => rw [e]
  obtain ⟨h1, h2⟩ := hes_swap (c.take (n % c.length)) (c.drop (n % c.length))
  rw [h1, h2]
  exact ⟨_, List.rotate_append_length_eq ..⟩

theorem bd_rotated {c c' : Cycle} (h : c ~r c') (e u : Nat) : bd (hes c) e u = bd (hes c') e u := bd_perm (hes_rotated h).perm e u

/-! ### `split_edge` on a face -/

/-- `split_edge` (`surface_mesh.rs` lines 225-332): every passage over edge `e` gets the new vertex `w` in the middle. The half at `a` keeps the number `e`,
the other half becomes edge `n`. -/
def cutCorner (e a w n : Nat) (x : Nat × Nat) : Cycle :=
  if x.2 = e then (if x.1 = a then [(x.1, e), (w, n)] else [(x.1, n), (w, e)]) else [x]

/-- The two halves of a half-edge. -/
def cutHE (e a w n : Nat) (h : HE) : List HE :=
  if h.edge = e then (if h.tail = a then [⟨h.tail, e, w⟩, ⟨w, n, h.tip⟩] else [⟨h.tail, n, w⟩, ⟨w, e, h.tip⟩]) else [h]

theorem firstTail_cutCorner (e a w n : Nat) (x : Nat × Nat) (z : Nat) : firstTail (cutCorner e a w n x) z = x.1 := by
  unfold cutCorner; split
  · split <;> rfl
  · rfl

theorem firstTail_cut (e a w n : Nat) (c : Cycle) (z : Nat) : firstTail (c.flatMap (cutCorner e a w n)) z = firstTail c z := by
  cases c with
  | nil => rfl
  | cons x l => rw [List.flatMap_cons, firstTail_append, firstTail_cutCorner]; rfl

theorem path_cut (e a w n : Nat) (c : Cycle) (z : Nat) : path (c.flatMap (cutCorner e a w n)) z = (path c z).flatMap (cutHE e a w n) := by
  induction c with
  | nil => rfl
  | cons x l ih =>
    rw [List.flatMap_cons, path_append, ih, path, List.flatMap_cons, firstTail_cut]
    congr 1
    unfold cutCorner cutHE
    split
    · split <;> rfl
    · rfl

theorem hes_cut (e a w n : Nat) (c : Cycle) : hes (c.flatMap (cutCorner e a w n)) = (hes c).flatMap (cutHE e a w n) := by
  unfold hes; rw [firstTail_cut, path_cut]

/-- The boundary after `split_edge`, when the half-edges on `e` join `a` and `b`. -/
theorem bd_cut {e a b w n : Nat} (hab : a ≠ b) (hn : n ≠ e) {l : List HE} (hl : ∀ h ∈ l, h.edge = e → (h.tail = a ∧ h.tip = b) ∨ (h.tail = b ∧ h.tip = a))
    (hln : ∀ h ∈ l, h.edge ≠ n) (e' u : Nat) :
    bd (l.flatMap (cutHE e a w n)) e' u =
      if e' = e then ((if a = u then 1 else 0) - (if w = u then 1 else 0)) * bd l e a
      else if e' = n then ((if w = u then 1 else 0) - (if b = u then 1 else 0)) * bd l e a
      else bd l e' u := by
  induction l with
  | nil => simp [bd]
  | cons h l ih =>
    have hh := hl h (by simp)
    rw [List.flatMap_cons, bd_append, ih (fun x hx => hl x (List.mem_cons_of_mem _ hx)) (fun x hx => hln x (List.mem_cons_of_mem _ hx)), bd_cons, bd_cons]
    have hn' := hln h (by simp)
    have hba := hab.symm
    by_cases he : h.edge = e
    · have e1 : cutHE e a w n h = if h.tail = a then [⟨h.tail, e, w⟩, ⟨w, n, h.tip⟩] else [⟨h.tail, n, w⟩, ⟨w, e, h.tip⟩] := by
        unfold cutHE; rw [if_pos he]
      rw [e1]
      rcases hh he with ⟨t1, t2⟩ | ⟨t1, t2⟩
      · rw [if_pos t1, bd_cons, bd_cons, bd_nil]
        have i1 : inc h e a = 1 := by simp [inc, he, t1, t2, hba]
        rw [i1]
        by_cases h1 : e' = e
        · subst h1
          simp [inc, t1, hn]; ring
        · by_cases h2 : e' = n
          · subst h2
            simp [inc, t2, h1, Ne.symm h1]; ring
          · simp [inc, he, h1, h2, Ne.symm h1, Ne.symm h2]
      · rw [if_neg (by rw [t1]; exact hba), bd_cons, bd_cons, bd_nil]
        have i1 : inc h e a = -1 := by simp [inc, he, t1, t2, hba]
        rw [i1]
        by_cases h1 : e' = e
        · subst h1
          simp [inc, t2, hn]; ring
        · by_cases h2 : e' = n
          · subst h2
            simp [inc, t1, h1, Ne.symm h1]; ring
          · simp [inc, he, h1, h2, Ne.symm h1, Ne.symm h2]
    · have e1 : cutHE e a w n h = [h] := by unfold cutHE; rw [if_neg he]
      rw [e1, bd_cons, bd_nil]
      have i1 : inc h e a = 0 := by simp [inc, he]
      rw [i1]
      by_cases h1 : e' = e
      · subst h1; simp [inc, he]
      · by_cases h2 : e' = n
        · subst h2; simp [inc, hn', h1]
        · simp [h1, h2]

/-! ### `split_face` -/

/-- The first position with vertex `va` or `vb` (`surface_mesh.rs` lines 344-355). -/
def splitAt2 (va vb : Nat) : Cycle → Option (Cycle × (Nat × Nat) × Cycle)
  | [] => none
  | x :: l => if x.1 = va ∨ x.1 = vb then some ([], x, l) else do
    let (p, y, r) ← splitAt2 va vb l
    some (x :: p, y, r)

/-- `split_face` (lines 334-427): the cycle that the old face keeps, the cycle of the new face. The new edge is `n`. -/
def cutCycle (va vb n : Nat) (c : Cycle) : Option (Cycle × Cycle) := do
  let (p, x, l) ← splitAt2 va vb c
  let (q, y, r) ← splitAt2 va vb l
  some ((y.1, n) :: x :: q, (x.1, n) :: y :: (r ++ p))

theorem splitAt2_eq {va vb : Nat} {p : Cycle} (hp : ∀ x ∈ p, x.1 ≠ va ∧ x.1 ≠ vb) {y : Nat × Nat} (hy : y.1 = va ∨ y.1 = vb) (r : Cycle) :
    splitAt2 va vb (p ++ y :: r) = some (p, y, r) := by
  induction p with
  | nil => simp [splitAt2, hy]
  | cons x p ih =>
    have h1 := hp x (by simp)
    rw [List.cons_append, splitAt2, if_neg (by tauto), ih fun z hz => hp z (List.mem_cons_of_mem _ hz)]
    rfl

theorem cutCycle_eq {va vb n : Nat} {p q r : Cycle} {x y : Nat × Nat} (hp : ∀ z ∈ p, z.1 ≠ va ∧ z.1 ≠ vb) (hq : ∀ z ∈ q, z.1 ≠ va ∧ z.1 ≠ vb)
    (hx : x.1 = va ∨ x.1 = vb) (hy : y.1 = va ∨ y.1 = vb) :
    cutCycle va vb n (p ++ x :: (q ++ y :: r)) = some ((y.1, n) :: x :: q, (x.1, n) :: y :: (r ++ p)) := by
  unfold cutCycle
  rw [splitAt2_eq hp hx]
  show (do let (q', y', r') ← splitAt2 va vb (q ++ y :: r); some ((y'.1, n) :: x :: q', (x.1, n) :: y' :: (r' ++ p))) = _
  rw [splitAt2_eq hq hy]
  rfl

theorem hes_cutOld (x y : Nat × Nat) (n : Nat) (q : Cycle) : hes ((y.1, n) :: x :: q) = ⟨y.1, n, x.1⟩ :: path (x :: q) y.1 := rfl

theorem hes_whole (p q r : Cycle) (x y : Nat × Nat) :
    (hes (p ++ x :: (q ++ y :: r))).Perm (path (x :: q) y.1 ++ path (y :: (r ++ p)) x.1) := by
  have h1 : (p ++ x :: (q ++ y :: r)) ~r ((x :: q) ++ (y :: (r ++ p))) := by
    have := List.IsRotated.symm (⟨p.length, List.rotate_append_length_eq p (x :: (q ++ y :: r))⟩ : (p ++ x :: (q ++ y :: r)) ~r _)
    simpa using this.symm
  refine (hes_rotated h1).perm.trans ?_
  rw [hes_append]
  exact List.Perm.refl _

/-- Cutting a face splits its boundary. -/
theorem bd_cutFace (p q r : Cycle) (x y : Nat × Nat) (n e u : Nat) :
    bd (hes ((y.1, n) :: x :: q)) e u + bd (hes ((x.1, n) :: y :: (r ++ p))) e u = bd (hes (p ++ x :: (q ++ y :: r))) e u := by
  rw [hes_cutOld, hes_cutOld, bd_cons, bd_cons, bd_perm (hes_whole p q r x y), bd_append]
  have : inc ⟨x.1, n, y.1⟩ e u = - inc ⟨y.1, n, x.1⟩ e u := inc_rev ⟨y.1, n, x.1⟩ e u
  rw [this]; ring

end Verif.Bsp
