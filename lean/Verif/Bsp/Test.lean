import Verif.Bsp.SplitCell
/-!
# An example for `Verif.Bsp.c75_split_cell`
-/
namespace Verif.Bsp

/-- A test for `MGood`. -/
def mgoodTest (n : Nat) (cl : List (Nat × Option Nat)) (m : PMesh) : Bool :=
  decide (cl.length = m.faces.length) &&
  m.faces.all (fun c => c.all fun x => decide (x.1 < m.nV) && decide (x.2 < m.nE)) &&
  m.all.all (fun h => m.all.all fun k => !decide (h.edge = k.edge) || decide (k = h) || decide (k = h.rev)) &&
  m.all.all (fun h => decide (h.rev ∈ m.all)) && m.all.all (fun h => decide (h.tail ≠ h.tip)) &&
  cl.all (fun p => decide (p.1 < n) && p.2.all fun k => decide (k < n)) &&
  (List.range n).all fun k => (List.range m.nE).all fun e => (List.range m.nV).all fun u =>
    decide (((List.range m.faces.length).map fun i => term cl m.faces k e u i).sum = 0)

theorem bd_far {l : List HE} {e u : Nat} (h : ∀ x ∈ l, x.edge ≠ e ∨ (x.tail ≠ u ∧ x.tip ≠ u)) : bd l e u = 0 := by
  induction l with
  | nil => rfl
  | cons x l ih =>
    rw [bd_cons, ih fun y hy => h y (by simp [hy]), inc]
    rcases h x (by simp) with h | ⟨h, h'⟩
    · rw [if_neg h]; rfl
    · simp [h, h']

theorem term_zero {cl : List (Nat × Option Nat)} {fs : List Cycle} {k e u i : Nat} (h : (∀ p ∈ cl, sg p k = 0) ∨ ∀ c ∈ fs, bd (hes c) e u = 0) : term cl fs k e u i = 0 := by
  unfold term
  split
  · rename_i p c hp hc
    rcases h with h | h
    · rw [h p (List.mem_of_getElem? hp), zero_mul]
    · rw [h c (List.mem_of_getElem? hc), mul_zero]
  · rfl

theorem sum_range_list (n : Nat) (f : Nat → Int) : (Finset.range n).sum f = ((List.range n).map f).sum := by
  induction n with
  | zero => rfl
  | succ n ih => rw [Finset.sum_range_succ, ih, List.range_succ, List.map_append, List.sum_append]; simp

theorem mgood_of_test {n : Nat} {cl : List (Nat × Option Nat)} {m : PMesh} (h : mgoodTest n cl m = true) : MGood cl m := by
  simp only [mgoodTest, Bool.and_eq_true, List.all_eq_true, List.mem_range, decide_eq_true_eq, Bool.or_eq_true, Bool.not_eq_true', decide_eq_false_iff_not,
    Option.all_eq_true] at h
  obtain ⟨⟨⟨⟨⟨⟨h1, h2⟩, h3⟩, h4⟩, h5⟩, h6⟩, h7⟩ := h
  refine ⟨h1, h2, fun h hh k hk e => ?_, h4, h5, fun k e u => ?_⟩
  · rcases h3 h hh k hk with (q | q) | q
    · exact absurd e q
    · exact Or.inl q
    · exact Or.inr q
  have hlt : ∀ c ∈ m.faces, ∀ x ∈ hes c, x.edge < m.nE ∧ x.tail < m.nV ∧ x.tip < m.nV := by
    intro c hc x hx
    obtain ⟨y, hy, e⟩ := hes_tip hx
    have q := h2 c hc _ (hes_tail hx)
    exact ⟨q.2, q.1, e ▸ (h2 c hc y hy).1⟩
  rw [sum_range_list]
  by_cases hk : k < n
  · by_cases he : e < m.nE
    · by_cases hu : u < m.nV
      · exact h7 k hk e he u hu
      · rw [List.map_congr_left (g := fun _ => 0) fun i _ => term_zero (Or.inr fun c hc => bd_far fun x hx => Or.inr ?_)]
        · simp
        · have := hlt c hc x hx; omega
    · rw [List.map_congr_left (g := fun _ => 0) fun i _ => term_zero (Or.inr fun c hc => bd_far fun x hx => Or.inl ?_)]
      · simp
      · have := hlt c hc x hx; omega
  · rw [List.map_congr_left (g := fun _ => 0) fun i _ => term_zero (Or.inl fun p hp => ?_)]
    · simp
    · obtain ⟨a, b⟩ := h6 p hp
      unfold sg
      rw [if_neg (by omega), if_neg (fun q => by have := b k q; omega)]; rfl

/-- Two tetrahedra 0123 and 0214 with the common face 012. -/
def exSt : St where
  cx := { cells := [⟨[0, 1, 2, 3], [0, 1]⟩, ⟨[0, 4, 5, 6], []⟩]
          faces := [⟨(0, some 1), []⟩, ⟨(0, none), []⟩, ⟨(0, none), []⟩, ⟨(0, none), []⟩, ⟨(1, none), []⟩, ⟨(1, none), []⟩, ⟨(1, none), []⟩] }
  mesh := { nV := 5, nE := 9
            faces := [[(0, 0), (1, 1), (2, 2)], [(1, 0), (0, 3), (3, 4)], [(2, 1), (1, 4), (3, 5)], [(0, 2), (2, 5), (3, 3)],
              [(0, 0), (1, 7), (4, 6)], [(1, 1), (2, 8), (4, 7)], [(2, 2), (0, 6), (4, 8)]] }

theorem exSt_good : Good exSt := ⟨Poly.linked_of_test (by decide +kernel), mgood_of_test (n := 2) (by decide +kernel)⟩

/-- The plane passes through vertex 2 and crosses the edges 01 and 03. -/
def exPlane (v : Nat) : SignType := if v = 2 then 0 else if v = 0 then 1 else -1

theorem exSt_cut : CutOk exPlane exSt 0 ⟨[0, 1, 2, 3], [0, 1]⟩ where
  convex f hf c hc := by
    simp only [List.mem_cons, List.not_mem_nil, or_false] at hf
    rcases hf with rfl | rfl | rfl | rfl <;> cases hc
    · exact ⟨by decide, by decide, Or.inr ⟨[(2, 2)], [(0, 0)], [], [(1, 1)], ⟨2, by decide⟩, by decide, by decide, by decide, by decide, by decide, by decide, by decide, by decide⟩⟩
    · exact ⟨by decide, by decide, Or.inr ⟨[], [(0, 3)], [], [(3, 4), (1, 0)], ⟨1, by decide⟩, by decide, by decide, by decide, by decide, by decide, by decide, by decide, by decide⟩⟩
    · exact ⟨by decide, by decide, Or.inl ⟨-1, by decide, [(2, 1)], [(1, 4), (3, 5)], ⟨0, by decide⟩, by decide, by decide, by decide⟩⟩
    · exact ⟨by decide, by decide, Or.inr ⟨[], [(0, 2)], [(2, 5)], [(3, 3)], ⟨0, by decide⟩, by decide, by decide, by decide, by decide, by decide, by decide, by decide, by decide⟩⟩
  pos := ⟨0, by decide, _, rfl, (0, 0), by decide, by decide⟩
  neg := ⟨0, by decide, _, rfl, (1, 1), by decide, by decide⟩
  loop cf keys h1 h2 := by
    have e : (cellFaces exSt ⟨[0, 1, 2, 3], [0, 1]⟩).bind (fun cf => ((cellSplits exPlane exSt.mesh 0 cf).filter fun p => p.2.outline).mapM fun p =>
      p.2.key (crossing exPlane (cf.flatMap fun x => hes x.2.2)) exSt.mesh.nV) = some [(2, 5), (5, 6), (6, 2)] := by decide +kernel
    rw [h1, Option.bind_some, h2] at e
    cases e
    exact ⟨by decide, _, List.Perm.refl _, by decide, by decide, by decide⟩

def exOracle : Oracle where
  coplanar a b := a = b
  meets _ := true
  hasPos _ := true
  hasNeg _ := false
  inPos _ := true
  inNeg _ := true

/-- Edges 01 and 03 get the vertices 5 and 6, the faces 0, 1 and 3 are cut, and the new face 10 lies between the cells 0 and 2. -/
example : splitCell exOracle exPlane (fun _ => true) 2 exSt 0 = some
    { cx := { cells := [⟨[2, 0, 8, 3, 10], [0]⟩, ⟨[0, 4, 5, 6, 7], []⟩, ⟨[7, 1, 9, 10], [0]⟩]
              faces := [⟨(0, some 1), []⟩, ⟨(2, none), []⟩, ⟨(0, none), []⟩, ⟨(0, none), []⟩, ⟨(1, none), []⟩, ⟨(1, none), []⟩, ⟨(1, none), []⟩,
                ⟨(2, some 1), []⟩, ⟨(0, none), []⟩, ⟨(2, none), []⟩, ⟨(2, some 0), [1]⟩] }
      mesh := { nV := 7, nE := 14
                faces := [[(2, 11), (5, 9), (1, 1)], [(6, 12), (5, 0), (0, 3)], [(2, 1), (1, 4), (3, 5)], [(6, 13), (2, 5), (3, 10)],
                  [(0, 0), (5, 9), (1, 7), (4, 6)], [(1, 1), (2, 8), (4, 7)], [(2, 2), (0, 6), (4, 8)], [(5, 11), (2, 2), (0, 0)],
                  [(5, 12), (6, 10), (3, 4), (1, 9)], [(2, 13), (6, 3), (0, 2)], [(2, 11), (5, 12), (6, 13)]] } } := by decide +kernel

example : ∃ s, splitCell exOracle exPlane (fun _ => true) 2 exSt 0 = some s ∧ Good s :=
  have ⟨s, h, g, _⟩ := c75_split_cell exOracle exPlane (fun _ => true) 2 exSt 0 _ exSt_good (fun t => by simp [exOracle]) rfl (by decide) exSt_cut
  ⟨s, h, g⟩

end Verif.Bsp
