import Verif.Constraint.Type
/-!
# C87
-/
namespace Verif.Constraint
open InSphere (Pt Ori orient3d doubleToSign)
open Tet (Mesh TriFace face vpivot orientIdx)
open Delaunay (Comb SolidTet)
open Geom

variable {K : Type} [Field K] [LinearOrder K] [IsStrictOrderedRing K] {c : Fin 4 → Pt K} {A B C : Pt K}

theorem filter_cases {s : Fin 4 → Bool} {l : List (Fin 4)} (h : ([0, 1, 2, 3] : List (Fin 4)).filter s = l) :
    (∀ i, i ∈ l ↔ s i = true) ∧ l.Nodup ∧ l.length ≤ 4 := by
  refine ⟨fun i => ?_, ?_, ?_⟩
  · rw [← h, List.mem_filter]
    exact ⟨fun h => h.2, fun h => ⟨by fin_cases i <;> simp, h⟩⟩
  · rw [← h]; exact List.Nodup.filter _ (by decide)
  · rw [← h]; exact List.length_filter_le _ _

theorem third (j k : Fin 4) : ∃ i : Fin 4, i ≠ j ∧ i ≠ k := by revert j k; decide
theorem fourth (j k l : Fin 4) : ∃ i : Fin 4, i ≠ j ∧ i ≠ k ∧ i ≠ l := by revert j k l; decide
theorem four {j k l i : Fin 4} (h : [j, k, l, i].Nodup) (a : Fin 4) : a ∈ [j, k, l, i] := by revert j k l i a; decide

theorem pair_lt {e : Fin 4 × Fin 4} (h : e ∈ ([(0, 1), (0, 2), (0, 3), (1, 2), (1, 3), (2, 3)] : List (Fin 4 × Fin 4))) : e.1 < e.2 := by
  revert e; decide
theorem lt_pair {a b : Fin 4} (h : a < b) : (a, b) ∈ ([(0, 1), (0, 2), (0, 3), (1, 2), (1, 3), (2, 3)] : List (Fin 4 × Fin 4)) := by
  revert a b; decide

/-- C87. For a proper tetrahedron that no side of the (proper) constraint touches, `constraint_intersect_tet_type` is exact: 4 iff the constraint
cuts through the tetrahedron, the index of a face iff this face lies in the constraint, 5 otherwise. -/
theorem c87_tet_type (m : Mesh) (pts : List (Pt K)) (v : Nat × Nat × Nat) (hnum : m.nPoints = pts.length) (hv : Vertices pts v A B C) (hn : ¬ Collinear A B C)
    (t : Nat) (hs : SolidTet pts m t c) (hvol : orient3d (c 0) (c 1) (c 2) (c 3) ≠ 0) (hfree : ¬ Touched c A B C) :
    ∃ k, tetType m pts v t = some k ∧ k ≤ 5 ∧ (k = 4 ↔ Crossed c A B C) ∧ ∀ i : Fin 4, k = i.val ↔ FaceIn c i A B C := by
  classical
  obtain ⟨x, hx, hg, hc⟩ := hs
  have h : Clear c A B C := ⟨hvol, hn, hfree⟩
  have hflat := hn
  rw [collinear_iff_flat] at hflat
  have he := tetType_eq hv hx (by rwa [hnum]) hc h
  have hz : ∀ {i}, InClosedTriangle (c i) A B C → orient3d (c i) A B C = 0 := fun hi => (coplanar_iff hflat).1 (coplanar_of_closed hi)
  generalize eo : ([0, 1, 2, 3] : List (Fin 4)).filter (fun i => !decide (InClosedTriangle (c i) A B C)) = outs at he
  obtain ⟨mem, nd, len⟩ := filter_cases eo
  simp only [Bool.not_eq_true', decide_eq_false_iff_not] at mem
  have sgn0 : ∀ {i}, InClosedTriangle (c i) A B C → doubleToSign (orient3d (c i) A B C) = .zero := fun hi => sign_zero.2 (hz hi)
  -- no face lies in the triangle when two corners are out
  have noface : ∀ {j k : Fin 4}, j ≠ k → ¬ InClosedTriangle (c j) A B C → ¬ InClosedTriangle (c k) A B C → ∀ i, ¬ FaceIn c i A B C := by
    intro j k hjk hj hk i hi
    by_cases e : j = i
    · exact hk (hi k fun e' => hjk (e.trans e'.symm))
    · exact hj (hi j e)
  have fin : ∀ k : Nat, (4 ≤ k) → (∀ i, ¬ FaceIn c i A B C) → ∀ i : Fin 4, k = i.val ↔ FaceIn c i A B C := by
    intro k hk hf i
    exact ⟨fun e => absurd i.isLt (by omega), fun h => absurd h (hf i)⟩
  -- with a corner in the triangle: corners out of it are off the plane
  have out : ∀ {i j : Fin 4}, InClosedTriangle (c i) A B C → ¬ InClosedTriangle (c j) A B C → orient3d (c j) A B C ≠ 0 :=
    fun hi hj e => hj (h.corner hi e)
  refine ⟨_, he, ?_⟩
  match outs, mem, nd, len with
  | [], mem, _, _ =>
    exfalso
    obtain ⟨i, hi⟩ := not_all_zero h.vol h.tri
    have hin : InClosedTriangle (c i) A B C := by
      by_contra hno; simpa using (mem i).2 hno
    exact hi (hz hin)
  | [j], mem, _, _ =>
    simp only [List.mem_singleton] at mem
    have others : ∀ i, i ≠ j → InClosedTriangle (c i) A B C := fun i hij => by
      by_contra hno; exact hij ((mem i).2 hno)
    have hlt := j.isLt
    show (j : Nat) ≤ 5 ∧ ((j : Nat) = 4 ↔ _) ∧ ∀ i : Fin 4, (j : Nat) = i.val ↔ _
    refine ⟨by omega, ⟨fun e => absurd hlt (by omega), fun hcr => ?_⟩, fun i => ⟨fun e => ?_, fun hf => ?_⟩⟩
    · exfalso
      obtain ⟨⟨a, ha⟩, b, hb⟩ := opposite_of_crossed h.tri (not_all_zero h.vol h.tri) hcr
      have haj : a = j := by by_contra hne; rw [hz (others a hne)] at ha; exact lt_irrefl _ ha
      have hbj : b = j := by by_contra hne; rw [hz (others b hne)] at hb; exact lt_irrefl _ hb
      subst haj; subst hbj
      exact lt_asymm ha hb
    · have : i = j := Fin.ext e.symm
      subst this
      exact others
    · by_contra hne
      exact (mem j).1 rfl (hf j fun e => hne (by rw [e]))
  | [j, k], mem, nd, _ =>
    simp only [List.mem_cons, List.not_mem_nil, or_false] at mem
    have hjk : j ≠ k := by simpa using nd
    have hj := (mem j).1 (.inl rfl)
    have hk := (mem k).1 (.inr rfl)
    have others : ∀ i, i ≠ j → i ≠ k → InClosedTriangle (c i) A B C := fun i h1 h2 => by
      by_contra hno; rcases (mem i).2 hno with e | e
      · exact h1 e
      · exact h2 e
    obtain ⟨i, h1, h2⟩ : ∃ i : Fin 4, i ≠ j ∧ i ≠ k := third j k
    have hi := others i h1 h2
    have only : ∀ a, orient3d (c a) A B C ≠ 0 → a = j ∨ a = k := fun a ha => by
      by_contra hno
      simp only [not_or] at hno
      exact ha (hz (others a hno.1 hno.2))
    by_cases hs : doubleToSign (orient3d (c j) A B C) = doubleToSign (orient3d (c k) A B C)
    · simp only [if_pos hs]
      refine ⟨le_rfl, ⟨fun e => absurd e (by decide), fun hcr => ?_⟩, fin 5 (by decide) (noface hjk hj hk)⟩
      exfalso
      obtain ⟨⟨a, ha⟩, b, hb⟩ := (h.crossed_iff hi).1 hcr
      rw [sign_eq_iff] at hs
      rcases only a ha.ne' with e1 | e1 <;> rcases only b hb.ne with e2 | e2 <;> subst e1 <;> subst e2
      · exact lt_asymm ha hb
      · exact lt_asymm (hs.1.1 ha) hb
      · exact lt_asymm (hs.1.2 ha) hb
      · exact lt_asymm ha hb
    · simp only [if_neg hs]
      refine ⟨by decide, ⟨fun _ => ?_, fun _ => by trivial⟩, fin 4 le_rfl (noface hjk hj hk)⟩
      rw [h.crossed_iff hi]
      rcases sign_lt hs (out hi hj) (out hi hk) with ⟨a, b⟩ | ⟨a, b⟩
      · exact ⟨⟨j, a⟩, k, b⟩
      · exact ⟨⟨k, b⟩, j, a⟩
  | [j, k, l], mem, nd, _ =>
    simp only [List.mem_cons, List.not_mem_nil, or_false] at mem
    have hjk : j ≠ k := by rintro rfl; simp at nd
    have hj := (mem j).1 (.inl rfl)
    have hk := (mem k).1 (.inr (.inl rfl))
    have hl := (mem l).1 (.inr (.inr rfl))
    have others : ∀ i, i ≠ j → i ≠ k → i ≠ l → InClosedTriangle (c i) A B C := fun i h1 h2 h3 => by
      by_contra hno; rcases (mem i).2 hno with e | e | e
      · exact h1 e
      · exact h2 e
      · exact h3 e
    obtain ⟨i, h1, h2, h3⟩ : ∃ i : Fin 4, i ≠ j ∧ i ≠ k ∧ i ≠ l := fourth j k l
    have hi := others i h1 h2 h3
    have only : ∀ a, orient3d (c a) A B C ≠ 0 → a = j ∨ a = k ∨ a = l := fun a ha => by
      by_contra hno
      simp only [not_or] at hno
      exact ha (hz (others a hno.1 hno.2.1 hno.2.2))
    by_cases hs : doubleToSign (orient3d (c j) A B C) = doubleToSign (orient3d (c k) A B C) ∧ doubleToSign (orient3d (c j) A B C) = doubleToSign (orient3d (c l) A B C)
    · simp only [if_pos hs]
      refine ⟨le_rfl, ⟨fun e => absurd e (by decide), fun hcr => ?_⟩, fin 5 (by decide) (noface hjk hj hk)⟩
      exfalso
      obtain ⟨⟨a, ha⟩, b, hb⟩ := (h.crossed_iff hi).1 hcr
      have same : ∀ a, orient3d (c a) A B C ≠ 0 → doubleToSign (orient3d (c a) A B C) = doubleToSign (orient3d (c j) A B C) := by
        intro a ha
        rcases only a ha with e | e | e <;> subst e
        · rfl
        · exact hs.1.symm
        · exact hs.2.symm
      have := (same a ha.ne').trans (same b hb.ne).symm
      rw [sign_eq_iff] at this
      exact lt_asymm (this.1.1 ha) hb
    · simp only [if_neg hs]
      refine ⟨by decide, ⟨fun _ => ?_, fun _ => by trivial⟩, fin 4 le_rfl (noface hjk hj hk)⟩
      rw [h.crossed_iff hi]
      by_cases h1 : doubleToSign (orient3d (c j) A B C) = doubleToSign (orient3d (c k) A B C)
      · have h2 : doubleToSign (orient3d (c j) A B C) ≠ doubleToSign (orient3d (c l) A B C) := fun e => hs ⟨h1, e⟩
        rcases sign_lt h2 (out hi hj) (out hi hl) with ⟨a, b⟩ | ⟨a, b⟩
        · exact ⟨⟨j, a⟩, l, b⟩
        · exact ⟨⟨l, b⟩, j, a⟩
      · rcases sign_lt h1 (out hi hj) (out hi hk) with ⟨a, b⟩ | ⟨a, b⟩
        · exact ⟨⟨j, a⟩, k, b⟩
        · exact ⟨⟨k, b⟩, j, a⟩
  | j :: k :: l :: i :: r, mem, nd, len =>
    have hr : r = [] := by
      cases r with
      | nil => rfl
      | cons a r => simp at len
    subst hr
    have all : ∀ a, ¬ InClosedTriangle (c a) A B C := by
      intro a
      rw [← mem a]
      exact four nd a
    have hcr := h.crossed_iff_edge all
    have hany : (([(0, 1), (0, 2), (0, 3), (1, 2), (1, 3), (2, 3)] : List (Fin 4 × Fin 4)).any (fun e =>
          decide (doubleToSign (orient3d (c e.1) A B C) ≠ doubleToSign (orient3d (c e.2) A B C)) && innerSegmentCrossInnerTriangle (c e.1) (c e.2) A B C)) = true ↔
        Crossed c A B C := by
      rw [hcr, List.any_eq_true]
      constructor
      · rintro ⟨e, he, h⟩
        rw [Bool.and_eq_true, decide_eq_true_iff] at h
        refine ⟨e.1, e.2, ?_, h⟩
        exact pair_lt he
      · rintro ⟨a, b, hab, h⟩
        refine ⟨(a, b), ?_, by rw [Bool.and_eq_true, decide_eq_true_iff]; exact h⟩
        exact lt_pair hab
    have nf := noface (j := 0) (k := 1) (by decide) (all 0) (all 1)
    simp only
    split
    · next e => exact ⟨by decide, ⟨fun _ => hany.1 e, fun _ => rfl⟩, fin 4 le_rfl nf⟩
    · next e => exact ⟨le_rfl, ⟨fun e => absurd e (by decide), fun hcr => absurd (hany.2 hcr) e⟩, fin 5 (by decide) nf⟩

omit [IsStrictOrderedRing K] in
/-- C87. A ghost has type 5. -/
theorem c87_ghost (m : Mesh) (pts : List (Pt K)) (v : Nat × Nat × Nat) (t : Nat) (x : Tet.Tet) (hx : m.tets[t]? = some x) (hg : x.data 3 = m.nPoints) :
    tetType m pts v t = some 5 := by
  unfold tetType
  simp [Tet.Mesh.isHull, hx, hg]

end Verif.Constraint
