import Verif.Constraint.Model
import Verif.Constraint.Plane
import Mathlib.Algebra.BigOperators.Field
/-!
# C87: the classification of a tetrahedron inside the constraint is exact
-/
namespace Verif.Constraint
open InSphere (Pt Ori orient3d doubleToSign)
open Tet (Mesh TriFace face vpivot orientIdx)
open Delaunay (Comb SolidTet)
open Geom

variable {K : Type} [Field K] [LinearOrder K] [IsStrictOrderedRing K]

omit [LinearOrder K] [IsStrictOrderedRing K] in
/-- Four points of one plane have no volume. -/
theorem volume_zero {A B C p q r s : Pt K} (hp : Coplanar p A B C) (hq : Coplanar q A B C) (hr : Coplanar r A B C) (hs : Coplanar s A B C) :
    orient3d p q r s = 0 := by
  obtain ⟨a1, b1, c1, e1, rfl⟩ := hp
  obtain ⟨a2, b2, c2, e2, rfl⟩ := hq
  obtain ⟨a3, b3, c3, e3, rfl⟩ := hr
  obtain ⟨a4, b4, c4, e4, rfl⟩ := hs
  obtain rfl : a1 = 1 - b1 - c1 := by linear_combination e1
  obtain rfl : a2 = 1 - b2 - c2 := by linear_combination e2
  obtain rfl : a3 = 1 - b3 - c3 := by linear_combination e3
  obtain rfl : a4 = 1 - b4 - c4 := by linear_combination e4
  simp only [orient3d, comb]
  ring

theorem not_all_zero {c : Fin 4 → Pt K} {A B C : Pt K} (hv : orient3d (c 0) (c 1) (c 2) (c 3) ≠ 0) (hn : ¬ Collinear A B C) :
    ∃ i, orient3d (c i) A B C ≠ 0 := by
  by_contra h
  push Not at h
  rw [collinear_iff_flat] at hn
  exact hv (volume_zero ((coplanar_iff hn).2 (h 0)) ((coplanar_iff hn).2 (h 1)) ((coplanar_iff hn).2 (h 2)) ((coplanar_iff hn).2 (h 3)))

/-- A plane with corners on both sides contains a point inside. -/
theorem plane_meets {f : Fin 4 → K} {j k : Fin 4} (hj : 0 < f j) (hk : f k < 0) : ∃ w : Fin 4 → K, (∀ i, 0 < w i) ∧ ∑ i, w i = 1 ∧ ∑ i, w i * f i = 0 := by
  have main : ∃ u : Fin 4 → K, (∀ i, 0 < u i) ∧ ∑ i, u i * f i = 0 := by
    rcases le_total 0 (∑ i, f i) with h | h
    · refine ⟨fun i => 1 + (Pi.single k ((∑ i, f i) / (- f k)) : Fin 4 → K) i, fun i => ?_, ?_⟩
      · have : 0 ≤ (∑ i, f i) / (- f k) := div_nonneg h (by linarith)
        simp only [Pi.single_apply]
        split <;> linarith
      · have : (∑ i, f i) / (- f k) * f k = - ∑ i, f i := by
          have := hk.ne
          field_simp
        simp only [add_mul, one_mul, Finset.sum_add_distrib, Pi.single_apply, ite_mul, zero_mul, Finset.sum_ite_eq', Finset.mem_univ, if_true, this]
        ring
    · refine ⟨fun i => 1 + (Pi.single j (-(∑ i, f i) / f j) : Fin 4 → K) i, fun i => ?_, ?_⟩
      · have : 0 ≤ -(∑ i, f i) / f j := div_nonneg (by linarith) (by linarith)
        simp only [Pi.single_apply]
        split <;> linarith
      · have : -(∑ i, f i) / f j * f j = - ∑ i, f i := by
          have := hj.ne'
          field_simp
        simp only [add_mul, one_mul, Finset.sum_add_distrib, Pi.single_apply, ite_mul, zero_mul, Finset.sum_ite_eq', Finset.mem_univ, if_true, this]
        ring
  obtain ⟨u, hu, he⟩ := main
  have hs : 0 < ∑ i, u i := Finset.sum_pos (fun i _ => hu i) ⟨0, Finset.mem_univ _⟩
  refine ⟨fun i => u i / ∑ i, u i, fun i => div_pos (hu i) hs, ?_, ?_⟩
  · rw [← Finset.sum_div, div_self hs.ne']
  · simp only [div_mul_eq_mul_div, ← Finset.sum_div, he, zero_div]

/-- A tetrahedron with corners on both sides of the plane, one point of which lies inside the triangle, is cut by the triangle. -/
theorem crossed_of_opposite {c : Fin 4 → Pt K} {A B C q : Pt K} (hn : ¬ Collinear A B C) (hq : InTet c q) (hi : InOpenTriangle q A B C) {j k : Fin 4}
    (hj : 0 < orient3d (c j) A B C) (hk : orient3d (c k) A B C < 0) : Crossed c A B C := by
  obtain ⟨w, hw, hs, hz⟩ := plane_meets (f := fun i => orient3d (c i) A B C) hj hk
  obtain ⟨p, hp⟩ := comb_exists c hs
  rw [← height_comb hp] at hz
  obtain ⟨a', b', c', hs', ep⟩ := (coplanar_iff (by rwa [collinear_iff_flat] at hn)).2 hz
  obtain ⟨u, hu, hcu⟩ := hq
  obtain ⟨a, b, g, ha, hb, hg, hs1, eq⟩ := hi
  obtain ⟨e1, p1, q1, r1⟩ := eps1 (w' := a') ha
  obtain ⟨e2, p2, q2, r2⟩ := eps1 (w' := b') hb
  obtain ⟨e3, p3, q3, r3⟩ := eps1 (w' := c') hg
  have he0 : 0 < min e1 (min e2 e3) := lt_min p1 (lt_min p2 p3)
  have he1 : min e1 (min e2 e3) < 1 := lt_of_le_of_lt (min_le_left _ _) q1
  refine ⟨lerp q p (min e1 (min e2 e3)), ⟨_, fun i => ?_, comb_lerp hcu hp _⟩, ?_⟩
  · exact add_pos_of_nonneg_of_pos (mul_nonneg (by linarith) (hu i)) (mul_pos he0 (hw i))
  · rw [eq, ep, comb3_lerp]
    refine ⟨_, _, _, (r1 _ he0.le (min_le_left _ _)).le, (r2 _ he0.le ((min_le_right _ _).trans (min_le_left _ _))).le,
      (r3 _ he0.le ((min_le_right _ _).trans (min_le_right _ _))).le, ?_, rfl⟩
    linear_combination (1 - min e1 (min e2 e3)) * hs1 + min e1 (min e2 e3) * hs'

theorem opposite_of_crossed {c : Fin 4 → Pt K} {A B C : Pt K} (hn : ¬ Collinear A B C) (hz : ∃ i, orient3d (c i) A B C ≠ 0) (h : Crossed c A B C) :
    (∃ j, 0 < orient3d (c j) A B C) ∧ ∃ k, orient3d (c k) A B C < 0 := by
  obtain ⟨p, ⟨w, hw, hc⟩, a, b, g, -, -, -, hs, rfl⟩ := h
  have h0 := height_comb hc A B C
  rw [orient_comb hs] at h0
  obtain ⟨i, hi⟩ := hz
  constructor
  · by_contra hj
    push Not at hj
    exact hi ((mul_eq_zero.1 ((Finset.sum_eq_zero_iff_of_nonpos fun i _ => mul_nonpos_of_nonneg_of_nonpos (hw i).le (hj i)).1 h0.symm i (Finset.mem_univ i))).resolve_left (hw i).ne')
  · by_contra hj
    push Not at hj
    exact hi ((mul_eq_zero.1 ((Finset.sum_eq_zero_iff_of_nonneg fun i _ => mul_nonneg (hw i).le (hj i)).1 h0.symm i (Finset.mem_univ i))).resolve_left (hw i).ne')

theorem sign_lt {a b : K} (h : doubleToSign a ≠ doubleToSign b) (ha : a ≠ 0) (hb : b ≠ 0) : (0 < a ∧ b < 0) ∨ (a < 0 ∧ 0 < b) := by
  rcases lt_or_gt_of_ne ha with h1 | h1 <;> rcases lt_or_gt_of_ne hb with h2 | h2
  · exact absurd ((sign_neg.2 h1).trans (sign_neg.2 h2).symm) h
  · exact .inr ⟨h1, h2⟩
  · exact .inl ⟨h1, h2⟩
  · exact absurd ((sign_pos.2 h1).trans (sign_pos.2 h2).symm) h

/-- The hypotheses of C87 at work: a proper tetrahedron, a proper triangle, no side of which touches the tetrahedron. -/
structure Clear (c : Fin 4 → Pt K) (A B C : Pt K) : Prop where
  vol : orient3d (c 0) (c 1) (c 2) (c 3) ≠ 0
  tri : ¬ Collinear A B C
  free : ¬ Touched c A B C

theorem open_of_closed {p A B C : Pt K} (h : InClosedTriangle p A B C) (hs : ¬ OnSides p A B C) : InOpenTriangle p A B C := by
  obtain ⟨a, b, c, ha, hb, hc, e, rfl⟩ := h
  have : ¬ (a = 0 ∨ b = 0 ∨ c = 0) := fun h => hs (onSides_of_zero ha hb hc e h)
  simp only [not_or] at this
  exact ⟨a, b, c, lt_of_le_of_ne ha (Ne.symm this.1), lt_of_le_of_ne hb (Ne.symm this.2.1), lt_of_le_of_ne hc (Ne.symm this.2.2), e, rfl⟩

omit [IsStrictOrderedRing K] in
theorem closed_of_open {p A B C : Pt K} (h : InOpenTriangle p A B C) : InClosedTriangle p A B C := by
  obtain ⟨a, b, c, ha, hb, hc, e, r⟩ := h
  exact ⟨a, b, c, ha.le, hb.le, hc.le, e, r⟩

omit [LinearOrder K] [IsStrictOrderedRing K] in
theorem coplanar_of_closed [LinearOrder K] {p A B C : Pt K} (h : InClosedTriangle p A B C) : Coplanar p A B C := by
  obtain ⟨a, b, c, -, -, -, e, r⟩ := h
  exact ⟨a, b, c, e, r⟩

variable {c : Fin 4 → Pt K} {A B C : Pt K}

/-- If one point of the tetrahedron is in the triangle then so are all its points in the plane. -/
theorem Clear.spread (h : Clear c A B C) {p q : Pt K} (hp : InTet c p) (hq : InTet c q) (hi : InClosedTriangle p A B C) (hz : orient3d q A B C = 0) :
    InOpenTriangle q A B C := by
  have hi' := open_of_closed hi fun hs => h.free ⟨p, hp, hs⟩
  refine stays_inside hi' ((coplanar_iff (by have := h.tri; rwa [collinear_iff_flat] at this)).2 hz) fun t h0 h1 hs => ?_
  exact h.free ⟨_, inTet_lerp hp hq h0 h1, hs⟩

theorem Clear.corner (h : Clear c A B C) {i j : Fin 4} (hi : InClosedTriangle (c i) A B C) (hz : orient3d (c j) A B C = 0) : InClosedTriangle (c j) A B C :=
  closed_of_open (h.spread (inTet_corner c i) (inTet_corner c j) hi hz)

theorem Clear.crossed_iff (h : Clear c A B C) {i : Fin 4} (hi : InClosedTriangle (c i) A B C) :
    Crossed c A B C ↔ (∃ j, 0 < orient3d (c j) A B C) ∧ ∃ k, orient3d (c k) A B C < 0 := by
  refine ⟨opposite_of_crossed h.tri (not_all_zero h.vol h.tri), fun ⟨⟨j, hj⟩, k, hk⟩ => ?_⟩
  exact crossed_of_opposite h.tri (inTet_corner c i) (open_of_closed hi fun hs => h.free ⟨_, inTet_corner c i, hs⟩) hj hk

omit [LinearOrder K] [IsStrictOrderedRing K] in
/-- The point at which an edge meets the plane. -/
theorem edge_meets [LinearOrder K] [IsStrictOrderedRing K] {u v A B C : Pt K} (h : (0 < orient3d u A B C ∧ orient3d v A B C < 0) ∨ (orient3d u A B C < 0 ∧ 0 < orient3d v A B C)) :
    ∃ s, 0 < s ∧ s < 1 ∧ orient3d (lerp u v s) A B C = 0 := by
  have hd : orient3d u A B C - orient3d v A B C ≠ 0 := by rcases h with ⟨a, b⟩ | ⟨a, b⟩ <;> intro h <;> linarith
  refine ⟨orient3d u A B C / (orient3d u A B C - orient3d v A B C), ?_, ?_, ?_⟩
  · rcases h with ⟨a, b⟩ | ⟨a, b⟩
    · exact div_pos a (by linarith)
    · exact div_pos_of_neg_of_neg a (by linarith)
  · rcases h with ⟨a, b⟩ | ⟨a, b⟩
    · rw [div_lt_one (by linarith)]; linarith
    · rw [div_lt_one_of_neg (by linarith)]; linarith
  · rw [orient_lerp]; field_simp; ring

/-- When no corner is in the triangle, the triangle cuts the tetrahedron iff an edge pierces the triangle. -/
theorem Clear.crossed_iff_edge (h : Clear c A B C) (hi : ∀ i, ¬ InClosedTriangle (c i) A B C) :
    Crossed c A B C ↔ ∃ i j, i < j ∧ doubleToSign (orient3d (c i) A B C) ≠ doubleToSign (orient3d (c j) A B C) ∧
      innerSegmentCrossInnerTriangle (c i) (c j) A B C = true := by
  have hn := h.tri
  rw [collinear_iff_flat] at hn
  constructor
  · intro hc
    obtain ⟨⟨j, hj⟩, k, hk⟩ := opposite_of_crossed h.tri (not_all_zero h.vol h.tri) hc
    obtain ⟨p, hp, hpc⟩ := hc
    have main : ∀ i j : Fin 4, ((0 < orient3d (c i) A B C ∧ orient3d (c j) A B C < 0) ∨ (orient3d (c i) A B C < 0 ∧ 0 < orient3d (c j) A B C)) →
        doubleToSign (orient3d (c i) A B C) ≠ doubleToSign (orient3d (c j) A B C) ∧ innerSegmentCrossInnerTriangle (c i) (c j) A B C = true := by
      intro i j hij
      refine ⟨?_, ?_⟩
      · rw [Ne, sign_eq_iff]
        rcases hij with ⟨a, b⟩ | ⟨a, b⟩
        · exact fun e => absurd (e.1.1 a) b.not_gt
        · exact fun e => absurd (e.1.2 b) a.not_gt
      · rw [c37_inner_segment_cross_inner_triangle]
        obtain ⟨s, s0, s1, hs⟩ := edge_meets hij
        refine ⟨h.tri, ?_, s, s0, s1, h.spread hp.inTet (inTet_lerp (inTet_corner c i) (inTet_corner c j) s0.le s1.le) hpc hs⟩
        rw [coplanar_iff hn]
        rcases hij with ⟨a, b⟩ | ⟨a, b⟩
        · exact a.ne'
        · exact a.ne
    rcases lt_trichotomy j k with l | l | l
    · exact ⟨j, k, l, main j k (.inl ⟨hj, hk⟩)⟩
    · subst l; exact absurd hj hk.not_gt
    · exact ⟨k, j, l, main k j (.inr ⟨hk, hj⟩)⟩
  · rintro ⟨i, j, -, hd, hc⟩
    rw [c37_inner_segment_cross_inner_triangle] at hc
    obtain ⟨-, hu, s, s0, s1, ho⟩ := hc
    have hz := (coplanar_iff hn).1 (coplanar_of_closed (closed_of_open ho))
    rw [coplanar_iff hn] at hu
    have hv : orient3d (c j) A B C ≠ 0 := by
      intro e
      rw [orient_lerp, e, mul_zero, add_zero] at hz
      rcases mul_eq_zero.1 hz with g | g
      · linarith
      · exact hu g
    have ht := inTet_lerp (inTet_corner c i) (inTet_corner c j) s0.le s1.le
    rcases sign_lt hd hu hv with ⟨a, b⟩ | ⟨a, b⟩
    · exact crossed_of_opposite h.tri ht ho a b
    · exact crossed_of_opposite h.tri ht ho b a

theorem Clear.not_vertex (h : Clear c A B C) (i : Fin 4) : c i ≠ A ∧ c i ≠ B ∧ c i ≠ C := by
  refine ⟨fun e => h.free ⟨c i, inTet_corner c i, ?_⟩, fun e => h.free ⟨c i, inTet_corner c i, ?_⟩, fun e => h.free ⟨c i, inTet_corner c i, ?_⟩⟩
  · rw [e]; exact .inl ⟨0, le_rfl, zero_le_one, (lerp_zero _ _).symm⟩
  · rw [e]; exact .inl ⟨1, zero_le_one, le_rfl, (lerp_one _ _).symm⟩
  · rw [e]; exact .inr (.inl ⟨1, zero_le_one, le_rfl, (lerp_one _ _).symm⟩)

/-- The vertices of a constraint. -/
structure Vertices (pts : List (Pt K)) (v : Nat × Nat × Nat) (A B C : Pt K) : Prop where
  a : pts[v.1]? = some A
  b : pts[v.2.1]? = some B
  c : pts[v.2.2]? = some C

theorem anyM_some {α : Type} {f : α → Option Bool} {g : α → Bool} : ∀ {l : List α}, (∀ a ∈ l, f a = some (g a)) → anyM f l = some (l.any g)
  | [], _ => rfl
  | a :: l, h => by
    have h1 := h a (by simp)
    have ih := anyM_some (l := l) fun b hb => h b (by simp [hb])
    unfold anyM
    rw [h1, List.any_cons]
    cases g a
    · simpa using ih
    · rfl

open Classical in
theorem tetType_eq {m : Mesh} {pts : List (Pt K)} {v : Nat × Nat × Nat} {t : Nat} {x : Tet.Tet} (hv : Vertices pts v A B C) (hx : m.tets[t]? = some x)
    (hg : x.data 3 ≠ m.nPoints) (hc : ∀ i, pts[x.data i]? = some (c i)) (h : Clear c A B C) :
    tetType m pts v t = some (match ([0, 1, 2, 3] : List (Fin 4)).filter (fun i => !decide (InClosedTriangle (c i) A B C)) with
      | [j] => j.val
      | [j, k] => if doubleToSign (orient3d (c j) A B C) = doubleToSign (orient3d (c k) A B C) then 5 else 4
      | [j, k, l] => if doubleToSign (orient3d (c j) A B C) = doubleToSign (orient3d (c k) A B C) ∧
          doubleToSign (orient3d (c j) A B C) = doubleToSign (orient3d (c l) A B C) then 5 else 4
      | _ => if ([(0, 1), (0, 2), (0, 3), (1, 2), (1, 3), (2, 3)] : List (Fin 4 × Fin 4)).any (fun e =>
          decide (doubleToSign (orient3d (c e.1) A B C) ≠ doubleToSign (orient3d (c e.2) A B C)) && innerSegmentCrossInnerTriangle (c e.1) (c e.2) A B C) then 4 else 5) := by
  have hn := h.tri
  rw [collinear_iff_flat] at hn
  have ne : ∀ i, x.data i ≠ v.1 ∧ x.data i ≠ v.2.1 ∧ x.data i ≠ v.2.2 := by
    intro i
    obtain ⟨h1, h2, h3⟩ := h.not_vertex i
    refine ⟨fun e => h1 ?_, fun e => h2 ?_, fun e => h3 ?_⟩
    · have := hc i; rw [e, hv.a] at this; exact (Option.some.inj this).symm
    · have := hc i; rw [e, hv.b] at this; exact (Option.some.inj this).symm
    · have := hc i; rw [e, hv.c] at this; exact (Option.some.inj this).symm
  have ho : ∀ i, orientIdx pts (x.data i) v.1 v.2.1 v.2.2 = some (orient3d (c i) A B C) := by
    intro i; simp [orientIdx, hc, hv.a, hv.b, hv.c]
  have hin : ∀ i, (if doubleToSign (orient3d (c i) A B C) = .zero then vInInnerTri pts (x.data i) v else some false) = some (decide (InClosedTriangle (c i) A B C)) := by
    intro i
    split
    · next e =>
      rw [sign_zero] at e
      have hcop := (coplanar_iff hn).2 e
      obtain ⟨n1, n2, n3⟩ := ne i
      unfold vInInnerTri
      rw [if_neg (by simp [n1, n2, n3])]
      simp only [hc, hv.a, hv.b, hv.c, Option.bind_eq_bind, Option.bind_some, pure]
      congr 1
      rw [Bool.eq_iff_iff, decide_eq_true_iff]
      exact c37_point_in_triangle _ _ _ _ h.tri hcop
    · next e =>
      congr 1
      symm
      rw [decide_eq_false_iff_not]
      exact fun hcl => e (sign_zero.2 ((coplanar_iff hn).1 (coplanar_of_closed hcl)))
  have hseg : ∀ i j, vSegInnerTri pts (x.data i) (x.data j) v.1 v.2.1 v.2.2 = some (innerSegmentCrossInnerTriangle (c i) (c j) A B C) := by
    intro i j
    obtain ⟨n1, n2, n3⟩ := ne i
    obtain ⟨n4, n5, n6⟩ := ne j
    unfold vSegInnerTri
    rw [if_neg (by simp [n1, n2, n3, n4, n5, n6])]
    simp [hc, hv.a, hv.b, hv.c]
  have hh : m.isHull t = some false := by simp [Tet.Mesh.isHull, hx, hg]
  have h0 := hin 0
  have h1 := hin 1
  have h2 := hin 2
  have h3 := hin 3
  have eo : (![doubleToSign (orient3d (c 0) A B C), doubleToSign (orient3d (c 1) A B C), doubleToSign (orient3d (c 2) A B C), doubleToSign (orient3d (c 3) A B C)] : Fin 4 → Ori) =
      fun i => doubleToSign (orient3d (c i) A B C) := by
    funext i; fin_cases i <;> rfl
  have ei : (![decide (InClosedTriangle (c 0) A B C), decide (InClosedTriangle (c 1) A B C), decide (InClosedTriangle (c 2) A B C), decide (InClosedTriangle (c 3) A B C)] : Fin 4 → Bool) =
      fun i => decide (InClosedTriangle (c i) A B C) := by
    funext i; fin_cases i <;> rfl
  unfold tetType
  simp only [hh, hx, ho, Option.bind_eq_bind, Option.bind_some, Option.pure_def, eo, h0, h1, h2, h3, ei, if_neg Bool.false_ne_true]
  generalize ([0, 1, 2, 3] : List (Fin 4)).filter (fun i => !decide (InClosedTriangle (c i) A B C)) = outs
  have hany := anyM_some (l := ([(0, 1), (0, 2), (0, 3), (1, 2), (1, 3), (2, 3)] : List (Fin 4 × Fin 4)))
    (f := fun e => if doubleToSign (orient3d (c e.1) A B C) ≠ doubleToSign (orient3d (c e.2) A B C) then vSegInnerTri pts (x.data e.1) (x.data e.2) v.1 v.2.1 v.2.2 else some false)
    (g := fun e => decide (doubleToSign (orient3d (c e.1) A B C) ≠ doubleToSign (orient3d (c e.2) A B C)) && innerSegmentCrossInnerTriangle (c e.1) (c e.2) A B C)
    (fun e _ => by
      by_cases he : doubleToSign (orient3d (c e.1) A B C) = doubleToSign (orient3d (c e.2) A B C)
      · simp [he]
      · simp [he, hseg])
  split
  · rfl
  · rfl
  · rfl
  · rw [hany]
    simp only [Option.bind_some]
    split <;> rfl

end Verif.Constraint
