import Verif.Constraint.Room
import Verif.Delaunay.Props
/-!
# C88, C89: not every tetrahedron that a constraint cuts is marked, and not every marked tetrahedron is cut
-/
namespace Verif.Constraint
open InSphere (Pt Ori orient3d doubleToSign)
open Tet (Mesh TriFace tetrahedralize)
open Delaunay (Comb SolidTet IsDelaunay)
open Geom

/-- C88: `insert_constraints` marks every tetrahedron with the property `P` that a constraint cuts through. -/
def MarksComplete {K : Type} [Field K] [LinearOrder K] (P : (Fin 4 → Pt K) → Pt K → Pt K → Pt K → Prop) (pts : List (Pt K)) (m : Mesh) (v : Nat × Nat × Nat)
    (A B C : Pt K) (fuel : Nat) : Prop :=
  IsDelaunay pts m → Vertices pts v A B C → ¬ Collinear A B C → ∀ m' marks, insertConstraints fuel pts m [v] = some (m', marks) →
    ∀ t c, SolidTet pts m t c → P c A B C → Crossed c A B C → 0 ∈ marksAt marks 4 t

/-- C89: `insert_constraints` marks only tetrahedra that the constraint cuts through. -/
def MarksSound {K : Type} [Field K] [LinearOrder K] (pts : List (Pt K)) (m : Mesh) (v : Nat × Nat × Nat) (A B C : Pt K) (fuel : Nat) : Prop :=
  IsDelaunay pts m → Vertices pts v A B C → ¬ Collinear A B C → ∀ m' marks, insertConstraints fuel pts m [v] = some (m', marks) →
    ∀ t c, SolidTet pts m t c → 0 ∈ marksAt marks 4 t → Crossed c A B C

/-- A triangle 0, 1, 2 inside of the constraint 7, 8, 9: the edge 3 4 passes through it. -/
def holePts : List (Pt ℚ) := [⟨10, 0, 0⟩, ⟨-5, 9, 0⟩, ⟨-5, -8, 0⟩, ⟨0, 0, 4⟩, ⟨1, 0, -5⟩, ⟨0, 1, 11⟩, ⟨1, 1, -12⟩, ⟨100, 7, 0⟩, ⟨-60, 80, 0⟩, ⟨-50, -90, 0⟩]

/-- The constraint 4, 5, 6 cuts the tetrahedron 0, 1, 2, 3 in a quadrilateral: one side runs along its diagonal, another one through a third corner. -/
def quadPts : List (Pt ℚ) := [⟨2, 0, -2⟩, ⟨-2, 0, -2⟩, ⟨0, 2, 2⟩, ⟨0, -2, 2⟩, ⟨5, 5, 0⟩, ⟨-5, -5, 0⟩, ⟨-7, -3, 0⟩]

/-- Vertex 0 lies on a side of the constraint 4, 5, 6; the tetrahedron 0, 1, 2, 3 lies beyond this side. -/
def beyondPts : List (Pt ℚ) := [⟨0, 0, 0⟩, ⟨0, -2, 2⟩, ⟨1, -2, -2⟩, ⟨-1, -2, -2⟩, ⟨-3, 0, 0⟩, ⟨3, 0, 0⟩, ⟨0, 5, 0⟩]

theorem delaunay_of_ne {pts : List (Pt ℚ)} {n : Nat} (hd : pts.Nodup) (h4 : 4 ≤ pts.length) (h : pts.length ≤ 1021)
    (e : (tetrahedralize pts (2 * pts.length * pts.length) (List.range pts.length)).map (fun m => m.tets.length) = some (n + 1)) :
    ∃ m, tetrahedralize pts (2 * pts.length * pts.length) (List.range pts.length) = some m ∧ IsDelaunay pts m := by
  obtain ⟨m, e', h | ⟨h, -⟩⟩ := Delaunay.c85_tetrahedralize_partial pts hd h4 _ (List.Perm.refl _) _ le_rfl (Or.inl h)
  · exact ⟨m, e', h⟩
  · rw [e', Option.map_some, h] at e
    cases e

/-- What the run does: the corners of tetrahedron `t` and its marks in the first array of tetrahedra. -/
def report (pts : List (Pt ℚ)) (v : Nat × Nat × Nat) (fuel t : Nat) : Option (List Nat × List Nat) := do
  let m ← tetrahedralize pts (2 * pts.length * pts.length) (List.range pts.length)
  let r ← insertConstraints fuel pts m [v]
  let x ← m.tets[t]?
  return (corners x, marksAt r.2 4 t)

theorem report_spec {pts : List (Pt ℚ)} {v : Nat × Nat × Nat} {fuel t : Nat} {l l' : List Nat} {m : Mesh}
    (e : tetrahedralize pts (2 * pts.length * pts.length) (List.range pts.length) = some m) (h : report pts v fuel t = some (l, l')) :
    ∃ m' marks x, insertConstraints fuel pts m [v] = some (m', marks) ∧ m.tets[t]? = some x ∧ corners x = l ∧ marksAt marks 4 t = l' := by
  simp only [report, e, Option.bind_eq_bind, Option.bind_some, Option.bind_eq_some_iff, Option.pure_def, Option.some.injEq, Prod.mk.injEq] at h
  obtain ⟨r, h1, x, h2, h3, h4⟩ := h
  exact ⟨r.1, r.2, x, h1, h2, h3, h4⟩

/-- Tetrahedron 5 of the first example: the constraint cuts through it and no side touches it. -/
theorem hole_setting : ∃ m x m' marks, tetrahedralize holePts (2 * holePts.length * holePts.length) (List.range holePts.length) = some m ∧ IsDelaunay holePts m ∧
    Vertices holePts (7, 8, 9) ⟨100, 7, 0⟩ ⟨-60, 80, 0⟩ ⟨-50, -90, 0⟩ ∧ ¬ Collinear (⟨100, 7, 0⟩ : Pt ℚ) ⟨-60, 80, 0⟩ ⟨-50, -90, 0⟩ ∧ m.tets[5]? = some x ∧
    SolidTet holePts m 5 ![⟨-5, 9, 0⟩, ⟨0, 0, 4⟩, ⟨-5, -8, 0⟩, ⟨1, 0, -5⟩] ∧ insertConstraints 200 holePts m [(7, 8, 9)] = some (m', marks) ∧ marksAt marks 4 5 = [] ∧
    ¬ Touched ![⟨-5, 9, 0⟩, ⟨0, 0, 4⟩, ⟨-5, -8, 0⟩, ⟨1, 0, -5⟩] (⟨100, 7, 0⟩ : Pt ℚ) ⟨-60, 80, 0⟩ ⟨-50, -90, 0⟩ ∧
    Crossed ![⟨-5, 9, 0⟩, ⟨0, 0, 4⟩, ⟨-5, -8, 0⟩, ⟨1, 0, -5⟩] (⟨100, 7, 0⟩ : Pt ℚ) ⟨-60, 80, 0⟩ ⟨-50, -90, 0⟩ := by
  obtain ⟨m, e, hD⟩ := delaunay_of_ne (pts := holePts) (n := 26) (by decide +kernel) (by decide) (by decide) (by decide +kernel)
  obtain ⟨m', marks, x, e1, e2, e3, e4⟩ := report_spec (v := (7, 8, 9)) (fuel := 200) (t := 5) (l := [1, 3, 2, 4]) (l' := []) e (by decide +kernel)
  simp only [corners, List.cons.injEq, and_true] at e3
  obtain ⟨x0, x1, x2, x3⟩ := e3
  refine ⟨m, x, m', marks, e, hD, ⟨rfl, rfl, rfl⟩, by rw [collinear_iff_flat]; exact fun h => absurd h.1 (by decide +kernel), e2,
    ⟨x, e2, by rw [x3]; decide, fun i => by fin_cases i <;> simp [x0, x1, x2, x3, holePts]⟩, e1, e4, ?_, ?_⟩
  · rintro ⟨p, ⟨w, hw, hc⟩, h⟩
    have h0 := hw 0
    have h1 := hw 1
    have h2 := hw 2
    have h3 := hw 3
    have hs := hc.sum
    have hx := hc.x
    have hy := hc.y
    simp [Fin.sum_univ_four] at hs hx hy
    rcases h with ⟨t, t0, t1, rfl⟩ | ⟨t, t0, t1, rfl⟩ | ⟨t, t0, t1, rfl⟩ <;> simp [lerp] at hx hy <;> linarith
  · refine ⟨⟨-51/20, 11/40, 0⟩, ⟨![11/40, 1/4, 11/40, 1/5], fun i => by fin_cases i <;> norm_num, ?_⟩, 35877/105880, 44693/132350, 171243/529400,
      by norm_num, by norm_num, by norm_num, by norm_num, by norm_num [comb]⟩
    constructor <;> simp [Fin.sum_univ_four] <;> norm_num

/-- C87 in the first example: `constraint_intersect_tet_type` would find the tetrahedron. -/
example : ∃ m, tetrahedralize holePts (2 * holePts.length * holePts.length) (List.range holePts.length) = some m ∧ tetType m holePts (7, 8, 9) 5 = some 4 := by
  obtain ⟨m, x, m', marks, e, hD, hv, hn, hx, hs, -, -, ht, hc⟩ := hole_setting
  obtain ⟨k, ek, -, h4, -⟩ := c87_tet_type m holePts (7, 8, 9) hD.num hv hn 5 hs (hD.sphere 5 _ hs).1.ne ht
  exact ⟨m, e, by rw [ek, h4.2 hc]⟩

/-- C88 fails for tetrahedra that no side touches: inside of the constraint the faces and the cut tetrahedra can hang together along edges only. -/
theorem c88_hole : ¬ ∀ (pts : List (Pt ℚ)) m v A B C fuel, MarksComplete (fun c A B C => ¬ Touched c A B C) pts m v A B C fuel := by
  intro H
  obtain ⟨m, x, m', marks, e, hD, hv, hn, hx, hs, e1, e4, ht, hc⟩ := hole_setting
  have := H holePts m (7, 8, 9) _ _ _ 200 hD hv hn m' marks e1 5 _ hs ht hc
  rw [e4] at this
  cases this

/-- C88 fails for tetrahedra that a side touches: `constraint_intersect_empty` misses a tetrahedron whose section is a quadrilateral with three corners on the sides of the constraint. -/
theorem c88_quad : ¬ ∀ (pts : List (Pt ℚ)) m v A B C fuel, MarksComplete Touched pts m v A B C fuel := by
  intro H
  obtain ⟨m, e, hD⟩ := delaunay_of_ne (pts := quadPts) (n := 15) (by decide +kernel) (by decide) (by decide) (by decide +kernel)
  obtain ⟨m', marks, x, e1, e2, e3, e4⟩ := report_spec (v := (4, 5, 6)) (fuel := 200) (t := 14) (l := [2, 1, 0, 3]) (l' := []) e (by decide +kernel)
  simp only [corners, List.cons.injEq, and_true] at e3
  obtain ⟨x0, x1, x2, x3⟩ := e3
  have := H quadPts m (4, 5, 6) ⟨5, 5, 0⟩ ⟨-5, -5, 0⟩ ⟨-7, -3, 0⟩ 200 hD ⟨rfl, rfl, rfl⟩ (by rw [collinear_iff_flat]; exact fun h => absurd h.1 (by decide +kernel)) m' marks e1 14
    ![⟨0, 2, 2⟩, ⟨-2, 0, -2⟩, ⟨2, 0, -2⟩, ⟨0, -2, 2⟩] ⟨x, e2, by rw [x3]; decide, fun i => by fin_cases i <;> simp [x0, x1, x2, x3, quadPts]⟩ ?_ ?_
  · rw [e4] at this
    cases this
  · refine ⟨⟨0, 0, 0⟩, ⟨![1/4, 1/4, 1/4, 1/4], fun i => by fin_cases i <;> norm_num, ?_⟩, .inl ⟨1/2, by norm_num, by norm_num, by norm_num [lerp]⟩⟩
    constructor <;> simp [Fin.sum_univ_four] <;> norm_num
  · refine ⟨⟨-1/3, 1/3, 0⟩, ⟨![1/3, 1/3, 1/6, 1/6], fun i => by fin_cases i <;> norm_num, ?_⟩, 1/2, 1/3, 1/6, by norm_num, by norm_num, by norm_num, by norm_num, by norm_num [comb]⟩
    constructor <;> simp [Fin.sum_univ_four] <;> norm_num

/-- C89 fails: `vert_point_in_inner_triangle` also holds on the sides, so a tetrahedron beyond a side that has a corner on it is marked. -/
theorem c89_beyond : ¬ ∀ (pts : List (Pt ℚ)) m v A B C fuel, MarksSound pts m v A B C fuel := by
  intro H
  obtain ⟨m, e, hD⟩ := delaunay_of_ne (pts := beyondPts) (n := 15) (by decide +kernel) (by decide) (by decide) (by decide +kernel)
  obtain ⟨m', marks, x, e1, e2, e3, e4⟩ := report_spec (v := (4, 5, 6)) (fuel := 200) (t := 12) (l := [1, 0, 2, 3]) (l' := [0]) e (by decide +kernel)
  simp only [corners, List.cons.injEq, and_true] at e3
  obtain ⟨x0, x1, x2, x3⟩ := e3
  obtain ⟨p, ⟨w, hw, hc⟩, a, b, g, ha, hb, hg, -, rfl⟩ := H beyondPts m (4, 5, 6) ⟨-3, 0, 0⟩ ⟨3, 0, 0⟩ ⟨0, 5, 0⟩ 200 hD ⟨rfl, rfl, rfl⟩
    (by rw [collinear_iff_flat]; exact fun h => absurd h.1 (by decide +kernel)) m' marks e1 12
    ![⟨0, -2, 2⟩, ⟨0, 0, 0⟩, ⟨1, -2, -2⟩, ⟨-1, -2, -2⟩] ⟨x, e2, by rw [x3]; decide, fun i => by fin_cases i <;> simp [x0, x1, x2, x3, beyondPts]⟩ (by rw [e4]; simp)
  have := hc.y
  simp [comb, Fin.sum_univ_four] at this
  have h0 := hw 0
  have h1 := hw 2
  have h2 := hw 3
  linarith

/-- Points on both sides of the constraint 7, 8, 9: seven tetrahedra inside of it are marked by `interior_intersections`. -/
def innerPts : List (Pt ℚ) := [⟨3, 0, 5⟩, ⟨-2, 3, 4⟩, ⟨-2, -3, 6⟩, ⟨2, 1, -5⟩, ⟨-3, 1, -4⟩, ⟨1, -3, -6⟩, ⟨0, 0, 1⟩, ⟨30, 1, 0⟩, ⟨-15, 26, 0⟩, ⟨-14, -25, 0⟩]

example : ∀ t ∈ [6, 3, 5, 4, 18, 19, 16], (report innerPts (7, 8, 9) 200 t).map Prod.snd = some [0] := by decide +kernel

/-- In the Delaunay tetrahedralization of `holePts` every solid tetrahedron can be classified with respect to the constraint 7, 8, 9. -/
example : ∃ m, IsDelaunay holePts m ∧ m.tets.length = 27 ∧ ∀ t c, SolidTet holePts m t c → ∃ r, improper m holePts (7, 8, 9) t = some r ∧ ∀ k ∈ r, k ≤ 4 := by
  obtain ⟨m, e, hD⟩ := delaunay_of_ne (pts := holePts) (n := 26) (by decide +kernel) (by decide) (by decide) (by decide +kernel)
  refine ⟨m, hD, ?_, fun t c hc => c90_improper hD (7, 8, 9) (by decide) (by decide) (by decide) t c hc⟩
  have : (tetrahedralize holePts (2 * holePts.length * holePts.length) (List.range holePts.length)).map (fun m => m.tets.length) = some 27 := by decide +kernel
  rw [e, Option.map_some, Option.some.injEq] at this
  exact this

end Verif.Constraint
