import Verif.Geom.Props
/-!
# C64: the projection axis of a triangle

Model of `max_comp_in_tri_normal` (`src/predicates/mod.rs` lines 85-211), `orient2d_by_axis` (lines 596-614 and
`src/predicates/orient2d.rs` lines 9-23) and `vert_in_tri` (`src/polygonlization/bsp_complex.rs` lines 1961-1976).
-/
namespace Verif.Geom
open InSphere (Pt Ori orient3d doubleToSign)

/-- The value of `iter().enumerate().max_by(..)` on three values: index and value of the last maximal one. -/
def maxOf3 {L : Type} [LinearOrder L] (a b c : L) : Nat × L :=
  let m := if a ≤ b then (1, b) else (0, a)
  if m.2 ≤ c then (2, c) else m

/-- The maximum of six absolute values (`abs_max`). -/
def absMax6 {K : Type} [CommRing K] [LinearOrder K] (l : List K) : K := (l.map fun x => |x|).foldl max 0

/-- `max_comp_in_tri_normal_impl` (lines 85-121): the normal of the triangle. -/
def triNormal {K : Type} [CommRing K] (a b c : Pt K) : K × K × K :=
  let v3x := c.x - b.x
  let v3y := c.y - b.y
  let v3z := c.z - b.z
  let v2x := b.x - a.x
  let v2y := b.y - a.y
  let v2z := b.z - a.z
  (v2y * v3z - v2z * v3y, v3x * v2z - v3z * v2x, v2x * v3y - v2y * v3x)

/-- `max_comp_in_tri_normal_filter` (lines 125-151) in exact arithmetic; `eps` is the constant `8.88395e-16`. Answer 3: undecided. -/
def maxCompFilter {K : Type} [CommRing K] [LinearOrder K] (eps : K) (a b c : Pt K) : Nat :=
  let n := triNormal a b c
  let mv := absMax6 [c.x - b.x, c.y - b.y, c.z - b.z, b.x - a.x, b.y - a.y, b.z - a.z]
  let m := maxOf3 |n.1| |n.2.1| |n.2.2|
  if m.2 > eps * mv * mv then m.1 else 3

/-- `max_comp_in_tri_normal_exact` (lines 154-184): compares `last().abs()` of the three expansions, for which we take an arbitrary
function `lead` of the value. -/
def maxCompExact {K : Type} [CommRing K] [LinearOrder K] (lead : K → K) (a b c : Pt K) : Nat :=
  let n := triNormal a b c
  (maxOf3 (lead n.1) (lead n.2.1) (lead n.2.2)).1

/-- `max_comp_in_tri_normal` (lines 187-211). -/
def maxComp {K : Type} [CommRing K] [LinearOrder K] (eps : K) (lead : K → K) (a b c : Pt K) : Nat :=
  let m := maxCompFilter eps a b c
  if m < 3 then m else maxCompExact lead a b c

/-- `orient2d_by_axis` (lines 596-614). -/
def orient2dByAxis {K : Type} [CommRing K] [LinearOrder K] (a b c : Pt K) (axis : Nat) : Ori :=
  if axis = 0 then doubleToSign (orient2d (a.y, a.z) (b.y, b.z) (c.y, c.z))
  else if axis = 1 then doubleToSign (orient2d (a.z, a.x) (b.z, b.x) (c.z, c.x))
  else doubleToSign (orient2d (a.x, a.y) (b.x, b.y) (c.x, c.y))

/-- The loop of `vert_in_tri` (lines 1961-1976); `none` is `Orientation::Undefined`. -/
def vertInTriLoop : List Ori → Option Ori → Bool
  | [], _ => true
  | .zero :: os, nz => vertInTriLoop os nz
  | o :: os, none => vertInTriLoop os (some o)
  | o :: os, some p => if p ≠ o then false else vertInTriLoop os (some p)

/-- `vert_in_tri` (lines 1961-1976). -/
def vertInTri (os : List Ori) : Bool := vertInTriLoop os none

variable {K : Type} [Field K] [LinearOrder K] [IsStrictOrderedRing K]

theorem maxOf3_spec {L : Type} [LinearOrder L] (a b c : L) : (maxOf3 a b c).1 < 3 ∧
    (maxOf3 a b c).2 = [a, b, c].getD (maxOf3 a b c).1 a ∧ a ≤ (maxOf3 a b c).2 ∧ b ≤ (maxOf3 a b c).2 ∧ c ≤ (maxOf3 a b c).2 := by
  simp only [maxOf3]
  by_cases h1 : a ≤ b
  · by_cases h2 : b ≤ c
    · simp [h1, h2, h1.trans h2]
    · simp [h1, h2, (not_le.1 h2).le]
  · by_cases h2 : a ≤ c
    · simp [h1, h2, (not_le.1 h1).le.trans h2]
    · simp [h1, h2, (not_le.1 h1).le, (not_le.1 h2).le]

/-- The component of the normal along an axis. -/
def comp3 (n : K × K × K) (axis : Nat) : K := if axis = 0 then n.1 else if axis = 1 then n.2.1 else n.2.2

omit [IsStrictOrderedRing K] in
theorem comp_of_max (f : K → K) (hf : ∀ x, f x = 0 ↔ x = 0) (hp : ∀ x, 0 ≤ f x) (n : K × K × K) (hn : n ≠ (0, 0, 0)) :
    comp3 n (maxOf3 (f n.1) (f n.2.1) (f n.2.2)).1 ≠ 0 := by
  obtain ⟨h1, h2, h3, h4, h5⟩ := maxOf3_spec (f n.1) (f n.2.1) (f n.2.2)
  intro h0
  have hz : (maxOf3 (f n.1) (f n.2.1) (f n.2.2)).2 = 0 := by
    rw [h2]
    generalize (maxOf3 (f n.1) (f n.2.1) (f n.2.2)).1 = i at *
    have hi : i = 0 ∨ i = 1 ∨ i = 2 := by omega
    rcases hi with rfl | rfl | rfl <;> simpa [comp3, hf] using h0
  rw [hz] at h3 h4 h5
  apply hn
  have e1 := (hf n.1).1 (le_antisymm h3 (hp _))
  have e2 := (hf n.2.1).1 (le_antisymm h4 (hp _))
  have e3 := (hf n.2.2).1 (le_antisymm h5 (hp _))
  exact Prod.ext e1 (Prod.ext e2 e3)

omit [LinearOrder K] [IsStrictOrderedRing K] in
theorem triNormal_eq (a b c : Pt K) : triNormal a b c = (nYZ a b c, -nXZ a b c, nXY a b c) := by
  simp only [triNormal, nYZ, nXZ, nXY, orient2d, xy, yz, xz, Prod.mk.injEq]
  refine ⟨?_, ?_, ?_⟩ <;> ring

omit [IsStrictOrderedRing K] in
theorem byAxis_eq (a b c : Pt K) (axis : Nat) :
    orient2dByAxis a b c axis = doubleToSign (comp3 (nYZ a b c, -nXZ a b c, nXY a b c) axis) := by
  unfold orient2dByAxis comp3
  split_ifs
  · rfl
  · congr 1; simp only [nXZ, orient2d, xz]; ring
  · rfl

/-- C64. The axis chosen by `max_comp_in_tri_normal` for a proper triangle is one of 0, 1, 2, and the projection of the triangle along
it is not degenerate, whatever the threshold of the filter and whatever approximation `lead` of the magnitude of a component is used
(provided it vanishes only at 0). -/
theorem c64_axis (eps : K) (lead : K → K) (hl : ∀ x, lead x = 0 ↔ x = 0) (hp : ∀ x, 0 ≤ lead x) (a b c : Pt K)
    (h : ¬ Collinear a b c) :
    maxComp eps lead a b c < 3 ∧ orient2dByAxis a b c (maxComp eps lead a b c) ≠ .zero := by
  rw [collinear_iff_flat] at h
  have hn : triNormal a b c ≠ (0, 0, 0) := by
    rw [triNormal_eq]
    intro e
    simp only [Prod.mk.injEq, neg_eq_zero] at e
    exact h ⟨e.2.2, e.1, e.2.1⟩
  have key : ∀ f : K → K, (∀ x, f x = 0 ↔ x = 0) → (∀ x, 0 ≤ f x) →
      (maxOf3 (f (triNormal a b c).1) (f (triNormal a b c).2.1) (f (triNormal a b c).2.2)).1 < 3 ∧
      orient2dByAxis a b c (maxOf3 (f (triNormal a b c).1) (f (triNormal a b c).2.1) (f (triNormal a b c).2.2)).1 ≠ .zero := by
    intro f hf hp
    refine ⟨(maxOf3_spec _ _ _).1, ?_⟩
    rw [byAxis_eq, Ne, sign_zero, ← triNormal_eq]
    exact comp_of_max f hf hp _ hn
  simp only [maxComp]
  split_ifs with hm
  · refine ⟨hm, ?_⟩
    simp only [maxCompFilter] at hm ⊢
    split_ifs at hm ⊢ with h1
    · exact (key (fun x => |x|) (fun x => abs_eq_zero) (fun x => abs_nonneg x)).2
    · exact absurd hm (lt_irrefl _)
  · exact key lead hl hp

/-- A triangle in a plane parallel to the x axis: the axis is y or z, never x. -/
example : maxComp (K := ℚ) (1 / 1000000) (fun x => |x|) ⟨0, 0, 0⟩ ⟨1, 1, 2⟩ ⟨2, 1, 2⟩ = 1 ∧
    maxComp (K := ℚ) 1000000 (fun x => |x|) ⟨0, 0, 0⟩ ⟨1, 2, 1⟩ ⟨2, 2, 1⟩ = 2 ∧
    orient2dByAxis (K := ℚ) ⟨0, 0, 0⟩ ⟨1, 1, 2⟩ ⟨2, 1, 2⟩ 0 = .zero ∧ misAlignment (K := ℚ) ⟨0, 0, 0⟩ ⟨1, 1, 2⟩ ⟨2, 1, 2⟩ = true := by
  decide +kernel

theorem vertInTri3 (a b c : Ori) : vertInTri [a, b, c] = true ↔
    ¬ ((a = .positive ∨ b = .positive ∨ c = .positive) ∧ (a = .negative ∨ b = .negative ∨ c = .negative)) := by
  cases a <;> cases b <;> cases c <;> decide

/-- Along an axis which does not degenerate the triangle, the signed areas seen from a point of its plane are multiples of the
barycentric coordinates. -/
theorem byAxis_coords {p v1 v2 v3 : Pt K} {axis : Nat} (h : orient2dByAxis v1 v2 v3 axis ≠ .zero) (hp : Coplanar p v1 v2 v3) :
    ∃ w1 w2 w3 n : K, n ≠ 0 ∧ w1 + w2 + w3 = 1 ∧ p = comb w1 w2 w3 v1 v2 v3 ∧ orient2dByAxis v1 v2 v3 axis = doubleToSign n ∧
      orient2dByAxis v2 v3 p axis = doubleToSign (w1 * n) ∧ orient2dByAxis v3 v1 p axis = doubleToSign (w2 * n) ∧
      orient2dByAxis v1 v2 p axis = doubleToSign (w3 * n) := by
  obtain ⟨w1, w2, w3, hw, rfl⟩ := hp
  rw [byAxis_eq, Ne, sign_zero] at h
  refine ⟨w1, w2, w3, _, h, hw, rfl, by rw [byAxis_eq], ?_, ?_, ?_⟩ <;> rw [byAxis_eq] <;> congr 1 <;> unfold comp3 <;>
    split_ifs <;> simp only [nYZ, nXZ, nXY, orient2d, xy, yz, xz, comb] <;>
    (have e3 : w3 = 1 - w1 - w2 := by linear_combination hw) <;> subst e3 <;> ring

/-- `vert_in_tri` along any axis which does not degenerate the triangle. -/
theorem vertInTri_axis {p a b c : Pt K} {axis : Nat} (hax : orient2dByAxis a b c axis ≠ .zero) (h : ¬ Collinear a b c) (hp : Coplanar p a b c) :
    (vertInTri [orient2dByAxis a b p axis, orient2dByAxis b c p axis, orient2dByAxis c a p axis] = true ↔ InClosedTriangle p a b c) := by
  rw [collinear_iff_flat] at h
  obtain ⟨w1, w2, w3, n, hn, hw, rfl, -, e1, e2, e3⟩ := byAxis_coords hax hp
  rw [e1, e2, e3, vertInTri3]
  simp only [sign_pos, sign_neg]
  have cl : InClosedTriangle (comb w1 w2 w3 a b c) a b c ↔ 0 ≤ w1 ∧ 0 ≤ w2 ∧ 0 ≤ w3 := by
    constructor
    · rintro ⟨x1, x2, x3, p1, p2, p3, hx, e⟩
      obtain ⟨rfl, rfl, rfl⟩ := comb_unique h hw hx e
      exact ⟨p1, p2, p3⟩
    · rintro ⟨p1, p2, p3⟩; exact ⟨w1, w2, w3, p1, p2, p3, hw, rfl⟩
  rw [cl]
  have mp : ∀ w : K, 0 < n → ((0 < w * n ↔ 0 < w) ∧ (w * n < 0 ↔ w < 0)) := by
    intro w hn; exact ⟨mul_pos_iff_of_pos_right hn, by rw [← neg_pos, ← neg_mul, mul_pos_iff_of_pos_right hn, neg_pos]⟩
  have mn : ∀ w : K, n < 0 → ((0 < w * n ↔ w < 0) ∧ (w * n < 0 ↔ 0 < w)) := by
    intro w hn
    have hn' : 0 < -n := neg_pos.2 hn
    refine ⟨by rw [← neg_mul_neg, mul_pos_iff_of_pos_right hn', neg_pos], by rw [← neg_pos, ← mul_neg, mul_pos_iff_of_pos_right hn']⟩
  have some_pos : 0 < w3 ∨ 0 < w1 ∨ 0 < w2 := by
    by_contra hh
    simp only [not_or, not_lt] at hh
    linarith [hh.1, hh.2.1, hh.2.2]
  rcases lt_or_gt_of_ne hn with hn | hn
  · simp only [(mn _ hn).1, (mn _ hn).2]
    constructor
    · intro hh
      have hh' : ¬ (w3 < 0 ∨ w1 < 0 ∨ w2 < 0) := fun x => hh ⟨x, some_pos⟩
      simp only [not_or, not_lt] at hh'
      exact ⟨hh'.2.1, hh'.2.2, hh'.1⟩
    · rintro ⟨q1, q2, q3⟩ ⟨x | x | x, -⟩ <;> linarith
  · simp only [(mp _ hn).1, (mp _ hn).2]
    constructor
    · intro hh
      have hh' : ¬ (w3 < 0 ∨ w1 < 0 ∨ w2 < 0) := fun x => hh ⟨some_pos, x⟩
      simp only [not_or, not_lt] at hh'
      exact ⟨hh'.2.1, hh'.2.2, hh'.1⟩
    · rintro ⟨q1, q2, q3⟩ ⟨-, x | x | x⟩ <;> linarith

/-- C64. For a point in the plane of a proper triangle, `vert_in_tri` on the three orientations along the chosen axis
(`bsp_complex.rs` lines 655-665) decides whether it is in the closed triangle. -/
theorem c64_vert_in_tri (eps : K) (lead : K → K) (hl : ∀ x, lead x = 0 ↔ x = 0) (hpos : ∀ x, 0 ≤ lead x) (p a b c : Pt K)
    (h : ¬ Collinear a b c) (hp : Coplanar p a b c) :
    (vertInTri [orient2dByAxis a b p (maxComp eps lead a b c), orient2dByAxis b c p (maxComp eps lead a b c),
      orient2dByAxis c a p (maxComp eps lead a b c)] = true ↔ InClosedTriangle p a b c) :=
  vertInTri_axis (c64_axis eps lead hl hpos a b c h).2 h hp

example : (∀ p ∈ [(⟨1, 1, 2⟩ : Pt ℚ), ⟨2, 2, 4⟩, ⟨4, 0, 4⟩],
      vertInTri [orient2dByAxis ⟨0, 0, 0⟩ ⟨4, 0, 4⟩ p 2, orient2dByAxis ⟨4, 0, 4⟩ ⟨0, 4, 4⟩ p 2, orient2dByAxis ⟨0, 4, 4⟩ ⟨0, 0, 0⟩ p 2] = true) ∧
    vertInTri [orient2dByAxis (K := ℚ) ⟨0, 0, 0⟩ ⟨4, 0, 4⟩ ⟨3, 3, 6⟩ 2, orient2dByAxis (K := ℚ) ⟨4, 0, 4⟩ ⟨0, 4, 4⟩ ⟨3, 3, 6⟩ 2,
      orient2dByAxis (K := ℚ) ⟨0, 4, 4⟩ ⟨0, 0, 0⟩ ⟨3, 3, 6⟩ 2] = false ∧ maxComp (K := ℚ) 0 (fun x => |x|) ⟨0, 0, 0⟩ ⟨4, 0, 4⟩ ⟨0, 4, 4⟩ = 2 := by
  decide +kernel

end Verif.Geom
