import Verif.Pred.Lemmas
import Mathlib.Algebra.Order.Field.Rat
/-!
# Properties of the implicit points and of the predicates on generic points
-/
namespace Verif.Pred
open InSphere (Pt Ori doubleToSign)
open Geom (lerp Coplanar Collinear)

variable {K : Type} [Field K] [LinearOrder K] [IsStrictOrderedRing K]

/-! ### C35: Cramer's rule -/

/-- **C35.** `lpi_lambda` computes homogeneous coordinates of the point where the line meets the plane: the line `p q` and the
plane `r s t` are proper and have exactly one common point `X` if and only if the computed denominator is not zero and `X` is
the quotient of the computed coordinates. -/
theorem c35_lpi (l : LPI K) (X : Pt K) : LineMeetsPlane l X ↔ (lpiLambda l).d ≠ 0 ∧
    X = ⟨(lpiLambda l).x / (lpiLambda l).d, (lpiLambda l).y / (lpiLambda l).d, (lpiLambda l).z / (lpiLambda l).d⟩ :=
  lineMeetsPlane_iff l X

/-- **C35.** The same for `tpi_lambda` and the common point of three planes. -/
theorem c35_tpi (t : TPI K) (X : Pt K) : PlanesMeet t X ↔ (tpiLambda t).d ≠ 0 ∧
    X = ⟨(tpiLambda t).x / (tpiLambda t).d, (tpiLambda t).y / (tpiLambda t).d, (tpiLambda t).z / (tpiLambda t).d⟩ :=
  planesMeet_iff t X

/-- The exact stage fails exactly on implicit points that represent no point; otherwise it returns homogeneous coordinates of
the represented point with a positive denominator. -/
theorem c35_exact (E : Env K) (hs : ∀ h, 0 < E.scale h) (i : Imp K) :
    match exact E i with
    | none => ¬ ∃ X, RepI i X
    | some a => 0 < a.d ∧ RepI i ⟨a.x / a.d, a.y / a.d, a.z / a.d⟩ := by
  by_cases h : ∃ X, RepI i X
  · obtain ⟨X, hX⟩ := h
    obtain ⟨a, ha, hd, hx, hy, hz⟩ := exact_some hs hX
    rw [ha]
    refine ⟨hd, ?_⟩
    have : (⟨a.x / a.d, a.y / a.d, a.z / a.d⟩ : Pt K) = X := by
      apply Geom.pt_ext <;> simp only
      · rw [hx, mul_div_cancel_left₀ _ hd.ne']
      · rw [hy, mul_div_cancel_left₀ _ hd.ne']
      · rw [hz, mul_div_cancel_left₀ _ hd.ne']
    rw [this]; exact hX
  · rw [exact_none h]; exact h

/-- A line through the plane z = 0. -/
def exL : LPI ℚ := ⟨⟨1, 1, 1⟩, ⟨1, 2, -1⟩, ⟨0, 0, 0⟩, ⟨3, 0, 0⟩, ⟨0, 5, 0⟩⟩
/-- The planes x = 1, y = 2 and x + y + z = 6. -/
def exT : TPI ℚ := ⟨⟨1, 0, 0⟩, ⟨1, 1, 0⟩, ⟨1, 0, 1⟩, ⟨0, 2, 0⟩, ⟨1, 2, 0⟩, ⟨0, 2, 1⟩, ⟨6, 0, 0⟩, ⟨0, 6, 0⟩, ⟨0, 0, 6⟩⟩

theorem exL_rep : RepI (.lpi exL) ⟨1, 3 / 2, 0⟩ := (c35_lpi _ _).2 ⟨by decide +kernel, by decide +kernel⟩
theorem exT_rep : RepI (.tpi exT) ⟨1, 2, 3⟩ := (c35_tpi _ _).2 ⟨by decide +kernel, by decide +kernel⟩

example : LineMeetsPlane exL ⟨1, 3 / 2, 0⟩ ∧ PlanesMeet exT ⟨1, 2, 3⟩ := ⟨exL_rep, exT_rep⟩
/-- A line parallel to the plane. -/
example : ¬ ∃ X, LineMeetsPlane (K := ℚ) ⟨⟨0, 0, 1⟩, ⟨1, 0, 1⟩, ⟨0, 0, 0⟩, ⟨1, 0, 0⟩, ⟨0, 1, 0⟩⟩ X := by
  rintro ⟨X, hX⟩
  exact ((c35_lpi _ _).1 hX).1 (by decide +kernel)

/-! ### C31: the polynomials -/

section poly
variable {R : Type} [CommRing R]

/-- `a` are homogeneous coordinates of the point `X`. -/
def HomOf (a : Hom R) (X : Pt R) : Prop := a.x = a.d * X.x ∧ a.y = a.d * X.y ∧ a.z = a.d * X.z

/-- **C31.** `orient3d_ieee_impl` is the denominator times the (negated) determinant at the represented point. -/
theorem c31_ieee {l1 : Hom R} {X : Pt R} (h : HomOf l1 X) (a b c : Pt R) :
    ieeeImpl l1 a b c = l1.d * -(InSphere.orient3d X a b c) := by
  obtain ⟨hx, hy, hz⟩ := h
  simp only [ieeeImpl, InSphere.orient3d, hx, hy, hz]; ring

/-- **C31.** `orient3d_iiee_impl`. -/
theorem c31_iiee {l1 l2 : Hom R} {X Y : Pt R} (h1 : HomOf l1 X) (h2 : HomOf l2 Y) (a b : Pt R) :
    iieeImpl l1 l2 a b = l1.d * l2.d * -(InSphere.orient3d X Y a b) := by
  obtain ⟨hx, hy, hz⟩ := h1
  obtain ⟨kx, ky, kz⟩ := h2
  simp only [iieeImpl, InSphere.orient3d, hx, hy, hz, kx, ky, kz]; ring

/-- **C31.** `orient3d_iiie_impl`. -/
theorem c31_iiie {l1 l2 l3 : Hom R} {X Y Z : Pt R} (h1 : HomOf l1 X) (h2 : HomOf l2 Y) (h3 : HomOf l3 Z) (a : Pt R) :
    iiieImpl l1 l2 l3 a = l1.d * l2.d * l3.d * -(InSphere.orient3d X Y Z a) := by
  obtain ⟨hx, hy, hz⟩ := h1
  obtain ⟨kx, ky, kz⟩ := h2
  obtain ⟨mx, my, mz⟩ := h3
  simp only [iiieImpl, InSphere.orient3d, hx, hy, hz, kx, ky, kz, mx, my, mz]; ring

/-- **C31.** `orient3d_iiii_impl`: the fourth denominator enters with the third power. -/
theorem c31_iiii {l1 l2 l3 l4 : Hom R} {X Y Z W : Pt R} (h1 : HomOf l1 X) (h2 : HomOf l2 Y) (h3 : HomOf l3 Z) (h4 : HomOf l4 W) :
    iiiiImpl l1 l2 l3 l4 = l1.d * l2.d * l3.d * l4.d ^ 3 * -(InSphere.orient3d X Y Z W) := by
  obtain ⟨hx, hy, hz⟩ := h1
  obtain ⟨kx, ky, kz⟩ := h2
  obtain ⟨mx, my, mz⟩ := h3
  obtain ⟨nx, ny, nz⟩ := h4
  simp only [iiiiImpl, InSphere.orient3d, hx, hy, hz, kx, ky, kz, mx, my, mz, nx, ny, nz]; ring

/-- **C31.** `orient2d_iee_impl`. -/
theorem c31_iee (d x y p2x p2y p3x p3y : R) :
    ieeImpl (d * x) (d * y) d p2x p2y p3x p3y = d * Geom.orient2d (x, y) (p2x, p2y) (p3x, p3y) := by
  simp only [ieeImpl, Geom.orient2d]; ring

/-- **C31.** `orient2d_iie_impl`: the first denominator enters with the second power. -/
theorem c31_iie (d x y e u v p3x p3y : R) :
    iieImpl (d * x) (d * y) d (e * u) (e * v) e p3x p3y = d ^ 2 * e * Geom.orient2d (x, y) (u, v) (p3x, p3y) := by
  simp only [iieImpl, Geom.orient2d]; ring

/-- **C31.** `orient2d_iii_impl`: the first denominator enters with the second power. -/
theorem c31_iii (d x y e u v f s t : R) :
    iiiImpl (d * x) (d * y) d (e * u) (e * v) e (f * s) (f * t) f = d ^ 2 * e * f * Geom.orient2d (x, y) (u, v) (s, t) := by
  simp only [iiiImpl, Geom.orient2d]; ring

/-- **C31.** `less_than_ie_impl` and `less_than_ii_impl`. -/
theorem c31_lt (d x e u b : R) : ltIeImpl (d * x) d b = d * (x - b) ∧ ltIiImpl (d * x) d (e * u) e = d * e * (x - u) := by
  constructor
  · simp only [ltIeImpl]; ring
  · simp only [ltIiImpl]; ring

end poly

example : HomOf (lpiLambda exL) ⟨1, 3 / 2, 0⟩ ∧ HomOf (tpiLambda exT) ⟨1, 2, 3⟩ ∧ (lpiLambda exL).d = 30 ∧ (tpiLambda exT).d = -36 := by
  refine ⟨?_, ?_, ?_, ?_⟩ <;> first | decide +kernel | (refine ⟨?_, ?_, ?_⟩ <;> decide +kernel)

/-! ### The three stages of each predicate -/

theorem ieee_eq {E : Env K} (hE : E.Sound) {i : Imp K} {X a b c : Pt K} (h : RepI i X) : ieee E i a b c = some (side X a b c) := by
  unfold ieee
  cases he : E.early3 i.toPoint (.explicit a) (.explicit b) (.explicit c) with
  | some o => rw [hE.early3 _ _ _ _ o he X a b c (rep_toPoint.2 h) rfl rfl rfl]
  | none =>
    obtain ⟨l, hl, hd, hx⟩ := exact_some hE.scale h
    simp only [hl, Option.bind_eq_bind, Option.bind_some, Option.pure_def, side]
    rw [c31_ieee (X := X) hx, Geom.sign_mul_pos hd]

theorem iiee_eq {E : Env K} (hE : E.Sound) {i j : Imp K} {X Y a b : Pt K} (h : RepI i X) (h2 : RepI j Y) :
    iiee E i j a b = some (side X Y a b) := by
  unfold iiee
  cases he : E.early3 i.toPoint j.toPoint (.explicit a) (.explicit b) with
  | some o => rw [hE.early3 _ _ _ _ o he X Y a b (rep_toPoint.2 h) (rep_toPoint.2 h2) rfl rfl]
  | none =>
    obtain ⟨l, hl, hd, hx⟩ := exact_some hE.scale h
    obtain ⟨l2, hl2, hd2, hx2⟩ := exact_some hE.scale h2
    simp only [hl, hl2, Option.bind_eq_bind, Option.bind_some, Option.pure_def, side]
    rw [c31_iiee (X := X) (Y := Y) hx hx2, Geom.sign_mul_pos (mul_pos hd hd2)]

theorem iiie_eq {E : Env K} (hE : E.Sound) {i j k : Imp K} {X Y Z a : Pt K} (h : RepI i X) (h2 : RepI j Y) (h3 : RepI k Z) :
    iiie E i j k a = some (side X Y Z a) := by
  unfold iiie
  cases he : E.early3 i.toPoint j.toPoint k.toPoint (.explicit a) with
  | some o => rw [hE.early3 _ _ _ _ o he X Y Z a (rep_toPoint.2 h) (rep_toPoint.2 h2) (rep_toPoint.2 h3) rfl]
  | none =>
    obtain ⟨l, hl, hd, hx⟩ := exact_some hE.scale h
    obtain ⟨l2, hl2, hd2, hx2⟩ := exact_some hE.scale h2
    obtain ⟨l3, hl3, hd3, hx3⟩ := exact_some hE.scale h3
    simp only [hl, hl2, hl3, Option.bind_eq_bind, Option.bind_some, Option.pure_def, side]
    rw [c31_iiie (X := X) (Y := Y) (Z := Z) hx hx2 hx3, Geom.sign_mul_pos (mul_pos (mul_pos hd hd2) hd3)]

theorem iiii_eq {E : Env K} (hE : E.Sound) {i j k m : Imp K} {X Y Z W : Pt K} (h : RepI i X) (h2 : RepI j Y) (h3 : RepI k Z)
    (h4 : RepI m W) : iiii E i j k m = some (side X Y Z W) := by
  unfold iiii
  cases he : E.early3 i.toPoint j.toPoint k.toPoint m.toPoint with
  | some o => rw [hE.early3 _ _ _ _ o he X Y Z W (rep_toPoint.2 h) (rep_toPoint.2 h2) (rep_toPoint.2 h3) (rep_toPoint.2 h4)]
  | none =>
    obtain ⟨l, hl, hd, hx⟩ := exact_some hE.scale h
    obtain ⟨l2, hl2, hd2, hx2⟩ := exact_some hE.scale h2
    obtain ⟨l3, hl3, hd3, hx3⟩ := exact_some hE.scale h3
    obtain ⟨l4, hl4, hd4, hx4⟩ := exact_some hE.scale h4
    simp only [hl, hl2, hl3, hl4, Option.bind_eq_bind, Option.bind_some, Option.pure_def, side]
    rw [c31_iiii (X := X) (Y := Y) (Z := Z) (W := W) hx hx2 hx3 hx4,
      Geom.sign_mul_pos (mul_pos (mul_pos (mul_pos hd hd2) hd3) (pow_pos hd4 3))]

/-- The coordinates looked at by the code are those of the projection. -/
theorem ax2_hom {axis : Nat} (ha : axis < 3) {h : Hom K} {X : Pt K} (hx : h.x = h.d * X.x ∧ h.y = h.d * X.y ∧ h.z = h.d * X.z) :
    ax2 axis h.x h.y h.z = (h.d * (proj axis X).1, h.d * (proj axis X).2) := by
  obtain ⟨hx, hy, hz⟩ := hx
  interval_cases axis <;> simp [ax2, proj, hx, hy, hz]

theorem ax2_pt {axis : Nat} (ha : axis < 3) (X : Pt K) : ax2 axis X.x X.y X.z = proj axis X := by
  interval_cases axis <;> simp [ax2, proj]

theorem iee_eq {E : Env K} (hE : E.Sound) {axis : Nat} (ha : axis < 3) {i : Imp K} {X a b : Pt K} (h : RepI i X) :
    iee E axis i a b = some (turn axis X a b) := by
  unfold iee
  cases he : E.early2 axis i.toPoint (.explicit a) (.explicit b) with
  | some o => rw [hE.early2 _ _ _ _ o he X a b (rep_toPoint.2 h) rfl rfl]
  | none =>
    obtain ⟨l, hl, hd, hx⟩ := exact_some hE.scale h
    simp only [hl, Option.bind_eq_bind, Option.bind_some, Option.pure_def, turn, ax2_hom ha hx, ax2_pt ha]
    rw [c31_iee, Geom.sign_mul_pos hd]

theorem iie_eq {E : Env K} (hE : E.Sound) {axis : Nat} (ha : axis < 3) {i j : Imp K} {X Y a : Pt K} (h : RepI i X) (h2 : RepI j Y) :
    iie E axis i j a = some (turn axis X Y a) := by
  unfold iie
  cases he : E.early2 axis i.toPoint j.toPoint (.explicit a) with
  | some o => rw [hE.early2 _ _ _ _ o he X Y a (rep_toPoint.2 h) (rep_toPoint.2 h2) rfl]
  | none =>
    obtain ⟨l, hl, hd, hx⟩ := exact_some hE.scale h
    obtain ⟨l2, hl2, hd2, hx2⟩ := exact_some hE.scale h2
    simp only [hl, hl2, Option.bind_eq_bind, Option.bind_some, Option.pure_def, turn, ax2_hom ha hx, ax2_hom ha hx2, ax2_pt ha]
    rw [c31_iie, Geom.sign_mul_pos (mul_pos (pow_pos hd 2) hd2)]

theorem iii_eq {E : Env K} (hE : E.Sound) {axis : Nat} (ha : axis < 3) {i j k : Imp K} {X Y Z : Pt K} (h : RepI i X) (h2 : RepI j Y)
    (h3 : RepI k Z) : iii E axis i j k = some (turn axis X Y Z) := by
  unfold iii
  cases he : E.early2 axis i.toPoint j.toPoint k.toPoint with
  | some o => rw [hE.early2 _ _ _ _ o he X Y Z (rep_toPoint.2 h) (rep_toPoint.2 h2) (rep_toPoint.2 h3)]
  | none =>
    obtain ⟨l, hl, hd, hx⟩ := exact_some hE.scale h
    obtain ⟨l2, hl2, hd2, hx2⟩ := exact_some hE.scale h2
    obtain ⟨l3, hl3, hd3, hx3⟩ := exact_some hE.scale h3
    simp only [hl, hl2, hl3, Option.bind_eq_bind, Option.bind_some, Option.pure_def, turn, ax2_hom ha hx, ax2_hom ha hx2, ax2_hom ha hx3]
    rw [c31_iii, Geom.sign_mul_pos (mul_pos (mul_pos (pow_pos hd 2) hd2) hd3)]

theorem sign_sub (a b : K) : doubleToSign (a - b) = cmp a b := by
  unfold doubleToSign cmp
  rcases lt_trichotomy a b with h | rfl | h
  · simp [h, not_lt.2 h.le]
  · simp
  · simp [h, not_lt.2 h.le]

theorem ax1_pt {axis : Nat} (ha : axis < 3) (X : Pt K) : ax1 axis X.x X.y X.z = coord axis X := by
  interval_cases axis <;> simp [ax1, coord]

theorem ax1_hom {axis : Nat} (ha : axis < 3) {h : Hom K} {X : Pt K} (hx : h.x = h.d * X.x ∧ h.y = h.d * X.y ∧ h.z = h.d * X.z) :
    ax1 axis h.x h.y h.z = h.d * coord axis X := by
  obtain ⟨hx, hy, hz⟩ := hx
  interval_cases axis <;> simp [ax1, coord, hx, hy, hz]

theorem ltEe_eq {axis : Nat} (ha : axis < 3) (a b : Pt K) : ltEe axis a b = some (cmp (coord axis a) (coord axis b)) := by
  simp only [ltEe, ax1_pt ha, cmp]
  split_ifs <;> rfl

theorem ltIe_eq {E : Env K} (hE : E.Sound) {axis : Nat} (ha : axis < 3) {i : Imp K} {X a : Pt K} (h : RepI i X) :
    ltIe E axis i a = some (cmp (coord axis X) (coord axis a)) := by
  unfold ltIe
  cases he : E.early1 axis i.toPoint (.explicit a) with
  | some o => rw [hE.early1 _ _ _ o he X a (rep_toPoint.2 h) rfl]
  | none =>
    obtain ⟨l, hl, hd, hx⟩ := exact_some hE.scale h
    simp only [hl, Option.bind_eq_bind, Option.bind_some, Option.pure_def, ax1_hom ha hx, ax1_pt ha]
    rw [(c31_lt _ _ 0 0 _).1, Geom.sign_mul_pos hd, sign_sub]

theorem ltIi_eq {E : Env K} (hE : E.Sound) {axis : Nat} (ha : axis < 3) {i j : Imp K} {X Y : Pt K} (h : RepI i X) (h2 : RepI j Y) :
    ltIi E axis i j = some (cmp (coord axis X) (coord axis Y)) := by
  unfold ltIi
  cases he : E.early1 axis i.toPoint j.toPoint with
  | some o => rw [hE.early1 _ _ _ o he X Y (rep_toPoint.2 h) (rep_toPoint.2 h2)]
  | none =>
    obtain ⟨l, hl, hd, hx⟩ := exact_some hE.scale h
    obtain ⟨l2, hl2, hd2, hx2⟩ := exact_some hE.scale h2
    simp only [hl, hl2, Option.bind_eq_bind, Option.bind_some, Option.pure_def, ax1_hom ha hx, ax1_hom ha hx2]
    rw [(c31_lt _ _ _ _ 0).2, Geom.sign_mul_pos (mul_pos hd hd2), sign_sub]

/-! ### C30: `orient3d` on generic points -/

/-- **C30.** Whatever the four kinds of points, `orient3d` returns the sign of the determinant at the represented points, provided
the filters answer correctly when they answer. -/
theorem c30_orient3d (E : Env K) (hE : E.Sound) (P Q R S : Point K) (W X Y Z : Pt K) (h1 : Rep P W) (h2 : Rep Q X) (h3 : Rep R Y)
    (h4 : Rep S Z) : orient3d E P Q R S = some (side W X Y Z) := by
  cases P <;> cases Q <;> cases R <;> cases S <;> simp only [Rep] at h1 h2 h3 h4 <;> (try subst h1) <;> (try subst h2) <;>
    (try subst h3) <;> (try subst h4) <;> simp only [orient3d]
  all_goals first
    | rfl
    | refine (ieee_eq hE (by assumption)).trans ?_
    | refine (iiee_eq hE (by assumption) (by assumption)).trans ?_
    | refine (iiie_eq hE (by assumption) (by assumption) (by assumption)).trans ?_
    | refine (iiii_eq hE (by assumption) (by assumption) (by assumption) (by assumption)).trans ?_
    | (refine (congrArg (Option.map Ori.reverse) (ieee_eq hE (by assumption))).trans ?_; rw [Option.map_some, side, reverse_sign])
    | (refine (congrArg (Option.map Ori.reverse) (iiee_eq hE (by assumption) (by assumption))).trans ?_
       rw [Option.map_some, side, reverse_sign])
    | (refine (congrArg (Option.map Ori.reverse) (iiie_eq hE (by assumption) (by assumption) (by assumption))).trans ?_
       rw [Option.map_some, side, reverse_sign])
    | (refine (congrArg (Option.map Ori.reverse) (iiii_eq hE (by assumption) (by assumption) (by assumption) (by assumption))).trans ?_
       rw [Option.map_some, side, reverse_sign])
  all_goals
    unfold side
    congr 2
    try (simp only [InSphere.orient3d]; ring)

/-- Swapping two neighbouring arguments (hence any two) reverses the answer. -/
theorem c30_antisymmetric (E : Env K) (hE : E.Sound) (P Q R S : Point K) (W X Y Z : Pt K) (h1 : Rep P W) (h2 : Rep Q X)
    (h3 : Rep R Y) (h4 : Rep S Z) :
    orient3d E Q P R S = (orient3d E P Q R S).map Ori.reverse ∧ orient3d E P R Q S = (orient3d E P Q R S).map Ori.reverse ∧
      orient3d E P Q S R = (orient3d E P Q R S).map Ori.reverse := by
  rw [c30_orient3d E hE _ _ _ _ _ _ _ _ h1 h2 h3 h4, c30_orient3d E hE _ _ _ _ _ _ _ _ h2 h1 h3 h4,
    c30_orient3d E hE _ _ _ _ _ _ _ _ h1 h3 h2 h4, c30_orient3d E hE _ _ _ _ _ _ _ _ h1 h2 h4 h3]
  refine ⟨?_, ?_, ?_⟩ <;> rw [Option.map_some, side, side, reverse_sign] <;> congr 2 <;> simp only [InSphere.orient3d] <;> ring

/-- If one of the points represents no point and the filters do not answer, the result is `Undefined`. -/
theorem c30_undefined (E : Env K) (hE : ∀ P Q R S, E.early3 P Q R S = none) (P Q R S : Point K)
    (h : (¬ ∃ X, Rep P X) ∨ (¬ ∃ X, Rep Q X) ∨ (¬ ∃ X, Rep R X) ∨ ¬ ∃ X, Rep S X) : orient3d E P Q R S = none := by
  have he : ∀ p : Pt K, (∃ X, Rep (.explicit p) X) := fun p => ⟨p, rfl⟩
  have hb : ∀ (i : Imp K) (f : Hom K → Option Ori), (¬ ∃ X, RepI i X) → (exact E i).bind f = none := by
    intro i f hi; rw [exact_none hi]; rfl
  have hb2 : ∀ (i : Imp K) (f : Hom K → Option Ori), (∀ a, f a = none) → (exact E i).bind f = none := by
    intro i f hi; cases exact E i with
    | none => rfl
    | some a => exact hi a
  rcases h with h | h | h | h <;> cases P <;> cases Q <;> cases R <;> cases S <;> first
    | exact absurd (he _) h
    | (simp only [Rep] at h
       simp only [orient3d, ieee, iiee, iiie, iiii, hE, Option.bind_eq_bind]
       repeat first
         | exact hb _ _ h
         | (apply hb2; intro _))

theorem plain_sound : (plain (K := K)).Sound :=
  ⟨fun _ => one_pos, fun _ _ _ _ _ h => (nomatch h), fun _ _ _ _ _ h => (nomatch h), fun _ _ _ _ h => (nomatch h)⟩

example : exact (plain (K := ℚ)) (.tpi exT) = some ⟨36, 72, 108, 36⟩ := by decide +kernel
/-- Two explicit points, a TPI with a negative denominator and an LPI. -/
example : orient3d (plain (K := ℚ)) (.explicit ⟨0, 0, 0⟩) (.tpi exT) (.lpi exL) (.explicit ⟨0, 1, 0⟩) = some .positive ∧
    side (K := ℚ) ⟨0, 0, 0⟩ ⟨1, 2, 3⟩ ⟨1, 3 / 2, 0⟩ ⟨0, 1, 0⟩ = .positive := by decide +kernel
example : orient3d (plain (K := ℚ)) (.explicit ⟨0, 0, 0⟩) (.tpi exT) (.lpi exL) (.explicit ⟨0, 1, 0⟩) = some .positive := by
  rw [c30_orient3d plain plain_sound (.explicit _) (.tpi exT) (.lpi exL) (.explicit _) _ _ _ _ rfl exT_rep exL_rep rfl]; decide +kernel

/-! ### C32: `orient2d` on generic points -/

/-- **C32.** Whatever the kinds of the points, `orient2d_by_axis` returns the orientation of the projections of the represented
points, provided the filters answer correctly when they answer. -/
theorem c32_orient2d (E : Env K) (hE : E.Sound) (axis : Nat) (ha : axis < 3) (P Q R : Point K) (X Y Z : Pt K) (h1 : Rep P X)
    (h2 : Rep Q Y) (h3 : Rep R Z) : orient2dByAxis E P Q R axis = some (turn axis X Y Z) := by
  interval_cases axis <;> cases P <;> cases Q <;> cases R <;> simp only [Rep] at h1 h2 h3 <;> (try subst h1) <;> (try subst h2) <;>
    (try subst h3) <;> simp only [orient2dByAxis, orient2dYZ, orient2dZX, orient2dXY, if_true, if_false, OfNat.ofNat_ne_zero,
      one_ne_zero, OfNat.ofNat_ne_one]
  all_goals first
    | rfl
    | refine (iee_eq hE (by norm_num) (by assumption)).trans ?_
    | refine (iie_eq hE (by norm_num) (by assumption) (by assumption)).trans ?_
    | refine (iii_eq hE (by norm_num) (by assumption) (by assumption) (by assumption)).trans ?_
    | (refine (congrArg (Option.map Ori.reverse) (iie_eq hE (by norm_num) (by assumption) (by assumption))).trans ?_
       rw [Option.map_some, turn, reverse_sign])
    | (refine (congrArg (Option.map Ori.reverse) (iii_eq hE (by norm_num) (by assumption) (by assumption) (by assumption))).trans ?_
       rw [Option.map_some, turn, reverse_sign])
  all_goals
    unfold turn
    congr 2
    try (simp only [Geom.orient2d, proj]; ring)

example : orient2dByAxis (plain (K := ℚ)) (.tpi exT) (.explicit ⟨0, 0, 0⟩) (.lpi exL) 0 = some .positive ∧
    turn (K := ℚ) 0 ⟨1, 2, 3⟩ ⟨0, 0, 0⟩ ⟨1, 3 / 2, 0⟩ = .positive := by decide +kernel
example : orient2dByAxis (plain (K := ℚ)) (.tpi exT) (.explicit ⟨0, 0, 0⟩) (.lpi exL) 0 = some .positive := by
  rw [c32_orient2d plain plain_sound 0 (by norm_num) (.tpi exT) (.explicit _) (.lpi exL) _ _ _ exT_rep rfl exL_rep]; decide +kernel

/-! ### C33: comparison of coordinates -/

/-- `less_than_on_x`, `less_than_on_y`, `less_than_on_z`. -/
def lessThanOn (E : Env K) (axis : Nat) (P Q : Point K) : Option Ori :=
  match axis with
  | 0 => lessThanOnX E P Q
  | 1 => lessThanOnY E P Q
  | _ => lessThanOnZ E P Q

/-- The full claim: the comparison is right for all kinds of points. The code does not satisfy it, see `c33_refuted`. -/
def C33 (K : Type) [Field K] [LinearOrder K] : Prop :=
  ∀ (E : Env K), E.Sound → ∀ axis < 3, ∀ (P Q : Point K) (X Y : Pt K), Rep P X → Rep Q Y →
    lessThanOn E axis P Q = some (cmp (coord axis X) (coord axis Y))

/-- The pairs of kinds for which the code swaps the arguments without reversing the answer. -/
def swapped : Point K → Point K → Bool
  | .explicit _, .lpi _ => true
  | .explicit _, .tpi _ => true
  | .tpi _, .lpi _ => true
  | _, _ => false

/-- **C33, partial.** The comparison is right for the other six pairs of kinds. Missing: the three swapped pairs. -/
theorem c33_less_than_partial (E : Env K) (hE : E.Sound) (axis : Nat) (ha : axis < 3) (P Q : Point K) (X Y : Pt K) (h1 : Rep P X)
    (h2 : Rep Q Y) (hs : swapped P Q = false) : lessThanOn E axis P Q = some (cmp (coord axis X) (coord axis Y)) := by
  interval_cases axis <;> cases P <;> cases Q <;> simp only [Rep] at h1 h2 <;> (try subst h1) <;> (try subst h2) <;>
    first
    | exact ltEe_eq (by norm_num) _ _
    | exact ltIe_eq hE (by norm_num) (by assumption)
    | exact ltIi_eq hE (by norm_num) (by assumption) (by assumption)
    | cases hs

/-- For the three swapped pairs of kinds, the answer is always that of the comparison of the second point with the first one, so it is
wrong whenever the coordinates differ. -/
theorem c33_less_than_swapped (E : Env K) (hE : E.Sound) (axis : Nat) (ha : axis < 3) (P Q : Point K) (X Y : Pt K) (h1 : Rep P X)
    (h2 : Rep Q Y) (hs : swapped P Q = true) : lessThanOn E axis P Q = some (cmp (coord axis Y) (coord axis X)) := by
  interval_cases axis <;> cases P <;> cases Q <;> simp only [Rep] at h1 h2 <;> (try subst h1) <;> (try subst h2) <;>
    first
    | exact ltIe_eq hE (by norm_num) (by assumption)
    | exact ltIi_eq hE (by norm_num) (by assumption) (by assumption)
    | cases hs

/-- **C33, refuted.** The origin has a smaller x-coordinate than the point of `exL`, but `less_than_on_x` says it is larger. -/
theorem c33_refuted : ¬ C33 ℚ := by
  intro h
  have := h plain plain_sound 0 (by norm_num) (.explicit ⟨0, 0, 0⟩) (.lpi exL) _ _ rfl exL_rep
  revert this
  decide +kernel

/-- The witness in full, with the correct answer for the arguments in the other order. -/
theorem c33_witness : Rep (.lpi exL) ⟨1, 3 / 2, 0⟩ ∧ Rep (.tpi exT) ⟨1, 2, 3⟩ ∧
    lessThanOn (plain (K := ℚ)) 0 (.explicit ⟨0, 0, 0⟩) (.lpi exL) = some .positive ∧
    lessThanOn (plain (K := ℚ)) 0 (.lpi exL) (.explicit ⟨0, 0, 0⟩) = some .positive ∧
    lessThanOn (plain (K := ℚ)) 2 (.explicit ⟨0, 0, 0⟩) (.tpi exT) = some .positive ∧
    lessThanOn (plain (K := ℚ)) 1 (.tpi exT) (.lpi exL) = some .negative := by
  refine ⟨exL_rep, exT_rep, ?_, ?_, ?_, ?_⟩ <;> decide +kernel

example : swapped (K := ℚ) (.lpi exL) (.tpi exT) = false ∧
    lessThanOn (plain (K := ℚ)) 1 (.lpi exL) (.tpi exT) = some .negative := by decide +kernel

end Verif.Pred
