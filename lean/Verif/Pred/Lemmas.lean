import Verif.Pred.Spec
import Verif.Geom.Props
import Mathlib.LinearAlgebra.Matrix.ToLinearEquiv
import Mathlib.LinearAlgebra.Matrix.Determinant.Basic
/-!
# Cramer's rule for the implicit points; the exact stage
-/
namespace Verif.Pred
open InSphere (Pt Ori doubleToSign)
open Geom (lerp Coplanar Collinear pt_ext Flat nXY nYZ nXZ collinear_iff_flat coplanar_iff)

variable {K : Type} [Field K] [LinearOrder K] [IsStrictOrderedRing K]

/-- The scalar product. -/
def dot (a b : Pt K) : K := a.x * b.x + a.y * b.y + a.z * b.z

/-- A normal of the plane `a b c`. -/
def nrm (a b c : Pt K) : Pt K :=
  ⟨(b.y - a.y) * (c.z - b.z) - (b.z - a.z) * (c.y - b.y), (c.x - b.x) * (b.z - a.z) - (c.z - b.z) * (b.x - a.x),
    (b.x - a.x) * (c.y - b.y) - (b.y - a.y) * (c.x - b.x)⟩

omit [LinearOrder K] [IsStrictOrderedRing K] in
theorem flat_iff_nrm {a b c : Pt K} : Flat a b c ↔ (nrm a b c).x = 0 ∧ (nrm a b c).y = 0 ∧ (nrm a b c).z = 0 := by
  have h1 : (nrm a b c).z = nXY a b c := by simp only [nrm, nXY, Geom.orient2d, Geom.xy]; ring
  have h2 : (nrm a b c).x = nYZ a b c := by simp only [nrm, nYZ, Geom.orient2d, Geom.yz]; ring
  have h3 : (nrm a b c).y = - nXZ a b c := by simp only [nrm, nXZ, Geom.orient2d, Geom.xz]; ring
  rw [h1, h2, h3, Flat, neg_eq_zero]
  tauto

omit [LinearOrder K] [IsStrictOrderedRing K] in
theorem orient_nrm (p a b c : Pt K) : InSphere.orient3d p a b c = dot (nrm a b c) p - dot (nrm a b c) a := by
  simp only [InSphere.orient3d, dot, nrm]; ring

theorem coplanar_nrm {p a b c : Pt K} (hn : ¬ Flat a b c) : Coplanar p a b c ↔ dot (nrm a b c) p = dot (nrm a b c) a := by
  rw [coplanar_iff hn, orient_nrm, sub_eq_zero]

/-- Cramer's rule for three planes. -/
def cram (a b c : Pt K) (p1 p2 p3 : K) : Hom K :=
  { x := (p1 * (b.y * c.z - b.z * c.y) + p3 * (a.y * b.z - a.z * b.y)) - p2 * (a.y * c.z - a.z * c.y)
    y := p2 * (a.x * c.z - a.z * c.x) - (p1 * (b.x * c.z - b.z * c.x) + p3 * (a.x * b.z - a.z * b.x))
    z := (p3 * (a.x * b.y - a.y * b.x) + p1 * (b.x * c.y - b.y * c.x)) - p2 * (a.x * c.y - a.y * c.x)
    d := (a.x * (b.y * c.z - b.z * c.y) + a.z * (b.x * c.y - b.y * c.x)) - a.y * (b.x * c.z - b.z * c.x) }

omit [LinearOrder K] [IsStrictOrderedRing K] in
theorem tpiLambda_eq (t : TPI K) : tpiLambda t = cram (nrm t.v1 t.v2 t.v3) (nrm t.w1 t.w2 t.w3) (nrm t.u1 t.u2 t.u3)
    (dot (nrm t.v1 t.v2 t.v3) t.v1) (dot (nrm t.w1 t.w2 t.w3) t.w1) (dot (nrm t.u1 t.u2 t.u3) t.u1) := rfl

/-- The solution, if the denominator is not zero. -/
theorem cram_iff {a b c : Pt K} {p1 p2 p3 : K} (hd : (cram a b c p1 p2 p3).d ≠ 0) (X : Pt K) :
    (dot a X = p1 ∧ dot b X = p2 ∧ dot c X = p3) ↔
      X = ⟨(cram a b c p1 p2 p3).x / (cram a b c p1 p2 p3).d, (cram a b c p1 p2 p3).y / (cram a b c p1 p2 p3).d,
        (cram a b c p1 p2 p3).z / (cram a b c p1 p2 p3).d⟩ := by
  constructor
  · rintro ⟨e1, e2, e3⟩
    apply pt_ext <;> (show _ = _ / _) <;> rw [eq_div_iff hd] <;> simp only [cram, dot] at *
    · linear_combination (b.y * c.z - b.z * c.y) * e1 - (a.y * c.z - a.z * c.y) * e2 + (a.y * b.z - a.z * b.y) * e3
    · linear_combination -(b.x * c.z - b.z * c.x) * e1 + (a.x * c.z - a.z * c.x) * e2 - (a.x * b.z - a.z * b.x) * e3
    · linear_combination (b.x * c.y - b.y * c.x) * e1 - (a.x * c.y - a.y * c.x) * e2 + (a.x * b.y - a.y * b.x) * e3
  · rintro rfl
    have key : ∀ v : Pt K, ∀ p : K, dot v ⟨(cram a b c p1 p2 p3).x, (cram a b c p1 p2 p3).y, (cram a b c p1 p2 p3).z⟩ =
        p * (cram a b c p1 p2 p3).d → dot v ⟨(cram a b c p1 p2 p3).x / (cram a b c p1 p2 p3).d,
          (cram a b c p1 p2 p3).y / (cram a b c p1 p2 p3).d, (cram a b c p1 p2 p3).z / (cram a b c p1 p2 p3).d⟩ = p := by
      intro v p h
      rw [← mul_left_inj' hd, ← h]
      simp only [dot]
      field_simp
    refine ⟨key _ _ ?_, key _ _ ?_, key _ _ ?_⟩ <;> simp only [dot, cram] <;> ring

omit [LinearOrder K] [IsStrictOrderedRing K] in
/-- If the denominator is zero, there is a direction common to the planes. -/
theorem cram_zero {a b c : Pt K} {p1 p2 p3 : K} (hd : (cram a b c p1 p2 p3).d = 0) :
    ∃ k : Pt K, ¬ (k.x = 0 ∧ k.y = 0 ∧ k.z = 0) ∧ dot a k = 0 ∧ dot b k = 0 ∧ dot c k = 0 := by
  let M : Matrix (Fin 3) (Fin 3) K := !![a.x, a.y, a.z; b.x, b.y, b.z; c.x, c.y, c.z]
  have hM : M.det = 0 := by
    rw [Matrix.det_fin_three]
    simp only [M, cram, Matrix.of_apply, Matrix.cons_val', Matrix.cons_val_zero, Matrix.cons_val_one, Matrix.cons_val] at *
    linear_combination hd
  obtain ⟨v, hv, e⟩ := Matrix.exists_mulVec_eq_zero_iff.2 hM
  refine ⟨⟨v 0, v 1, v 2⟩, ?_, ?_, ?_, ?_⟩
  · rintro ⟨h0, h1, h2⟩
    apply hv
    funext i
    fin_cases i
    · exact h0
    · exact h1
    · exact h2
  · have := congrFun e 0; simpa [M, Matrix.mulVec, dotProduct, Fin.sum_univ_three, dot] using this
  · have := congrFun e 1; simpa [M, Matrix.mulVec, dotProduct, Fin.sum_univ_three, dot] using this
  · have := congrFun e 2; simpa [M, Matrix.mulVec, dotProduct, Fin.sum_univ_three, dot] using this

/-- The point with the given homogeneous coordinates. -/
def Hom.pt (h : Hom K) : Pt K := ⟨h.x / h.d, h.y / h.d, h.z / h.d⟩

theorem planesMeet_iff (t : TPI K) (X : Pt K) : PlanesMeet t X ↔ (tpiLambda t).d ≠ 0 ∧ X = (tpiLambda t).pt := by
  rw [tpiLambda_eq]
  constructor
  · intro ⟨f1, f2, f3, h1, h2, h3, hu⟩
    rw [collinear_iff_flat] at f1 f2 f3
    simp only [coplanar_nrm f1, coplanar_nrm f2, coplanar_nrm f3] at h1 h2 h3 hu
    have hd : (cram (nrm t.v1 t.v2 t.v3) (nrm t.w1 t.w2 t.w3) (nrm t.u1 t.u2 t.u3)
        (dot (nrm t.v1 t.v2 t.v3) t.v1) (dot (nrm t.w1 t.w2 t.w3) t.w1) (dot (nrm t.u1 t.u2 t.u3) t.u1)).d ≠ 0 := by
      intro h0
      obtain ⟨k, hk, k1, k2, k3⟩ := cram_zero h0
      have hadd : ∀ v : Pt K, dot v ⟨X.x + k.x, X.y + k.y, X.z + k.z⟩ = dot v X + dot v k := by
        intro v; simp only [dot]; ring
      have := hu ⟨X.x + k.x, X.y + k.y, X.z + k.z⟩ (by rw [hadd, k1, h1, add_zero]) (by rw [hadd, k2, h2, add_zero])
        (by rw [hadd, k3, h3, add_zero])
      apply hk
      have ex := congrArg Pt.x this
      have ey := congrArg Pt.y this
      have ez := congrArg Pt.z this
      simp only at ex ey ez
      exact ⟨by linarith, by linarith, by linarith⟩
    exact ⟨hd, (cram_iff hd X).1 ⟨h1, h2, h3⟩⟩
  · rintro ⟨hd, rfl⟩
    have hn : ∀ a b c : Pt K, (nrm a b c).x ≠ 0 ∨ (nrm a b c).y ≠ 0 ∨ (nrm a b c).z ≠ 0 → ¬ Flat a b c := by
      intro a b c h hf
      obtain ⟨x, y, z⟩ := flat_iff_nrm.1 hf
      rcases h with h | h | h <;> exact h (by assumption)
    have f1 : ¬ Flat t.v1 t.v2 t.v3 := by
      intro hf
      obtain ⟨x, y, z⟩ := flat_iff_nrm.1 hf
      apply hd; simp only [cram, x, y, z]; ring
    have f2 : ¬ Flat t.w1 t.w2 t.w3 := by
      intro hf
      obtain ⟨x, y, z⟩ := flat_iff_nrm.1 hf
      apply hd; simp only [cram, x, y, z]; ring
    have f3 : ¬ Flat t.u1 t.u2 t.u3 := by
      intro hf
      obtain ⟨x, y, z⟩ := flat_iff_nrm.1 hf
      apply hd; simp only [cram, x, y, z]; ring
    obtain ⟨h1, h2, h3⟩ := (cram_iff hd _).2 rfl
    refine ⟨by rwa [collinear_iff_flat], by rwa [collinear_iff_flat], by rwa [collinear_iff_flat], (coplanar_nrm f1).2 h1,
      (coplanar_nrm f2).2 h2, (coplanar_nrm f3).2 h3, fun Y y1 y2 y3 => ?_⟩
    exact (cram_iff hd Y).1 ⟨(coplanar_nrm f1).1 y1, (coplanar_nrm f2).1 y2, (coplanar_nrm f3).1 y3⟩

omit [LinearOrder K] [IsStrictOrderedRing K] in
/-- The quantities of `lpi_lambda`: the denominator is the change of the plane equation along the line. -/
theorem lpi_d (l : LPI K) : (lpiLambda l).d = dot (nrm l.r l.s l.t) l.p - dot (nrm l.r l.s l.t) l.q := by
  simp only [lpiLambda, dot, nrm]; ring

/-- The value of the plane equation at `p`. -/
def lpiN (l : LPI K) : K := dot (nrm l.r l.s l.t) l.p - dot (nrm l.r l.s l.t) l.r

omit [LinearOrder K] [IsStrictOrderedRing K] in
theorem lpi_xyz (l : LPI K) : (lpiLambda l).x = (lpiLambda l).d * l.p.x - (l.p.x - l.q.x) * lpiN l ∧
    (lpiLambda l).y = (lpiLambda l).d * l.p.y - (l.p.y - l.q.y) * lpiN l ∧
    (lpiLambda l).z = (lpiLambda l).d * l.p.z - (l.p.z - l.q.z) * lpiN l := by
  refine ⟨?_, ?_, ?_⟩ <;> simp only [lpiLambda, lpiN, dot, nrm] <;> ring

omit [LinearOrder K] [IsStrictOrderedRing K] in
theorem dot_lerp (n p q : Pt K) (u : K) : dot n (lerp p q u) = dot n p - u * (dot n p - dot n q) := by
  simp only [dot, lerp]; ring

theorem lineMeetsPlane_iff (l : LPI K) (X : Pt K) : LineMeetsPlane l X ↔ (lpiLambda l).d ≠ 0 ∧ X = (lpiLambda l).pt := by
  have hpt : (lpiLambda l).d ≠ 0 → (lpiLambda l).pt = lerp l.p l.q (lpiN l / (lpiLambda l).d) := by
    intro hd
    obtain ⟨hx, hy, hz⟩ := lpi_xyz l
    apply pt_ext <;> simp only [Hom.pt, lerp]
    · rw [hx]; field_simp; ring
    · rw [hy]; field_simp; ring
    · rw [hz]; field_simp; ring
  constructor
  · intro ⟨hpq, hf, ⟨u, hu⟩, hc, huniq⟩
    rw [collinear_iff_flat] at hf
    rw [coplanar_nrm hf, hu, dot_lerp, ← lpi_d] at hc
    have hd : (lpiLambda l).d ≠ 0 := by
      intro h0
      have := huniq (lerp l.p l.q (u + 1)) ⟨_, rfl⟩
        (by rw [coplanar_nrm hf, dot_lerp, ← lpi_d, h0]; rw [h0] at hc; linear_combination hc)
      rw [hu] at this
      have ex := congrArg Pt.x this
      have ey := congrArg Pt.y this
      have ez := congrArg Pt.z this
      simp only [lerp] at ex ey ez
      exact hpq (pt_ext (by linear_combination -ex) (by linear_combination -ey) (by linear_combination -ez))
    refine ⟨hd, ?_⟩
    rw [hpt hd, hu]
    congr 1
    rw [eq_div_iff hd, lpiN]
    linear_combination -hc
  · rintro ⟨hd, rfl⟩
    have hf : ¬ Flat l.r l.s l.t := by
      intro hf
      obtain ⟨x, y, z⟩ := flat_iff_nrm.1 hf
      apply hd; rw [lpi_d]; simp only [dot, x, y, z]; ring
    have hpl : ∀ u, Coplanar (lerp l.p l.q u) l.r l.s l.t ↔ u = lpiN l / (lpiLambda l).d := by
      intro u
      rw [coplanar_nrm hf, dot_lerp, ← lpi_d, eq_div_iff hd, lpiN]
      constructor
      · intro h; linear_combination -h
      · intro h; linear_combination -h
    rw [hpt hd]
    refine ⟨?_, by rwa [collinear_iff_flat], ⟨_, rfl⟩, (hpl _).2 rfl, ?_⟩
    · intro h; apply hd; rw [lpi_d, h]; ring
    · rintro Y ⟨u, rfl⟩ hY
      rw [(hpl u).1 hY]

theorem repI_iff (i : Imp K) (X : Pt K) : RepI i X ↔ i.lambda.d ≠ 0 ∧ X = i.lambda.pt := by
  cases i with
  | lpi l => exact lineMeetsPlane_iff l X
  | tpi t => exact planesMeet_iff t X

/-- The exact stage yields homogeneous coordinates of the represented point with a positive denominator. -/
theorem exact_some {E : Env K} (hs : ∀ h, 0 < E.scale h) {i : Imp K} {X : Pt K} (h : RepI i X) :
    ∃ a, exact E i = some a ∧ 0 < a.d ∧ a.x = a.d * X.x ∧ a.y = a.d * X.y ∧ a.z = a.d * X.z := by
  obtain ⟨hd, rfl⟩ := (repI_iff i X).1 h
  simp only [exact]
  generalize hl : i.lambda = l at hd
  by_cases hneg : l.d < 0
  · simp only [hneg, if_true]
    have := hs i
    have h0 : -l.d * E.scale i ≠ 0 := mul_ne_zero (neg_ne_zero.2 hd) this.ne'
    rw [if_pos h0]
    refine ⟨_, rfl, mul_pos (by linarith) this, ?_, ?_, ?_⟩ <;> simp only [Hom.pt] <;> field_simp
  · simp only [hneg, if_false]
    have := hs i
    have h0 : l.d * E.scale i ≠ 0 := mul_ne_zero hd this.ne'
    rw [if_pos h0]
    refine ⟨_, rfl, mul_pos (lt_of_le_of_ne (not_lt.1 hneg) hd.symm) this, ?_, ?_, ?_⟩ <;> simp only [Hom.pt] <;> field_simp

theorem exact_none {E : Env K} {i : Imp K} (h : ¬ ∃ X, RepI i X) : exact E i = none := by
  have hd : i.lambda.d = 0 := by
    by_contra hd
    exact h ⟨_, (repI_iff i _).2 ⟨hd, rfl⟩⟩
  simp only [exact, hd, lt_irrefl, if_false, zero_mul, ne_eq, not_true]

theorem reverse_sign (v : K) : (doubleToSign v).reverse = doubleToSign (-v) := by
  unfold doubleToSign
  rcases lt_trichotomy v 0 with h | rfl | h
  · simp [h, not_lt.2 h.le, Ori.reverse]
  · simp [Ori.reverse]
  · simp [h, not_lt.2 h.le, Ori.reverse]

omit [IsStrictOrderedRing K] in
theorem rep_toPoint {i : Imp K} {X : Pt K} : Rep i.toPoint X ↔ RepI i X := by cases i <;> rfl

end Verif.Pred
