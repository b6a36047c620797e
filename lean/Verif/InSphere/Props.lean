import Verif.InSphere.Sort
import Mathlib.Algebra.Order.Field.Rat
import Mathlib.LinearAlgebra.Matrix.Determinant.Basic
import Mathlib.LinearAlgebra.Matrix.ToLinearEquiv
import Mathlib.LinearAlgebra.Matrix.Notation
import Mathlib.Tactic.LinearCombination
import Mathlib.Tactic.FieldSimp
import Mathlib.Tactic.FinCases
import Mathlib.Tactic.Positivity
import Mathlib.Data.List.FinRange
import Mathlib.Data.Fintype.Perm
/-!
# C38: symbolic perturbation of the in-sphere test
-/
namespace Verif.InSphere

variable {K : Type} [Field K] [LinearOrder K]

/-! ### Specification -/

/-- The determinant that decides the in-sphere question for points `p` whose lift (fourth coordinate) is `w`. -/
def liftedDet (p : Nat → Pt K) (w : Nat → K) (a b c d e : Nat) : K :=
  Matrix.det !![(p a).x, (p a).y, (p a).z, w a, 1;
                (p b).x, (p b).y, (p b).z, w b, 1;
                (p c).x, (p c).y, (p c).z, w c, 1;
                (p d).x, (p d).y, (p d).z, w d, 1;
                (p e).x, (p e).y, (p e).z, w e, 1]

/-- The paraboloid lift. -/
def lift (p : Nat → Pt K) (i : Nat) : K := (p i).x ^ 2 + (p i).y ^ 2 + (p i).z ^ 2

/-- The lift of point `i` lowered by `ε ^ (i + 1)`: points with smaller index are moved infinitely more. -/
def perturbed (p : Nat → Pt K) (ε : K) (i : Nat) : K := lift p i - ε ^ (i + 1)

/-! ### Determinants -/

theorem det4 (a b c d : Pt K) :
    Matrix.det !![a.x, a.y, a.z, 1; b.x, b.y, b.z, 1; c.x, c.y, c.z, 1; d.x, d.y, d.z, 1] = orient3d a b c d := by
  unfold orient3d
  rw [Matrix.det_succ_row_zero]
  simp only [Fin.sum_univ_succ, Matrix.det_fin_three, Matrix.submatrix_apply, Fin.succAbove, Matrix.of_apply]
  simp
  ring

/-- Cofactor expansion along the lift column. -/
theorem liftedDet_eq (p : Nat → Pt K) (w : Nat → K) (a b c d e : Nat) :
    liftedDet p w a b c d e = -(w a * orient3d (p b) (p c) (p d) (p e)) + w b * orient3d (p a) (p c) (p d) (p e)
      - w c * orient3d (p a) (p b) (p d) (p e) + w d * orient3d (p a) (p b) (p c) (p e)
      - w e * orient3d (p a) (p b) (p c) (p d) := by
  unfold liftedDet
  rw [Matrix.det_succ_column _ 3]
  simp only [Fin.sum_univ_five]
  have e0 : (!![(p a).x, (p a).y, (p a).z, w a, 1; (p b).x, (p b).y, (p b).z, w b, 1; (p c).x, (p c).y, (p c).z, w c, 1;
      (p d).x, (p d).y, (p d).z, w d, 1; (p e).x, (p e).y, (p e).z, w e, 1]).submatrix (Fin.succAbove 0) (Fin.succAbove 3) =
      !![(p b).x, (p b).y, (p b).z, 1; (p c).x, (p c).y, (p c).z, 1; (p d).x, (p d).y, (p d).z, 1; (p e).x, (p e).y, (p e).z, 1] := by
    ext i j; fin_cases i <;> fin_cases j <;> rfl
  have e1 : (!![(p a).x, (p a).y, (p a).z, w a, 1; (p b).x, (p b).y, (p b).z, w b, 1; (p c).x, (p c).y, (p c).z, w c, 1;
      (p d).x, (p d).y, (p d).z, w d, 1; (p e).x, (p e).y, (p e).z, w e, 1]).submatrix (Fin.succAbove 1) (Fin.succAbove 3) =
      !![(p a).x, (p a).y, (p a).z, 1; (p c).x, (p c).y, (p c).z, 1; (p d).x, (p d).y, (p d).z, 1; (p e).x, (p e).y, (p e).z, 1] := by
    ext i j; fin_cases i <;> fin_cases j <;> rfl
  have e2 : (!![(p a).x, (p a).y, (p a).z, w a, 1; (p b).x, (p b).y, (p b).z, w b, 1; (p c).x, (p c).y, (p c).z, w c, 1;
      (p d).x, (p d).y, (p d).z, w d, 1; (p e).x, (p e).y, (p e).z, w e, 1]).submatrix (Fin.succAbove 2) (Fin.succAbove 3) =
      !![(p a).x, (p a).y, (p a).z, 1; (p b).x, (p b).y, (p b).z, 1; (p d).x, (p d).y, (p d).z, 1; (p e).x, (p e).y, (p e).z, 1] := by
    ext i j; fin_cases i <;> fin_cases j <;> rfl
  have e3 : (!![(p a).x, (p a).y, (p a).z, w a, 1; (p b).x, (p b).y, (p b).z, w b, 1; (p c).x, (p c).y, (p c).z, w c, 1;
      (p d).x, (p d).y, (p d).z, w d, 1; (p e).x, (p e).y, (p e).z, w e, 1]).submatrix (Fin.succAbove 3) (Fin.succAbove 3) =
      !![(p a).x, (p a).y, (p a).z, 1; (p b).x, (p b).y, (p b).z, 1; (p c).x, (p c).y, (p c).z, 1; (p e).x, (p e).y, (p e).z, 1] := by
    ext i j; fin_cases i <;> fin_cases j <;> rfl
  have e4 : (!![(p a).x, (p a).y, (p a).z, w a, 1; (p b).x, (p b).y, (p b).z, w b, 1; (p c).x, (p c).y, (p c).z, w c, 1;
      (p d).x, (p d).y, (p d).z, w d, 1; (p e).x, (p e).y, (p e).z, w e, 1]).submatrix (Fin.succAbove 4) (Fin.succAbove 3) =
      !![(p a).x, (p a).y, (p a).z, 1; (p b).x, (p b).y, (p b).z, 1; (p c).x, (p c).y, (p c).z, 1; (p d).x, (p d).y, (p d).z, 1] := by
    ext i j; fin_cases i <;> fin_cases j <;> rfl
  rw [e0, e1, e2, e3, e4]
  simp only [det4]
  simp
  ring

theorem insphere_eq (p : Nat → Pt K) (a b c d e : Nat) :
    insphere (p a) (p b) (p c) (p d) (p e) = liftedDet p (lift p) a b c d e := by
  rw [liftedDet_eq]
  simp only [insphere, orient3d, lift]
  ring

/-- All five points in one plane. -/
def InPlane (n : K × K × K) (k : K) (q : Pt K) : Prop := n.1 * q.x + n.2.1 * q.y + n.2.2 * q.z = k

omit [LinearOrder K] in
theorem orient3d_inPlane {n : K × K × K} {k : K} (hn : n ≠ 0) {a b c d : Pt K} (ha : InPlane n k a) (hb : InPlane n k b)
    (hc : InPlane n k c) (hd : InPlane n k d) : orient3d a b c d = 0 := by
  obtain ⟨n1, n2, n3⟩ := n
  unfold InPlane at ha hb hc hd
  simp only at ha hb hc hd
  by_contra h
  apply hn
  have h1 : orient3d a b c d * n1 = 0 := by
    unfold orient3d
    linear_combination ((b.y - d.y) * (c.z - d.z) - (b.z - d.z) * (c.y - d.y)) * (ha - hd)
      + ((c.y - d.y) * (a.z - d.z) - (c.z - d.z) * (a.y - d.y)) * (hb - hd)
      + ((a.y - d.y) * (b.z - d.z) - (a.z - d.z) * (b.y - d.y)) * (hc - hd)
  have h2 : orient3d a b c d * n2 = 0 := by
    unfold orient3d
    linear_combination ((b.z - d.z) * (c.x - d.x) - (b.x - d.x) * (c.z - d.z)) * (ha - hd)
      + ((c.z - d.z) * (a.x - d.x) - (c.x - d.x) * (a.z - d.z)) * (hb - hd)
      + ((a.z - d.z) * (b.x - d.x) - (a.x - d.x) * (b.z - d.z)) * (hc - hd)
  have h3 : orient3d a b c d * n3 = 0 := by
    unfold orient3d
    linear_combination ((b.x - d.x) * (c.y - d.y) - (b.y - d.y) * (c.x - d.x)) * (ha - hd)
      + ((c.x - d.x) * (a.y - d.y) - (c.y - d.y) * (a.x - d.x)) * (hb - hd)
      + ((a.x - d.x) * (b.y - d.y) - (a.y - d.y) * (b.x - d.x)) * (hc - hd)
  simp [(mul_eq_zero.1 h1).resolve_left h, (mul_eq_zero.1 h2).resolve_left h, (mul_eq_zero.1 h3).resolve_left h]

/-- If three distinct points are collinear, the third is an affine combination of the first two. -/
theorem collinear_param {a b c : Pt K} (hab : a ≠ b)
    (h1 : (b.y - a.y) * (c.z - a.z) - (b.z - a.z) * (c.y - a.y) = 0)
    (h2 : (b.z - a.z) * (c.x - a.x) - (b.x - a.x) * (c.z - a.z) = 0)
    (h3 : (b.x - a.x) * (c.y - a.y) - (b.y - a.y) * (c.x - a.x) = 0) :
    ∃ t : K, c.x = a.x + t * (b.x - a.x) ∧ c.y = a.y + t * (b.y - a.y) ∧ c.z = a.z + t * (b.z - a.z) := by
  by_cases hx : b.x - a.x = 0
  · by_cases hy : b.y - a.y = 0
    · by_cases hz : b.z - a.z = 0
      · exfalso; apply hab
        obtain ⟨ax, ay, az⟩ := a; obtain ⟨bx, by', bz⟩ := b
        simp only [sub_eq_zero] at hx hy hz
        simp [hx, hy, hz]
      · refine ⟨(c.z - a.z) / (b.z - a.z), ?_, ?_, ?_⟩ <;> field_simp
        · linear_combination h2
        · linear_combination -h1
        · ring
    · refine ⟨(c.y - a.y) / (b.y - a.y), ?_, ?_, ?_⟩ <;> field_simp
      · linear_combination -h3
      · ring
      · linear_combination h1
  · refine ⟨(c.x - a.x) / (b.x - a.x), ?_, ?_, ?_⟩ <;> field_simp
    · ring
    · linear_combination h3
    · linear_combination -h2

/-- A vanishing triple product has a normal vector. -/
theorem exists_normal (u v w : K × K × K)
    (h : u.1 * (v.2.1 * w.2.2 - v.2.2 * w.2.1) - u.2.1 * (v.1 * w.2.2 - v.2.2 * w.1) + u.2.2 * (v.1 * w.2.1 - v.2.1 * w.1) = 0) :
    ∃ n : K × K × K, n ≠ 0 ∧ n.1 * u.1 + n.2.1 * u.2.1 + n.2.2 * u.2.2 = 0 ∧ n.1 * v.1 + n.2.1 * v.2.1 + n.2.2 * v.2.2 = 0 ∧
      n.1 * w.1 + n.2.1 * w.2.1 + n.2.2 * w.2.2 = 0 := by
  obtain ⟨n, hn, hm⟩ := (Matrix.exists_mulVec_eq_zero_iff (M := !![u.1, u.2.1, u.2.2; v.1, v.2.1, v.2.2; w.1, w.2.1, w.2.2])).2
    (by rw [Matrix.det_fin_three]; simp; linear_combination h)
  have h0 := congrFun hm 0
  have h1 := congrFun hm 1
  have h2 := congrFun hm 2
  simp [Matrix.mulVec, dotProduct, Fin.sum_univ_three] at h0 h1 h2
  refine ⟨(n 0, n 1, n 2), ?_, ?_, ?_, ?_⟩
  · intro hc
    simp only [Prod.mk_eq_zero] at hc
    apply hn
    ext i; fin_cases i
    · exact hc.1
    · exact hc.2.1
    · exact hc.2.2
  · linear_combination h0
  · linear_combination h1
  · linear_combination h2

/-- The in-sphere determinant of two points and three collinear points. -/
theorem collinear_det (A B C D E : Pt K) (t : K) (hE : E = ⟨C.x + t * (D.x - C.x), C.y + t * (D.y - C.y), C.z + t * (D.z - C.z)⟩) :
    t * (t - 1) * ((D.x - C.x) ^ 2 + (D.y - C.y) ^ 2 + (D.z - C.z) ^ 2) *
      ((A.x - C.x) * ((B.y - C.y) * (D.z - C.z) - (B.z - C.z) * (D.y - C.y)) -
        (A.y - C.y) * ((B.x - C.x) * (D.z - C.z) - (B.z - C.z) * (D.x - C.x)) +
        (A.z - C.z) * ((B.x - C.x) * (D.y - C.y) - (B.y - C.y) * (D.x - C.x))) =
    -((A.x ^ 2 + A.y ^ 2 + A.z ^ 2) * orient3d B C D E) + (B.x ^ 2 + B.y ^ 2 + B.z ^ 2) * orient3d A C D E
      - (C.x ^ 2 + C.y ^ 2 + C.z ^ 2) * orient3d A B D E + (D.x ^ 2 + D.y ^ 2 + D.z ^ 2) * orient3d A B C E
      - (E.x ^ 2 + E.y ^ 2 + E.z ^ 2) * orient3d A B C D := by
  subst hE
  simp only [orient3d]
  ring

variable [IsStrictOrderedRing K]

/-- Five cospherical points of which the last three are distinct, with both tie-breaking determinants zero, are coplanar. -/
theorem coplanar_of_ties (p : Nat → Pt K) (a b c d e : Nat) (hcd : p c ≠ p d) (hce : p c ≠ p e) (hde : p d ≠ p e)
    (hD : liftedDet p (lift p) a b c d e = 0) (h1 : orient3d (p b) (p c) (p d) (p e) = 0)
    (h2 : orient3d (p a) (p c) (p d) (p e) = 0) :
    ∃ n : K × K × K, ∃ k, n ≠ 0 ∧ ∀ q ∈ [p a, p b, p c, p d, p e], InPlane n k q := by
  by_cases hcol : ((p d).y - (p c).y) * ((p e).z - (p c).z) - ((p d).z - (p c).z) * ((p e).y - (p c).y) = 0 ∧
    ((p d).z - (p c).z) * ((p e).x - (p c).x) - ((p d).x - (p c).x) * ((p e).z - (p c).z) = 0 ∧
    ((p d).x - (p c).x) * ((p e).y - (p c).y) - ((p d).y - (p c).y) * ((p e).x - (p c).x) = 0
  · obtain ⟨t, tx, ty, tz⟩ := collinear_param hcd hcol.1 hcol.2.1 hcol.2.2
    have ht0 : t ≠ 0 := by
      rintro rfl
      apply hce
      generalize p c = P at *; generalize p e = Q at *
      obtain ⟨_, _, _⟩ := P; obtain ⟨_, _, _⟩ := Q
      simp at tx ty tz; simp [tx, ty, tz]
    have ht1 : t - 1 ≠ 0 := by
      intro h
      obtain rfl : t = 1 := by linear_combination h
      apply hde
      generalize p d = P at *; generalize p e = Q at *
      obtain ⟨_, _, _⟩ := P; obtain ⟨_, _, _⟩ := Q
      simp at tx ty tz; simp [tx, ty, tz]
    have hv : ((p d).x - (p c).x) ^ 2 + ((p d).y - (p c).y) ^ 2 + ((p d).z - (p c).z) ^ 2 ≠ 0 := by
      intro h
      have hx : (p d).x - (p c).x = 0 := by
        apply pow_eq_zero_iff (two_ne_zero) |>.1
        linarith [sq_nonneg ((p d).x - (p c).x), sq_nonneg ((p d).y - (p c).y), sq_nonneg ((p d).z - (p c).z)]
      have hy : (p d).y - (p c).y = 0 := by
        apply pow_eq_zero_iff (two_ne_zero) |>.1
        linarith [sq_nonneg ((p d).x - (p c).x), sq_nonneg ((p d).y - (p c).y), sq_nonneg ((p d).z - (p c).z)]
      have hz : (p d).z - (p c).z = 0 := by
        apply pow_eq_zero_iff (two_ne_zero) |>.1
        linarith [sq_nonneg ((p d).x - (p c).x), sq_nonneg ((p d).y - (p c).y), sq_nonneg ((p d).z - (p c).z)]
      apply hcd
      generalize p c = P at *; generalize p d = Q at *
      obtain ⟨_, _, _⟩ := P; obtain ⟨_, _, _⟩ := Q
      simp only at hx hy hz
      rw [sub_eq_zero] at hx hy hz
      simp [hx, hy, hz]
    obtain ⟨n, hn, na, nb, nd⟩ := exists_normal ((p a).x - (p c).x, (p a).y - (p c).y, (p a).z - (p c).z)
      ((p b).x - (p c).x, (p b).y - (p c).y, (p b).z - (p c).z) ((p d).x - (p c).x, (p d).y - (p c).y, (p d).z - (p c).z) (by
        simp only
        have hE : p e = ⟨(p c).x + t * ((p d).x - (p c).x), (p c).y + t * ((p d).y - (p c).y), (p c).z + t * ((p d).z - (p c).z)⟩ := by
          rw [← tx, ← ty, ← tz]
        have key := collinear_det (p a) (p b) (p c) (p d) (p e) t hE
        rw [liftedDet_eq] at hD
        unfold lift at hD
        rw [hD] at key
        exact (mul_eq_zero.1 key).resolve_left (mul_ne_zero (mul_ne_zero ht0 ht1) hv))
    refine ⟨n, n.1 * (p c).x + n.2.1 * (p c).y + n.2.2 * (p c).z, hn, ?_⟩
    intro q hq
    simp only [List.mem_cons, List.not_mem_nil, or_false] at hq
    simp only at na nb nd
    rcases hq with rfl | rfl | rfl | rfl | rfl
    · unfold InPlane; linear_combination na
    · unfold InPlane; linear_combination nb
    · rfl
    · unfold InPlane; linear_combination nd
    · unfold InPlane; rw [tx, ty, tz]; linear_combination t * nd
  · refine ⟨(((p d).y - (p c).y) * ((p e).z - (p c).z) - ((p d).z - (p c).z) * ((p e).y - (p c).y),
      ((p d).z - (p c).z) * ((p e).x - (p c).x) - ((p d).x - (p c).x) * ((p e).z - (p c).z),
      ((p d).x - (p c).x) * ((p e).y - (p c).y) - ((p d).y - (p c).y) * ((p e).x - (p c).x)),
      (((p d).y - (p c).y) * ((p e).z - (p c).z) - ((p d).z - (p c).z) * ((p e).y - (p c).y)) * (p c).x +
      (((p d).z - (p c).z) * ((p e).x - (p c).x) - ((p d).x - (p c).x) * ((p e).z - (p c).z)) * (p c).y +
      (((p d).x - (p c).x) * ((p e).y - (p c).y) - ((p d).y - (p c).y) * ((p e).x - (p c).x)) * (p c).z, ?_, ?_⟩
    pick_goal 2
    · intro q hq
      simp only [List.mem_cons, List.not_mem_nil, or_false] at hq
      unfold orient3d at h1 h2
      rcases hq with rfl | rfl | rfl | rfl | rfl
      · unfold InPlane; linear_combination h2
      · unfold InPlane; linear_combination h1
      · rfl
      · unfold InPlane; ring
      · unfold InPlane; ring
    · intro hc
      simp only [Prod.mk_eq_zero] at hc
      exact hcol ⟨hc.1, hc.2.1, hc.2.2⟩

/-! ### Alternating functions of the index list -/

/-- Exchanging neighbours reverses the sign. -/
def Alt (F : List Nat → K) : Prop := ∀ A x y B, F (A ++ x :: y :: B) = -F (A ++ y :: x :: B)

omit [LinearOrder K] [IsStrictOrderedRing K] in
theorem pass_alt {F : List Nat → K} (hF : Alt F) : ∀ (n : Nat) (l pre : List Nat),
    F (pre ++ l) = (-1) ^ (pass n l).2 * F (pre ++ (pass n l).1) := by
  intro n
  induction n with
  | zero => intro l pre; simp [pass]
  | succ n ih =>
    intro l pre
    match l with
    | [] => simp [pass]
    | [x] => simp [pass]
    | x :: y :: l =>
      unfold pass
      split
      · have := ih (x :: l) (pre ++ [y])
        simp only [List.append_assoc, List.singleton_append] at this
        rw [hF, this]; simp only; ring
      · have := ih (y :: l) (pre ++ [x])
        simp only [List.append_assoc, List.singleton_append] at this
        rw [this]

omit [LinearOrder K] [IsStrictOrderedRing K] in
theorem bubble_alt {F : List Nat → K} (hF : Alt F) : ∀ (n : Nat) (l : List Nat) (s : Nat),
    (-1) ^ s * F l = (-1) ^ (bubble n l s).2 * F (bubble n l s).1 := by
  intro n
  induction n with
  | zero => intro l s; simp [bubble]
  | succ n ih =>
    intro l s
    have h := pass_alt hF n l []
    simp only [List.nil_append] at h
    unfold bubble
    split
    · rename_i h0
      rw [h0, pow_zero, one_mul] at h
      rw [h]
    · rw [h, ← ih, pow_add]; ring

/-- The determinant as a function of the list of indices. -/
def detList (p : Nat → Pt K) (w : Nat → K) : List Nat → K
  | [a, b, c, d, e] => liftedDet p w a b c d e
  | _ => 0

omit [IsStrictOrderedRing K] in
theorem detList_alt (p : Nat → Pt K) (w : Nat → K) : Alt (detList p w) := by
  intro A x y B
  have hz : ∀ l : List Nat, l.length ≠ 5 → detList p w l = 0 := by
    intro l hl
    unfold detList
    split
    · simp at hl
    · rfl
  by_cases hl : A.length + B.length = 3
  · match A, B, hl with
    | [], [c, d, e], _ =>
      show liftedDet p w x y c d e = -liftedDet p w y x c d e
      simp only [liftedDet_eq, orient3d]; ring
    | [a], [d, e], _ =>
      show liftedDet p w a x y d e = -liftedDet p w a y x d e
      simp only [liftedDet_eq, orient3d]; ring
    | [a, b], [e], _ =>
      show liftedDet p w a b x y e = -liftedDet p w a b y x e
      simp only [liftedDet_eq, orient3d]; ring
    | [a, b, c], [], _ =>
      show liftedDet p w a b c x y = -liftedDet p w a b c y x
      simp only [liftedDet_eq, orient3d]; ring
    | [a, b, c, d], [], h => simp at h
    | a :: b :: c :: d :: A, B, h => simp at h; omega
    | [], a :: b :: c :: d :: B, h => simp at h
    | [_], a :: b :: c :: B, h => simp at h; omega
    | [_, _], a :: b :: B, h => simp at h; omega
    | [_, _, _], a :: B, h => simp at h
  · rw [hz _ (by simp; omega), hz _ (by simp; omega), neg_zero]

/-! ### Signs -/

theorem doubleToSign_neg (v : K) : doubleToSign (-v) = (doubleToSign v).reverse := by
  unfold doubleToSign
  rcases lt_trichotomy v 0 with h | h | h
  · simp [h, h.le, not_lt.2 h.le, Ori.reverse]
  · simp [h, Ori.reverse]
  · simp [h, h.le, not_lt.2 h.le, Ori.reverse]

theorem doubleToSign_mul_pos {v c : K} (hc : 0 < c) : doubleToSign (c * v) = doubleToSign v := by
  unfold doubleToSign
  rcases lt_trichotomy v 0 with h | h | h
  · have := mul_neg_of_pos_of_neg hc h
    simp [h, h.le, not_lt.2 h.le, this, not_lt.2 this.le]
  · simp [h]
  · have := mul_pos hc h
    simp [h, this]

/-- Small perturbations do not change the sign of a non-zero value. -/
theorem sign_small (c r0 r1 r2 r3 r4 : K) (hc : c ≠ 0) : ∃ δ > 0, ∀ ε, 0 < ε → ε < δ → ∀ n0 n1 n2 n3 n4 : Nat,
    doubleToSign (c + ε ^ (n0 + 1) * r0 + ε ^ (n1 + 1) * r1 + ε ^ (n2 + 1) * r2 + ε ^ (n3 + 1) * r3 + ε ^ (n4 + 1) * r4) =
      doubleToSign c := by
  have hM : 0 < |r0| + |r1| + |r2| + |r3| + |r4| + 1 := by positivity
  have hc' : 0 < |c| := abs_pos.2 hc
  refine ⟨min 1 (|c| / (|r0| + |r1| + |r2| + |r3| + |r4| + 1)), lt_min one_pos (div_pos hc' hM), ?_⟩
  intro ε h0 hδ n0 n1 n2 n3 n4
  have h1 : ε < 1 := lt_of_lt_of_le hδ (min_le_left _ _)
  have h2 : ε * (|r0| + |r1| + |r2| + |r3| + |r4| + 1) < |c| := (lt_div_iff₀ hM).1 (lt_of_lt_of_le hδ (min_le_right _ _))
  have hb : ∀ (n : Nat) (r : K), |ε ^ (n + 1) * r| ≤ ε * |r| := by
    intro n r
    rw [abs_mul, abs_of_pos (pow_pos h0 _)]
    apply mul_le_mul_of_nonneg_right _ (abs_nonneg r)
    rw [pow_succ]
    calc ε ^ n * ε ≤ 1 * ε := mul_le_mul_of_nonneg_right (pow_le_one₀ h0.le h1.le) h0.le
      _ = ε := one_mul _
  have b0 := abs_le.1 (hb n0 r0)
  have b1 := abs_le.1 (hb n1 r1)
  have b2 := abs_le.1 (hb n2 r2)
  have b3 := abs_le.1 (hb n3 r3)
  have b4 := abs_le.1 (hb n4 r4)
  have e2 : ε * (|r0| + |r1| + |r2| + |r3| + |r4| + 1) = ε * |r0| + ε * |r1| + ε * |r2| + ε * |r3| + ε * |r4| + ε := by ring
  rw [e2] at h2
  unfold doubleToSign
  rcases lt_or_gt_of_ne hc with h | h
  · rw [abs_of_neg h] at h2
    rw [if_neg (by linarith [b0.2, b1.2, b2.2, b3.2, b4.2]), if_pos (by linarith [b0.2, b1.2, b2.2, b3.2, b4.2]),
      if_neg (by linarith), if_pos h]
  · rw [abs_of_pos h] at h2
    rw [if_pos (by linarith [b0.1, b1.1, b2.1, b3.1, b4.1]), if_pos h]

/-- The determinant of the perturbed points, in sorted order. -/
theorem perturbed_sorted (p : Nat → Pt K) {a b c d e : Nat} (hab : a < b) (hbc : b < c) (hcd : c < d) (hde : d < e)
    (hv : liftedDet p (lift p) a b c d e ≠ 0 ∨ orient3d (p b) (p c) (p d) (p e) ≠ 0 ∨ orient3d (p a) (p c) (p d) (p e) ≠ 0) :
    ∃ δ > 0, ∀ ε, 0 < ε → ε < δ → doubleToSign (liftedDet p (perturbed p ε) a b c d e) =
      if liftedDet p (lift p) a b c d e ≠ 0 then doubleToSign (liftedDet p (lift p) a b c d e)
      else if orient3d (p b) (p c) (p d) (p e) = 0 then doubleToSign (-orient3d (p a) (p c) (p d) (p e))
      else doubleToSign (orient3d (p b) (p c) (p d) (p e)) := by
  have hexp : ∀ ε : K, liftedDet p (perturbed p ε) a b c d e = liftedDet p (lift p) a b c d e
      + ε ^ (a + 1) * orient3d (p b) (p c) (p d) (p e) + ε ^ (b + 1) * -orient3d (p a) (p c) (p d) (p e)
      + ε ^ (c + 1) * orient3d (p a) (p b) (p d) (p e) + ε ^ (d + 1) * -orient3d (p a) (p b) (p c) (p e)
      + ε ^ (e + 1) * orient3d (p a) (p b) (p c) (p d) := by
    intro ε
    rw [liftedDet_eq, liftedDet_eq]
    unfold perturbed
    ring
  generalize liftedDet p (lift p) a b c d e = D at *
  generalize orient3d (p b) (p c) (p d) (p e) = o0 at *
  generalize orient3d (p a) (p c) (p d) (p e) = o1 at *
  generalize orient3d (p a) (p b) (p d) (p e) = o2 at *
  generalize orient3d (p a) (p b) (p c) (p e) = o3 at *
  generalize orient3d (p a) (p b) (p c) (p d) = o4 at *
  by_cases hD : D = 0
  · subst hD
    obtain ⟨b', rfl⟩ := Nat.exists_eq_add_of_lt hab
    obtain ⟨c', rfl⟩ := Nat.exists_eq_add_of_lt hbc
    obtain ⟨d', rfl⟩ := Nat.exists_eq_add_of_lt hcd
    obtain ⟨e', rfl⟩ := Nat.exists_eq_add_of_lt hde
    by_cases h0 : o0 = 0
    · subst h0
      have h1 : -o1 ≠ 0 := by simpa using hv
      obtain ⟨δ, hδ, hs⟩ := sign_small (-o1) 0 0 o2 (-o3) o4 h1
      refine ⟨δ, hδ, fun ε hε hlt => ?_⟩
      simp only [ne_eq, not_true_eq_false, if_false, if_true]
      refine Eq.trans ?_ ((doubleToSign_mul_pos (pow_pos hε (a + b' + 1 + 1))).trans
        (hs ε hε hlt 0 0 c' (c' + 1 + d') (c' + 1 + d' + 1 + e')))
      rw [hexp]
      congr 1
      ring
    · obtain ⟨δ, hδ, hs⟩ := sign_small o0 0 (-o1) o2 (-o3) o4 h0
      refine ⟨δ, hδ, fun ε hε hlt => ?_⟩
      simp only [ne_eq, not_true_eq_false, if_false, if_neg h0]
      refine Eq.trans ?_ ((doubleToSign_mul_pos (pow_pos hε (a + 1))).trans
        (hs ε hε hlt 0 b' (b' + 1 + c') (b' + 1 + c' + 1 + d') (b' + 1 + c' + 1 + d' + 1 + e')))
      rw [hexp]
      congr 1
      ring
  · obtain ⟨δ, hδ, hs⟩ := sign_small D o0 (-o1) o2 (-o3) o4 hD
    refine ⟨δ, hδ, fun ε hε hlt => ?_⟩
    rw [if_pos hD, ← hs ε hε hlt a b c d e, hexp]

/-- The value returned, through the sorted list. -/
theorem insphereS_sorted (p : Nat → Pt K) {a b c d e : Nat} (hnd : [a, b, c, d, e].Nodup) :
    ∃ p0 p1 p2 p3 p4 s, bubble 5 [a, b, c, d, e] 0 = ([p0, p1, p2, p3, p4], s) ∧ [p0, p1, p2, p3, p4].Perm [a, b, c, d, e] ∧
      p0 < p1 ∧ p1 < p2 ∧ p2 < p3 ∧ p3 < p4 ∧ (∀ w : Nat → K, liftedDet p w a b c d e = (-1) ^ s * liftedDet p w p0 p1 p2 p3 p4) := by
  obtain ⟨r, s, e1, hlt, hp, -⟩ := bubble_spec _ hnd
  have hlen := hp.length_eq
  match r, hlen with
  | [p0, p1, p2, p3, p4], _ =>
    refine ⟨p0, p1, p2, p3, p4, s, e1, hp, ?_, ?_, ?_, ?_, ?_⟩
    · simp at hlt; exact hlt.1.1
    · simp at hlt; exact hlt.2.1.1
    · simp at hlt; exact hlt.2.2.1.1
    · simp at hlt; exact hlt.2.2.2
    · intro w
      have := bubble_alt (detList_alt p w) 5 [a, b, c, d, e] 0
      have e1' : bubble 5 [a, b, c, d, e] 0 = ([p0, p1, p2, p3, p4], s) := e1
      rw [e1', pow_zero, one_mul] at this
      exact this

theorem neg_one_pow_cases (s : Nat) (v : K) : doubleToSign ((-1) ^ s * v) =
    if s % 2 ≠ 0 then (doubleToSign v).reverse else doubleToSign v := by
  rcases Nat.mod_two_eq_zero_or_one s with h | h
  · rw [Even.neg_one_pow (Nat.even_iff.2 h)]; simp [h]
  · rw [Odd.neg_one_pow (Nat.odd_iff.2 h)]; simp [h, doubleToSign_neg]

/-- C38: for five distinct points with distinct indices whose first four span a tetrahedron, `insphere_s` answers the in-sphere
question for the configuration in which the lift of every point `i` is lowered by `ε ^ (i + 1)`, for all small `ε`; and the
answer is never zero.  As the perturbation depends on the point only, all answers are consistent with each other. -/
theorem c38_symbolic_perturbation (p : Nat → Pt K) (a b c d e : Nat) (hidx : [a, b, c, d, e].Nodup)
    (hpts : ∀ i ∈ [a, b, c, d, e], ∀ j ∈ [a, b, c, d, e], i ≠ j → p i ≠ p j)
    (htet : orient3d (p a) (p b) (p c) (p d) ≠ 0) :
    insphereS p a b c d e ≠ .zero ∧
    ∃ δ > 0, ∀ ε, 0 < ε → ε < δ → insphereS p a b c d e = doubleToSign (liftedDet p (perturbed p ε) a b c d e) := by
  obtain ⟨p0, p1, p2, p3, p4, s, eb, hp, h01, h12, h23, h34, hdet⟩ := insphereS_sorted p hidx
  have hne : ∀ i ∈ [p0, p1, p2, p3, p4], ∀ j ∈ [p0, p1, p2, p3, p4], i ≠ j → p i ≠ p j :=
    fun i hi j hj h => hpts i (hp.mem_iff.1 hi) j (hp.mem_iff.1 hj) h
  have hv : liftedDet p (lift p) p0 p1 p2 p3 p4 ≠ 0 ∨ orient3d (p p1) (p p2) (p p3) (p p4) ≠ 0 ∨
      orient3d (p p0) (p p2) (p p3) (p p4) ≠ 0 := by
    by_contra hcon
    simp only [not_or, not_not] at hcon
    obtain ⟨n, k, hn, hpl⟩ := coplanar_of_ties p p0 p1 p2 p3 p4 (hne _ (by simp) _ (by simp) (by omega))
      (hne _ (by simp) _ (by simp) (by omega)) (hne _ (by simp) _ (by simp) (by omega)) hcon.1 hcon.2.1 hcon.2.2
    have hpl' : ∀ i ∈ [a, b, c, d, e], InPlane n k (p i) := by
      intro i hi
      have := hp.mem_iff.2 hi
      apply hpl
      have hm := List.mem_map_of_mem (f := p) this
      simpa using hm
    exact htet (orient3d_inPlane hn (hpl' a (by simp)) (hpl' b (by simp)) (hpl' c (by simp)) (hpl' d (by simp)))
  obtain ⟨δ, hδ, hs⟩ := perturbed_sorted p h01 h12 h23 h34 hv
  have hval : insphereS p a b c d e = if s % 2 ≠ 0 then
        (if liftedDet p (lift p) p0 p1 p2 p3 p4 ≠ 0 then doubleToSign (liftedDet p (lift p) p0 p1 p2 p3 p4)
          else if orient3d (p p1) (p p2) (p p3) (p p4) = 0 then doubleToSign (-orient3d (p p0) (p p2) (p p3) (p p4))
          else doubleToSign (orient3d (p p1) (p p2) (p p3) (p p4))).reverse
      else
        (if liftedDet p (lift p) p0 p1 p2 p3 p4 ≠ 0 then doubleToSign (liftedDet p (lift p) p0 p1 p2 p3 p4)
          else if orient3d (p p1) (p p2) (p p3) (p p4) = 0 then doubleToSign (-orient3d (p p0) (p p2) (p p3) (p p4))
          else doubleToSign (orient3d (p p1) (p p2) (p p3) (p p4))) := by
    unfold insphereS
    simp only [insphere_eq, eb]
    rw [hdet (lift p)]
    by_cases h0 : liftedDet p (lift p) p0 p1 p2 p3 p4 = 0
    · simp only [h0, mul_zero, ne_eq, not_true_eq_false, if_false]
      by_cases h1 : orient3d (p p1) (p p2) (p p3) (p p4) = 0 <;> simp only [h1, if_true, if_false]
    · have : (-1 : K) ^ s * liftedDet p (lift p) p0 p1 p2 p3 p4 ≠ 0 := mul_ne_zero (pow_ne_zero _ (by simp)) h0
      rw [if_pos this, if_pos h0, neg_one_pow_cases]
  have hsign : ∀ ε, 0 < ε → ε < δ → insphereS p a b c d e = doubleToSign (liftedDet p (perturbed p ε) a b c d e) := by
    intro ε h0 h1
    rw [hdet, neg_one_pow_cases, hs ε h0 h1, hval]
  refine ⟨?_, δ, hδ, hsign⟩
  rw [hval]
  have hz : ∀ v : K, v ≠ 0 → doubleToSign v ≠ .zero ∧ (doubleToSign v).reverse ≠ .zero := by
    intro v hv
    unfold doubleToSign
    rcases lt_or_gt_of_ne hv with h | h
    · simp [h, not_lt.2 h.le, Ori.reverse]
    · simp [h, Ori.reverse]
  by_cases h0 : liftedDet p (lift p) p0 p1 p2 p3 p4 = 0
  · by_cases h1 : orient3d (p p1) (p p2) (p p3) (p p4) = 0
    · have := hz (-orient3d (p p0) (p p2) (p p3) (p p4)) (by simpa [h0, h1] using hv)
      simp only [h0, h1, ne_eq, not_true_eq_false, if_false, if_true]
      split
      · exact this.2
      · exact this.1
    · have := hz _ h1
      simp only [h0, h1, ne_eq, not_true_eq_false, if_false]
      split
      · exact this.2
      · exact this.1
  · have := hz _ h0
    rw [if_pos h0]
    split
    · exact this.2
    · exact this.1

/-- C38: exchanging two of the first four vertices reverses the answer, for all points (degenerate or not) and all distinct
indices. -/
theorem c38_antisymmetric (p : Nat → Pt K) (v : Fin 4 → Nat) (e : Nat) (hidx : [v 0, v 1, v 2, v 3, e].Nodup) (i j : Fin 4) (hij : i ≠ j) :
    let v' := v ∘ Equiv.swap i j
    insphereS p (v' 0) (v' 1) (v' 2) (v' 3) e = (insphereS p (v 0) (v 1) (v 2) (v 3) e).reverse := by
  intro v'
  have h01 : v 0 ≠ v 1 := by rintro h; simp [h] at hidx
  have h02 : v 0 ≠ v 2 := by rintro h; simp [h] at hidx
  have h03 : v 0 ≠ v 3 := by rintro h; simp [h] at hidx
  have h12 : v 1 ≠ v 2 := by rintro h; simp [h] at hidx
  have h13 : v 1 ≠ v 3 := by rintro h; simp [h] at hidx
  have h23 : v 2 ≠ v 3 := by rintro h; simp [h] at hidx
  have key : ∀ a b c d : Nat, [a, b, c, d, e].Perm [v 0, v 1, v 2, v 3, e] → sgn [a, b, c, d, e] = -sgn [v 0, v 1, v 2, v 3, e] →
      insphere (p a) (p b) (p c) (p d) (p e) = -insphere (p (v 0)) (p (v 1)) (p (v 2)) (p (v 3)) (p e) →
      insphereS p a b c d e = (insphereS p (v 0) (v 1) (v 2) (v 3) e).reverse := by
    intro a b c d hp hs hd
    obtain ⟨r, s, e1, hlt, hp1, hs1⟩ := bubble_spec _ hidx
    obtain ⟨r', s', e1', hlt', hp1', hs1'⟩ := bubble_spec _ (hp.nodup_iff.2 hidx)
    have hr : r' = r := ((hp1'.trans hp).trans hp1.symm).eq_of_pairwise (fun x y _ _ h1 h2 => by omega) hlt' hlt
    subst hr
    have hpar : s' % 2 = 0 ↔ s % 2 ≠ 0 := by
      rw [← hs1, ← hs1'] at hs
      rcases Nat.mod_two_eq_zero_or_one s with h | h <;> rcases Nat.mod_two_eq_zero_or_one s' with h' | h'
      · rw [Even.neg_one_pow (Nat.even_iff.2 h), Even.neg_one_pow (Nat.even_iff.2 h')] at hs; omega
      · simp [h, h']
      · simp [h, h']
      · rw [Odd.neg_one_pow (Nat.odd_iff.2 h), Odd.neg_one_pow (Nat.odd_iff.2 h')] at hs; omega
    have hlen := hp1.length_eq
    match r', hlen, e1, e1' with
    | [p0, p1, p2, p3, p4], _, e1, e1' =>
      have e1 : bubble 5 [v 0, v 1, v 2, v 3, e] 0 = ([p0, p1, p2, p3, p4], s) := e1
      have e1' : bubble 5 [a, b, c, d, e] 0 = ([p0, p1, p2, p3, p4], s') := e1'
      unfold insphereS
      simp only [hd, e1, e1']
      by_cases h0 : insphere (p (v 0)) (p (v 1)) (p (v 2)) (p (v 3)) (p e) = 0
      · simp only [h0, neg_zero, ne_eq, not_true_eq_false, if_false]
        have hrr : ∀ o : Ori, o.reverse.reverse = o := by intro o; cases o <;> rfl
        by_cases hs2 : s % 2 = 0
        · have : ¬ s' % 2 = 0 := by rw [hpar]; simpa using hs2
          simp only [hs2, this, not_true_eq_false, not_false_eq_true, if_true, if_false]
        · have : s' % 2 = 0 := hpar.2 hs2
          simp only [hs2, this, not_true_eq_false, not_false_eq_true, if_true, if_false, hrr]
      · have h0' : -insphere (p (v 0)) (p (v 1)) (p (v 2)) (p (v 3)) (p e) ≠ 0 := neg_ne_zero.2 h0
        rw [if_pos h0', if_pos h0, doubleToSign_neg]
  have s10 := cmpSign_swap h01
  have s20 := cmpSign_swap h02
  have s30 := cmpSign_swap h03
  have s21 := cmpSign_swap h12
  have s31 := cmpSign_swap h13
  have s32 := cmpSign_swap h23
  have hsw : ∀ x, v' x = v (Equiv.swap i j x) := fun _ => rfl
  simp only [hsw]
  apply key
  · have h := (Equiv.Perm.ofFn_comp_perm (Equiv.swap i j) v).append_right [e]
    simpa [List.ofFn_succ] using h
  · fin_cases i <;> fin_cases j <;> first | exact absurd rfl hij | skip
    all_goals
      simp only [Equiv.swap_apply_def]
      simp [sgn, s10, s20, s30, s21, s31, s32]
      ring
  · fin_cases i <;> fin_cases j <;> first | exact absurd rfl hij | skip
    all_goals
      simp only [Equiv.swap_apply_def]
      simp [insphere]
      ring

/-! Concrete case: the corners of a cube (all cospherical), numbered in binary. -/

/-- Corner `i` of the unit cube. -/
def cube (i : Nat) : Pt ℚ := ⟨(i % 2 : Nat), (i / 2 % 2 : Nat), (i / 4 % 2 : Nat)⟩

example : [0, 1, 2, 4, 7].Nodup ∧ orient3d (cube 0) (cube 1) (cube 2) (cube 4) ≠ 0 ∧
    insphere (cube 0) (cube 1) (cube 2) (cube 4) (cube 7) = 0 := by
  refine ⟨by decide, ?_, ?_⟩ <;> norm_num [orient3d, insphere, cube]

example : ∀ i ∈ [0, 1, 2, 4, 7], ∀ j ∈ [0, 1, 2, 4, 7], i ≠ j → cube i ≠ cube j := by decide +kernel

example : insphereS cube 0 1 2 4 7 = .negative ∧ insphereS cube 1 0 2 4 7 = .positive ∧ insphereS cube 7 1 2 4 0 = .positive := by
  decide +kernel

end Verif.InSphere
