import Verif.Float.Insphere
import Verif.Float.IncircleFilter
/-!
# The rows of `insphere` and `orient4d`: error bounds

Each of the four summands of the determinant is a number in the fourth column times a determinant of three differences.
-/
namespace Verif.Float

local notation "ε" => (1 / 9007199254740992 : ℚ)

theorem ispA_eq : ispA = (16 + 224 / 2 ^ 53) / 2 ^ 53 := by decide +kernel
theorem ispB_eq : ispB = (5 + 72 / 2 ^ 53) / 2 ^ 53 := by decide +kernel
theorem ispC_eq : ispC = (71 + 1408 / 2 ^ 53) / 2 ^ 53 / 2 ^ 53 := by decide +kernel

/-- The coordinates rounded. -/
def P3.rd (p : P3) : P3 := ⟨rn p.x, rn p.y, rn p.z⟩

/-- What is lost by rounding the coordinates. -/
def P3.lo (p : P3) : P3 := ⟨lost p.x, lost p.y, lost p.z⟩

theorem P3.rd_isF (p : P3) : p.rd.IsF := ⟨rn_isF _, rn_isF _, rn_isF _⟩

/-- The computed row of the determinant. -/
def rowC (p q r : P3) : ℚ := rn (rn (o3T p.z q.x r.y r.x q.y + o3T q.z r.x p.y p.x r.y) + o3T r.z p.x q.y q.x p.y)

/-- The computed row of the permanent. -/
def rowA (p q r : P3) : ℚ := rn (rn (o3A p.z q.x r.y r.x q.y + o3A q.z r.x p.y p.x r.y) + o3A r.z p.x q.y q.x p.y)

/-- The size of a row. -/
def rowQ (p q r : P3) : ℚ := o3Q p.z q.x r.y r.x q.y + o3Q q.z r.x p.y p.x r.y + o3Q r.z p.x q.y q.x p.y

theorem o3T_neg (z x y u v : ℚ) : o3T z u v x y = -o3T z x y u v := by
  unfold o3T
  rw [← rn_neg, ← mul_neg, ← rn_neg, neg_sub]

theorem rowA_eq (p q r : P3) : permRow p.rd q.rd r.rd = rowA p q r := rfl

theorem plus_eq (p q r : P3) : plus3 p.rd.z (m2 q.rd r.rd) q.rd.z (m2 r.rd p.rd) r.rd.z (m2 p.rd q.rd) = rowC p q r := rfl

theorem m2_swap (p q : P3) : m2 q p = -m2 p q := by
  unfold m2 fsub fmul
  rw [← rn_neg, neg_sub]

theorem minus3_eq (z1 m1 z2 m2 z3 m3 : ℚ) : minus3 z1 m1 z2 m2 z3 m3 = plus3 z1 m1 z2 (-m2) z3 m3 := by
  simp only [minus3, plus3, fsub, fadd, fmul]
  rw [mul_neg, rn_neg, ← sub_eq_add_neg]

theorem minus_eq (p q r : P3) : minus3 p.rd.z (m2 q.rd r.rd) q.rd.z (m2 p.rd r.rd) r.rd.z (m2 p.rd q.rd) = rowC p q r := by
  rw [minus3_eq, ← m2_swap, plus_eq]

theorem rowA_nonneg (p q r : P3) : 0 ≤ rowA p q r :=
  rn_nonneg (add_nonneg (rn_nonneg (add_nonneg (o3A_nonneg _ _ _ _ _) (o3A_nonneg _ _ _ _ _))) (o3A_nonneg _ _ _ _ _))

theorem rowQ_nonneg (p q r : P3) : 0 ≤ rowQ p q r :=
  add_nonneg (add_nonneg (o3Q_nonneg _ _ _ _ _) (o3Q_nonneg _ _ _ _ _)) (o3Q_nonneg _ _ _ _ _)

theorem sum3_close {T1 T2 T3 t1 t2 t3 A1 A2 A3 : ℚ} (h1 : |T1 - t1| ≤ A1 * (6 / 9007199254740992 + 18 / 9007199254740992 ^ 2))
    (h2 : |T2 - t2| ≤ A2 * (6 / 9007199254740992 + 18 / 9007199254740992 ^ 2))
    (h3 : |T3 - t3| ≤ A3 * (6 / 9007199254740992 + 18 / 9007199254740992 ^ 2)) (b1 : |t1| ≤ A1) (b2 : |t2| ≤ A2) (b3 : |t3| ≤ A3) :
    |rn (rn (t1 + t2) + t3)| ≤ rn (rn (A1 + A2) + A3) ∧
    |T1 + T2 + T3 - rn (rn (t1 + t2) + t3)| ≤ rn (rn (A1 + A2) + A3) * (8 * ε + 32 * ε ^ 2) := by
  have p1 := (abs_nonneg _).trans b1
  have p2 := (abs_nonneg _).trans b2
  have p3 := (abs_nonneg _).trans b3
  have a1 := abs_rn_add_le b1 b2
  have a0 := abs_rn_add_le a1 b3
  refine ⟨a0, ?_⟩
  have a2 := rr (t1 + t2)
  have a3 := rr (rn (t1 + t2) + t3)
  have a4 := add_rn_le p1 p2
  have p4 := rn_nonneg (add_nonneg p1 p2)
  have a5 := add_rn_le p4 p3
  have p5 := rn_nonneg (add_nonneg p4 p3)
  generalize rn (rn (A1 + A2) + A3) = S at *
  generalize rn (A1 + A2) = B at *
  generalize rn (rn (t1 + t2) + t3) = det at *
  generalize rn (t1 + t2) = s at *
  have u1 := abs_add_le (T1 - t1 + (T2 - t2) + (T3 - t3)) ((t1 + t2 - s) + (s + t3 - det))
  have u2 := abs_add_le (T1 - t1 + (T2 - t2)) (T3 - t3)
  have u3 := abs_add_le (T1 - t1) (T2 - t2)
  have u4 := abs_add_le (t1 + t2 - s) (s + t3 - det)
  rw [show T1 - t1 + (T2 - t2) + (T3 - t3) + ((t1 + t2 - s) + (s + t3 - det)) = T1 + T2 + T3 - det by ring] at u1
  norm_num at a0 a1 a2 a3 a4 a5 h1 h2 h3 u1 u2 u3 u4 ⊢
  linarith

theorem row_close (p q r : P3) : |rowC p q r| ≤ rowA p q r ∧ |det3 p q r - rowC p q r| ≤ rowA p q r * (8 * ε + 32 * ε ^ 2) :=
  sum3_close (o3T_close _ _ _ _ _) (o3T_close _ _ _ _ _) (o3T_close _ _ _ _ _) (o3T_le _ _ _ _ _) (o3T_le _ _ _ _ _) (o3T_le _ _ _ _ _)

theorem rowQ_le (p q r : P3) : rowQ p q r ≤ rowA p q r * (1 + ε) ^ 5 := by
  have q1 := o3Q_le p.z q.x r.y r.x q.y
  have q2 := o3Q_le q.z r.x p.y p.x r.y
  have q3 := o3Q_le r.z p.x q.y q.x p.y
  have p1 := o3A_nonneg p.z q.x r.y r.x q.y
  have p2 := o3A_nonneg q.z r.x p.y p.x r.y
  have p3 := o3A_nonneg r.z p.x q.y q.x p.y
  unfold rowQ rowA
  generalize o3A p.z q.x r.y r.x q.y = A1 at *
  generalize o3A q.z r.x p.y p.x r.y = A2 at *
  generalize o3A r.z p.x q.y q.x p.y = A3 at *
  have a4 := add_rn_le p1 p2
  have p4 := rn_nonneg (add_nonneg p1 p2)
  have a5 := add_rn_le p4 p3
  have p5 := rn_nonneg (add_nonneg p4 p3)
  generalize rn (rn (A1 + A2) + A3) = S at *
  generalize rn (A1 + A2) = B at *
  norm_num at q1 q2 q3 a4 a5 ⊢
  linarith

theorem row_diff (p q r : P3) : |det3 p q r - det3 p.rd q.rd r.rd| ≤ rowQ p q r * (3 * ε + 3 * ε ^ 2 + ε ^ 3) := by
  have h1 := o3_diff_close p.z q.x r.y r.x q.y
  have h2 := o3_diff_close q.z r.x p.y p.x r.y
  have h3 := o3_diff_close r.z p.x q.y q.x p.y
  unfold rowQ det3 P3.rd
  simp only
  generalize p.z * (q.x * r.y - r.x * q.y) = T1 at *
  generalize q.z * (r.x * p.y - p.x * r.y) = T2 at *
  generalize r.z * (p.x * q.y - q.x * p.y) = T3 at *
  generalize rn p.z * (rn q.x * rn r.y - rn r.x * rn q.y) = V1 at *
  generalize rn q.z * (rn r.x * rn p.y - rn p.x * rn r.y) = V2 at *
  generalize rn r.z * (rn p.x * rn q.y - rn q.x * rn p.y) = V3 at *
  have u1 := abs_add_le (T1 - V1 + (T2 - V2)) (T3 - V3)
  have u2 := abs_add_le (T1 - V1) (T2 - V2)
  rw [show T1 - V1 + (T2 - V2) + (T3 - V3) = T1 + T2 + T3 - (V1 + V2 + V3) by ring] at u1
  norm_num at h1 h2 h3 u1 u2 ⊢
  linarith

theorem row_val (p q r : P3) : |det3 p.rd q.rd r.rd| ≤ rowQ p q r :=
  (abs_add_le _ _).trans (add_le_add ((abs_add_le _ _).trans (add_le_add (o3_val_le _ _ _ _ _) (o3_val_le _ _ _ _ _))) (o3_val_le _ _ _ _ _))

/-! ### The correction -/

theorem sum3_rn {V1 V2 V3 v1 v2 v3 Q1 Q2 Q3 a b : ℚ} (h1 : |V1 - v1| ≤ Q1 * a) (h2 : |V2 - v2| ≤ Q2 * a) (h3 : |V3 - v3| ≤ Q3 * a)
    (b1 : |v1| ≤ Q1 * b) (b2 : |v2| ≤ Q2 * b) (b3 : |v3| ≤ Q3 * b) :
    |V1 + V2 + V3 - rn (rn (v1 + v2) + v3)| ≤ (Q1 + Q2 + Q3) * (a + b * (2 * ε + ε ^ 2)) ∧
    |rn (rn (v1 + v2) + v3)| ≤ (Q1 + Q2 + Q3) * (b * (1 + ε) ^ 2) := by
  have a2 := rr' (v1 + v2)
  have a3 := rr' (rn (v1 + v2) + v3)
  have a4 := abs_rn_le' (v1 + v2)
  have a5 := abs_rn_le' (rn (v1 + v2) + v3)
  have a6 := abs_add_le v1 v2
  have a7 := abs_add_le (rn (v1 + v2)) v3
  have p3 := (abs_nonneg _).trans b3
  generalize rn (rn (v1 + v2) + v3) = det at *
  generalize rn (v1 + v2) = s at *
  have u1 := abs_add_le (V1 - v1 + (V2 - v2) + (V3 - v3)) ((v1 + v2 - s) + (s + v3 - det))
  have u2 := abs_add_le (V1 - v1 + (V2 - v2)) (V3 - v3)
  have u3 := abs_add_le (V1 - v1) (V2 - v2)
  have u4 := abs_add_le (v1 + v2 - s) (s + v3 - det)
  rw [show V1 - v1 + (V2 - v2) + (V3 - v3) + ((v1 + v2 - s) + (s + v3 - det)) = V1 + V2 + V3 - det by ring] at u1
  rw [show (Q1 + Q2 + Q3) * (a + b * (2 * ε + ε ^ 2)) = Q1 * a + Q2 * a + Q3 * a + (Q1 * b + Q2 * b + Q3 * b) * (2 * ε + ε ^ 2) by ring,
    show (Q1 + Q2 + Q3) * (b * (1 + ε) ^ 2) = (Q1 * b + Q2 * b + Q3 * b) * (1 + ε) ^ 2 by ring]
  generalize Q1 * a = y1 at *
  generalize Q2 * a = y2 at *
  generalize Q3 * a = y3 at *
  generalize Q1 * b = y4 at *
  generalize Q2 * b = y5 at *
  generalize Q3 * b = y6 at *
  constructor <;> norm_num at a2 a3 a4 a5 a6 a7 h1 h2 h3 b1 b2 b3 u1 u2 u3 u4 ⊢ <;> linarith

/-- The largest component of `two_two_diff`. -/
theorem top_close {A B : ℚ} (ha : IsF (A - rn A)) (hb : IsF (B - rn B)) :
    |A - B - (twoTwoDiff (rn A) (A - rn A) (rn B) (B - rn B)).1| ≤ (|A| + |B|) * (2 * ε + 10 * ε ^ 2) := by
  have h1 := rn_isF A
  have h2 := rn_isF B
  simp only [twoTwoDiff, twoOneDiff]
  rw [twoDiff_spec ha hb]
  simp only
  rw [twoSum_spec h1 (rn_isF _)]
  simp only
  rw [twoDiff_spec (sum_err_isF h1 (rn_isF _)) h2]
  simp only
  rw [twoSum_spec (rn_isF _) (rn_isF _)]
  simp only
  have e1 := rr' A
  have e2 := rr' B
  have e3 := abs_rn_le' A
  have e4 := abs_rn_le' B
  have e5 := rr' (A - rn A - (B - rn B))
  have e6 := abs_sub (A - rn A) (B - rn B)
  have e7 := abs_rn_le' (A - rn A - (B - rn B))
  generalize rn (A - rn A - (B - rn B)) = i at *
  have e8 := rr' (rn A + i)
  have e9 := abs_add_le (rn A) i
  have e10 := abs_rn_le' (rn A + i)
  generalize rn (rn A + i) = j at *
  have e11 := rr' (rn A + i - j - rn B)
  have e12 := abs_sub (rn A + i - j) (rn B)
  have e13 := abs_rn_le' (rn A + i - j - rn B)
  generalize rn (rn A + i - j - rn B) = i2 at *
  have e14 := rr' (j + i2)
  have u1 := abs_add_le (A - rn A - (B - rn B) - i) ((rn A + i - j - rn B - i2) + (j + i2 - rn (j + i2)))
  have u2 := abs_add_le (rn A + i - j - rn B - i2) (j + i2 - rn (j + i2))
  rw [show A - rn A - (B - rn B) - i + ((rn A + i - j - rn B - i2) + (j + i2 - rn (j + i2))) = A - B - rn (j + i2) by ring] at u1
  have u3 := abs_sub (A - B) ((A - rn A - (B - rn B) - i) + (rn A + i - j - rn B - i2))
  have u4 := abs_add_le (A - rn A - (B - rn B) - i) (rn A + i - j - rn B - i2)
  have u5 := abs_sub A B
  rw [show A - B - ((A - rn A - (B - rn B) - i) + (rn A + i - j - rn B - i2)) = j + i2 by ring] at u3
  have n1 := abs_nonneg A
  have n2 := abs_nonneg B
  generalize |A| = a at *
  generalize |B| = b at *
  norm_num at e1 e2 e3 e4 e5 e6 e7 e8 e9 e10 e11 e12 e14 u1 u2 u3 u4 u5 ⊢
  linarith

theorem mTop_close {p q : P3} (hp : p.IsF) (hq : q.IsF) : |p.x * q.y - q.x * p.y - mTop p q| ≤ (|p.x * q.y| + |q.x * p.y|) * (2 * ε + 10 * ε ^ 2) := by
  unfold mTop
  rw [twoProduct_spec hp.1 hq.2.1, twoProduct_spec hq.1 hp.2.1]
  exact top_close (prod_err_isF hp.1 hq.2.1) (prod_err_isF hq.1 hp.2.1)

/-- What the parts of the correction of a summand `z * (w + …)` amount to. -/
theorem term_corr {rz tz W C1 C2 H m N : ℚ} (hz : |tz| ≤ |rz| * ε) (hW : |W| ≤ N) (h1 : |C1 - H| ≤ N * (6 * ε ^ 2 + 10 * ε ^ 3))
    (h2 : |H| ≤ N * (2 * ε + 9 * ε ^ 2)) (h3 : |C2| ≤ N * ε ^ 2) (h4 : |W - m| ≤ N * (2 * ε + 10 * ε ^ 2)) :
    |rz * C1 - rn (rz * H)| ≤ |rz| * N * (8 * ε ^ 2 + 20 * ε ^ 3) ∧ |rn (rz * H)| ≤ |rz| * N * (2 * ε + 12 * ε ^ 2) ∧
    |tz * W - rn (tz * m)| ≤ |rz| * N * (3 * ε ^ 2 + 15 * ε ^ 3) ∧ |rn (tz * m)| ≤ |rz| * N * (ε + 4 * ε ^ 2) ∧
    |rz * W - rn (rz * m)| ≤ |rz| * N * (3 * ε + 13 * ε ^ 2) ∧ |rn (rz * m)| ≤ |rz| * N * (1 + 4 * ε) ∧
    |rz * C2 + tz * C1 + tz * C2| ≤ |rz| * N * (3 * ε ^ 2 + 20 * ε ^ 3) := by
  have Z1 : |rz| ≤ |rz| * 1 := by rw [mul_one]
  have N0 := (abs_nonneg _).trans hW
  have W1 : |W| ≤ N * 1 := by rwa [mul_one]
  have hm : |m| ≤ N * (1 + 2 * ε + 10 * ε ^ 2) := by
    have := abs_sub W (W - m)
    rw [show W - (W - m) = m by ring] at this
    linarith
  have hC : |C1| ≤ N * (2 * ε + 16 * ε ^ 2) := by
    have := abs_add_le (C1 - H) H
    rw [sub_add_cancel] at this
    norm_num at *; linarith
  have b1 := mul_bound Z1 h1
  have b2 := mul_bound Z1 h2
  have b3 := mul_bound Z1 h3
  have b4 := mul_bound Z1 h4
  have b5 := mul_bound Z1 hm
  have b6 := mul_bound hz hC
  have b7 := mul_bound hz h3
  have b8 := mul_bound hz h4
  have b9 := mul_bound hz hm
  have r1 := rr' (rz * H)
  have r2 := abs_rn_le' (rz * H)
  have r3 := rr' (tz * m)
  have r4 := abs_rn_le' (tz * m)
  have r5 := rr' (rz * m)
  have r6 := abs_rn_le' (rz * m)
  have u1 := abs_add_le (rz * (C1 - H)) (rz * H - rn (rz * H))
  have u2 := abs_add_le (tz * (W - m)) (tz * m - rn (tz * m))
  have u3 := abs_add_le (rz * (W - m)) (rz * m - rn (rz * m))
  have u4 := abs_add_le (rz * C2 + tz * C1) (tz * C2)
  have u5 := abs_add_le (rz * C2) (tz * C1)
  rw [show rz * (C1 - H) + (rz * H - rn (rz * H)) = rz * C1 - rn (rz * H) by ring] at u1
  rw [show tz * (W - m) + (tz * m - rn (tz * m)) = tz * W - rn (tz * m) by ring] at u2
  rw [show rz * (W - m) + (rz * m - rn (rz * m)) = rz * W - rn (rz * m) by ring] at u3
  have hQ : 0 ≤ |rz| * N := mul_nonneg (abs_nonneg _) N0
  generalize |rz| * N = Q at *
  generalize |rz * (C1 - H)| = y1 at *
  generalize |rz * H| = y2 at *
  generalize |rz * C2| = y3 at *
  generalize |rz * (W - m)| = y4 at *
  generalize |rz * m| = y5 at *
  generalize |tz * C1| = y6 at *
  generalize |tz * C2| = y7 at *
  generalize |tz * (W - m)| = y8 at *
  generalize |tz * m| = y9 at *
  refine ⟨?_, ?_, ?_, ?_, ?_, ?_, ?_⟩ <;> norm_num at b1 b2 b3 b4 b5 b6 b7 b8 b9 r1 r2 r3 r4 r5 r6 u1 u2 u3 u4 u5 ⊢ <;> linarith

/-- The row determinant `X`, its value on the rounded differences, its computed correction, and its value from the largest components. -/
structure RowOk (X Xr Xc K J A Q : ℚ) : Prop where
  nonneg : 0 ≤ Q
  le : |Xc| ≤ A
  close : |X - Xc| ≤ A * (8 * ε + 32 * ε ^ 2)
  size : Q ≤ A * (1 + ε) ^ 5
  diff : |X - Xr| ≤ Q * (3 * ε + 3 * ε ^ 2 + ε ^ 3)
  val : |Xr| ≤ Q
  corr : |X - Xr - K| ≤ Q * (24 * ε ^ 2 + 100 * ε ^ 3)
  corr_le : |K| ≤ Q * (3 * ε + 30 * ε ^ 2)
  top : |Xr - J| ≤ Q * (5 * ε + 30 * ε ^ 2)

/-- The three summands of a row. -/
theorem row_corr (p q r : P3) {H1 H2 H3 m1 m2 m3 : ℚ}
    (k1 : H1 = icH q.x r.y r.x q.y) (k2 : H2 = icH r.x p.y p.x r.y) (k3 : H3 = icH p.x q.y q.x p.y)
    (n1 : |rn q.x * rn r.y - rn r.x * rn q.y - m1| ≤ (|rn q.x * rn r.y| + |rn r.x * rn q.y|) * (2 * ε + 10 * ε ^ 2))
    (n2 : |rn r.x * rn p.y - rn p.x * rn r.y - m2| ≤ (|rn r.x * rn p.y| + |rn p.x * rn r.y|) * (2 * ε + 10 * ε ^ 2))
    (n3 : |rn p.x * rn q.y - rn q.x * rn p.y - m3| ≤ (|rn p.x * rn q.y| + |rn q.x * rn p.y|) * (2 * ε + 10 * ε ^ 2)) :
    RowOk (det3 p q r) (det3 p.rd q.rd r.rd) (rowC p q r)
      (fadd (plus3 p.rd.z H1 q.rd.z H2 r.rd.z H3) (plus3 p.lo.z m1 q.lo.z m2 r.lo.z m3)) (plus3 p.rd.z m1 q.rd.z m2 r.rd.z m3) (rowA p q r) (rowQ p q r) := by
  obtain ⟨a1, a2, a3, -, -, a6⟩ := minor_tails q.x r.y r.x q.y
  obtain ⟨b1, b2, b3, -, -, b6⟩ := minor_tails r.x p.y p.x r.y
  obtain ⟨c1, c2, c3, -, -, c6⟩ := minor_tails p.x q.y q.x p.y
  rw [← k1] at a1 a2
  rw [← k2] at b1 b2
  rw [← k3] at c1 c2
  have T1 := term_corr (rr p.z) (abs_sub (rn q.x * rn r.y) (rn r.x * rn q.y)) (by convert a1 using 2; ring) (by convert a2 using 2; ring) (by convert a3 using 2; ring) n1
  have T2 := term_corr (rr q.z) (abs_sub (rn r.x * rn p.y) (rn p.x * rn r.y)) (by convert b1 using 2; ring) (by convert b2 using 2; ring) (by convert b3 using 2; ring) n2
  have T3 := term_corr (rr r.z) (abs_sub (rn p.x * rn q.y) (rn q.x * rn p.y)) (by convert c1 using 2; ring) (by convert c2 using 2; ring) (by convert c3 using 2; ring) n3
  obtain ⟨d1, d2, d3, d4, d5, d6, d7⟩ := T1
  obtain ⟨e1, e2, e3, e4, e5, e6, e7⟩ := T2
  obtain ⟨f1, f2, f3, f4, f5, f6, f7⟩ := T3
  obtain ⟨S1, S2⟩ := sum3_rn d1 e1 f1 d2 e2 f2
  obtain ⟨S3, S4⟩ := sum3_rn d3 e3 f3 d4 e4 f4
  obtain ⟨S5, S6⟩ := sum3_rn d5 e5 f5 d6 e6 f6
  have hQ := rowQ_nonneg p q r
  have hQe : |rn p.z| * (|rn q.x * rn r.y| + |rn r.x * rn q.y|) + |rn q.z| * (|rn r.x * rn p.y| + |rn p.x * rn r.y|) +
    |rn r.z| * (|rn p.x * rn q.y| + |rn q.x * rn p.y|) = rowQ p q r := rfl
  rw [hQe] at S1 S2 S3 S4 S5 S6
  refine ⟨hQ, (row_close p q r).1, (row_close p q r).2, rowQ_le p q r, row_diff p q r, row_val p q r, ?_, ?_, ?_⟩
  · have key : det3 p q r - det3 p.rd q.rd r.rd =
        (rn p.z * (rn q.x * (r.y - rn r.y) + rn r.y * (q.x - rn q.x) - (rn q.y * (r.x - rn r.x) + rn r.x * (q.y - rn q.y))) +
        rn q.z * (rn r.x * (p.y - rn p.y) + rn p.y * (r.x - rn r.x) - (rn r.y * (p.x - rn p.x) + rn p.x * (r.y - rn r.y))) +
        rn r.z * (rn p.x * (q.y - rn q.y) + rn q.y * (p.x - rn p.x) - (rn p.y * (q.x - rn q.x) + rn q.x * (p.y - rn p.y)))) +
        ((p.z - rn p.z) * (rn q.x * rn r.y - rn r.x * rn q.y) + (q.z - rn q.z) * (rn r.x * rn p.y - rn p.x * rn r.y) +
          (r.z - rn r.z) * (rn p.x * rn q.y - rn q.x * rn p.y)) +
        ((rn p.z * ((q.x - rn q.x) * (r.y - rn r.y) - (r.x - rn r.x) * (q.y - rn q.y)) +
          (p.z - rn p.z) * (rn q.x * (r.y - rn r.y) + rn r.y * (q.x - rn q.x) - (rn q.y * (r.x - rn r.x) + rn r.x * (q.y - rn q.y))) +
          (p.z - rn p.z) * ((q.x - rn q.x) * (r.y - rn r.y) - (r.x - rn r.x) * (q.y - rn q.y))) +
        (rn q.z * ((r.x - rn r.x) * (p.y - rn p.y) - (p.x - rn p.x) * (r.y - rn r.y)) +
          (q.z - rn q.z) * (rn r.x * (p.y - rn p.y) + rn p.y * (r.x - rn r.x) - (rn r.y * (p.x - rn p.x) + rn p.x * (r.y - rn r.y))) +
          (q.z - rn q.z) * ((r.x - rn r.x) * (p.y - rn p.y) - (p.x - rn p.x) * (r.y - rn r.y))) +
        (rn r.z * ((p.x - rn p.x) * (q.y - rn q.y) - (q.x - rn q.x) * (p.y - rn p.y)) +
          (r.z - rn r.z) * (rn p.x * (q.y - rn q.y) + rn q.y * (p.x - rn p.x) - (rn p.y * (q.x - rn q.x) + rn q.x * (p.y - rn p.y))) +
          (r.z - rn r.z) * ((p.x - rn p.x) * (q.y - rn q.y) - (q.x - rn q.x) * (p.y - rn p.y)))) := by
      unfold det3 P3.rd
      ring
    rw [key]
    clear key
    simp only [plus3, fadd, fmul, P3.rd, P3.lo, lost]
    generalize rn (rn (rn (rn p.z * H1) + rn (rn q.z * H2)) + rn (rn r.z * H3)) = K1 at *
    generalize rn (rn (rn ((p.z - rn p.z) * m1) + rn ((q.z - rn q.z) * m2)) + rn ((r.z - rn r.z) * m3)) = K2 at *
    generalize rn p.z * ((q.x - rn q.x) * (r.y - rn r.y) - (r.x - rn r.x) * (q.y - rn q.y)) +
          (p.z - rn p.z) * (rn q.x * (r.y - rn r.y) + rn r.y * (q.x - rn q.x) - (rn q.y * (r.x - rn r.x) + rn r.x * (q.y - rn q.y))) +
          (p.z - rn p.z) * ((q.x - rn q.x) * (r.y - rn r.y) - (r.x - rn r.x) * (q.y - rn q.y)) = D1 at *
    generalize rn q.z * ((r.x - rn r.x) * (p.y - rn p.y) - (p.x - rn p.x) * (r.y - rn r.y)) +
          (q.z - rn q.z) * (rn r.x * (p.y - rn p.y) + rn p.y * (r.x - rn r.x) - (rn r.y * (p.x - rn p.x) + rn p.x * (r.y - rn r.y))) +
          (q.z - rn q.z) * ((r.x - rn r.x) * (p.y - rn p.y) - (p.x - rn p.x) * (r.y - rn r.y)) = D2 at *
    generalize rn r.z * ((p.x - rn p.x) * (q.y - rn q.y) - (q.x - rn q.x) * (p.y - rn p.y)) +
          (r.z - rn r.z) * (rn p.x * (q.y - rn q.y) + rn q.y * (p.x - rn p.x) - (rn p.y * (q.x - rn q.x) + rn q.x * (p.y - rn p.y))) +
          (r.z - rn r.z) * ((p.x - rn p.x) * (q.y - rn q.y) - (q.x - rn q.x) * (p.y - rn p.y)) = D3 at *
    generalize rn p.z * (rn q.x * (r.y - rn r.y) + rn r.y * (q.x - rn q.x) - (rn q.y * (r.x - rn r.x) + rn r.x * (q.y - rn q.y))) +
        rn q.z * (rn r.x * (p.y - rn p.y) + rn p.y * (r.x - rn r.x) - (rn r.y * (p.x - rn p.x) + rn p.x * (r.y - rn r.y))) +
        rn r.z * (rn p.x * (q.y - rn q.y) + rn q.y * (p.x - rn p.x) - (rn p.y * (q.x - rn q.x) + rn q.x * (p.y - rn p.y))) = V1 at *
    generalize (p.z - rn p.z) * (rn q.x * rn r.y - rn r.x * rn q.y) + (q.z - rn q.z) * (rn r.x * rn p.y - rn p.x * rn r.y) +
          (r.z - rn r.z) * (rn p.x * rn q.y - rn q.x * rn p.y) = V2 at *
    have r1 := rr' (K1 + K2)
    have r2 := abs_add_le K1 K2
    have u1 := abs_add_le (V1 - K1 + (V2 - K2)) (D1 + D2 + D3 + (K1 + K2 - rn (K1 + K2)))
    have u2 := abs_add_le (V1 - K1) (V2 - K2)
    have u3 := abs_add_le (D1 + D2 + D3) (K1 + K2 - rn (K1 + K2))
    have u4 := abs_add_le (D1 + D2) D3
    have u5 := abs_add_le D1 D2
    rw [show V1 - K1 + (V2 - K2) + (D1 + D2 + D3 + (K1 + K2 - rn (K1 + K2))) = V1 + V2 + (D1 + D2 + D3) - rn (K1 + K2) by ring] at u1
    have d8 := add_le_add (add_le_add d7 e7) f7
    rw [← add_mul, ← add_mul, hQe] at d8
    generalize rowQ p q r = Q at *
    norm_num at S1 S2 S3 S4 r1 r2 u1 u2 u3 u4 u5 d8 ⊢
    linarith
  · simp only [plus3, fadd, fmul, P3.rd, P3.lo, lost]
    generalize rn (rn (rn (rn p.z * H1) + rn (rn q.z * H2)) + rn (rn r.z * H3)) = K1 at *
    generalize rn (rn (rn ((p.z - rn p.z) * m1) + rn ((q.z - rn q.z) * m2)) + rn ((r.z - rn r.z) * m3)) = K2 at *
    have r1 := abs_rn_le' (K1 + K2)
    have r2 := abs_add_le K1 K2
    generalize rowQ p q r = Q at *
    norm_num at S2 S4 r1 r2 ⊢
    linarith
  · refine S5.trans ?_
    norm_num
    linarith

end Verif.Float
