import Verif.Float.InsphereRows
/-!
# `orient4d`: the filters, and that the sign is exact
-/
namespace Verif.Float

local notation "ε" => (1 / 9007199254740992 : ℚ)

theorem icH_neg (x y u v : ℚ) : icH u v x y = -icH x y u v := by
  unfold icH
  rw [← rn_neg, neg_sub, add_comm (rn (rn u * (v - rn v))), add_comm (rn (rn y * (x - rn x)))]

theorem mEps_eq (p q : P3) : mEps p.rd q.rd p.lo q.lo = icH p.x q.y q.x p.y := rfl

theorem mEps_neg (p q : P3) : -mEps p.rd q.rd p.lo q.lo = icH q.x p.y p.x q.y := by
  rw [mEps_eq, ← icH_neg]

theorem mTop_neg (p q : P3) : |rn q.x * rn p.y - rn p.x * rn q.y - -mTop p.rd q.rd| ≤ (|rn q.x * rn p.y| + |rn p.x * rn q.y|) * (2 * ε + 10 * ε ^ 2) := by
  have h := mTop_close p.rd_isF q.rd_isF
  simp only [P3.rd] at h ⊢
  rw [← abs_neg, add_comm]
  convert h using 2
  ring

theorem mTop_rd (p q : P3) : |rn p.x * rn q.y - rn q.x * rn p.y - mTop p.rd q.rd| ≤ (|rn p.x * rn q.y| + |rn q.x * rn p.y|) * (2 * ε + 10 * ε ^ 2) := by
  have h := mTop_close p.rd_isF q.rd_isF
  simpa only [P3.rd] using h

/-- A row computed with plus signs. -/
theorem row_plus (p q r : P3) : RowOk (det3 p q r) (det3 p.rd q.rd r.rd) (plus3 p.rd.z (m2 q.rd r.rd) q.rd.z (m2 r.rd p.rd) r.rd.z (m2 p.rd q.rd))
    (fadd (plus3 p.rd.z (mEps q.rd r.rd q.lo r.lo) q.rd.z (mEps r.rd p.rd r.lo p.lo) r.rd.z (mEps p.rd q.rd p.lo q.lo))
      (plus3 p.lo.z (mTop q.rd r.rd) q.lo.z (mTop r.rd p.rd) r.lo.z (mTop p.rd q.rd)))
    (plus3 p.rd.z (mTop q.rd r.rd) q.rd.z (mTop r.rd p.rd) r.rd.z (mTop p.rd q.rd)) (permRow p.rd q.rd r.rd) (rowQ p q r) := by
  rw [plus_eq, rowA_eq]
  exact row_corr p q r (mEps_eq _ _) (mEps_eq _ _) (mEps_eq _ _) (mTop_rd q r) (mTop_rd r p) (mTop_rd p q)

/-- A row computed with a minus sign. -/
theorem row_minus (p q r : P3) : RowOk (det3 p q r) (det3 p.rd q.rd r.rd) (minus3 p.rd.z (m2 q.rd r.rd) q.rd.z (m2 p.rd r.rd) r.rd.z (m2 p.rd q.rd))
    (fadd (minus3 p.rd.z (mEps q.rd r.rd q.lo r.lo) q.rd.z (mEps p.rd r.rd p.lo r.lo) r.rd.z (mEps p.rd q.rd p.lo q.lo))
      (minus3 p.lo.z (mTop q.rd r.rd) q.lo.z (mTop p.rd r.rd) r.lo.z (mTop p.rd q.rd)))
    (minus3 p.rd.z (mTop q.rd r.rd) q.rd.z (mTop p.rd r.rd) r.rd.z (mTop p.rd q.rd)) (permRow p.rd q.rd r.rd) (rowQ p q r) := by
  rw [minus_eq, rowA_eq, minus3_eq, minus3_eq, minus3_eq]
  exact row_corr p q r (mEps_eq _ _) (mEps_neg _ _) (mEps_eq _ _) (mTop_rd q r) (mTop_neg p r) (mTop_rd p q)

/-- A summand of the determinant: exact, on the rounded differences, computed, the two parts of its correction, its part of the permanent and its size. -/
structure TermOk (T V t c l A Q : ℚ) : Prop where
  nonneg : 0 ≤ Q
  le : |t| ≤ A
  close : |T - t| ≤ A * (10 * ε + 60 * ε ^ 2)
  size : Q ≤ A * (1 + ε) ^ 6
  diff : |T - V| ≤ Q * (4 * ε + 8 * ε ^ 2)
  val : |V| ≤ Q
  corr : |T - V - c - l| ≤ Q * (38 * ε ^ 2)
  c_le : |c| ≤ Q * (3 * ε + 40 * ε ^ 2)
  l_le : |l| ≤ Q * (ε + 10 * ε ^ 2)

theorem term_ok {X Xr Xc K J A Q : ℚ} (h : RowOk X Xr Xc K J A Q) (H : ℚ) :
    TermOk (H * X) (rn H * Xr) (fmul (rn H) Xc) (fmul (rn H) K) (fmul (lost H) J) (fmul A |rn H|) (|rn H| * Q) := by
  have A0 := (abs_nonneg _).trans h.le
  have hl : |fmul (rn H) Xc| ≤ fmul A |rn H| := by
    unfold fmul
    rw [abs_rn, abs_mul, mul_comm]
    exact rn_mono (mul_le_mul_of_nonneg_right h.le (abs_nonneg _))
  have L1 : |lost H| ≤ |rn H| * ε := rr H
  have R1 : |rn H| ≤ |rn H| * 1 := by rw [mul_one]
  have S1 : |Xr| ≤ Q * 1 := by rw [mul_one]; exact h.val
  have hX : |X| ≤ Q * (1 + 4 * ε) := by
    have := abs_add_le (X - Xr) Xr
    rw [sub_add_cancel] at this
    have h1 := h.diff
    have h2 := h.val
    have h3 := h.nonneg
    norm_num at *; linarith
  have hXA : |X| ≤ A * (1 + 9 * ε) := by
    have := abs_add_le (X - Xc) Xc
    rw [sub_add_cancel] at this
    have h1 := h.close
    have h2 := h.le
    norm_num at *; linarith
  have hXJ : |X - J| ≤ Q * (8 * ε + 40 * ε ^ 2) := by
    have := abs_add_le (X - Xr) (Xr - J)
    rw [sub_add_sub_cancel] at this
    have h1 := h.diff
    have h2 := h.top
    have h3 := h.nonneg
    norm_num at *; linarith
  have hJ : |J| ≤ Q * (1 + 6 * ε) := by
    have := abs_sub Xr (Xr - J)
    rw [sub_sub_cancel] at this
    have h1 := h.val
    have h2 := h.top
    have h3 := h.nonneg
    norm_num at *; linarith
  have b1 := mul_bound L1 hX
  have b2 := mul_bound R1 h.diff
  have b3 := mul_bound R1 S1
  have b4 := mul_bound R1 h.corr
  have b5 := mul_bound R1 h.corr_le
  have b6 := mul_bound L1 hXJ
  have b7 := mul_bound L1 hJ
  have b8 := mul_bound L1 hXA
  have b9 := mul_bound R1 h.close
  have hH : H = rn H + lost H := (rn_add_lost H).symm
  have Q0 : 0 ≤ |rn H| * Q := mul_nonneg (abs_nonneg _) h.nonneg
  have g1 := mul_rn_le A0 (abs_nonneg (rn H))
  have g2 := mul_le_mul_of_nonneg_left h.size (abs_nonneg (rn H))
  refine ⟨Q0, hl, ?_, ?_, ?_, ?_, ?_, ?_, ?_⟩
  · have r1 := rr (rn H * Xc)
    unfold fmul at *
    have u1 := abs_add_le (lost H * X) (rn H * (X - Xc) + (rn H * Xc - rn (rn H * Xc)))
    have u2 := abs_add_le (rn H * (X - Xc)) (rn H * Xc - rn (rn H * Xc))
    rw [show lost H * X + (rn H * (X - Xc) + (rn H * Xc - rn (rn H * Xc))) = (rn H + lost H) * X - rn (rn H * Xc) by ring, ← hH] at u1
    have A1 : 0 ≤ rn (A * |rn H|) := rn_nonneg (mul_nonneg A0 (abs_nonneg _))
    rw [mul_comm |rn H| A] at b8 b9
    generalize A * |rn H| = B at *
    norm_num at b8 b9 g1 r1 hl u1 u2 ⊢
    linarith
  · unfold fmul
    rw [show |rn H| * (A * (1 + ε) ^ 5) = A * |rn H| * (1 + ε) ^ 5 by ring] at g2
    generalize A * |rn H| = B at *
    norm_num at g1 g2 ⊢
    linarith
  · have u1 := abs_add_le (lost H * X) (rn H * (X - Xr))
    rw [show lost H * X + rn H * (X - Xr) = (rn H + lost H) * X - rn H * Xr by ring, ← hH] at u1
    generalize |rn H| * Q = q at *
    norm_num at b1 b2 u1 ⊢
    linarith
  · rw [abs_mul]
    exact mul_le_mul_of_nonneg_left h.val (abs_nonneg _)
  · unfold fmul
    have r1 := rr' (rn H * K)
    have r2 := rr' (lost H * J)
    have u1 := abs_add_le (rn H * (X - Xr - K)) ((rn H * K - rn (rn H * K)) + (lost H * (X - J) + (lost H * J - rn (lost H * J))))
    have u2 := abs_add_le (rn H * K - rn (rn H * K)) (lost H * (X - J) + (lost H * J - rn (lost H * J)))
    have u3 := abs_add_le (lost H * (X - J)) (lost H * J - rn (lost H * J))
    rw [show rn H * (X - Xr - K) + ((rn H * K - rn (rn H * K)) + (lost H * (X - J) + (lost H * J - rn (lost H * J)))) =
      (rn H + lost H) * X - rn H * Xr - rn (rn H * K) - rn (lost H * J) by ring, ← hH] at u1
    generalize |rn H| * Q = q at *
    generalize |rn H * K| = y1 at *
    generalize |lost H * J| = y2 at *
    generalize |lost H * (X - J)| = y3 at *
    generalize |rn H * (X - Xr - K)| = y4 at *
    norm_num at b4 b5 b6 b7 r1 r2 u1 u2 u3 ⊢
    linarith
  · have r1 := abs_rn_le' (rn H * K)
    unfold fmul
    generalize |rn H| * Q = q at *
    generalize |rn H * K| = y1 at *
    norm_num at b5 r1 ⊢
    linarith
  · have r1 := abs_rn_le' (lost H * J)
    unfold fmul
    generalize |rn H| * Q = q at *
    generalize |lost H * J| = y1 at *
    norm_num at b7 r1 ⊢
    linarith

/-! ### The filters -/

/-- The permanent from its four rows. -/
def perm4 (A1 A2 A3 A4 : ℚ) : ℚ := fadd (fadd (fadd A1 A2) A3) A4

theorem perm4_le {A1 A2 A3 A4 : ℚ} (p1 : 0 ≤ A1) (p2 : 0 ≤ A2) (p3 : 0 ≤ A3) (p4 : 0 ≤ A4) :
    0 ≤ perm4 A1 A2 A3 A4 ∧ A1 + A2 + A3 + A4 ≤ perm4 A1 A2 A3 A4 * (1 + ε) ^ 3 := by
  unfold perm4 fadd
  have a1 := add_rn_le p1 p2
  have n1 := rn_nonneg (add_nonneg p1 p2)
  generalize rn (A1 + A2) = B at *
  have a2 := add_rn_le n1 p3
  have n2 := rn_nonneg (add_nonneg n1 p3)
  generalize rn (B + A3) = C at *
  have a3 := add_rn_le n2 p4
  have n3 := rn_nonneg (add_nonneg n2 p4)
  generalize rn (C + A4) = D at *
  refine ⟨n3, ?_⟩
  norm_num at a1 a2 a3 ⊢
  linarith

/-- The first filter. -/
theorem o4_stageA {T1 V1 t1 c1 l1 A1 Q1 T2 V2 t2 c2 l2 A2 Q2 T3 V3 t3 c3 l3 A3 Q3 T4 V4 t4 c4 l4 A4 Q4 : ℚ} (h1 : TermOk T1 V1 t1 c1 l1 A1 Q1)
    (h2 : TermOk T2 V2 t2 c2 l2 A2 Q2) (h3 : TermOk T3 V3 t3 c3 l3 A3 Q3) (h4 : TermOk T4 V4 t4 c4 l4 A4 Q4) {d : ℚ}
    (hd : d = fadd (fsub t4 t3) (fsub t2 t1)) (h : d > fmul ispA (perm4 A1 A2 A3 A4) ∨ -d > fmul ispA (perm4 A1 A2 A3 A4)) :
    SameSign d (T4 - T3 + (T2 - T1)) := by
  obtain ⟨n, hp⟩ := perm4_le ((abs_nonneg _).trans h1.le) ((abs_nonneg _).trans h2.le) ((abs_nonneg _).trans h3.le) ((abs_nonneg _).trans h4.le)
  generalize perm4 A1 A2 A3 A4 = P at *
  have hlt : fmul ispA P < |d| := by
    rcases h with h | h
    · exact lt_of_lt_of_le h (le_abs_self _)
    · exact lt_of_lt_of_le h (neg_le_abs _)
  have a6 := mul_rn_le (a := ispA) (b := P) (by rw [ispA_eq]; norm_num) n
  simp only [fmul] at hlt
  generalize rn (ispA * P) = eb at *
  rw [ispA_eq] at a6
  simp only [fadd, fsub] at hd
  have r1 := rr' (t4 - t3)
  have r2 := rr' (t2 - t1)
  have r3 := rr (rn (t4 - t3) + rn (t2 - t1))
  rw [← hd] at r3
  generalize rn (t4 - t3) = s1 at *
  generalize rn (t2 - t1) = s2 at *
  have e1 := abs_sub t4 t3
  have e2 := abs_sub t2 t1
  have c1 := h1.close
  have c2 := h2.close
  have c3 := h3.close
  have c4 := h4.close
  have k1 := h1.le
  have k2 := h2.le
  have k3 := h3.le
  have k4 := h4.le
  apply SameSign.of_close
  have u1 := abs_add_le ((T4 - t4) - (T3 - t3) + ((T2 - t2) - (T1 - t1))) ((t4 - t3 - s1) + ((t2 - t1 - s2) + (s1 + s2 - d)))
  have u2 := abs_add_le ((T4 - t4) - (T3 - t3)) ((T2 - t2) - (T1 - t1))
  have u3 := abs_sub (T4 - t4) (T3 - t3)
  have u4 := abs_sub (T2 - t2) (T1 - t1)
  have u5 := abs_add_le (t4 - t3 - s1) ((t2 - t1 - s2) + (s1 + s2 - d))
  have u6 := abs_add_le (t2 - t1 - s2) (s1 + s2 - d)
  rw [show (T4 - t4) - (T3 - t3) + ((T2 - t2) - (T1 - t1)) + ((t4 - t3 - s1) + ((t2 - t1 - s2) + (s1 + s2 - d))) = T4 - T3 + (T2 - T1) - d by ring] at u1
  norm_num at c1 c2 c3 c4 k1 k2 k3 k4 r1 r2 r3 e1 e2 a6 hp hlt u1 u2 u3 u4 u5 u6 ⊢
  linarith

theorem perm_size {T1 V1 t1 c1 l1 A1 Q1 T2 V2 t2 c2 l2 A2 Q2 T3 V3 t3 c3 l3 A3 Q3 T4 V4 t4 c4 l4 A4 Q4 : ℚ} (h1 : TermOk T1 V1 t1 c1 l1 A1 Q1)
    (h2 : TermOk T2 V2 t2 c2 l2 A2 Q2) (h3 : TermOk T3 V3 t3 c3 l3 A3 Q3) (h4 : TermOk T4 V4 t4 c4 l4 A4 Q4) :
    0 ≤ perm4 A1 A2 A3 A4 ∧ Q1 + Q2 + Q3 + Q4 ≤ perm4 A1 A2 A3 A4 * (1 + 10 * ε) := by
  obtain ⟨n, hp⟩ := perm4_le ((abs_nonneg _).trans h1.le) ((abs_nonneg _).trans h2.le) ((abs_nonneg _).trans h3.le) ((abs_nonneg _).trans h4.le)
  refine ⟨n, ?_⟩
  have c1 := h1.size
  have c2 := h2.size
  have c3 := h3.size
  have c4 := h4.size
  norm_num at c1 c2 c3 c4 hp ⊢
  linarith

/-- The second filter. -/
theorem o4_stageB {T1 V1 t1 c1 l1 A1 Q1 T2 V2 t2 c2 l2 A2 Q2 T3 V3 t3 c3 l3 A3 Q3 T4 V4 t4 c4 l4 A4 Q4 : ℚ} (h1 : TermOk T1 V1 t1 c1 l1 A1 Q1)
    (h2 : TermOk T2 V2 t2 c2 l2 A2 Q2) (h3 : TermOk T3 V3 t3 c3 l3 A3 Q3) (h4 : TermOk T4 V4 t4 c4 l4 A4 Q4) {est : ℚ}
    (he : |est - (V4 - V3 + (V2 - V1))| ≤ (5 / 2 + 8 / 9007199254740992) / 9007199254740992 * |V4 - V3 + (V2 - V1)|)
    (hs : SameSign est (V4 - V3 + (V2 - V1)))
    (h : est ≥ fmul ispB (perm4 A1 A2 A3 A4) ∨ -est ≥ fmul ispB (perm4 A1 A2 A3 A4)) : SameSign est (T4 - T3 + (T2 - T1)) := by
  obtain ⟨n, hp⟩ := perm_size h1 h2 h3 h4
  have hlt : fmul ispB (perm4 A1 A2 A3 A4) ≤ |est| := by
    rcases h with h | h
    · exact h.trans (le_abs_self _)
    · exact h.trans (neg_le_abs _)
  generalize perm4 A1 A2 A3 A4 = P at *
  have a6 := mul_rn_le (a := ispB) (b := P) (by rw [ispB_eq]; norm_num) n
  simp only [fmul] at hlt
  generalize rn (ispB * P) = eb at *
  rw [ispB_eq] at a6
  have d1 := h1.diff
  have d2 := h2.diff
  have d3 := h3.diff
  have d4 := h4.diff
  have q1 := h1.nonneg
  have q2 := h2.nonneg
  have q3 := h3.nonneg
  have q4 := h4.nonneg
  have v1 := h1.val
  have v2 := h2.val
  have v3 := h3.val
  have v4 := h4.val
  have u1 := abs_add_le ((T4 - V4) - (T3 - V3)) ((T2 - V2) - (T1 - V1))
  have u2 := abs_sub (T4 - V4) (T3 - V3)
  have u3 := abs_sub (T2 - V2) (T1 - V1)
  rw [show (T4 - V4) - (T3 - V3) + ((T2 - V2) - (T1 - V1)) = T4 - T3 + (T2 - T1) - (V4 - V3 + (V2 - V1)) by ring] at u1
  rcases (abs_nonneg (T4 - T3 + (T2 - T1) - (V4 - V3 + (V2 - V1)))).eq_or_lt with h0 | h0
  · rw [sub_eq_zero.1 (abs_eq_zero.1 h0.symm)]
    exact hs
  · apply SameSign.of_close
    generalize T4 - T3 + (T2 - T1) = D at *
    generalize V4 - V3 + (V2 - V1) = B at *
    have w1 := abs_sub (D - B) (est - B)
    have w2 := abs_sub est (est - B)
    rw [show D - B - (est - B) = D - est by ring] at w1
    rw [show est - (est - B) = B by ring] at w2
    norm_num at d1 d2 d3 d4 u1 u2 u3 he hp a6 hlt w1 w2 ⊢
    linarith

/-- The third filter. -/
theorem o4_stageC {T1 V1 t1 c1 l1 A1 Q1 T2 V2 t2 c2 l2 A2 Q2 T3 V3 t3 c3 l3 A3 Q3 T4 V4 t4 c4 l4 A4 Q4 : ℚ} (h1 : TermOk T1 V1 t1 c1 l1 A1 Q1)
    (h2 : TermOk T2 V2 t2 c2 l2 A2 Q2) (h3 : TermOk T3 V3 t3 c3 l3 A3 Q3) (h4 : TermOk T4 V4 t4 c4 l4 A4 Q4) {est corr : ℚ}
    (he : |est - (V4 - V3 + (V2 - V1))| ≤ (5 / 2 + 8 / 9007199254740992) / 9007199254740992 * |V4 - V3 + (V2 - V1)|)
    (hc : corr = fadd (fsub (fadd c2 c4) (fadd c1 c3)) (fsub (fadd l2 l4) (fadd l1 l3))) (hpos : 0 < perm4 A1 A2 A3 A4)
    (h : fadd est corr ≥ fadd (fmul ispC (perm4 A1 A2 A3 A4)) (fmul resErr |est|) ∨
      -fadd est corr ≥ fadd (fmul ispC (perm4 A1 A2 A3 A4)) (fmul resErr |est|)) : SameSign (fadd est corr) (T4 - T3 + (T2 - T1)) := by
  obtain ⟨n, hp⟩ := perm_size h1 h2 h3 h4
  generalize perm4 A1 A2 A3 A4 = P at *
  have hb : (71 + 1408 / 2 ^ 53) / 2 ^ 53 / 2 ^ 53 * P + (3 + 8 / 2 ^ 53) / 2 ^ 53 * |est| ≤ |fadd est corr| * (1 + ε) ^ 2 := by
    generalize fadd est corr = det at *
    have k0 : 0 ≤ ispC := by rw [ispC_eq]; norm_num
    have k1 : 0 ≤ resErr := by rw [resErr_eq]; norm_num
    have n1 := mul_nonneg k0 n
    have n2 := mul_nonneg k1 (abs_nonneg est)
    have g1 : fadd (fmul ispC P) (fmul resErr |est|) ≤ |det| := by
      rcases h with h | h
      · exact le_trans h (le_abs_self _)
      · exact le_trans h (neg_le_abs _)
    have g2 := add_rn_le (rn_nonneg n1) (rn_nonneg n2)
    have g3 := mul_rn_le k0 n
    have g4 := mul_rn_le k1 (abs_nonneg est)
    simp only [fadd, fmul] at g1
    generalize rn (rn (ispC * P) + rn (resErr * |est|)) = f1 at *
    generalize rn (ispC * P) = f2 at *
    generalize rn (resErr * |est|) = f3 at *
    rw [ispC_eq] at *
    rw [resErr_eq] at *
    generalize |est| = f5 at *
    norm_num at g1 g2 g3 g4 ⊢
    linarith
  simp only [fadd, fsub] at hc hb ⊢
  have d0 := rr (est + corr)
  generalize rn (est + corr) = det at *
  have s1 := rr' (c2 + c4)
  have s2 := rr' (c1 + c3)
  have s3 := rr' (l2 + l4)
  have s4 := rr' (l1 + l3)
  have m1 := abs_rn_le' (c2 + c4)
  have m2 := abs_rn_le' (c1 + c3)
  have m3 := abs_rn_le' (l2 + l4)
  have m4 := abs_rn_le' (l1 + l3)
  have a1 := abs_add_le c2 c4
  have a2 := abs_add_le c1 c3
  have a3 := abs_add_le l2 l4
  have a4 := abs_add_le l1 l3
  generalize rn (c2 + c4) = x1 at *
  generalize rn (c1 + c3) = x2 at *
  generalize rn (l2 + l4) = x3 at *
  generalize rn (l1 + l3) = x4 at *
  have s5 := rr' (x1 - x2)
  have s6 := rr' (x3 - x4)
  have m5 := abs_rn_le' (x1 - x2)
  have m6 := abs_rn_le' (x3 - x4)
  have a5 := abs_sub x1 x2
  have a6 := abs_sub x3 x4
  generalize rn (x1 - x2) = y1 at *
  generalize rn (x3 - x4) = y2 at *
  have s7 := rr' (y1 + y2)
  have a7 := abs_add_le y1 y2
  rw [← hc] at s7
  have K : |T4 - T3 + (T2 - T1) - (V4 - V3 + (V2 - V1)) - corr| ≤ (Q1 + Q2 + Q3 + Q4) * (52 * ε ^ 2) := by
    have k1 := h1.corr
    have k2 := h2.corr
    have k3 := h3.corr
    have k4 := h4.corr
    have k5 := h1.c_le
    have k6 := h2.c_le
    have k7 := h3.c_le
    have k8 := h4.c_le
    have k9 := h1.l_le
    have k10 := h2.l_le
    have k11 := h3.l_le
    have k12 := h4.l_le
    have q1 := h1.nonneg
    have q2 := h2.nonneg
    have q3 := h3.nonneg
    have q4 := h4.nonneg
    have w1 := abs_add_le (((T4 - V4 - c4 - l4) - (T3 - V3 - c3 - l3)) + ((T2 - V2 - c2 - l2) - (T1 - V1 - c1 - l1)))
      ((((c2 + c4 - x1) - (c1 + c3 - x2)) + ((l2 + l4 - x3) - (l1 + l3 - x4))) + (((x1 - x2 - y1) + (x3 - x4 - y2)) + (y1 + y2 - corr)))
    have w2 := abs_add_le ((T4 - V4 - c4 - l4) - (T3 - V3 - c3 - l3)) ((T2 - V2 - c2 - l2) - (T1 - V1 - c1 - l1))
    have w3 := abs_sub (T4 - V4 - c4 - l4) (T3 - V3 - c3 - l3)
    have w4 := abs_sub (T2 - V2 - c2 - l2) (T1 - V1 - c1 - l1)
    have w5 := abs_add_le (((c2 + c4 - x1) - (c1 + c3 - x2)) + ((l2 + l4 - x3) - (l1 + l3 - x4))) (((x1 - x2 - y1) + (x3 - x4 - y2)) + (y1 + y2 - corr))
    have w6 := abs_add_le ((c2 + c4 - x1) - (c1 + c3 - x2)) ((l2 + l4 - x3) - (l1 + l3 - x4))
    have w7 := abs_sub (c2 + c4 - x1) (c1 + c3 - x2)
    have w8 := abs_sub (l2 + l4 - x3) (l1 + l3 - x4)
    have w9 := abs_add_le ((x1 - x2 - y1) + (x3 - x4 - y2)) (y1 + y2 - corr)
    have w10 := abs_add_le (x1 - x2 - y1) (x3 - x4 - y2)
    rw [show ((T4 - V4 - c4 - l4) - (T3 - V3 - c3 - l3)) + ((T2 - V2 - c2 - l2) - (T1 - V1 - c1 - l1)) +
      ((((c2 + c4 - x1) - (c1 + c3 - x2)) + ((l2 + l4 - x3) - (l1 + l3 - x4))) + (((x1 - x2 - y1) + (x3 - x4 - y2)) + (y1 + y2 - corr))) =
      T4 - T3 + (T2 - T1) - (V4 - V3 + (V2 - V1)) - corr by ring] at w1
    norm_num at k1 k2 k3 k4 k5 k6 k7 k8 k9 k10 k11 k12 s1 s2 s3 s4 s5 s6 s7 m1 m2 m3 m4 m5 m6 a1 a2 a3 a4 a5 a6 a7 w1 w2 w3 w4 w5 w6 w7 w8 w9 w10 ⊢
    linarith
  have q := (abs_nonneg _).trans K
  apply SameSign.of_close
  generalize T4 - T3 + (T2 - T1) = D at *
  generalize V4 - V3 + (V2 - V1) = B at *
  have w1 := abs_add_le (D - B - corr) ((est + corr - det) - (est - B))
  have w2 := abs_sub (est + corr - det) (est - B)
  have w3 := abs_sub est (est - B)
  rw [show D - B - corr + ((est + corr - det) - (est - B)) = D - det by ring] at w1
  rw [show est - (est - B) = B by ring] at w3
  have e0 := abs_nonneg est
  generalize |est| = z1 at *
  generalize |B| = z2 at *
  norm_num at K he hp hb d0 w1 w2 w3 ⊢
  linarith

/-! ### All stages -/

/-- The expansion of the adaptive stage. -/
theorem rowFin_spec {r : Rows} (ha : r.a.IsF) (hb : r.b.IsF) (hc : r.c.IsF) (hd : r.d.IsF) {uA uB uC uD : List ℚ → Option (List ℚ)} {kA kB kC kD : ℚ}
    (hA : Ups uA kA) (hB : Ups uB kB) (hC : Ups uC kC) (hD : Ups uD kD) :
    ∃ fin, rowFin r uA uB uC uD = some fin ∧ Proper fin ∧
      fin.sum = kD * det3 r.a r.b r.c + kC * det3 r.d r.a r.b + (kB * det3 r.c r.d r.a + kA * det3 r.b r.c r.d) := by
  obtain ⟨r1, q1, a1⟩ := triple_spec (mList_avail hc hd) (mList_avail hb hd) (mList_avail hb hc) hb.2.2 hc.2.2.neg hd.2.2 (s := det3 r.b r.c r.d) (by unfold det3; ring)
  obtain ⟨r2, q2, a2⟩ := triple_spec (mList_avail hd ha) (mList_avail ha hc) (mList_avail hc hd) hc.2.2 hd.2.2 ha.2.2 (s := det3 r.c r.d r.a) (by unfold det3; ring)
  obtain ⟨r3, q3, a3⟩ := triple_spec (mList_avail ha hb) (mList_avail hb hd) (mList_avail hd ha) hd.2.2 ha.2.2 hb.2.2 (s := det3 r.d r.a r.b) (by unfold det3; ring)
  obtain ⟨r4, q4, a4⟩ := triple_spec (mList_avail hb hc) (mList_avail ha hc) (mList_avail ha hb) ha.2.2 hb.2.2.neg hc.2.2 (s := det3 r.a r.b r.c) (by unfold det3; ring)
  obtain ⟨s1, p1, b1⟩ := hA a1
  obtain ⟨s2, p2, b2⟩ := hB a2
  obtain ⟨s3, p3, b3⟩ := hC a3
  obtain ⟨s4, p4, b4⟩ := hD a4
  obtain ⟨t1, w1, c1, -⟩ := asum b1 b2
  obtain ⟨t2, w2, c2, -⟩ := asum b3 b4
  obtain ⟨t3, w3, c3, d3⟩ := asum c1 c2
  refine ⟨t3, by simp [rowFin, q1, q2, q3, q4, p1, p2, p3, p4, w1, w2, w3], d3, ?_⟩
  rw [c3.2.2]
  ring

/-- The rounded rows. -/
def Rows.rd (r : Rows) : Rows := ⟨r.a.rd, r.b.rd, r.c.rd, r.d.rd⟩

/-- What is lost. -/
def Rows.lo (r : Rows) : Rows := ⟨r.a.lo, r.b.lo, r.c.lo, r.d.lo⟩

theorem rowsOf_eq (a b c d e : P3) : rowsOf a b c d e = (exactRows a b c d e).rd := rfl

theorem rowTails_eq {a b c d e : P3} (ha : a.IsF) (hb : b.IsF) (hc : c.IsF) (hd : d.IsF) (he : e.IsF) :
    rowTails a b c d e (rowsOf a b c d e) = (exactRows a b c d e).lo := by
  simp only [rowTails, rowsOf, fsub, twoDiffTail_spec ha.1 he.1, twoDiffTail_spec ha.2.1 he.2.1, twoDiffTail_spec ha.2.2 he.2.2,
    twoDiffTail_spec hb.1 he.1, twoDiffTail_spec hb.2.1 he.2.1, twoDiffTail_spec hb.2.2 he.2.2, twoDiffTail_spec hc.1 he.1, twoDiffTail_spec hc.2.1 he.2.1,
    twoDiffTail_spec hc.2.2 he.2.2, twoDiffTail_spec hd.1 he.1, twoDiffTail_spec hd.2.1 he.2.1, twoDiffTail_spec hd.2.2 he.2.2]
  rfl

/-- The four rounded heights. -/
def Hts.rd (h : Hts) : Hts := ⟨rn h.a, rn h.b, rn h.c, rn h.d⟩

@[inherit_doc Rows.lo] def Hts.lo (h : Hts) : Hts := ⟨lost h.a, lost h.b, lost h.c, lost h.d⟩

theorem htTails_eq {a b c d e : ℚ} (ha : IsF a) (hb : IsF b) (hc : IsF c) (hd : IsF d) (he : IsF e) :
    htTails a b c d e (htsOf a b c d e) = Hts.lo ⟨a - e, b - e, c - e, d - e⟩ := by
  simp only [htTails, htsOf, fsub, twoDiffTail_spec ha he, twoDiffTail_spec hb he, twoDiffTail_spec hc he, twoDiffTail_spec hd he]
  rfl

theorem rd_of_lo {p : P3} (h : p.lo.isZero) : p.rd = p := by
  obtain ⟨h1, h2, h3⟩ := h
  have := rn_add_lost p.x
  have := rn_add_lost p.y
  have := rn_add_lost p.z
  cases p
  simp only [P3.lo, P3.rd, P3.mk.injEq] at *
  refine ⟨?_, ?_, ?_⟩ <;> linarith

theorem Rows.rd_of_lo {r : Rows} (h : r.lo.isZero) : r.rd = r := by
  obtain ⟨h1, h2, h3, h4⟩ := h
  simp only [Rows.rd, Rows.lo] at *
  rw [Float.rd_of_lo h1, Float.rd_of_lo h2, Float.rd_of_lo h3, Float.rd_of_lo h4]

theorem Hts.rd_of_lo {h : Hts} (hz : h.lo.isZero) : h.rd = h := by
  obtain ⟨h1, h2, h3, h4⟩ := hz
  have := rn_add_lost h.a
  have := rn_add_lost h.b
  have := rn_add_lost h.c
  have := rn_add_lost h.d
  cases h
  simp only [Hts.rd, Hts.lo, Hts.mk.injEq] at *
  refine ⟨?_, ?_, ?_, ?_⟩ <;> linarith

/-- **`orient4d` is exact**: for any five points with double coordinates and any five double heights it does not panic and returns a number with the sign of
the determinant. -/
theorem c72_orient4d {a b c d e : P3} {ah bh ch dh eh : ℚ} (ha : a.IsF) (hb : b.IsF) (hc : c.IsF) (hd : d.IsF) (he : e.IsF)
    (ka : IsF ah) (kb : IsF bh) (kc : IsF ch) (kd : IsF dh) (ke : IsF eh) :
    ∃ r, orient4d a b c d e ah bh ch dh eh = some r ∧ SameSign r (orient4dDet a b c d e ah bh ch dh eh) := by
  obtain ⟨ex, hex, hexs⟩ := orient4dExact_spec ha hb hc hd he ka kb kc kd ke
  have tA := term_ok (row_minus (b.sub e) (c.sub e) (d.sub e)) (ah - eh)
  have tB := term_ok (row_plus (c.sub e) (d.sub e) (a.sub e)) (bh - eh)
  have tC := term_ok (row_plus (d.sub e) (a.sub e) (b.sub e)) (ch - eh)
  have tD := term_ok (row_minus (a.sub e) (b.sub e) (c.sub e)) (dh - eh)
  have hfin : ∃ fin, orient4dFin (rowsOf a b c d e) (htsOf ah bh ch dh eh) = some fin ∧ Proper fin ∧
      fin.sum = det4 (exactRows a b c d e).rd (Hts.rd ⟨ah - eh, bh - eh, ch - eh, dh - eh⟩) := by
    obtain ⟨fin, h1, h2, h3⟩ := rowFin_spec (r := rowsOf a b c d e) (a.sub e).rd_isF (b.sub e).rd_isF (c.sub e).rd_isF (d.sub e).rd_isF
      (ups_scale (rn_isF (ah - eh)).neg) (ups_scale (rn_isF (bh - eh))) (ups_scale (rn_isF (ch - eh)).neg) (ups_scale (rn_isF (dh - eh)))
    refine ⟨fin, h1, h2, h3.trans ?_⟩
    rw [rowsOf_eq]
    simp only [det4, Hts.rd]
    ring
  obtain ⟨fin, hf, hp, hs⟩ := hfin
  have hest := estimate_close hp.exp
  have hsame := estimate_sameSign hp.exp
  rw [hs] at hest hsame
  simp only [orient4d]
  split
  · next h => exact ⟨_, rfl, o4_stageA tA tB tC tD rfl h⟩
  simp only [orient4dAdapt, hf, Option.bind_eq_bind, Option.bind_some, adaptRest]
  split
  · next h => exact ⟨_, rfl, o4_stageB tA tB tC tD hest hsame h⟩
  next hB =>
  split
  · next h =>
    refine ⟨_, rfl, ?_⟩
    rw [rowTails_eq ha hb hc hd he, htTails_eq ka kb kc kd ke] at h
    obtain ⟨z1, z2⟩ := of_decide_eq_true h
    rw [Rows.rd_of_lo z1, Hts.rd_of_lo z2] at hsame
    exact hsame
  · split
    · next h =>
      refine ⟨_, rfl, o4_stageC tA tB tC tD hest ?_ ?_ h⟩
      · rw [rowTails_eq ha hb hc hd he, htTails_eq ka kb kc kd ke]
        rfl
      · refine lt_of_le_of_ne (perm_size tA tB tC tD).1 fun h0 => hB ?_
        have : rowPerm (rowsOf a b c d e) (htsOf ah bh ch dh eh).abs = 0 := h0.symm
        rw [this, fmul, mul_zero, rn_zero]
        rcases le_total 0 (estimate fin) with e | e
        · exact Or.inl e
        · exact Or.inr (by linarith)
    · exact ⟨ex, hex, hexs⟩

/-! ### What the sign means -/

/-- A function `u x + v y + w z + k`. -/
def affine (u v w k : ℚ) (p : P3) : ℚ := u * p.x + v * p.y + w * p.z + k

/-- If the affine function `f` takes the given heights at `a`, `b`, `c` and `d` then the determinant is the volume of the tetrahedron times the distance
of the height of `e` from the value of `f`. -/
theorem orient4dDet_eq (a b c d e : P3) (u v w k eh : ℚ) :
    orient4dDet a b c d e (affine u v w k a) (affine u v w k b) (affine u v w k c) (affine u v w k d) eh = vol6 a b c d * (affine u v w k e - eh) := by
  simp only [orient4dDet, det4, exactRows, det3, P3.sub, affine, vol6]
  ring

/-- **The meaning**: if `a b c d` is positively oriented then the answer is positive exactly if the lifted `e` lies below the hyperplane through the four other
lifted points, negative exactly if it lies above and zero exactly if it lies on it. -/
theorem c72_hyperplane {a b c d e : P3} {u v w k eh : ℚ} (ha : a.IsF) (hb : b.IsF) (hc : c.IsF) (hd : d.IsF) (he : e.IsF)
    (ka : IsF (affine u v w k a)) (kb : IsF (affine u v w k b)) (kc : IsF (affine u v w k c)) (kd : IsF (affine u v w k d)) (ke : IsF eh)
    (h : 0 < vol6 a b c d) :
    ∃ r, orient4d a b c d e (affine u v w k a) (affine u v w k b) (affine u v w k c) (affine u v w k d) eh = some r ∧
      (0 < r ↔ eh < affine u v w k e) ∧ (r < 0 ↔ affine u v w k e < eh) ∧ (r = 0 ↔ eh = affine u v w k e) := by
  obtain ⟨r, hr, hs⟩ := c72_orient4d ha hb hc hd he ka kb kc kd ke
  rw [orient4dDet_eq] at hs
  have pos : 0 < r ↔ eh < affine u v w k e := by rw [hs.1, mul_pos_iff_of_pos_left h, sub_pos]
  have neg : r < 0 ↔ affine u v w k e < eh := by rw [hs.2, ← neg_pos, ← mul_neg, mul_pos_iff_of_pos_left h, neg_sub, sub_pos]
  refine ⟨r, hr, pos, neg, ?_⟩
  constructor
  · intro h0
    rw [h0] at pos neg
    exact le_antisymm (not_lt.1 fun k => lt_irrefl _ (neg.2 k)) (not_lt.1 fun k => lt_irrefl _ (pos.2 k))
  · intro h0
    rw [h0] at pos neg
    exact le_antisymm (not_lt.1 fun k => lt_irrefl _ (pos.1 k)) (not_lt.1 fun k => lt_irrefl _ (neg.1 k))

theorem SameSign.neg_of {s r D E : ℚ} (h : SameSign s E) (h0 : SameSign r D) (e : E = -D) : SameSign s (-r) := by
  unfold SameSign at *
  rw [e] at h
  rw [neg_pos, neg_lt_zero] at *
  exact ⟨h.1.trans h0.2.symm, h.2.trans h0.1.symm⟩

/-- **Consistency**: exchanging two neighbours of the five lifted points exactly reverses the answer. -/
theorem c72_swap {a b c d e : P3} {ah bh ch dh eh : ℚ} (ha : a.IsF) (hb : b.IsF) (hc : c.IsF) (hd : d.IsF) (he : e.IsF)
    (ka : IsF ah) (kb : IsF bh) (kc : IsF ch) (kd : IsF dh) (ke : IsF eh) :
    ∃ r s1 s2 s3 s4, orient4d a b c d e ah bh ch dh eh = some r ∧ orient4d b a c d e bh ah ch dh eh = some s1 ∧
      orient4d a c b d e ah ch bh dh eh = some s2 ∧ orient4d a b d c e ah bh dh ch eh = some s3 ∧ orient4d a b c e d ah bh ch eh dh = some s4 ∧
      ∀ s ∈ [s1, s2, s3, s4], SameSign s (-r) := by
  obtain ⟨r, hr, h0⟩ := c72_orient4d ha hb hc hd he ka kb kc kd ke
  obtain ⟨s1, q1, h1⟩ := c72_orient4d hb ha hc hd he kb ka kc kd ke
  obtain ⟨s2, q2, h2⟩ := c72_orient4d ha hc hb hd he ka kc kb kd ke
  obtain ⟨s3, q3, h3⟩ := c72_orient4d ha hb hd hc he ka kb kd kc ke
  obtain ⟨s4, q4, h4⟩ := c72_orient4d ha hb hc he hd ka kb kc ke kd
  refine ⟨r, s1, s2, s3, s4, hr, q1, q2, q3, q4, ?_⟩
  have e1 : orient4dDet b a c d e bh ah ch dh eh = -orient4dDet a b c d e ah bh ch dh eh := by
    simp only [orient4dDet, det4, exactRows, det3, P3.sub]; ring
  have e2 : orient4dDet a c b d e ah ch bh dh eh = -orient4dDet a b c d e ah bh ch dh eh := by
    simp only [orient4dDet, det4, exactRows, det3, P3.sub]; ring
  have e3 : orient4dDet a b d c e ah bh dh ch eh = -orient4dDet a b c d e ah bh ch dh eh := by
    simp only [orient4dDet, det4, exactRows, det3, P3.sub]; ring
  have e4 : orient4dDet a b c e d ah bh ch eh dh = -orient4dDet a b c d e ah bh ch dh eh := by
    simp only [orient4dDet, det4, exactRows, det3, P3.sub]; ring
  intro s hs
  rcases (by simpa using hs : s = s1 ∨ s = s2 ∨ s = s3 ∨ s = s4) with rfl | rfl | rfl | rfl
  exacts [h1.neg_of h0 e1, h2.neg_of h0 e2, h3.neg_of h0 e3, h4.neg_of h0 e4]

/-- A point on, above and below the hyperplane `height = x + y + z` over a negatively oriented tetrahedron. -/
example : orient4d ⟨0, 1, 0⟩ ⟨1, 0, 0⟩ ⟨0, 0, 1⟩ ⟨0, 0, 0⟩ ⟨1, 1, 2⟩ 1 1 1 0 4 = some 0 ∧
    orient4d ⟨0, 1, 0⟩ ⟨1, 0, 0⟩ ⟨0, 0, 1⟩ ⟨0, 0, 0⟩ ⟨1, 1, 2⟩ 1 1 1 0 (4 + 1 / 2 ^ 50) = some (1 / 2 ^ 50) ∧
    orient4d ⟨0, 1, 0⟩ ⟨1, 0, 0⟩ ⟨0, 0, 1⟩ ⟨0, 0, 0⟩ ⟨1, 1, 2⟩ 1 1 1 0 3 = some (-1) ∧ vol6 ⟨0, 1, 0⟩ ⟨1, 0, 0⟩ ⟨0, 0, 1⟩ ⟨0, 0, 0⟩ = -1 := by
  decide +kernel

/-- The last stage finds what is below double precision. -/
example : orient4d ⟨1, 0, 0⟩ ⟨0, 1, 0⟩ ⟨0, 0, 1⟩ ⟨0, 0, 0⟩ ⟨1, 1, 1⟩ 1 1 1 (1 / 2 ^ 100) 3 = some (-1 / 2 ^ 99) ∧
    vol6 ⟨1, 0, 0⟩ ⟨0, 1, 0⟩ ⟨0, 0, 1⟩ ⟨0, 0, 0⟩ = 1 := by decide +kernel

end Verif.Float
