import Verif.Float.Orient4d
/-!
# `insphere`: the filters
-/
namespace Verif.Float

local notation "ε" => (1 / 9007199254740992 : ℚ)

/-! ### The fourth column -/

theorem P3.sq_nonneg (p : P3) : 0 ≤ p.sq := add_nonneg (add_nonneg (mul_self_nonneg _) (mul_self_nonneg _)) (mul_self_nonneg _)

theorem sq_diff (p : P3) : |p.sq - p.rd.sq| ≤ p.rd.sq * (2 * ε + ε ^ 2) := by
  have h1 := prod_close p.x p.x
  have h2 := prod_close p.y p.y
  have h3 := prod_close p.z p.z
  rw [abs_mul_self] at h1 h2 h3
  have t1 := abs_add_le (p.x * p.x - rn p.x * rn p.x + (p.y * p.y - rn p.y * rn p.y)) (p.z * p.z - rn p.z * rn p.z)
  have t2 := abs_add_le (p.x * p.x - rn p.x * rn p.x) (p.y * p.y - rn p.y * rn p.y)
  rw [show p.x * p.x - rn p.x * rn p.x + (p.y * p.y - rn p.y * rn p.y) + (p.z * p.z - rn p.z * rn p.z) = p.sq - p.rd.sq by
    simp only [P3.sq, P3.rd]; ring] at t1
  refine t1.trans ((add_le_add (t2.trans (add_le_add h1 h2)) h3).trans (le_of_eq ?_))
  simp only [P3.sq, P3.rd]; ring

theorem sqF_nonneg (p : P3) : 0 ≤ sqF p :=
  rn_nonneg (add_nonneg (rn_nonneg (add_nonneg (rn_nonneg (mul_self_nonneg _)) (rn_nonneg (mul_self_nonneg _)))) (rn_nonneg (mul_self_nonneg _)))

theorem sqF_bounds (p : P3) : p.sq ≤ sqF p * (1 + ε) ^ 3 ∧ |p.sq - sqF p| ≤ p.sq * (3 * ε + 7 * ε ^ 2) ∧ |p.sq - sqF p| ≤ sqF p * (3 * ε + 7 * ε ^ 2) := by
  have k1 := mul_self_nonneg p.x
  have k2 := mul_self_nonneg p.y
  have k3 := mul_self_nonneg p.z
  unfold P3.sq sqF fadd fmul
  generalize p.x * p.x = x at *
  generalize p.y * p.y = y at *
  generalize p.z * p.z = z at *
  have a1 := rr x
  have a2 := rr y
  have a3 := rr z
  have n1 := rn_nonneg k1
  have n2 := rn_nonneg k2
  have n3 := rn_nonneg k3
  rw [abs_of_nonneg n1] at a1
  rw [abs_of_nonneg n2] at a2
  rw [abs_of_nonneg n3] at a3
  generalize rn x = x1 at *
  generalize rn y = y1 at *
  generalize rn z = z1 at *
  have a4 := rr (x1 + y1)
  have n4 := rn_nonneg (add_nonneg n1 n2)
  rw [abs_of_nonneg n4] at a4
  generalize rn (x1 + y1) = s at *
  have a5 := rr (s + z1)
  have n5 := rn_nonneg (add_nonneg n4 n3)
  rw [abs_of_nonneg n5] at a5
  generalize rn (s + z1) = L at *
  obtain ⟨b1, c1⟩ := abs_le.1 a1
  obtain ⟨b2, c2⟩ := abs_le.1 a2
  obtain ⟨b3, c3⟩ := abs_le.1 a3
  obtain ⟨b4, c4⟩ := abs_le.1 a4
  obtain ⟨b5, c5⟩ := abs_le.1 a5
  norm_num at b1 b2 b3 b4 b5 c1 c2 c3 c4 c5 ⊢
  refine ⟨by linarith, abs_le.2 ⟨by linarith, by linarith⟩, abs_le.2 ⟨by linarith, by linarith⟩⟩

/-- The first and second order changes of the squared length. -/
theorem sq_tails (p : P3) :
    |rn p.x * lost p.x + rn p.y * lost p.y + rn p.z * lost p.z - dotF p.rd p.lo| ≤ p.rd.sq * (3 * ε ^ 2 + 4 * ε ^ 3) ∧
    |dotF p.rd p.lo| ≤ p.rd.sq * (ε + 4 * ε ^ 2) ∧ |rn p.x * lost p.x + rn p.y * lost p.y + rn p.z * lost p.z| ≤ p.rd.sq * ε ∧
    |lost p.x * lost p.x + lost p.y * lost p.y + lost p.z * lost p.z| ≤ p.rd.sq * ε ^ 2 := by
  have h1 := mul_tail_le p.x p.x
  have h2 := mul_tail_le p.y p.y
  have h3 := mul_tail_le p.z p.z
  have h4 := tail_tail_le p.x p.x
  have h5 := tail_tail_le p.y p.y
  have h6 := tail_tail_le p.z p.z
  rw [abs_mul_self (rn _)] at h1 h2 h3 h4 h5 h6
  have w4 : |lost p.x * lost p.x + lost p.y * lost p.y + lost p.z * lost p.z| ≤ p.rd.sq * ε ^ 2 := by
    have t1 := abs_add_le (lost p.x * lost p.x + lost p.y * lost p.y) (lost p.z * lost p.z)
    have t2 := abs_add_le (lost p.x * lost p.x) (lost p.y * lost p.y)
    simp only [P3.sq, P3.rd, lost] at *
    norm_num at h4 h5 h6 t1 t2 ⊢
    linarith
  have k1 := mul_self_nonneg (rn p.x)
  have k2 := mul_self_nonneg (rn p.y)
  have k3 := mul_self_nonneg (rn p.z)
  have r1 := rr' (rn p.x * lost p.x)
  have r2 := rr' (rn p.y * lost p.y)
  have r3 := rr' (rn p.z * lost p.z)
  have s1 := abs_rn_le' (rn p.x * lost p.x)
  have s2 := abs_rn_le' (rn p.y * lost p.y)
  have s3 := abs_rn_le' (rn p.z * lost p.z)
  simp only [dotF, P3.sq, P3.rd, P3.lo, fadd, fmul] at *
  rw [show p.x - rn p.x = lost p.x from rfl] at h1
  rw [show p.y - rn p.y = lost p.y from rfl] at h2
  rw [show p.z - rn p.z = lost p.z from rfl] at h3
  generalize rn p.x * rn p.x = X at *
  generalize rn p.y * rn p.y = Y at *
  generalize rn p.z * rn p.z = Z at *
  generalize rn p.x * lost p.x = x at *
  generalize rn p.y * lost p.y = y at *
  generalize rn p.z * lost p.z = z at *
  generalize rn x = x1 at *
  generalize rn y = y1 at *
  generalize rn z = z1 at *
  have r4 := rr' (x1 + y1)
  have s4 := abs_rn_le' (x1 + y1)
  have t4 := abs_add_le x1 y1
  generalize rn (x1 + y1) = s at *
  have r5 := rr' (s + z1)
  have s5 := abs_rn_le' (s + z1)
  have t5 := abs_add_le s z1
  generalize rn (s + z1) = g at *
  have u1 := abs_add_le ((x - x1) + (y - y1)) ((z - z1) + ((x1 + y1 - s) + (s + z1 - g)))
  have u2 := abs_add_le (x - x1) (y - y1)
  have u3 := abs_add_le (z - z1) ((x1 + y1 - s) + (s + z1 - g))
  have u4 := abs_add_le (x1 + y1 - s) (s + z1 - g)
  have u5 := abs_add_le (x + y) z
  have u6 := abs_add_le x y
  rw [show (x - x1) + (y - y1) + ((z - z1) + ((x1 + y1 - s) + (s + z1 - g))) = x + y + z - g by ring] at u1
  refine ⟨?_, ?_, ?_, w4⟩ <;> norm_num at h1 h2 h3 r1 r2 r3 r4 r5 s1 s2 s3 s4 s5 t4 t5 u1 u2 u3 u4 u5 u6 ⊢ <;> linarith

/-- A summand of the determinant: exact, on the rounded differences, the two parts of its correction, its part of the permanent and its size. -/
structure STermOk (T V c l A Q : ℚ) : Prop where
  nonneg : 0 ≤ Q
  A_nonneg : 0 ≤ A
  size : Q ≤ A * (1 + ε) ^ 9
  diff : |T - V| ≤ Q * (5 * ε + 13 * ε ^ 2)
  val : |V| ≤ Q
  corr : |T - V - c - 2 * l| ≤ Q * (62 * ε ^ 2)
  c_le : |c| ≤ Q * (3 * ε + 50 * ε ^ 2)
  l_le : |l| ≤ Q * (ε + 15 * ε ^ 2)

theorem sterm_ok {X Xr Xc K J A Q : ℚ} (h : RowOk X Xr Xc K J A Q) (p : P3) :
    STermOk (p.sq * X) (p.rd.sq * Xr) (fmul (sqF p.rd) K) (fmul (dotF p.rd p.lo) J) (fmul A (sqF p.rd)) (p.rd.sq * Q) := by
  have A0 := (abs_nonneg _).trans h.le
  have Q0 := h.nonneg
  have S0 := p.rd.sq_nonneg
  have L0 := sqF_nonneg p.rd
  obtain ⟨z1, z2, -⟩ := sqF_bounds p.rd
  obtain ⟨g1, g2, l1, l2⟩ := sq_tails p
  have hH : p.sq = p.rd.sq + 2 * (rn p.x * lost p.x + rn p.y * lost p.y + rn p.z * lost p.z) + (lost p.x * lost p.x + lost p.y * lost p.y + lost p.z * lost p.z) := by
    simp only [P3.sq, P3.rd, lost]; ring
  have hd := sq_diff p
  generalize rn p.x * lost p.x + rn p.y * lost p.y + rn p.z * lost p.z = l at *
  generalize lost p.x * lost p.x + lost p.y * lost p.y + lost p.z * lost p.z = l' at *
  generalize dotF p.rd p.lo = G at *
  generalize sqF p.rd = L at *
  generalize p.rd.sq = S at *
  generalize p.sq = H at *
  have S1 : |S| ≤ S * 1 := by rw [abs_of_nonneg S0, mul_one]
  have X1 : |Xr| ≤ Q * 1 := by rw [mul_one]; exact h.val
  have hX : |X| ≤ Q * (1 + 4 * ε) := by
    have := abs_add_le (X - Xr) Xr
    rw [sub_add_cancel] at this
    have h1 := h.diff
    have h2 := h.val
    norm_num at *; linarith
  have hXJ : |X - J| ≤ Q * (8 * ε + 40 * ε ^ 2) := by
    have := abs_add_le (X - Xr) (Xr - J)
    rw [sub_add_sub_cancel] at this
    have h1 := h.diff
    have h2 := h.top
    norm_num at *; linarith
  have hJ : |J| ≤ Q * (1 + 6 * ε) := by
    have := abs_sub Xr (Xr - J)
    rw [sub_sub_cancel] at this
    have h1 := h.val
    have h2 := h.top
    norm_num at *; linarith
  have hL : |L| ≤ S * (1 + 3 * ε + 7 * ε ^ 2) := by
    have := abs_sub S (S - L)
    rw [sub_sub_cancel, abs_of_nonneg S0] at this
    linarith
  have b1 := mul_bound hd hX
  have b2 := mul_bound S1 h.diff
  have b3 := mul_bound S1 h.corr
  have b4 := mul_bound z2 h.corr_le
  have b5 := mul_bound hL h.corr_le
  have b6 := mul_bound l1 hXJ
  have b7 := mul_bound g1 hJ
  have b8 := mul_bound g2 hJ
  have b9 := mul_bound l2 hX
  have m0 := mul_rn_le A0 L0
  have q0 : 0 ≤ S * Q := mul_nonneg S0 Q0
  refine ⟨q0, rn_nonneg (mul_nonneg A0 L0), ?_, ?_, ?_, ?_, ?_, ?_⟩
  · have := mul_le_mul z1 h.size Q0 (by positivity)
    refine this.trans ?_
    rw [show L * (1 + ε) ^ 3 * (A * (1 + ε) ^ 5) = A * L * (1 + ε) ^ 8 by ring]
    unfold fmul
    generalize A * L = B at *
    norm_num at m0 ⊢
    linarith
  · have u1 := abs_add_le ((H - S) * X) (S * (X - Xr))
    rw [show (H - S) * X + S * (X - Xr) = H * X - S * Xr by ring] at u1
    generalize S * Q = q at *
    norm_num at b1 b2 u1 ⊢
    linarith
  · have := mul_bound S1 X1
    rwa [mul_one, mul_one] at this
  · unfold fmul
    have r1 := rr' (L * K)
    have r2 := rr' (G * J)
    have u1 := abs_add_le (S * (X - Xr - K) + (S - L) * K) ((L * K - rn (L * K)) + (2 * (l * (X - J) + (l - G) * J + (G * J - rn (G * J))) + l' * X))
    have u2 := abs_add_le (S * (X - Xr - K)) ((S - L) * K)
    have u3 := abs_add_le (L * K - rn (L * K)) (2 * (l * (X - J) + (l - G) * J + (G * J - rn (G * J))) + l' * X)
    have u4 := abs_add_le (2 * (l * (X - J) + (l - G) * J + (G * J - rn (G * J)))) (l' * X)
    have u5 := abs_add_le (l * (X - J) + (l - G) * J) (G * J - rn (G * J))
    have u6 := abs_add_le (l * (X - J)) ((l - G) * J)
    rw [abs_mul 2, abs_two] at u4
    rw [show S * (X - Xr - K) + (S - L) * K + ((L * K - rn (L * K)) + (2 * (l * (X - J) + (l - G) * J + (G * J - rn (G * J))) + l' * X)) =
      (S + 2 * l + l') * X - S * Xr - rn (L * K) - 2 * rn (G * J) by ring, ← hH] at u1
    generalize |S * (X - Xr - K) + (S - L) * K| = y0 at *
    generalize |L * K - rn (L * K) + (2 * (l * (X - J) + (l - G) * J + (G * J - rn (G * J))) + l' * X)| = y1 at *
    generalize |2 * (l * (X - J) + (l - G) * J + (G * J - rn (G * J))) + l' * X| = y2 at *
    generalize |l * (X - J) + (l - G) * J + (G * J - rn (G * J))| = y3 at *
    generalize |l * (X - J) + (l - G) * J| = y4 at *
    generalize |L * K - rn (L * K)| = y5 at *
    generalize |G * J - rn (G * J)| = y6 at *
    generalize |S * (X - Xr - K)| = y7 at *
    generalize |(S - L) * K| = y8 at *
    generalize |L * K| = y9 at *
    generalize |l * (X - J)| = y10 at *
    generalize |(l - G) * J| = y11 at *
    generalize |G * J| = y12 at *
    generalize |l' * X| = y13 at *
    generalize S * Q = q at *
    norm_num at b3 b4 b5 b6 b7 b8 b9 r1 r2 u1 u2 u3 u4 u5 u6 ⊢
    linarith
  · have r1 := abs_rn_le' (L * K)
    unfold fmul
    generalize S * Q = q at *
    generalize |L * K| = y1 at *
    norm_num at b5 r1 ⊢
    linarith
  · have r1 := abs_rn_le' (G * J)
    unfold fmul
    generalize S * Q = q at *
    generalize |G * J| = y1 at *
    norm_num at b8 r1 ⊢
    linarith

theorem sperm_size {T1 V1 c1 l1 A1 Q1 T2 V2 c2 l2 A2 Q2 T3 V3 c3 l3 A3 Q3 T4 V4 c4 l4 A4 Q4 : ℚ} (h1 : STermOk T1 V1 c1 l1 A1 Q1)
    (h2 : STermOk T2 V2 c2 l2 A2 Q2) (h3 : STermOk T3 V3 c3 l3 A3 Q3) (h4 : STermOk T4 V4 c4 l4 A4 Q4) :
    0 ≤ perm4 A1 A2 A3 A4 ∧ Q1 + Q2 + Q3 + Q4 ≤ perm4 A1 A2 A3 A4 * (1 + 12 * ε + 100 * ε ^ 2) := by
  obtain ⟨n, hp⟩ := perm4_le h1.A_nonneg h2.A_nonneg h3.A_nonneg h4.A_nonneg
  refine ⟨n, ?_⟩
  have c1 := h1.size
  have c2 := h2.size
  have c3 := h3.size
  have c4 := h4.size
  norm_num at c1 c2 c3 c4 hp ⊢
  linarith

theorem sameSign_or {r D b : ℚ} (h : |D - r| ≤ |r| + b) : SameSign r D ∨ |D| ≤ b := by
  by_cases hb : |D| ≤ b
  · exact Or.inr hb
  left
  rw [not_le] at hb
  rcases lt_trichotomy r 0 with h0 | h0 | h0
  · rw [abs_of_neg h0] at h
    obtain ⟨e1, e2⟩ := abs_le.1 h
    have : D < 0 := by
      by_contra hc
      rw [not_lt] at hc
      rw [abs_of_nonneg hc] at hb
      linarith
    exact ⟨⟨fun k => by linarith, fun k => by linarith⟩, ⟨fun _ => this, fun _ => h0⟩⟩
  · rw [h0, sub_zero, abs_zero, zero_add] at h
    linarith
  · rw [abs_of_pos h0] at h
    obtain ⟨e1, e2⟩ := abs_le.1 h
    have : 0 < D := by
      by_contra hc
      rw [not_lt] at hc
      rw [abs_of_nonpos hc] at hb
      linarith
    exact ⟨⟨fun _ => this, fun _ => h0⟩, ⟨fun k => by linarith, fun k => by linarith⟩⟩

/-- The second filter. -/
theorem is_stageB {T1 V1 c1 l1 A1 Q1 T2 V2 c2 l2 A2 Q2 T3 V3 c3 l3 A3 Q3 T4 V4 c4 l4 A4 Q4 : ℚ} (h1 : STermOk T1 V1 c1 l1 A1 Q1)
    (h2 : STermOk T2 V2 c2 l2 A2 Q2) (h3 : STermOk T3 V3 c3 l3 A3 Q3) (h4 : STermOk T4 V4 c4 l4 A4 Q4) {est : ℚ}
    (he : |est - (V4 - V3 + (V2 - V1))| ≤ (5 / 2 + 8 / 9007199254740992) / 9007199254740992 * |V4 - V3 + (V2 - V1)|)
    (h : est ≥ fmul ispB (perm4 A1 A2 A3 A4) ∨ -est ≥ fmul ispB (perm4 A1 A2 A3 A4)) :
    SameSign est (T4 - T3 + (T2 - T1)) ∨ |T4 - T3 + (T2 - T1)| ≤ (Q1 + Q2 + Q3 + Q4) * (20 * ε ^ 2) := by
  obtain ⟨n, hp⟩ := sperm_size h1 h2 h3 h4
  have hlt : fmul ispB (perm4 A1 A2 A3 A4) ≤ |est| := by
    rcases h with h | h
    · exact h.trans (le_abs_self _)
    · exact h.trans (neg_le_abs _)
  generalize perm4 A1 A2 A3 A4 = P at *
  have a6 := mul_rn_le (a := ispB) (b := P) (by rw [ispB_eq]; norm_num) n
  simp only [fmul] at hlt
  generalize rn (ispB * P) = eb at *
  rw [ispB_eq] at a6
  have d1 := h1.diff
  have d2 := h2.diff
  have d3 := h3.diff
  have d4 := h4.diff
  have q1 := h1.nonneg
  have q2 := h2.nonneg
  have q3 := h3.nonneg
  have q4 := h4.nonneg
  have v1 := h1.val
  have v2 := h2.val
  have v3 := h3.val
  have v4 := h4.val
  have u1 := abs_add_le ((T4 - V4) - (T3 - V3)) ((T2 - V2) - (T1 - V1))
  have u2 := abs_sub (T4 - V4) (T3 - V3)
  have u3 := abs_sub (T2 - V2) (T1 - V1)
  rw [show (T4 - V4) - (T3 - V3) + ((T2 - V2) - (T1 - V1)) = T4 - T3 + (T2 - T1) - (V4 - V3 + (V2 - V1)) by ring] at u1
  generalize T4 - T3 + (T2 - T1) = D at *
  generalize V4 - V3 + (V2 - V1) = B at *
  have w1 := abs_sub (D - B) (est - B)
  have w2 := abs_sub est (est - B)
  rw [show D - B - (est - B) = D - est by ring] at w1
  rw [show est - (est - B) = B by ring] at w2
  apply sameSign_or
  have e0 := abs_nonneg est
  have e1 := abs_nonneg B
  generalize |est| = y1 at *
  generalize |B| = y2 at *
  norm_num at d1 d2 d3 d4 u1 u2 u3 he hp a6 hlt w1 w2 ⊢
  linarith

/-- The third filter. -/
theorem is_stageC {T1 V1 c1 l1 A1 Q1 T2 V2 c2 l2 A2 Q2 T3 V3 c3 l3 A3 Q3 T4 V4 c4 l4 A4 Q4 : ℚ} (h1 : STermOk T1 V1 c1 l1 A1 Q1)
    (h2 : STermOk T2 V2 c2 l2 A2 Q2) (h3 : STermOk T3 V3 c3 l3 A3 Q3) (h4 : STermOk T4 V4 c4 l4 A4 Q4) {est corr : ℚ}
    (he : |est - (V4 - V3 + (V2 - V1))| ≤ (5 / 2 + 8 / 9007199254740992) / 9007199254740992 * |V4 - V3 + (V2 - V1)|)
    (hc : corr = fadd (fsub (fadd c2 c4) (fadd c1 c3)) (2 * fsub (fadd l2 l4) (fadd l1 l3)))
    (h : fadd est corr ≥ fadd (fmul ispC (perm4 A1 A2 A3 A4)) (fmul resErr |est|) ∨
      -fadd est corr ≥ fadd (fmul ispC (perm4 A1 A2 A3 A4)) (fmul resErr |est|)) :
    SameSign (fadd est corr) (T4 - T3 + (T2 - T1)) ∨ |T4 - T3 + (T2 - T1)| ≤ (Q1 + Q2 + Q3 + Q4) * (20 * ε ^ 2) := by
  obtain ⟨n, hp⟩ := sperm_size h1 h2 h3 h4
  generalize perm4 A1 A2 A3 A4 = P at *
  have hb : (71 + 1408 / 2 ^ 53) / 2 ^ 53 / 2 ^ 53 * P + (3 + 8 / 2 ^ 53) / 2 ^ 53 * |est| ≤ |fadd est corr| * (1 + ε) ^ 2 := by
    generalize fadd est corr = det at *
    have k0 : 0 ≤ ispC := by rw [ispC_eq]; norm_num
    have k1 : 0 ≤ resErr := by rw [resErr_eq]; norm_num
    have n1 := mul_nonneg k0 n
    have n2 := mul_nonneg k1 (abs_nonneg est)
    have g1 : fadd (fmul ispC P) (fmul resErr |est|) ≤ |det| := by
      rcases h with h | h
      · exact le_trans h (le_abs_self _)
      · exact le_trans h (neg_le_abs _)
    have g2 := add_rn_le (rn_nonneg n1) (rn_nonneg n2)
    have g3 := mul_rn_le k0 n
    have g4 := mul_rn_le k1 (abs_nonneg est)
    simp only [fadd, fmul] at g1
    generalize rn (rn (ispC * P) + rn (resErr * |est|)) = f1 at *
    generalize rn (ispC * P) = f2 at *
    generalize rn (resErr * |est|) = f3 at *
    rw [ispC_eq] at *
    rw [resErr_eq] at *
    generalize |est| = f5 at *
    norm_num at g1 g2 g3 g4 ⊢
    linarith
  simp only [fadd, fsub] at hc hb ⊢
  have d0 := rr (est + corr)
  generalize rn (est + corr) = det at *
  have s1 := rr' (c2 + c4)
  have s2 := rr' (c1 + c3)
  have s3 := rr' (l2 + l4)
  have s4 := rr' (l1 + l3)
  have m1 := abs_rn_le' (c2 + c4)
  have m2 := abs_rn_le' (c1 + c3)
  have m3 := abs_rn_le' (l2 + l4)
  have m4 := abs_rn_le' (l1 + l3)
  have a1 := abs_add_le c2 c4
  have a2 := abs_add_le c1 c3
  have a3 := abs_add_le l2 l4
  have a4 := abs_add_le l1 l3
  generalize rn (c2 + c4) = x1 at *
  generalize rn (c1 + c3) = x2 at *
  generalize rn (l2 + l4) = x3 at *
  generalize rn (l1 + l3) = x4 at *
  have s5 := rr' (x1 - x2)
  have s6 := rr' (x3 - x4)
  have m5 := abs_rn_le' (x1 - x2)
  have m6 := abs_rn_le' (x3 - x4)
  have a5 := abs_sub x1 x2
  have a6 := abs_sub x3 x4
  generalize rn (x1 - x2) = y1 at *
  generalize rn (x3 - x4) = y2 at *
  have s7 := rr' (y1 + 2 * y2)
  have a7 := abs_add_le y1 (2 * y2)
  rw [abs_mul 2, abs_two] at a7
  rw [← hc] at s7
  have K : |T4 - T3 + (T2 - T1) - (V4 - V3 + (V2 - V1)) - corr| ≤ (Q1 + Q2 + Q3 + Q4) * (78 * ε ^ 2) := by
    have k1 := h1.corr
    have k2 := h2.corr
    have k3 := h3.corr
    have k4 := h4.corr
    have k5 := h1.c_le
    have k6 := h2.c_le
    have k7 := h3.c_le
    have k8 := h4.c_le
    have k9 := h1.l_le
    have k10 := h2.l_le
    have k11 := h3.l_le
    have k12 := h4.l_le
    have q1 := h1.nonneg
    have q2 := h2.nonneg
    have q3 := h3.nonneg
    have q4 := h4.nonneg
    have w1 := abs_add_le (((T4 - V4 - c4 - 2 * l4) - (T3 - V3 - c3 - 2 * l3)) + ((T2 - V2 - c2 - 2 * l2) - (T1 - V1 - c1 - 2 * l1)))
      ((((c2 + c4 - x1) - (c1 + c3 - x2)) + 2 * ((l2 + l4 - x3) - (l1 + l3 - x4))) + (((x1 - x2 - y1) + 2 * (x3 - x4 - y2)) + (y1 + 2 * y2 - corr)))
    have w2 := abs_add_le ((T4 - V4 - c4 - 2 * l4) - (T3 - V3 - c3 - 2 * l3)) ((T2 - V2 - c2 - 2 * l2) - (T1 - V1 - c1 - 2 * l1))
    have w3 := abs_sub (T4 - V4 - c4 - 2 * l4) (T3 - V3 - c3 - 2 * l3)
    have w4 := abs_sub (T2 - V2 - c2 - 2 * l2) (T1 - V1 - c1 - 2 * l1)
    have w5 := abs_add_le (((c2 + c4 - x1) - (c1 + c3 - x2)) + 2 * ((l2 + l4 - x3) - (l1 + l3 - x4))) (((x1 - x2 - y1) + 2 * (x3 - x4 - y2)) + (y1 + 2 * y2 - corr))
    have w6 := abs_add_le ((c2 + c4 - x1) - (c1 + c3 - x2)) (2 * ((l2 + l4 - x3) - (l1 + l3 - x4)))
    have w7 := abs_sub (c2 + c4 - x1) (c1 + c3 - x2)
    have w8 := abs_sub (l2 + l4 - x3) (l1 + l3 - x4)
    have w9 := abs_add_le ((x1 - x2 - y1) + 2 * (x3 - x4 - y2)) (y1 + 2 * y2 - corr)
    have w10 := abs_add_le (x1 - x2 - y1) (2 * (x3 - x4 - y2))
    rw [abs_mul 2, abs_two] at w6 w10
    rw [show ((T4 - V4 - c4 - 2 * l4) - (T3 - V3 - c3 - 2 * l3)) + ((T2 - V2 - c2 - 2 * l2) - (T1 - V1 - c1 - 2 * l1)) +
      ((((c2 + c4 - x1) - (c1 + c3 - x2)) + 2 * ((l2 + l4 - x3) - (l1 + l3 - x4))) + (((x1 - x2 - y1) + 2 * (x3 - x4 - y2)) + (y1 + 2 * y2 - corr))) =
      T4 - T3 + (T2 - T1) - (V4 - V3 + (V2 - V1)) - corr by ring] at w1
    norm_num at k1 k2 k3 k4 k5 k6 k7 k8 k9 k10 k11 k12 s1 s2 s3 s4 s5 s6 s7 m1 m2 m3 m4 m5 m6 a1 a2 a3 a4 a5 a6 a7 w1 w2 w3 w4 w5 w6 w7 w8 w9 w10 ⊢
    linarith
  have q := (abs_nonneg _).trans K
  apply sameSign_or
  generalize T4 - T3 + (T2 - T1) = D at *
  generalize V4 - V3 + (V2 - V1) = B at *
  have w1 := abs_add_le (D - B - corr) ((est + corr - det) - (est - B))
  have w2 := abs_sub (est + corr - det) (est - B)
  have w3 := abs_sub est (est - B)
  rw [show D - B - corr + ((est + corr - det) - (est - B)) = D - det by ring] at w1
  rw [show est - (est - B) = B by ring] at w3
  have e0 := abs_nonneg est
  generalize |est| = z1 at *
  generalize |B| = z2 at *
  norm_num at K he hp hb d0 w1 w2 w3 q ⊢
  linarith

end Verif.Float
