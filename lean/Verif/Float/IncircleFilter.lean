import Verif.Float.Incircle
import Verif.Float.Orient3dFilter
/-!
# The filters of `incircle`

Each of the three summands of the determinant is `(p² + q²) * (x * y - u * v)` with differences of coordinates, which the code rounds.
-/
namespace Verif.Float

theorem iccA_eq : iccA = (10 + 96 / 2 ^ 53) / 2 ^ 53 := by decide +kernel
theorem iccB_eq : iccB = (4 + 48 / 2 ^ 53) / 2 ^ 53 := by decide +kernel
theorem iccC_eq : iccC = (44 + 576 / 2 ^ 53) / 2 ^ 53 / 2 ^ 53 := by decide +kernel

/-- The computed sum of the squares. -/
def icL (p q : ℚ) : ℚ := rn (rn (rn p * rn p) + rn (rn q * rn q))

theorem icL_nonneg (p q : ℚ) : 0 ≤ icL p q := rn_nonneg (add_nonneg (rn_nonneg (mul_self_nonneg _)) (rn_nonneg (mul_self_nonneg _)))

/-- The sum of the squares of the rounded differences. -/
def icS (p q : ℚ) : ℚ := rn p * rn p + rn q * rn q

theorem icS_nonneg (p q : ℚ) : 0 ≤ icS p q := add_nonneg (mul_self_nonneg _) (mul_self_nonneg _)

theorem lift_diff (p q : ℚ) : |p * p + q * q - icS p q| ≤ icS p q * (2 / 9007199254740992 + 1 / 9007199254740992 ^ 2) := by
  have h1 := prod_close p p
  have h2 := prod_close q q
  have t := abs_add_le (p * p - rn p * rn p) (q * q - rn q * rn q)
  rw [abs_mul_self] at h1 h2
  rw [show p * p - rn p * rn p + (q * q - rn q * rn q) = p * p + q * q - icS p q by unfold icS; ring] at t
  refine t.trans ((add_le_add h1 h2).trans (le_of_eq ?_))
  unfold icS; ring

theorem icS_le (p q : ℚ) : icS p q ≤ icL p q * (1 + 1 / 9007199254740992) ^ 2 := by
  have h1 := mul_self_nonneg (rn p)
  have h2 := mul_self_nonneg (rn q)
  have h3 := abs_le_rn (rn p * rn p)
  have h4 := abs_le_rn (rn q * rn q)
  have h5 := add_rn_le (rn_nonneg h1) (rn_nonneg h2)
  rw [abs_of_nonneg h1, abs_of_nonneg (rn_nonneg h1)] at h3
  rw [abs_of_nonneg h2, abs_of_nonneg (rn_nonneg h2)] at h4
  unfold icS icL
  generalize rn (rn (rn p * rn p) + rn (rn q * rn q)) = L at *
  norm_num at *; linarith

theorem icL_close (p q : ℚ) : |icS p q - icL p q| ≤ icS p q * (2 / 9007199254740992 + 1 / 9007199254740992 ^ 2) := by
  have h1 := mul_self_nonneg (rn p)
  have h2 := mul_self_nonneg (rn q)
  have h3 := rr' (rn p * rn p)
  have h4 := rr' (rn q * rn q)
  have h5 := rr' (rn (rn p * rn p) + rn (rn q * rn q))
  have h6 := abs_rn_le' (rn p * rn p)
  have h7 := abs_rn_le' (rn q * rn q)
  rw [abs_of_nonneg h1] at h3 h6
  rw [abs_of_nonneg h2] at h4 h7
  rw [abs_of_nonneg (rn_nonneg h1)] at h6
  rw [abs_of_nonneg (rn_nonneg h2)] at h7
  rw [abs_of_nonneg (add_nonneg (rn_nonneg h1) (rn_nonneg h2))] at h5
  unfold icS icL
  have t1 := abs_add_le (rn p * rn p - rn (rn p * rn p) + (rn q * rn q - rn (rn q * rn q)))
    (rn (rn p * rn p) + rn (rn q * rn q) - rn (rn (rn p * rn p) + rn (rn q * rn q)))
  have t2 := abs_add_le (rn p * rn p - rn (rn p * rn p)) (rn q * rn q - rn (rn q * rn q))
  rw [show rn p * rn p - rn (rn p * rn p) + (rn q * rn q - rn (rn q * rn q)) +
    (rn (rn p * rn p) + rn (rn q * rn q) - rn (rn (rn p * rn p) + rn (rn q * rn q))) =
    rn p * rn p + rn q * rn q - rn (rn (rn p * rn p) + rn (rn q * rn q)) by ring] at t1
  norm_num at h3 h4 h5 h6 h7 t1 t2 ⊢
  linarith

theorem icL_le (p q : ℚ) : icL p q ≤ icS p q * (1 + 2 / 9007199254740992 + 1 / 9007199254740992 ^ 2) := by
  have h := (abs_le.1 (icL_close p q)).1
  linarith

theorem lift_close (p q : ℚ) : |p * p + q * q - icL p q| ≤ icL p q * (4 / 9007199254740992 + 7 / 9007199254740992 ^ 2) := by
  have h1 := lift_diff p q
  have h2 := icS_le p q
  have h3 : |icS p q - icL p q| ≤ icL p q * (2 / 9007199254740992 + 1 / 9007199254740992 ^ 2) := by
    have k1 := mul_self_nonneg (rn p)
    have k2 := mul_self_nonneg (rn q)
    have h3 := rr (rn p * rn p)
    have h4 := rr (rn q * rn q)
    have h5 := rr (rn (rn p * rn p) + rn (rn q * rn q))
    have h6 := add_rn_le (rn_nonneg k1) (rn_nonneg k2)
    rw [abs_of_nonneg (rn_nonneg k1)] at h3
    rw [abs_of_nonneg (rn_nonneg k2)] at h4
    rw [abs_of_nonneg (rn_nonneg (add_nonneg (rn_nonneg k1) (rn_nonneg k2)))] at h5
    unfold icS icL
    have t1 := abs_add_le (rn p * rn p - rn (rn p * rn p) + (rn q * rn q - rn (rn q * rn q)))
      (rn (rn p * rn p) + rn (rn q * rn q) - rn (rn (rn p * rn p) + rn (rn q * rn q)))
    have t2 := abs_add_le (rn p * rn p - rn (rn p * rn p)) (rn q * rn q - rn (rn q * rn q))
    rw [show rn p * rn p - rn (rn p * rn p) + (rn q * rn q - rn (rn q * rn q)) +
      (rn (rn p * rn p) + rn (rn q * rn q) - rn (rn (rn p * rn p) + rn (rn q * rn q))) =
      rn p * rn p + rn q * rn q - rn (rn (rn p * rn p) + rn (rn q * rn q)) by ring] at t1
    norm_num at h3 h4 h5 h6 t1 t2 ⊢
    linarith
  have h0 := icL_nonneg p q
  have t := abs_add_le (p * p + q * q - icS p q) (icS p q - icL p q)
  rw [sub_add_sub_cancel] at t
  norm_num at h1 h2 h3 t ⊢
  linarith

/-- The computed minor, and the minor of absolute values. -/
def icM (x y u v : ℚ) : ℚ := rn (rn (rn x * rn y) - rn (rn u * rn v))
@[inherit_doc icM] def icN (x y u v : ℚ) : ℚ := rn (|rn (rn x * rn y)| + |rn (rn u * rn v)|)

theorem minor_close (x y u v : ℚ) : |icM x y u v| ≤ icN x y u v ∧
    |x * y - u * v - icM x y u v| ≤ icN x y u v * (4 / 9007199254740992 + 7 / 9007199254740992 ^ 2) := by
  have h1 := (products_close x y u v).1
  have h2 := rr (rn x * rn y)
  have h3 := rr (rn u * rn v)
  have h4 := rr (rn (rn x * rn y) - rn (rn u * rn v))
  have h5 : |rn (rn (rn x * rn y) - rn (rn u * rn v))| ≤ rn (|rn (rn x * rn y)| + |rn (rn u * rn v)|) := by
    rw [abs_rn]; exact rn_mono (abs_sub _ _)
  have h6 := add_rn_le (abs_nonneg (rn (rn x * rn y))) (abs_nonneg (rn (rn u * rn v)))
  unfold icM icN
  refine ⟨h5, ?_⟩
  generalize rn (rn (rn x * rn y) - rn (rn u * rn v)) = t at *
  generalize rn (|rn (rn x * rn y)| + |rn (rn u * rn v)|) = A at *
  have t1 := abs_add_le (x * y - u * v - (rn x * rn y - rn u * rn v)) ((rn x * rn y - rn (rn x * rn y)) - (rn u * rn v - rn (rn u * rn v)) + (rn (rn x * rn y) - rn (rn u * rn v) - t))
  have t2 := abs_add_le ((rn x * rn y - rn (rn x * rn y)) - (rn u * rn v - rn (rn u * rn v))) (rn (rn x * rn y) - rn (rn u * rn v) - t)
  have t3 := abs_sub (rn x * rn y - rn (rn x * rn y)) (rn u * rn v - rn (rn u * rn v))
  rw [show x * y - u * v - (rn x * rn y - rn u * rn v) + ((rn x * rn y - rn (rn x * rn y)) - (rn u * rn v - rn (rn u * rn v)) +
    (rn (rn x * rn y) - rn (rn u * rn v) - t)) = x * y - u * v - t by ring] at t1
  have hA : 0 ≤ A := (abs_nonneg t).trans h5
  norm_num at h1 h2 h3 h4 h5 h6 t1 t2 t3 ⊢
  linarith

/-- The computed summand of the determinant. -/
def icT (p q x y u v : ℚ) : ℚ := rn (icL p q * icM x y u v)

/-- The computed summand of the permanent. -/
def icA (p q x y u v : ℚ) : ℚ := rn (icN x y u v * icL p q)

/-- The size of a summand. -/
def icQ (p q x y u v : ℚ) : ℚ := icS p q * (|rn x * rn y| + |rn u * rn v|)

theorem icN_nonneg (x y u v : ℚ) : 0 ≤ icN x y u v := rn_nonneg (add_nonneg (abs_nonneg _) (abs_nonneg _))

theorem icA_nonneg (p q x y u v : ℚ) : 0 ≤ icA p q x y u v := rn_nonneg (mul_nonneg (icN_nonneg _ _ _ _) (icL_nonneg _ _))

theorem icQ_nonneg (p q x y u v : ℚ) : 0 ≤ icQ p q x y u v := mul_nonneg (icS_nonneg _ _) (add_nonneg (abs_nonneg _) (abs_nonneg _))

theorem icT_le (p q x y u v : ℚ) : |icT p q x y u v| ≤ icA p q x y u v := by
  unfold icT icA
  rw [abs_rn, abs_mul, mul_comm, abs_of_nonneg (icL_nonneg p q)]
  exact rn_mono (mul_le_mul_of_nonneg_right (minor_close x y u v).1 (icL_nonneg p q))

theorem icQ_le (p q x y u v : ℚ) : icQ p q x y u v ≤ icA p q x y u v * (1 + 1 / 9007199254740992) ^ 5 := by
  have h1 := abs_le_rn (rn x * rn y)
  have h2 := abs_le_rn (rn u * rn v)
  have h3 := add_rn_le (abs_nonneg (rn (rn x * rn y))) (abs_nonneg (rn (rn u * rn v)))
  have h4 := mul_rn_le (icN_nonneg x y u v) (icL_nonneg p q)
  have h7 := icS_le p q
  have h8 := icL_nonneg p q
  have h9 := icN_nonneg x y u v
  unfold icQ icA
  have h5 : |rn x * rn y| + |rn u * rn v| ≤ icN x y u v * (1 + 1 / 9007199254740992) ^ 2 := by
    unfold icN
    norm_num at h1 h2 h3 ⊢; linarith
  have h6 := mul_le_mul h7 h5 (add_nonneg (abs_nonneg _) (abs_nonneg _)) (by positivity)
  refine h6.trans ?_
  rw [show icL p q * (1 + 1 / 9007199254740992) ^ 2 * (icN x y u v * (1 + 1 / 9007199254740992) ^ 2) =
    icN x y u v * icL p q * (1 + 1 / 9007199254740992) ^ 4 by ring]
  generalize icN x y u v * icL p q = B at *
  norm_num at h4 ⊢; linarith

theorem icT_close (p q x y u v : ℚ) : |(p * p + q * q) * (x * y - u * v) - icT p q x y u v| ≤
    icA p q x y u v * (9 / 9007199254740992 + 44 / 9007199254740992 ^ 2) := by
  have hle := icT_le p q x y u v
  obtain ⟨m1, m2⟩ := minor_close x y u v
  have l1 := lift_close p q
  have l0 := icL_nonneg p q
  have n0 := icN_nonneg x y u v
  have h7 := mul_rn_le n0 l0
  have h8 := rr (icL p q * icM x y u v)
  unfold icT icA at *
  generalize rn (icL p q * icM x y u v) = tz at *
  generalize icM x y u v = t at *
  generalize icN x y u v = A at *
  generalize icL p q = L at *
  generalize x * y - u * v = w at *
  generalize p * p + q * q = l at *
  have hww : |w| ≤ A * (1 + 5 / 9007199254740992) := by
    have := abs_add_le (w - t) t
    rw [sub_add_cancel] at this
    norm_num at *; linarith
  have k1 : |(l - L) * w| ≤ A * L * (4 / 9007199254740992 + 28 / 9007199254740992 ^ 2) := by
    rw [abs_mul]
    refine (mul_le_mul l1 hww (abs_nonneg _) (by positivity)).trans ?_
    rw [show L * (4 / 9007199254740992 + 7 / 9007199254740992 ^ 2) * (A * (1 + 5 / 9007199254740992)) =
      A * L * ((4 / 9007199254740992 + 7 / 9007199254740992 ^ 2) * (1 + 5 / 9007199254740992)) by ring]
    exact mul_le_mul_of_nonneg_left (by norm_num) (mul_nonneg n0 l0)
  have k2 : |L * (w - t)| ≤ A * L * (4 / 9007199254740992 + 7 / 9007199254740992 ^ 2) := by
    rw [abs_mul, abs_of_nonneg l0]
    refine (mul_le_mul_of_nonneg_left m2 l0).trans (le_of_eq ?_)
    ring
  have t1 := abs_add_le ((l - L) * w) (L * (w - t) + (L * t - tz))
  have t2 := abs_add_le (L * (w - t)) (L * t - tz)
  rw [show (l - L) * w + (L * (w - t) + (L * t - tz)) = l * w - tz by ring] at t1
  have h0 : 0 ≤ A * L := mul_nonneg n0 l0
  have h00 := rn_nonneg h0
  generalize A * L = B at *
  norm_num at k1 k2 t1 t2 h7 h8 hle ⊢
  linarith

/-- The error of rounding the differences. -/
theorem ic_diff_close (p q x y u v : ℚ) :
    |(p * p + q * q) * (x * y - u * v) - icS p q * (rn x * rn y - rn u * rn v)| ≤
      icQ p q x y u v * (4 / 9007199254740992 + 6 / 9007199254740992 ^ 2 + 4 / 9007199254740992 ^ 3 + 1 / 9007199254740992 ^ 4) := by
  have h1 := prod_close x y
  have h2 := prod_close u v
  have h3 := lift_diff p q
  have h4 := icS_nonneg p q
  have t0 := abs_sub (x * y - rn x * rn y) (u * v - rn u * rn v)
  rw [show x * y - rn x * rn y - (u * v - rn u * rn v) = x * y - u * v - (rn x * rn y - rn u * rn v) by ring] at t0
  have s0 := abs_sub (rn x * rn y) (rn u * rn v)
  unfold icQ
  generalize |rn x * rn y| = p' at *
  generalize |rn u * rn v| = r' at *
  generalize rn x * rn y - rn u * rn v = W at *
  generalize x * y - u * v = w at *
  generalize p * p + q * q = l at *
  generalize icS p q = S at *
  have hw : |w - W| ≤ (p' + r') * (2 / 9007199254740992 + 1 / 9007199254740992 ^ 2) := by linarith
  have hp : 0 ≤ p' + r' := (abs_nonneg _).trans s0
  have hww : |w| ≤ (p' + r') * (1 + 2 / 9007199254740992 + 1 / 9007199254740992 ^ 2) := by
    have := abs_add_le (w - W) W
    rw [sub_add_cancel] at this
    linarith
  have m1 : |(l - S) * w| ≤ S * (p' + r') * ((2 / 9007199254740992 + 1 / 9007199254740992 ^ 2) * (1 + 2 / 9007199254740992 + 1 / 9007199254740992 ^ 2)) := by
    rw [abs_mul]
    refine (mul_le_mul h3 hww (abs_nonneg _) (by positivity)).trans (le_of_eq ?_)
    ring
  have m2 : |S * (w - W)| ≤ S * (p' + r') * (2 / 9007199254740992 + 1 / 9007199254740992 ^ 2) := by
    rw [abs_mul, abs_of_nonneg h4]
    refine (mul_le_mul_of_nonneg_left hw h4).trans (le_of_eq ?_)
    ring
  have t1 := abs_add_le ((l - S) * w) (S * (w - W))
  rw [show (l - S) * w + S * (w - W) = l * w - S * W by ring] at t1
  generalize S * (p' + r') = B at *
  norm_num at m1 m2 t1 ⊢
  linarith

theorem ic_val_le (p q x y u v : ℚ) : |icS p q * (rn x * rn y - rn u * rn v)| ≤ icQ p q x y u v := by
  rw [abs_mul, abs_of_nonneg (icS_nonneg p q)]
  exact mul_le_mul_of_nonneg_left (abs_sub _ _) (icS_nonneg _ _)

/-! ### The second filter -/

/-- The rounding of the permanent and of its product with the error bound cannot both be as bad as possible. -/
theorem icc_two_roundings {zz : ℚ} (h0 : 0 ≤ zz) :
    (4 + 48 / 9007199254740992) / 9007199254740992 * (1 - 19 / 10 / 9007199254740992) * zz ≤ fmul iccB (rn zz) := by
  rcases h0.eq_or_lt with h0 | h0
  · rw [← h0, rn_zero, fmul, mul_zero, mul_zero, rn_zero]
  have r0 := rn_pos.2 h0
  set R := rn zz with hR
  obtain ⟨k1, k2⟩ := log_bounds r0.ne'
  rw [abs_of_pos r0] at k1 k2
  have km : Mult (lsb R) R := by
    have := rn_mult R
    rwa [rn_of_isF (hR ▸ rn_isF zz)] at this
  generalize hk : lsb R + 52 = k at k1
  have hl : lsb R = k - 52 := by omega
  rw [hl] at km
  rw [show lsb R + 53 = k + 1 by omega, pw_1] at k2
  have hp := pw_pos k
  have hz : zz ≤ 2 ^ (k + 1) := by
    by_contra hc
    have := rn_mono (not_le.1 hc).le
    rw [rn_of_isF (IsF.pw _), pw_1] at this
    linarith
  have e1 := rn_half (y := zz) (k := k + 1) (by rwa [abs_of_pos h0])
  rw [← hR, pw_1] at e1
  have e1 := (abs_le.1 e1).2
  have bpos : 0 < iccB * R := mul_pos (by rw [iccB_eq]; norm_num) r0
  have s50 : (2 : ℚ) ^ (k - 50) = 2 ^ k * (1 / 1125899906842624) := by
    rw [show k - 50 = k + (-50) by ring, pw_add]; norm_num
  have s49 : (2 : ℚ) ^ (k - 49) = 2 ^ k * (1 / 562949953421312) := by
    rw [show k - 49 = k + (-49) by ring, pw_add]; norm_num
  have s52 : (2 : ℚ) ^ (k - 52) = 2 ^ k * (1 / 4503599627370496) := by
    rw [show k - 52 = k + (-52) by ring, pw_add]; norm_num
  unfold fmul
  by_cases hs : R ≤ 2 ^ k * (108 / 100)
  · -- the product is at least a double that is large enough
    have hD : IsF ((R + 6 * 2 ^ (k - 52)) * 2 ^ (-51 : ℤ)) := by
      refine IsF.scale (isF_of_le (e := k - 52) (km.add ⟨6, by push_cast; ring⟩) ?_) _
      rw [show k - 52 + 53 = k + 1 by omega, pw_1, s52, abs_of_pos (by positivity)]
      linarith
    have hm : (R + 6 * 2 ^ (k - 52)) * 2 ^ (-51 : ℤ) ≤ iccB * R := by
      rw [s52, iccB_eq]
      norm_num
      linarith
    have := rn_mono hm
    rw [rn_of_isF hD, s52] at this
    generalize rn (iccB * R) = f at *
    norm_num at this e1 ⊢
    linarith
  · have hs := not_le.1 hs
    by_cases hc : iccB * R ≤ 2 ^ (k - 50)
    · have e2 := rn_half (y := iccB * R) (k := k - 50) (by rwa [abs_of_pos bpos])
      rw [s50] at e2
      have e2 := (abs_le.1 e2).2
      generalize rn (iccB * R) = f at *
      rw [iccB_eq] at *
      norm_num at e2 e1 ⊢
      linarith
    · have hc := not_le.1 hc
      rw [s50] at hc
      have e2 := rn_half (y := iccB * R) (k := k - 49) (by
        rw [abs_of_pos bpos, s49, iccB_eq]
        norm_num at k2 ⊢
        linarith)
      rw [s49] at e2
      have e2 := (abs_le.1 e2).2
      generalize rn (iccB * R) = f at *
      rw [iccB_eq] at *
      norm_num at e2 e1 hc ⊢
      linarith

theorem ic_stageB {D Bv P zz est : ℚ}
    (h1 : |D - Bv| ≤ P * (4 / 9007199254740992 + 6 / 9007199254740992 ^ 2 + 4 / 9007199254740992 ^ 3 + 1 / 9007199254740992 ^ 4))
    (he : |est - Bv| ≤ (5 / 2 + 8 / 9007199254740992) / 9007199254740992 * |Bv|) (hb : |Bv| ≤ P) (h0 : 0 ≤ zz)
    (hP : P ≤ zz * (1 + 1 / 9007199254740992) ^ 6) (h : est ≥ fmul iccB (rn zz) ∨ -est ≥ fmul iccB (rn zz)) : SameSign est D := by
  have hd : fmul iccB (rn zz) ≤ |est| := by
    rcases h with h | h
    · exact h.trans (le_abs_self _)
    · exact h.trans (neg_le_abs _)
  have ht := icc_two_roundings h0
  rcases ((abs_nonneg Bv).trans hb).eq_or_lt with p0 | p0
  · rw [← p0] at hb h1
    have b0 := abs_eq_zero.1 (le_antisymm hb (abs_nonneg _))
    rw [b0, zero_mul, sub_zero] at h1
    rw [b0, abs_zero, mul_zero, sub_zero] at he
    rw [abs_eq_zero.1 (le_antisymm h1 (abs_nonneg _)), abs_eq_zero.1 (le_antisymm he (abs_nonneg _))]
    exact ⟨Iff.rfl, Iff.rfl⟩
  · apply SameSign.of_close
    have u1 := abs_sub (D - Bv) (est - Bv)
    have u2 := abs_sub est (est - Bv)
    rw [show D - Bv - (est - Bv) = D - est by ring] at u1
    rw [show est - (est - Bv) = Bv by ring] at u2
    norm_num at h1 he hP ht u1 u2 ⊢
    linarith

/-! ### The first filter -/

theorem ic_stageA {T1 T2 T3 t1 t2 t3 A1 A2 A3 : ℚ} (h1 : |T1 - t1| ≤ A1 * (9 / 9007199254740992 + 44 / 9007199254740992 ^ 2))
    (h2 : |T2 - t2| ≤ A2 * (9 / 9007199254740992 + 44 / 9007199254740992 ^ 2))
    (h3 : |T3 - t3| ≤ A3 * (9 / 9007199254740992 + 44 / 9007199254740992 ^ 2)) (b1 : |t1| ≤ A1) (b2 : |t2| ≤ A2) (b3 : |t3| ≤ A3)
    (h : rn (rn (t1 + t2) + t3) > fmul iccA (rn (rn (A1 + A2) + A3)) ∨ -rn (rn (t1 + t2) + t3) > fmul iccA (rn (rn (A1 + A2) + A3))) :
    SameSign (rn (rn (t1 + t2) + t3)) (T1 + T2 + T3) := by
  have p1 := (abs_nonneg _).trans b1
  have p2 := (abs_nonneg _).trans b2
  have p3 := (abs_nonneg _).trans b3
  have a1 := abs_rn_add_le b1 b2
  have a2 := rr (t1 + t2)
  have a3 := rr (rn (t1 + t2) + t3)
  have a4 := add_rn_le p1 p2
  have a5 := add_rn_le (rn_nonneg (add_nonneg p1 p2)) p3
  have p4 := rn_nonneg (add_nonneg p1 p2)
  generalize rn (A1 + A2) = S at *
  have p5 := rn_nonneg (add_nonneg p4 p3)
  have hd : fmul iccA (rn (S + A3)) < |rn (rn (t1 + t2) + t3)| := by
    rcases h with h | h
    · exact lt_of_lt_of_le h (le_abs_self _)
    · exact lt_of_lt_of_le h (neg_le_abs _)
  generalize rn (S + A3) = perm at *
  have a6 := mul_rn_le (a := iccA) (b := perm) (by rw [iccA_eq]; norm_num) p5
  simp only [fmul] at hd
  generalize rn (iccA * perm) = eb at *
  generalize rn (rn (t1 + t2) + t3) = det at *
  generalize rn (t1 + t2) = s at *
  apply SameSign.of_close
  have u1 := abs_add_le (T1 - t1 + (T2 - t2) + (T3 - t3)) ((t1 + t2 - s) + (s + t3 - det))
  have u2 := abs_add_le (T1 - t1 + (T2 - t2)) (T3 - t3)
  have u3 := abs_add_le (T1 - t1) (T2 - t2)
  have u4 := abs_add_le (t1 + t2 - s) (s + t3 - det)
  rw [show T1 - t1 + (T2 - t2) + (T3 - t3) + ((t1 + t2 - s) + (s + t3 - det)) = T1 + T2 + T3 - det by ring] at u1
  rw [iccA_eq] at a6
  norm_num at a1 a2 a3 a4 a5 a6 h1 h2 h3 hd u1 u2 u3 u4 ⊢
  linarith

/-! ### The third filter -/

/-- The computed first order change of the sum of squares, before it is doubled. -/
def icG (p q : ℚ) : ℚ := rn (rn (rn p * (p - rn p)) + rn (rn q * (q - rn q)))

theorem icG_close (p q : ℚ) : |rn p * (p - rn p) + rn q * (q - rn q) - icG p q| ≤ icS p q * (2 / 9007199254740992 ^ 2 + 1 / 9007199254740992 ^ 3) ∧
    |icG p q| ≤ icS p q * (1 / 9007199254740992 + 3 / 9007199254740992 ^ 2) := by
  have h1 := mul_tail_le p p
  have h2 := mul_tail_le q q
  rw [abs_mul_self] at h1 h2
  have h3 := rr' (rn p * (p - rn p))
  have h4 := rr' (rn q * (q - rn q))
  have h5 := rr' (rn (rn p * (p - rn p)) + rn (rn q * (q - rn q)))
  have h6 := abs_rn_le' (rn p * (p - rn p))
  have h7 := abs_rn_le' (rn q * (q - rn q))
  have h8 := abs_add_le (rn (rn p * (p - rn p))) (rn (rn q * (q - rn q)))
  have h9 := abs_rn_le' (rn (rn p * (p - rn p)) + rn (rn q * (q - rn q)))
  have k1 := mul_self_nonneg (rn p)
  have k2 := mul_self_nonneg (rn q)
  unfold icG icS
  generalize rn p * (p - rn p) = a at *
  generalize rn q * (q - rn q) = b at *
  generalize rn (rn a + rn b) = g at *
  have t1 := abs_add_le (a - rn a + (b - rn b)) (rn a + rn b - g)
  have t2 := abs_add_le (a - rn a) (b - rn b)
  rw [show a - rn a + (b - rn b) + (rn a + rn b - g) = a + b - g by ring] at t1
  generalize rn p * rn p = pp at *
  generalize rn q * rn q = qq at *
  constructor
  · norm_num at h1 h2 h3 h4 h5 h6 h7 h8 t1 t2 ⊢
    linarith
  · norm_num at h1 h2 h3 h4 h5 h6 h7 h8 h9 ⊢
    linarith

/-- The first and second order changes of the sum of squares. -/
theorem lift_tail (p q : ℚ) : |rn p * (p - rn p) + rn q * (q - rn q)| ≤ icS p q * (1 / 9007199254740992) ∧
    |(p - rn p) * (p - rn p) + (q - rn q) * (q - rn q)| ≤ icS p q * (1 / 9007199254740992 ^ 2) := by
  have h1 := mul_tail_le p p
  have h2 := mul_tail_le q q
  have h3 := tail_tail_le p p
  have h4 := tail_tail_le q q
  rw [abs_mul_self (rn p)] at h1 h3
  rw [abs_mul_self (rn q)] at h2 h4
  have t1 := abs_add_le (rn p * (p - rn p)) (rn q * (q - rn q))
  have t2 := abs_add_le ((p - rn p) * (p - rn p)) ((q - rn q) * (q - rn q))
  unfold icS
  constructor <;> linarith

/-- The computed first order change of the minor. -/
def icH (x y u v : ℚ) : ℚ := rn (rn (rn (rn x * (y - rn y)) + rn (rn y * (x - rn x))) - rn (rn (rn v * (u - rn u)) + rn (rn u * (v - rn v))))

/-- The computed minor as in the correction. -/
def icM' (x y u v : ℚ) : ℚ := rn (rn (rn x * rn y) - rn (rn v * rn u))

theorem minor_tails (x y u v : ℚ) :
    |rn x * (y - rn y) + rn y * (x - rn x) - (rn v * (u - rn u) + rn u * (v - rn v)) - icH x y u v| ≤
      (|rn x * rn y| + |rn u * rn v|) * (6 / 9007199254740992 ^ 2 + 10 / 9007199254740992 ^ 3) ∧
    |icH x y u v| ≤ (|rn x * rn y| + |rn u * rn v|) * (2 / 9007199254740992 + 9 / 9007199254740992 ^ 2) ∧
    |(x - rn x) * (y - rn y) - (u - rn u) * (v - rn v)| ≤ (|rn x * rn y| + |rn u * rn v|) * (1 / 9007199254740992 ^ 2) ∧
    |rn x * rn y - rn u * rn v - icM' x y u v| ≤ (|rn x * rn y| + |rn u * rn v|) * (2 / 9007199254740992 + 1 / 9007199254740992 ^ 2) ∧
    |icM' x y u v| ≤ (|rn x * rn y| + |rn u * rn v|) * (1 + 2 / 9007199254740992 + 1 / 9007199254740992 ^ 2) ∧
    |rn x * (y - rn y) + rn y * (x - rn x) - (rn v * (u - rn u) + rn u * (v - rn v))| ≤
      (|rn x * rn y| + |rn u * rn v|) * (2 / 9007199254740992 + 16 / 9007199254740992 ^ 2) := by
  obtain ⟨l1, l2⟩ := two_products_close (mul_tail_le x y) (by have := mul_tail_le y x; rwa [mul_comm (rn y) (rn x)] at this)
  obtain ⟨r1, r2⟩ := two_products_close (by have := mul_tail_le v u; rwa [mul_comm (rn v) (rn u)] at this) (mul_tail_le u v)
  have q1 := tail_tail_le x y
  have q2 := tail_tail_le u v
  have k1 := rr' (rn x * rn y)
  have k2 := rr' (rn v * rn u)
  rw [mul_comm (rn v) (rn u)] at k2
  have k3 := rr' (rn (rn x * rn y) - rn (rn u * rn v))
  have k4 := abs_sub (rn (rn x * rn y)) (rn (rn u * rn v))
  have k5 := abs_rn_le' (rn x * rn y)
  have k6 := abs_rn_le' (rn u * rn v)
  unfold icH icM'
  rw [mul_comm (rn v) (rn u)]
  generalize rn (rn (rn x * (y - rn y)) + rn (rn y * (x - rn x))) = lc at *
  generalize rn (rn (rn v * (u - rn u)) + rn (rn u * (v - rn v))) = rc at *
  have d1 := rr' (lc - rc)
  have d2 := abs_sub lc rc
  have d3 := abs_rn_le' (lc - rc)
  generalize rn (lc - rc) = g at *
  generalize hh : rn (rn (rn x * rn y) - rn (rn u * rn v)) = h at *
  have p0 := abs_nonneg (rn x * rn y)
  have r0 := abs_nonneg (rn u * rn v)
  have w1 : |rn x * (y - rn y) + rn y * (x - rn x) - (rn v * (u - rn u) + rn u * (v - rn v)) - g| ≤
      (|rn x * rn y| + |rn u * rn v|) * (6 / 9007199254740992 ^ 2 + 10 / 9007199254740992 ^ 3) := by
    have t1 := abs_add_le (rn x * (y - rn y) + rn y * (x - rn x) - lc - (rn v * (u - rn u) + rn u * (v - rn v) - rc)) (lc - rc - g)
    have t2 := abs_sub (rn x * (y - rn y) + rn y * (x - rn x) - lc) (rn v * (u - rn u) + rn u * (v - rn v) - rc)
    rw [show rn x * (y - rn y) + rn y * (x - rn x) - lc - (rn v * (u - rn u) + rn u * (v - rn v) - rc) + (lc - rc - g) =
      rn x * (y - rn y) + rn y * (x - rn x) - (rn v * (u - rn u) + rn u * (v - rn v)) - g by ring] at t1
    norm_num at *
    linarith
  have w2 : |g| ≤ (|rn x * rn y| + |rn u * rn v|) * (2 / 9007199254740992 + 9 / 9007199254740992 ^ 2) := by
    norm_num at *
    linarith
  have w3 : |(x - rn x) * (y - rn y) - (u - rn u) * (v - rn v)| ≤ (|rn x * rn y| + |rn u * rn v|) * (1 / 9007199254740992 ^ 2) := by
    have t1 := abs_sub ((x - rn x) * (y - rn y)) ((u - rn u) * (v - rn v))
    linarith
  have w4 : |rn x * rn y - rn u * rn v - h| ≤ (|rn x * rn y| + |rn u * rn v|) * (2 / 9007199254740992 + 1 / 9007199254740992 ^ 2) := by
    have t1 := abs_add_le (rn x * rn y - rn (rn x * rn y) - (rn u * rn v - rn (rn u * rn v))) (rn (rn x * rn y) - rn (rn u * rn v) - h)
    have t2 := abs_sub (rn x * rn y - rn (rn x * rn y)) (rn u * rn v - rn (rn u * rn v))
    rw [show rn x * rn y - rn (rn x * rn y) - (rn u * rn v - rn (rn u * rn v)) + (rn (rn x * rn y) - rn (rn u * rn v) - h) =
      rn x * rn y - rn u * rn v - h by ring] at t1
    norm_num at *
    linarith
  have w5 : |h| ≤ (|rn x * rn y| + |rn u * rn v|) * (1 + 2 / 9007199254740992 + 1 / 9007199254740992 ^ 2) := by
    have t1 := abs_sub (rn x * rn y - rn u * rn v) (rn x * rn y - rn u * rn v - h)
    have t2 := abs_sub (rn x * rn y) (rn u * rn v)
    rw [show rn x * rn y - rn u * rn v - (rn x * rn y - rn u * rn v - h) = h by ring] at t1
    linarith
  have w6 : |rn x * (y - rn y) + rn y * (x - rn x) - (rn v * (u - rn u) + rn u * (v - rn v))| ≤
      (|rn x * rn y| + |rn u * rn v|) * (2 / 9007199254740992 + 16 / 9007199254740992 ^ 2) := by
    have t1 := abs_add_le (rn x * (y - rn y) + rn y * (x - rn x) - (rn v * (u - rn u) + rn u * (v - rn v)) - g) g
    rw [sub_add_cancel] at t1
    norm_num at *
    linarith
  exact ⟨w1, w2, w3, w4, w5, w6⟩

/-- The computed correction of a summand. -/
def icC (p q x y u v : ℚ) : ℚ := rn (rn (icL p q * icH x y u v) + rn (2 * icG p q * icM' x y u v))

theorem mul_bound {a b A B k l : ℚ} (ha : |a| ≤ A * k) (hb : |b| ≤ B * l) : |a * b| ≤ A * B * (k * l) := by
  rw [abs_mul]
  refine (mul_le_mul ha hb (abs_nonneg _) ((abs_nonneg _).trans ha)).trans (le_of_eq ?_)
  ring

theorem icC_close (p q x y u v : ℚ) :
    |(p * p + q * q) * (x * y - u * v) - icS p q * (rn x * rn y - rn u * rn v) - icC p q x y u v| ≤
      icQ p q x y u v * (32 / 9007199254740992 ^ 2 + 200 / 9007199254740992 ^ 3) ∧
    |icC p q x y u v| ≤ icQ p q x y u v * (4 / 9007199254740992 + 40 / 9007199254740992 ^ 2) := by
  obtain ⟨g1, g2⟩ := icG_close p q
  obtain ⟨l1, l2⟩ := lift_tail p q
  have s0 := icS_nonneg p q
  have c1 := icL_close p q
  have c2 := icL_le p q
  have c0 := icL_nonneg p q
  obtain ⟨w1, w2, w3, w4, w5, w6⟩ := minor_tails x y u v
  have w7 := abs_sub (rn x * rn y) (rn u * rn v)
  have key : (p * p + q * q) * (x * y - u * v) - icS p q * (rn x * rn y - rn u * rn v) =
      (icS p q + 2 * (rn p * (p - rn p) + rn q * (q - rn q)) + ((p - rn p) * (p - rn p) + (q - rn q) * (q - rn q))) *
      ((rn x * rn y - rn u * rn v) + (rn x * (y - rn y) + rn y * (x - rn x) - (rn v * (u - rn u) + rn u * (v - rn v))) +
        ((x - rn x) * (y - rn y) - (u - rn u) * (v - rn v))) - icS p q * (rn x * rn y - rn u * rn v) := by
    unfold icS; ring
  rw [key]
  clear key
  unfold icC icQ
  generalize rn p * (p - rn p) + rn q * (q - rn q) = l at *
  generalize (p - rn p) * (p - rn p) + (q - rn q) * (q - rn q) = l' at *
  generalize rn x * (y - rn y) + rn y * (x - rn x) - (rn v * (u - rn u) + rn u * (v - rn v)) = C1 at *
  generalize (x - rn x) * (y - rn y) - (u - rn u) * (v - rn v) = C2 at *
  generalize rn x * rn y - rn u * rn v = W at *
  have a0 := add_nonneg (abs_nonneg (rn x * rn y)) (abs_nonneg (rn u * rn v))
  generalize |rn x * rn y| + |rn u * rn v| = a at *
  generalize icS p q = S at *
  generalize icL p q = L at *
  generalize icG p q = G at *
  generalize icH x y u v = m at *
  generalize icM' x y u v = t at *
  have j1 := rr' (L * m)
  have j2 := abs_rn_le' (L * m)
  have j3 := rr' (2 * G * t)
  have j4 := abs_rn_le' (2 * G * t)
  have n1 := rr' (rn (L * m) + rn (2 * G * t))
  have n2 := abs_rn_le' (rn (L * m) + rn (2 * G * t))
  have n3 := abs_add_le (rn (L * m)) (rn (2 * G * t))
  generalize rn (rn (L * m) + rn (2 * G * t)) = c at *
  generalize rn (L * m) = z1 at *
  generalize rn (2 * G * t) = z2 at *
  have S1 : |S| ≤ S * 1 := by rw [abs_of_nonneg s0, mul_one]
  have W1 : |W| ≤ a * 1 := by rw [mul_one]; exact w7
  have L1 : |L| ≤ S * (1 + 2 / 9007199254740992 + 1 / 9007199254740992 ^ 2) := by rwa [abs_of_nonneg c0]
  have b1 := mul_bound S1 w1
  have b2 := mul_bound c1 w2
  have b3 := mul_bound L1 w2
  have b4 := mul_bound S1 w3
  have b5 := mul_bound l1 w4
  have b6 := mul_bound g1 w5
  have b7 := mul_bound g2 w5
  have b8 := mul_bound l1 w6
  have b9 := mul_bound l1 w3
  have b10 := mul_bound l2 W1
  have b11 := mul_bound l2 w6
  have b12 := mul_bound l2 w3
  have e2 : |2 * G * t| = 2 * |G * t| := by rw [mul_assoc, abs_mul, abs_two]
  rw [e2] at j3 j4
  have hQ : 0 ≤ S * a := mul_nonneg s0 a0
  have key : (S + 2 * l + l') * (W + C1 + C2) - S * W - c =
      S * (C1 - m) + ((S - L) * m + ((L * m - z1) + (S * C2 + (2 * (l * (W - t)) + (2 * ((l - G) * t) + ((2 * G * t - z2) +
      (2 * (l * C1) + (2 * (l * C2) + (l' * W + (l' * C1 + (l' * C2 + (z1 + z2 - c)))))))))))) := by ring
  rw [key]
  clear key
  generalize S * a = Q at *
  have d2 : ∀ z : ℚ, |2 * z| = 2 * |z| := fun z => by rw [abs_mul, abs_two]
  have t1 := abs_add_le (S * (C1 - m)) ((S - L) * m + ((L * m - z1) + (S * C2 + (2 * (l * (W - t)) + (2 * ((l - G) * t) + ((2 * G * t - z2) +
      (2 * (l * C1) + (2 * (l * C2) + (l' * W + (l' * C1 + (l' * C2 + (z1 + z2 - c))))))))))))
  have t2 := abs_add_le ((S - L) * m) ((L * m - z1) + (S * C2 + (2 * (l * (W - t)) + (2 * ((l - G) * t) + ((2 * G * t - z2) +
      (2 * (l * C1) + (2 * (l * C2) + (l' * W + (l' * C1 + (l' * C2 + (z1 + z2 - c)))))))))))
  have t3 := abs_add_le (L * m - z1) (S * C2 + (2 * (l * (W - t)) + (2 * ((l - G) * t) + ((2 * G * t - z2) +
      (2 * (l * C1) + (2 * (l * C2) + (l' * W + (l' * C1 + (l' * C2 + (z1 + z2 - c))))))))))
  have t4 := abs_add_le (S * C2) (2 * (l * (W - t)) + (2 * ((l - G) * t) + ((2 * G * t - z2) +
      (2 * (l * C1) + (2 * (l * C2) + (l' * W + (l' * C1 + (l' * C2 + (z1 + z2 - c)))))))))
  have t5 := abs_add_le (2 * (l * (W - t))) (2 * ((l - G) * t) + ((2 * G * t - z2) +
      (2 * (l * C1) + (2 * (l * C2) + (l' * W + (l' * C1 + (l' * C2 + (z1 + z2 - c))))))))
  have t6 := abs_add_le (2 * ((l - G) * t)) ((2 * G * t - z2) + (2 * (l * C1) + (2 * (l * C2) + (l' * W + (l' * C1 + (l' * C2 + (z1 + z2 - c)))))))
  have t7 := abs_add_le (2 * G * t - z2) (2 * (l * C1) + (2 * (l * C2) + (l' * W + (l' * C1 + (l' * C2 + (z1 + z2 - c))))))
  have t8 := abs_add_le (2 * (l * C1)) (2 * (l * C2) + (l' * W + (l' * C1 + (l' * C2 + (z1 + z2 - c)))))
  have t9 := abs_add_le (2 * (l * C2)) (l' * W + (l' * C1 + (l' * C2 + (z1 + z2 - c))))
  have t10 := abs_add_le (l' * W) (l' * C1 + (l' * C2 + (z1 + z2 - c)))
  have t11 := abs_add_le (l' * C1) (l' * C2 + (z1 + z2 - c))
  have t12 := abs_add_le (l' * C2) (z1 + z2 - c)
  rw [d2] at t5 t6 t8 t9
  have fin := t1.trans (add_le_add_right (t2.trans (add_le_add_right (t3.trans (add_le_add_right (t4.trans (add_le_add_right (t5.trans (add_le_add_right
    (t6.trans (add_le_add_right (t7.trans (add_le_add_right (t8.trans (add_le_add_right (t9.trans (add_le_add_right (t10.trans (add_le_add_right
    (t11.trans (add_le_add_right t12 _)) _)) _)) _)) _)) _)) _)) _)) _)) _)) _)
  clear t1 t2 t3 t4 t5 t6 t7 t8 t9 t10 t11 t12
  generalize |S * (C1 - m)| = y1 at *
  generalize |(S - L) * m| = y2 at *
  generalize |L * m - z1| = y3 at *
  generalize |S * C2| = y4 at *
  generalize |l * (W - t)| = y5 at *
  generalize |(l - G) * t| = y6 at *
  generalize |2 * G * t - z2| = y7 at *
  generalize |l * C1| = y8 at *
  generalize |l * C2| = y9 at *
  generalize |l' * W| = y10 at *
  generalize |l' * C1| = y11 at *
  generalize |l' * C2| = y12 at *
  generalize |z1 + z2 - c| = y13 at *
  generalize |z1 + z2| = y14 at *
  generalize |z1| = y15 at *
  generalize |z2| = y16 at *
  generalize |c| = y17 at *
  generalize |L * m| = y18 at *
  generalize |G * t| = y19 at *
  constructor
  · refine fin.trans ?_
    norm_num at b1 b2 b3 b4 b5 b6 b7 b8 b9 b10 b11 b12 j1 j2 j3 j4 n1 n3 ⊢
    linarith
  · norm_num at b3 b7 j2 j4 n2 n3 ⊢
    linarith

/-- The third filter. -/
theorem ic_stageC {T1 T2 T3 V1 V2 V3 c1 c2 c3 Q1 Q2 Q3 zz est : ℚ}
    (h1 : |T1 - V1 - c1| ≤ Q1 * (32 / 9007199254740992 ^ 2 + 200 / 9007199254740992 ^ 3))
    (h2 : |T2 - V2 - c2| ≤ Q2 * (32 / 9007199254740992 ^ 2 + 200 / 9007199254740992 ^ 3))
    (h3 : |T3 - V3 - c3| ≤ Q3 * (32 / 9007199254740992 ^ 2 + 200 / 9007199254740992 ^ 3))
    (b1 : |c1| ≤ Q1 * (4 / 9007199254740992 + 40 / 9007199254740992 ^ 2)) (b2 : |c2| ≤ Q2 * (4 / 9007199254740992 + 40 / 9007199254740992 ^ 2))
    (b3 : |c3| ≤ Q3 * (4 / 9007199254740992 + 40 / 9007199254740992 ^ 2)) (q3 : 0 ≤ Q3)
    (he : |est - (V1 + V2 + V3)| ≤ (5 / 2 + 8 / 9007199254740992) / 9007199254740992 * |V1 + V2 + V3|) (h0 : 0 < zz)
    (hP : Q1 + Q2 + Q3 ≤ zz * (1 + 1 / 9007199254740992) ^ 6)
    (h : rn (est + rn (rn (c1 + c2) + c3)) ≥ fadd (fmul iccC (rn zz)) (fmul resErr |est|) ∨
      -rn (est + rn (rn (c1 + c2) + c3)) ≥ fadd (fmul iccC (rn zz)) (fmul resErr |est|)) :
    SameSign (rn (est + rn (rn (c1 + c2) + c3))) (T1 + T2 + T3) := by
  have d1 := rr (est + rn (rn (c1 + c2) + c3))
  have hb : (44 + 576 / 2 ^ 53) / 2 ^ 53 / 2 ^ 53 * zz + (3 + 8 / 2 ^ 53) / 2 ^ 53 * |est| ≤
      |rn (est + rn (rn (c1 + c2) + c3))| * (1 + 1 / 9007199254740992) ^ 3 := by
    generalize rn (est + rn (rn (c1 + c2) + c3)) = det at *
    have k0 : 0 ≤ iccC := by rw [iccC_eq]; norm_num
    have k1 : 0 ≤ resErr := by rw [resErr_eq]; norm_num
    have n1 := mul_nonneg k0 (rn_nonneg h0.le)
    have n2 := mul_nonneg k1 (abs_nonneg est)
    have g1 : fadd (fmul iccC (rn zz)) (fmul resErr |est|) ≤ |det| := by
      rcases h with h | h
      · exact le_trans h (le_abs_self _)
      · exact le_trans h (neg_le_abs _)
    have g2 := add_rn_le (rn_nonneg n1) (rn_nonneg n2)
    have g3 := mul_rn_le k0 (rn_nonneg h0.le)
    have g4 := mul_rn_le k1 (abs_nonneg est)
    have g5 := abs_le_rn zz
    rw [abs_of_pos h0, abs_of_nonneg (rn_nonneg h0.le)] at g5
    simp only [fadd, fmul] at g1
    have n3 := rn_nonneg n2
    have n4 := abs_nonneg est
    generalize rn (rn (iccC * rn zz) + rn (resErr * |est|)) = f1 at *
    generalize rn (iccC * rn zz) = f2 at *
    generalize rn (resErr * |est|) = f3 at *
    generalize rn zz = f4 at *
    rw [iccC_eq] at *
    rw [resErr_eq] at *
    generalize |est| = f5 at *
    norm_num at g1 g2 g3 g4 g5 n3 n4 ⊢
    linarith
  generalize rn (est + rn (rn (c1 + c2) + c3)) = det at *
  have d2 := rr' (c1 + c2)
  have d3 := abs_rn_le' (c1 + c2)
  have d4 := abs_add_le c1 c2
  have d5 := rr' (rn (c1 + c2) + c3)
  have d6 := abs_add_le (rn (c1 + c2)) c3
  generalize rn (rn (c1 + c2) + c3) = corr at *
  generalize rn (c1 + c2) = s at *
  apply SameSign.of_close
  have u1 := abs_add_le (T1 - V1 - c1 + (T2 - V2 - c2) + (T3 - V3 - c3)) ((c1 + c2 - s) + ((s + c3 - corr) + ((est + corr - det) - (est - (V1 + V2 + V3)))))
  have u2 := abs_add_le (T1 - V1 - c1 + (T2 - V2 - c2)) (T3 - V3 - c3)
  have u3 := abs_add_le (T1 - V1 - c1) (T2 - V2 - c2)
  have u4 := abs_add_le (c1 + c2 - s) ((s + c3 - corr) + ((est + corr - det) - (est - (V1 + V2 + V3))))
  have u5 := abs_add_le (s + c3 - corr) ((est + corr - det) - (est - (V1 + V2 + V3)))
  have u6 := abs_sub (est + corr - det) (est - (V1 + V2 + V3))
  rw [show T1 - V1 - c1 + (T2 - V2 - c2) + (T3 - V3 - c3) + ((c1 + c2 - s) + ((s + c3 - corr) + ((est + corr - det) - (est - (V1 + V2 + V3))))) =
    T1 + T2 + T3 - det by ring] at u1
  have u7 := abs_sub est (est - (V1 + V2 + V3))
  rw [show est - (est - (V1 + V2 + V3)) = V1 + V2 + V3 by ring] at u7
  have e0 := abs_nonneg est
  norm_num at h1 h2 h3 b1 b2 b3 he hP hb d1 d2 d3 d4 d5 d6 u1 u2 u3 u4 u5 u6 u7 ⊢
  linarith

end Verif.Float
