import Verif.Float.Orient3d
import Verif.Float.Estimate
/-!
# The filters of `orient3d`

Each of the three summands of the determinant is `z * (x * y - u * v)` with differences `z`, `x`, `y`, `u`, `v` of coordinates, which the code rounds.
-/
namespace Verif.Float

theorem o3dA_eq : o3dA = (7 + 56 / 2 ^ 53) / 2 ^ 53 := by decide +kernel
theorem o3dB_eq : o3dB = (3 + 28 / 2 ^ 53) / 2 ^ 53 := by decide +kernel
theorem o3dC_eq : o3dC = (26 + 288 / 2 ^ 53) / 2 ^ 53 / 2 ^ 53 := by decide +kernel

/-- The size of a summand. -/
def o3Q (z x y u v : ℚ) : ℚ := |rn z| * (|rn x * rn y| + |rn u * rn v|)

/-- The computed summand of the determinant. -/
def o3T (z x y u v : ℚ) : ℚ := rn (rn z * rn (rn (rn x * rn y) - rn (rn u * rn v)))

/-- The computed summand of the permanent. -/
def o3A (z x y u v : ℚ) : ℚ := rn (rn (|rn (rn x * rn y)| + |rn (rn u * rn v)|) * |rn z|)

theorem o3A_nonneg (z x y u v : ℚ) : 0 ≤ o3A z x y u v :=
  rn_nonneg (mul_nonneg (rn_nonneg (add_nonneg (abs_nonneg _) (abs_nonneg _))) (abs_nonneg _))

theorem o3Q_nonneg (z x y u v : ℚ) : 0 ≤ o3Q z x y u v := mul_nonneg (abs_nonneg _) (add_nonneg (abs_nonneg _) (abs_nonneg _))

theorem o3T_le (z x y u v : ℚ) : |o3T z x y u v| ≤ o3A z x y u v := by
  unfold o3T o3A
  rw [abs_rn, abs_mul, abs_rn (_ - _), mul_comm]
  exact rn_mono (mul_le_mul_of_nonneg_right (rn_mono (abs_sub _ _)) (abs_nonneg _))

theorem mul_rn_le {a b : ℚ} (ha : 0 ≤ a) (hb : 0 ≤ b) : a * b ≤ rn (a * b) * (1 + 1 / 9007199254740992) := by
  have := abs_le_rn (a * b)
  rwa [abs_of_nonneg (mul_nonneg ha hb), abs_of_nonneg (rn_nonneg (mul_nonneg ha hb))] at this

theorem add_rn_le {a b : ℚ} (ha : 0 ≤ a) (hb : 0 ≤ b) : a + b ≤ rn (a + b) * (1 + 1 / 9007199254740992) := by
  have := abs_le_rn (a + b)
  rwa [abs_of_nonneg (add_nonneg ha hb), abs_of_nonneg (rn_nonneg (add_nonneg ha hb))] at this

/-- The permanent bounds the size. -/
theorem o3Q_le (z x y u v : ℚ) : o3Q z x y u v ≤ o3A z x y u v * (1 + 1 / 9007199254740992) ^ 3 := by
  unfold o3Q o3A
  have h1 := abs_le_rn (rn x * rn y)
  have h2 := abs_le_rn (rn u * rn v)
  have h3 := add_rn_le (abs_nonneg (rn (rn x * rn y))) (abs_nonneg (rn (rn u * rn v)))
  have h4 := mul_rn_le (rn_nonneg (add_nonneg (abs_nonneg (rn (rn x * rn y))) (abs_nonneg (rn (rn u * rn v))))) (abs_nonneg (rn z))
  generalize rn (|rn (rn x * rn y)| + |rn (rn u * rn v)|) = A at *
  have h5 : |rn x * rn y| + |rn u * rn v| ≤ A * (1 + 1 / 9007199254740992) ^ 2 := by
    norm_num at *; linarith
  have h6 := mul_le_mul_of_nonneg_left h5 (abs_nonneg (rn z))
  refine h6.trans ?_
  have e : |rn z| * (A * (1 + 1 / 9007199254740992) ^ 2) = A * |rn z| * (1 + 1 / 9007199254740992) ^ 2 := by ring
  rw [e]
  generalize A * |rn z| = B at *
  norm_num at *; linarith

/-- The error of the computed summand. -/
theorem o3T_close (z x y u v : ℚ) :
    |z * (x * y - u * v) - o3T z x y u v| ≤ o3A z x y u v * (6 / 9007199254740992 + 18 / 9007199254740992 ^ 2) := by
  have hle := o3T_le z x y u v
  have h1 := (products_close x y u v).1
  have h2 := rr (rn x * rn y)
  have h3 := rr (rn u * rn v)
  have h4 := rr (rn (rn x * rn y) - rn (rn u * rn v))
  have h5 : |rn (rn (rn x * rn y) - rn (rn u * rn v))| ≤ rn (|rn (rn x * rn y)| + |rn (rn u * rn v)|) := by
    rw [abs_rn]; exact rn_mono (abs_sub _ _)
  have h6 := add_rn_le (abs_nonneg (rn (rn x * rn y))) (abs_nonneg (rn (rn u * rn v)))
  have h7 := mul_rn_le (rn_nonneg (add_nonneg (abs_nonneg (rn (rn x * rn y))) (abs_nonneg (rn (rn u * rn v))))) (abs_nonneg (rn z))
  have h8 := rr (rn z * rn (rn (rn x * rn y) - rn (rn u * rn v)))
  have h9 := rr z
  unfold o3T o3A at *
  generalize rn (rn z * rn (rn (rn x * rn y) - rn (rn u * rn v))) = tz at *
  generalize rn (rn (rn x * rn y) - rn (rn u * rn v)) = t at *
  generalize rn (|rn (rn x * rn y)| + |rn (rn u * rn v)|) = A at *
  have hA : 0 ≤ A := (abs_nonneg t).trans h5
  have hw : |x * y - u * v - t| ≤ A * (4 / 9007199254740992 + 7 / 9007199254740992 ^ 2) := by
    have t1 := abs_add_le (x * y - u * v - (rn x * rn y - rn u * rn v)) ((rn x * rn y - rn (rn x * rn y)) - (rn u * rn v - rn (rn u * rn v)) + (rn (rn x * rn y) - rn (rn u * rn v) - t))
    have t2 := abs_add_le ((rn x * rn y - rn (rn x * rn y)) - (rn u * rn v - rn (rn u * rn v))) (rn (rn x * rn y) - rn (rn u * rn v) - t)
    have t3 := abs_sub (rn x * rn y - rn (rn x * rn y)) (rn u * rn v - rn (rn u * rn v))
    rw [show x * y - u * v - (rn x * rn y - rn u * rn v) + ((rn x * rn y - rn (rn x * rn y)) - (rn u * rn v - rn (rn u * rn v)) +
      (rn (rn x * rn y) - rn (rn u * rn v) - t)) = x * y - u * v - t by ring] at t1
    have := abs_nonneg t
    norm_num at *
    linarith
  generalize x * y - u * v = w at *
  have hww : |w| ≤ A * (1 + 5 / 9007199254740992) := by
    have := abs_add_le (w - t) t
    rw [sub_add_cancel] at this
    norm_num at *; linarith
  have m1 : |(z - rn z) * w| ≤ A * |rn z| * (1 / 9007199254740992 + 5 / 9007199254740992 ^ 2) := by
    rw [abs_mul]
    refine (mul_le_mul h9 hww (abs_nonneg _) (by positivity)).trans (le_of_eq ?_)
    ring
  have m2 : |rn z * (w - t)| ≤ A * |rn z| * (4 / 9007199254740992 + 7 / 9007199254740992 ^ 2) := by
    rw [abs_mul]
    refine (mul_le_mul_of_nonneg_left hw (abs_nonneg _)).trans (le_of_eq ?_)
    ring
  have t1 := abs_add_le ((z - rn z) * w) (rn z * (w - t) + (rn z * t - tz))
  have t2 := abs_add_le (rn z * (w - t)) (rn z * t - tz)
  rw [show (z - rn z) * w + (rn z * (w - t) + (rn z * t - tz)) = z * w - tz by ring] at t1
  have h0 : 0 ≤ A * |rn z| := mul_nonneg hA (abs_nonneg _)
  have h00 := rn_nonneg h0
  generalize A * |rn z| = B at *
  norm_num at *
  linarith

/-- The error of rounding the differences. -/
theorem o3_diff_close (z x y u v : ℚ) :
    |z * (x * y - u * v) - rn z * (rn x * rn y - rn u * rn v)| ≤
      o3Q z x y u v * (3 / 9007199254740992 + 3 / 9007199254740992 ^ 2 + 1 / 9007199254740992 ^ 3) := by
  have h1 := prod_close x y
  have h2 := prod_close u v
  have h3 := rr z
  have t0 := abs_sub (x * y - rn x * rn y) (u * v - rn u * rn v)
  rw [show x * y - rn x * rn y - (u * v - rn u * rn v) = x * y - u * v - (rn x * rn y - rn u * rn v) by ring] at t0
  have s0 := abs_sub (rn x * rn y) (rn u * rn v)
  unfold o3Q
  generalize |rn x * rn y| = p at *
  generalize |rn u * rn v| = r at *
  generalize rn x * rn y - rn u * rn v = W at *
  generalize x * y - u * v = w at *
  have hw : |w - W| ≤ (p + r) * (2 / 9007199254740992 + 1 / 9007199254740992 ^ 2) := by linarith
  have hp : 0 ≤ p + r := (abs_nonneg _).trans s0
  have hww : |w| ≤ (p + r) * (1 + 2 / 9007199254740992 + 1 / 9007199254740992 ^ 2) := by
    have := abs_add_le (w - W) W
    rw [sub_add_cancel] at this
    linarith
  have m1 : |(z - rn z) * w| ≤ |rn z| * (p + r) * (1 / 9007199254740992 * (1 + 2 / 9007199254740992 + 1 / 9007199254740992 ^ 2)) := by
    rw [abs_mul]
    refine (mul_le_mul h3 hww (abs_nonneg _) (by positivity)).trans (le_of_eq ?_)
    ring
  have m2 : |rn z * (w - W)| ≤ |rn z| * (p + r) * (2 / 9007199254740992 + 1 / 9007199254740992 ^ 2) := by
    rw [abs_mul]
    refine (mul_le_mul_of_nonneg_left hw (abs_nonneg _)).trans (le_of_eq ?_)
    ring
  have t1 := abs_add_le ((z - rn z) * w) (rn z * (w - W))
  rw [show (z - rn z) * w + rn z * (w - W) = z * w - rn z * W by ring] at t1
  generalize |rn z| * (p + r) = B at *
  norm_num at *
  linarith

theorem o3_val_le (z x y u v : ℚ) : |rn z * (rn x * rn y - rn u * rn v)| ≤ o3Q z x y u v := by
  rw [abs_mul]
  exact mul_le_mul_of_nonneg_left (abs_sub _ _) (abs_nonneg _)

/-- The computed correction of a summand. -/
def o3C (z x y u v : ℚ) : ℚ :=
  rn (rn (rn z * rn (rn (rn (rn x * (y - rn y)) + rn (rn y * (x - rn x))) - rn (rn (rn v * (u - rn u)) + rn (rn u * (v - rn v))))) +
    rn ((z - rn z) * rn (rn (rn x * rn y) - rn (rn v * rn u))))

theorem o3C_close (z x y u v : ℚ) :
    |z * (x * y - u * v) - rn z * (rn x * rn y - rn u * rn v) - o3C z x y u v| ≤
      o3Q z x y u v * (17 / 9007199254740992 ^ 2 + 60 / 9007199254740992 ^ 3) ∧
    |o3C z x y u v| ≤ o3Q z x y u v * (3 / 9007199254740992 + 20 / 9007199254740992 ^ 2) := by
  obtain ⟨l1, l2⟩ := two_products_close (mul_tail_le x y) (by have := mul_tail_le y x; rwa [mul_comm (rn y) (rn x)] at this)
  obtain ⟨r1, r2⟩ := two_products_close (by have := mul_tail_le v u; rwa [mul_comm (rn v) (rn u)] at this) (mul_tail_le u v)
  have q1 := tail_tail_le x y
  have q2 := tail_tail_le u v
  have hz := rr z
  have k1 := rr' (rn x * rn y)
  have k2 := rr' (rn v * rn u)
  rw [mul_comm (rn v) (rn u)] at k2
  have k3 := rr' (rn (rn x * rn y) - rn (rn u * rn v))
  have k4 := abs_sub (rn (rn x * rn y)) (rn (rn u * rn v))
  have k5 := abs_rn_le' (rn x * rn y)
  have k6 := abs_rn_le' (rn u * rn v)
  unfold o3C o3Q
  rw [mul_comm (rn v) (rn u)]
  generalize rn (rn (rn x * (y - rn y)) + rn (rn y * (x - rn x))) = lc at *
  generalize rn (rn (rn v * (u - rn u)) + rn (rn u * (v - rn v))) = rc at *
  have d1 := rr' (lc - rc)
  have d2 := abs_sub lc rc
  have d3 := abs_rn_le' (lc - rc)
  generalize rn (lc - rc) = g at *
  have j1 := rr' (rn z * g)
  have j2 := abs_rn_le' (rn z * g)
  generalize hh : rn (rn (rn x * rn y) - rn (rn u * rn v)) = h at *
  have j3 := rr' ((z - rn z) * h)
  have j4 := abs_rn_le' ((z - rn z) * h)
  have n1 := rr' (rn (rn z * g) + rn ((z - rn z) * h))
  have n2 := abs_rn_le' (rn (rn z * g) + rn ((z - rn z) * h))
  have n3 := abs_add_le (rn (rn z * g)) (rn ((z - rn z) * h))
  generalize rn (rn (rn z * g) + rn ((z - rn z) * h)) = c at *
  generalize rn (rn z * g) = zg at *
  generalize rn ((z - rn z) * h) = kz at *
  have p0 := abs_nonneg (rn x * rn y)
  have r0 := abs_nonneg (rn u * rn v)
  -- the first order correction of the difference of the products
  have w1 : |rn x * (y - rn y) + rn y * (x - rn x) - (rn v * (u - rn u) + rn u * (v - rn v)) - g| ≤
      (|rn x * rn y| + |rn u * rn v|) * (6 / 9007199254740992 ^ 2 + 10 / 9007199254740992 ^ 3) := by
    have t1 := abs_add_le (rn x * (y - rn y) + rn y * (x - rn x) - lc - (rn v * (u - rn u) + rn u * (v - rn v) - rc)) (lc - rc - g)
    have t2 := abs_sub (rn x * (y - rn y) + rn y * (x - rn x) - lc) (rn v * (u - rn u) + rn u * (v - rn v) - rc)
    rw [show rn x * (y - rn y) + rn y * (x - rn x) - lc - (rn v * (u - rn u) + rn u * (v - rn v) - rc) + (lc - rc - g) =
      rn x * (y - rn y) + rn y * (x - rn x) - (rn v * (u - rn u) + rn u * (v - rn v)) - g by ring] at t1
    norm_num at *
    linarith
  have w2 : |g| ≤ (|rn x * rn y| + |rn u * rn v|) * (2 / 9007199254740992 + 9 / 9007199254740992 ^ 2) := by
    norm_num at *
    linarith
  have w3 : |(x - rn x) * (y - rn y) - (u - rn u) * (v - rn v)| ≤ (|rn x * rn y| + |rn u * rn v|) * (1 / 9007199254740992 ^ 2) := by
    have t1 := abs_sub ((x - rn x) * (y - rn y)) ((u - rn u) * (v - rn v))
    linarith
  have w4 : |rn x * rn y - rn u * rn v - h| ≤ (|rn x * rn y| + |rn u * rn v|) * (2 / 9007199254740992 + 1 / 9007199254740992 ^ 2) := by
    have t1 := abs_add_le (rn x * rn y - rn (rn x * rn y) - (rn u * rn v - rn (rn u * rn v))) (rn (rn x * rn y) - rn (rn u * rn v) - h)
    have t2 := abs_sub (rn x * rn y - rn (rn x * rn y)) (rn u * rn v - rn (rn u * rn v))
    rw [show rn x * rn y - rn (rn x * rn y) - (rn u * rn v - rn (rn u * rn v)) + (rn (rn x * rn y) - rn (rn u * rn v) - h) =
      rn x * rn y - rn u * rn v - h by ring] at t1
    norm_num at *
    linarith
  have w5 : |h| ≤ (|rn x * rn y| + |rn u * rn v|) * (1 + 2 / 9007199254740992 + 1 / 9007199254740992 ^ 2) := by
    have t1 := abs_sub (rn x * rn y - rn u * rn v) (rn x * rn y - rn u * rn v - h)
    have t2 := abs_sub (rn x * rn y) (rn u * rn v)
    rw [show rn x * rn y - rn u * rn v - (rn x * rn y - rn u * rn v - h) = h by ring] at t1
    linarith
  have w6 : |rn x * (y - rn y) + rn y * (x - rn x) - (rn v * (u - rn u) + rn u * (v - rn v))| ≤
      (|rn x * rn y| + |rn u * rn v|) * (2 / 9007199254740992 + 16 / 9007199254740992 ^ 2) := by
    have t1 := abs_add_le (rn x * (y - rn y) + rn y * (x - rn x) - (rn v * (u - rn u) + rn u * (v - rn v)) - g) g
    rw [sub_add_cancel] at t1
    norm_num at *
    linarith
  have key : z * (x * y - u * v) - rn z * (rn x * rn y - rn u * rn v) - c =
      rn z * (rn x * (y - rn y) + rn y * (x - rn x) - (rn v * (u - rn u) + rn u * (v - rn v)) - g) + ((rn z * g - zg) +
      ((z - rn z) * (rn x * rn y - rn u * rn v - h) + (((z - rn z) * h - kz) + ((zg + kz - c) +
      (rn z * ((x - rn x) * (y - rn y) - (u - rn u) * (v - rn v)) +
      ((z - rn z) * (rn x * (y - rn y) + rn y * (x - rn x) - (rn v * (u - rn u) + rn u * (v - rn v))) +
      (z - rn z) * ((x - rn x) * (y - rn y) - (u - rn u) * (v - rn v)))))))) := by ring
  rw [key]
  generalize rn x * (y - rn y) + rn y * (x - rn x) - (rn v * (u - rn u) + rn u * (v - rn v)) = C1 at *
  generalize (x - rn x) * (y - rn y) - (u - rn u) * (v - rn v) = C2 at *
  generalize rn x * rn y - rn u * rn v = W at *
  have a0 := add_nonneg p0 r0
  generalize |rn x * rn y| + |rn u * rn v| = a at *
  have mz : ∀ {b k : ℚ}, |b| ≤ a * k → |rn z * b| ≤ |rn z| * a * k := by
    intro b k hb
    rw [abs_mul, mul_assoc]
    exact mul_le_mul_of_nonneg_left hb (abs_nonneg _)
  have mt : ∀ {b k : ℚ}, |b| ≤ a * k → |(z - rn z) * b| ≤ |rn z| * a * (1 / 9007199254740992 * k) := by
    intro b k hb
    rw [abs_mul]
    refine (mul_le_mul hz hb (abs_nonneg _) (by positivity)).trans (le_of_eq ?_)
    ring
  have m1 := mz w1
  have m2 := mz w2
  have m3 := mz w3
  have m4 := mt w4
  have m5 := mt w5
  have m6 := mt w6
  have m7 := mt w3
  have hQ : 0 ≤ |rn z| * a := mul_nonneg (abs_nonneg _) a0
  generalize |rn z| * a = Q at *
  have t1 := abs_add_le (rn z * (C1 - g)) ((rn z * g - zg) + ((z - rn z) * (W - h) + (((z - rn z) * h - kz) + ((zg + kz - c) + (rn z * C2 + ((z - rn z) * C1 + (z - rn z) * C2))))))
  have t2 := abs_add_le (rn z * g - zg) ((z - rn z) * (W - h) + (((z - rn z) * h - kz) + ((zg + kz - c) + (rn z * C2 + ((z - rn z) * C1 + (z - rn z) * C2)))))
  have t3 := abs_add_le ((z - rn z) * (W - h)) (((z - rn z) * h - kz) + ((zg + kz - c) + (rn z * C2 + ((z - rn z) * C1 + (z - rn z) * C2))))
  have t4 := abs_add_le ((z - rn z) * h - kz) ((zg + kz - c) + (rn z * C2 + ((z - rn z) * C1 + (z - rn z) * C2)))
  have t5 := abs_add_le (zg + kz - c) (rn z * C2 + ((z - rn z) * C1 + (z - rn z) * C2))
  have t6 := abs_add_le (rn z * C2) ((z - rn z) * C1 + (z - rn z) * C2)
  have t7 := abs_add_le ((z - rn z) * C1) ((z - rn z) * C2)
  clear mz mt key
  generalize |rn z * (C1 - g) + (rn z * g - zg + ((z - rn z) * (W - h) + ((z - rn z) * h - kz + (zg + kz - c + (rn z * C2 + ((z - rn z) * C1 + (z - rn z) * C2))))))| = b1 at *
  generalize |rn z * g - zg + ((z - rn z) * (W - h) + ((z - rn z) * h - kz + (zg + kz - c + (rn z * C2 + ((z - rn z) * C1 + (z - rn z) * C2)))))| = b2 at *
  generalize |(z - rn z) * (W - h) + ((z - rn z) * h - kz + (zg + kz - c + (rn z * C2 + ((z - rn z) * C1 + (z - rn z) * C2))))| = b3 at *
  generalize |(z - rn z) * h - kz + (zg + kz - c + (rn z * C2 + ((z - rn z) * C1 + (z - rn z) * C2)))| = b4 at *
  generalize |zg + kz - c + (rn z * C2 + ((z - rn z) * C1 + (z - rn z) * C2))| = b5 at *
  generalize |rn z * C2 + ((z - rn z) * C1 + (z - rn z) * C2)| = b6 at *
  generalize |(z - rn z) * C1 + (z - rn z) * C2| = b7 at *
  generalize |(z - rn z) * C1| = b8 at *
  generalize |(z - rn z) * C2| = b9 at *
  generalize |rn z * C2| = b10 at *
  generalize |rn z * (C1 - g)| = b11 at *
  generalize |(z - rn z) * (W - h)| = b12 at *
  generalize |rn z * g - zg| = b13 at *
  generalize |rn z * g| = b14 at *
  generalize |(z - rn z) * h - kz| = b15 at *
  generalize |(z - rn z) * h| = b16 at *
  generalize |zg + kz - c| = b17 at *
  generalize |zg + kz| = b18 at *
  generalize |zg| = b19 at *
  generalize |kz| = b20 at *
  generalize |c| = b21 at *
  clear w1 w2 w3 w4 w5 w6 l1 l2 r1 r2 q1 q2 hz k1 k2 k3 k4 k5 k6 d1 d2 d3 p0 r0 a0
  constructor
  · norm_num at *
    linarith
  · norm_num at *
    linarith

/-! ### Sums of three summands -/

theorem abs_rn_add_le {a b A B : ℚ} (ha : |a| ≤ A) (hb : |b| ≤ B) : |rn (a + b)| ≤ rn (A + B) := by
  rw [abs_rn]
  exact rn_mono ((abs_add_le a b).trans (add_le_add ha hb))

/-- The first filter. -/
theorem o3_stageA {T1 T2 T3 t1 t2 t3 A1 A2 A3 : ℚ} (h1 : |T1 - t1| ≤ A1 * (6 / 9007199254740992 + 18 / 9007199254740992 ^ 2))
    (h2 : |T2 - t2| ≤ A2 * (6 / 9007199254740992 + 18 / 9007199254740992 ^ 2))
    (h3 : |T3 - t3| ≤ A3 * (6 / 9007199254740992 + 18 / 9007199254740992 ^ 2)) (b1 : |t1| ≤ A1) (b2 : |t2| ≤ A2) (b3 : |t3| ≤ A3)
    (h : rn (rn (t1 + t2) + t3) > fmul o3dA (rn (rn (A1 + A2) + A3)) ∨ -rn (rn (t1 + t2) + t3) > fmul o3dA (rn (rn (A1 + A2) + A3))) :
    SameSign (rn (rn (t1 + t2) + t3)) (T1 + T2 + T3) := by
  have p1 := (abs_nonneg _).trans b1
  have p2 := (abs_nonneg _).trans b2
  have p3 := (abs_nonneg _).trans b3
  have a1 := abs_rn_add_le b1 b2
  have a2 := rr (t1 + t2)
  have a3 := rr (rn (t1 + t2) + t3)
  have a4 := add_rn_le p1 p2
  have a5 := add_rn_le (rn_nonneg (add_nonneg p1 p2)) p3
  have p4 := rn_nonneg (add_nonneg p1 p2)
  generalize rn (A1 + A2) = S at *
  have p5 := rn_nonneg (add_nonneg p4 p3)
  have hd : fmul o3dA (rn (S + A3)) < |rn (rn (t1 + t2) + t3)| := by
    rcases h with h | h
    · exact lt_of_lt_of_le h (le_abs_self _)
    · exact lt_of_lt_of_le h (neg_le_abs _)
  generalize rn (S + A3) = perm at *
  have a6 := mul_rn_le (a := o3dA) (b := perm) (by rw [o3dA_eq]; norm_num) p5
  simp only [fmul] at hd
  generalize rn (o3dA * perm) = eb at *
  generalize rn (rn (t1 + t2) + t3) = det at *
  generalize rn (t1 + t2) = s at *
  apply SameSign.of_close
  have u1 := abs_add_le (T1 - t1 + (T2 - t2) + (T3 - t3)) ((t1 + t2 - s) + (s + t3 - det))
  have u2 := abs_add_le (T1 - t1 + (T2 - t2)) (T3 - t3)
  have u3 := abs_add_le (T1 - t1) (T2 - t2)
  have u4 := abs_add_le (t1 + t2 - s) (s + t3 - det)
  rw [show T1 - t1 + (T2 - t2) + (T3 - t3) + ((t1 + t2 - s) + (s + t3 - det)) = T1 + T2 + T3 - det by ring] at u1
  rw [o3dA_eq] at a6
  norm_num at a1 a2 a3 a4 a5 a6 h1 h2 h3 hd u1 u2 u3 u4 ⊢
  linarith

/-- The rounding of the permanent and of its product with the error bound cannot both be as bad as possible. -/
theorem two_roundings {zz : ℚ} (h0 : 0 ≤ zz) : (3 + 28 / 9007199254740992) / 9007199254740992 * (1 - 176 / 100 / 9007199254740992) * zz ≤ fmul o3dB (rn zz) := by
  rcases h0.eq_or_lt with h0 | h0
  · rw [← h0, rn_zero, fmul, mul_zero, mul_zero, rn_zero]
  have r0 := rn_pos.2 h0
  set R := rn zz with hR
  obtain ⟨k1, k2⟩ := log_bounds r0.ne'
  rw [abs_of_pos r0] at k1 k2
  generalize hk : lsb R + 52 = k at k1
  rw [show lsb R + 53 = k + 1 by omega, pw_1] at k2
  have hp := pw_pos k
  have hz : zz ≤ 2 ^ (k + 1) := by
    by_contra hc
    have := rn_mono (not_le.1 hc).le
    rw [rn_of_isF (IsF.pw _), pw_1] at this
    linarith
  have e1 := rn_half (y := zz) (k := k + 1) (by rwa [abs_of_pos h0])
  rw [← hR, pw_1] at e1
  have e1 := abs_le.1 e1
  have bpos : 0 < o3dB * R := mul_pos (by rw [o3dB_eq]; norm_num) r0
  have s51 : (2 : ℚ) ^ (k - 51) = 2 ^ k * (1 / 2251799813685248) := by
    rw [show k - 51 = k + (-51) by ring, pw_add]; norm_num
  have s50 : (2 : ℚ) ^ (k - 50) = 2 ^ k * (1 / 1125899906842624) := by
    rw [show k - 50 = k + (-50) by ring, pw_add]; norm_num
  unfold fmul
  by_cases hc : o3dB * R ≤ 2 ^ (k - 51)
  · have e2 := rn_half (y := o3dB * R) (k := k - 51) (by rwa [abs_of_pos bpos])
    rw [s51] at e2
    have e2 := (abs_le.1 e2).2
    generalize rn (o3dB * R) = f at *
    rw [o3dB_eq] at *
    obtain ⟨e3, e4⟩ := e1
    norm_num at e2 e3 e4 ⊢
    linarith
  · have hc := not_le.1 hc
    rw [s51] at hc
    have e2 := rn_half (y := o3dB * R) (k := k - 50) (by
      rw [abs_of_pos bpos, s50, o3dB_eq]
      norm_num at k2 ⊢
      linarith)
    rw [s50] at e2
    have e2 := (abs_le.1 e2).2
    generalize rn (o3dB * R) = f at *
    rw [o3dB_eq] at *
    obtain ⟨e3, e4⟩ := e1
    norm_num at e2 e3 e4 hc ⊢
    linarith

/-- The second filter. -/
theorem o3_stageB {D Bv P zz est : ℚ} (h1 : |D - Bv| ≤ P * (3 / 9007199254740992 + 3 / 9007199254740992 ^ 2 + 1 / 9007199254740992 ^ 3))
    (he : |est - Bv| ≤ (5 / 2 + 8 / 9007199254740992) / 9007199254740992 * |Bv|) (hb : |Bv| ≤ P) (h0 : 0 ≤ zz)
    (hP : P ≤ zz * (1 + 1 / 9007199254740992) ^ 4) (h : est ≥ fmul o3dB (rn zz) ∨ -est ≥ fmul o3dB (rn zz)) : SameSign est D := by
  have hd : fmul o3dB (rn zz) ≤ |est| := by
    rcases h with h | h
    · exact h.trans (le_abs_self _)
    · exact h.trans (neg_le_abs _)
  have ht := two_roundings h0
  rcases ((abs_nonneg Bv).trans hb).eq_or_lt with p0 | p0
  · rw [← p0] at hb h1
    have b0 := abs_eq_zero.1 (le_antisymm hb (abs_nonneg _))
    rw [b0, zero_mul, sub_zero] at h1
    rw [b0, abs_zero, mul_zero, sub_zero] at he
    rw [abs_eq_zero.1 (le_antisymm h1 (abs_nonneg _)), abs_eq_zero.1 (le_antisymm he (abs_nonneg _))]
    exact ⟨Iff.rfl, Iff.rfl⟩
  · apply SameSign.of_close
    have u1 := abs_sub (D - Bv) (est - Bv)
    have u2 := abs_sub est (est - Bv)
    rw [show D - Bv - (est - Bv) = D - est by ring] at u1
    rw [show est - (est - Bv) = Bv by ring] at u2
    norm_num at h1 he hP ht u1 u2 ⊢
    linarith

/-- The third filter. -/
theorem o3_stageC {T1 T2 T3 V1 V2 V3 c1 c2 c3 Q1 Q2 Q3 zz est : ℚ}
    (h1 : |T1 - V1 - c1| ≤ Q1 * (17 / 9007199254740992 ^ 2 + 60 / 9007199254740992 ^ 3))
    (h2 : |T2 - V2 - c2| ≤ Q2 * (17 / 9007199254740992 ^ 2 + 60 / 9007199254740992 ^ 3))
    (h3 : |T3 - V3 - c3| ≤ Q3 * (17 / 9007199254740992 ^ 2 + 60 / 9007199254740992 ^ 3))
    (b1 : |c1| ≤ Q1 * (3 / 9007199254740992 + 20 / 9007199254740992 ^ 2)) (b2 : |c2| ≤ Q2 * (3 / 9007199254740992 + 20 / 9007199254740992 ^ 2))
    (b3 : |c3| ≤ Q3 * (3 / 9007199254740992 + 20 / 9007199254740992 ^ 2)) (q3 : 0 ≤ Q3)
    (he : |est - (V1 + V2 + V3)| ≤ (5 / 2 + 8 / 9007199254740992) / 9007199254740992 * |V1 + V2 + V3|) (h0 : 0 < zz)
    (hP : Q1 + Q2 + Q3 ≤ zz * (1 + 1 / 9007199254740992) ^ 4)
    (h : rn (est + rn (rn (c1 + c2) + c3)) ≥ fadd (fmul o3dC (rn zz)) (fmul resErr |est|) ∨
      -rn (est + rn (rn (c1 + c2) + c3)) ≥ fadd (fmul o3dC (rn zz)) (fmul resErr |est|)) :
    SameSign (rn (est + rn (rn (c1 + c2) + c3))) (T1 + T2 + T3) := by
  have d1 := rr (est + rn (rn (c1 + c2) + c3))
  have hb : (26 + 288 / 2 ^ 53) / 2 ^ 53 / 2 ^ 53 * zz + (3 + 8 / 2 ^ 53) / 2 ^ 53 * |est| ≤
      |rn (est + rn (rn (c1 + c2) + c3))| * (1 + 1 / 9007199254740992) ^ 3 := by
    generalize rn (est + rn (rn (c1 + c2) + c3)) = det at *
    have k0 : 0 ≤ o3dC := by rw [o3dC_eq]; norm_num
    have k1 : 0 ≤ resErr := by rw [resErr_eq]; norm_num
    have n1 := mul_nonneg k0 (rn_nonneg h0.le)
    have n2 := mul_nonneg k1 (abs_nonneg est)
    have g1 : fadd (fmul o3dC (rn zz)) (fmul resErr |est|) ≤ |det| := by
      rcases h with h | h
      · exact le_trans h (le_abs_self _)
      · exact le_trans h (neg_le_abs _)
    have g2 := add_rn_le (rn_nonneg n1) (rn_nonneg n2)
    have g3 := mul_rn_le k0 (rn_nonneg h0.le)
    have g4 := mul_rn_le k1 (abs_nonneg est)
    have g5 := abs_le_rn zz
    rw [abs_of_pos h0, abs_of_nonneg (rn_nonneg h0.le)] at g5
    simp only [fadd, fmul] at g1
    have n3 := rn_nonneg n2
    have n4 := abs_nonneg est
    generalize rn (rn (o3dC * rn zz) + rn (resErr * |est|)) = f1 at *
    generalize rn (o3dC * rn zz) = f2 at *
    generalize rn (resErr * |est|) = f3 at *
    generalize rn zz = f4 at *
    rw [o3dC_eq] at *
    rw [resErr_eq] at *
    generalize |est| = f5 at *
    norm_num at g1 g2 g3 g4 g5 n3 n4 ⊢
    linarith
  generalize rn (est + rn (rn (c1 + c2) + c3)) = det at *
  have d2 := rr' (c1 + c2)
  have d3 := abs_rn_le' (c1 + c2)
  have d4 := abs_add_le c1 c2
  have d5 := rr' (rn (c1 + c2) + c3)
  have d6 := abs_add_le (rn (c1 + c2)) c3
  generalize rn (rn (c1 + c2) + c3) = corr at *
  generalize rn (c1 + c2) = s at *
  apply SameSign.of_close
  have u1 := abs_add_le (T1 - V1 - c1 + (T2 - V2 - c2) + (T3 - V3 - c3)) ((c1 + c2 - s) + ((s + c3 - corr) + ((est + corr - det) - (est - (V1 + V2 + V3)))))
  have u2 := abs_add_le (T1 - V1 - c1 + (T2 - V2 - c2)) (T3 - V3 - c3)
  have u3 := abs_add_le (T1 - V1 - c1) (T2 - V2 - c2)
  have u4 := abs_add_le (c1 + c2 - s) ((s + c3 - corr) + ((est + corr - det) - (est - (V1 + V2 + V3))))
  have u5 := abs_add_le (s + c3 - corr) ((est + corr - det) - (est - (V1 + V2 + V3)))
  have u6 := abs_sub (est + corr - det) (est - (V1 + V2 + V3))
  rw [show T1 - V1 - c1 + (T2 - V2 - c2) + (T3 - V3 - c3) + ((c1 + c2 - s) + ((s + c3 - corr) + ((est + corr - det) - (est - (V1 + V2 + V3))))) =
    T1 + T2 + T3 - det by ring] at u1
  have u7 := abs_sub est (est - (V1 + V2 + V3))
  rw [show est - (est - (V1 + V2 + V3)) = V1 + V2 + V3 by ring] at u7
  have e0 := abs_nonneg est
  norm_num at h1 h2 h3 b1 b2 b3 he hP hb d1 d2 d3 d4 d5 d6 u1 u2 u3 u4 u5 u6 u7 ⊢
  linarith

/-! ### The whole function -/

/-- What rounding loses. -/
def lost (x : ℚ) : ℚ := x - rn x

/-- The spurious term of the exact stage, due to `cdztail` in place of `cdxtail` in line 732. -/
def o3Spurious (a b c d : P3) : ℚ :=
  (lost (c.z - d.z) - lost (c.x - d.x)) * (lost (a.y - d.y) * (b.z - d.z) - lost (b.y - d.y) * (a.z - d.z))

theorem diffs_isF (a b c d : P3) : (diffs a b c d).IsF :=
  ⟨rn_isF _, rn_isF _, rn_isF _, rn_isF _, rn_isF _, rn_isF _, rn_isF _, rn_isF _, rn_isF _⟩

/-- The tails are what rounding the differences lost. -/
theorem diffTails_eq {a b c d : P3} (ha : a.IsF) (hb : b.IsF) (hc : c.IsF) (hd : d.IsF) :
    diffTails a b c d (diffs a b c d) = ⟨lost (a.x - d.x), lost (a.y - d.y), lost (a.z - d.z), lost (b.x - d.x), lost (b.y - d.y), lost (b.z - d.z),
      lost (c.x - d.x), lost (c.y - d.y), lost (c.z - d.z)⟩ := by
  simp only [diffTails, diffs, fsub, lost, twoDiffTail_spec ha.1 hd.1, twoDiffTail_spec ha.2.1 hd.2.1, twoDiffTail_spec ha.2.2 hd.2.2,
    twoDiffTail_spec hb.1 hd.1, twoDiffTail_spec hb.2.1 hd.2.1, twoDiffTail_spec hb.2.2 hd.2.2, twoDiffTail_spec hc.1 hd.1,
    twoDiffTail_spec hc.2.1 hd.2.1, twoDiffTail_spec hc.2.2 hd.2.2]

theorem lost_isF {a b : ℚ} (ha : IsF a) (hb : IsF b) : IsF (lost (a - b)) := by
  have := sum_err_isF ha hb.neg
  rwa [← sub_eq_add_neg] at this

theorem rn_add_lost (x : ℚ) : rn x + lost x = x := by unfold lost; ring

theorem orient3dAdapt_spec {a b c d : P3} (ha : a.IsF) (hb : b.IsF) (hc : c.IsF) (hd : d.IsF) :
    ∃ r, orient3dAdapt a b c d (o3Perm (diffs a b c d)) = some r ∧
      (SameSign r (vol6 a b c d) ∨ SameSign r (vol6 a b c d + o3Spurious a b c d)) := by
  obtain ⟨fin, hf, hp, hs⟩ := o3Fin_spec (diffs_isF a b c d)
  have he := estimate_close hp.exp
  have hsame := estimate_sameSign hp.exp
  rw [hs] at he hsame
  have hdet : (diffs a b c d).det = rn (a.z - d.z) * (rn (b.x - d.x) * rn (c.y - d.y) - rn (c.x - d.x) * rn (b.y - d.y)) +
      rn (b.z - d.z) * (rn (c.x - d.x) * rn (a.y - d.y) - rn (a.x - d.x) * rn (c.y - d.y)) +
      rn (c.z - d.z) * (rn (a.x - d.x) * rn (b.y - d.y) - rn (b.x - d.x) * rn (a.y - d.y)) := rfl
  have A1 := o3A_nonneg (a.z - d.z) (b.x - d.x) (c.y - d.y) (c.x - d.x) (b.y - d.y)
  have A2 := o3A_nonneg (b.z - d.z) (c.x - d.x) (a.y - d.y) (a.x - d.x) (c.y - d.y)
  have A3 := o3A_nonneg (c.z - d.z) (a.x - d.x) (b.y - d.y) (b.x - d.x) (a.y - d.y)
  have q1 := o3Q_le (a.z - d.z) (b.x - d.x) (c.y - d.y) (c.x - d.x) (b.y - d.y)
  have q2 := o3Q_le (b.z - d.z) (c.x - d.x) (a.y - d.y) (a.x - d.x) (c.y - d.y)
  have q3 := o3Q_le (c.z - d.z) (a.x - d.x) (b.y - d.y) (b.x - d.x) (a.y - d.y)
  have g1 := o3_diff_close (a.z - d.z) (b.x - d.x) (c.y - d.y) (c.x - d.x) (b.y - d.y)
  have g2 := o3_diff_close (b.z - d.z) (c.x - d.x) (a.y - d.y) (a.x - d.x) (c.y - d.y)
  have g3 := o3_diff_close (c.z - d.z) (a.x - d.x) (b.y - d.y) (b.x - d.x) (a.y - d.y)
  have v1 := o3_val_le (a.z - d.z) (b.x - d.x) (c.y - d.y) (c.x - d.x) (b.y - d.y)
  have v2 := o3_val_le (b.z - d.z) (c.x - d.x) (a.y - d.y) (a.x - d.x) (c.y - d.y)
  have v3 := o3_val_le (c.z - d.z) (a.x - d.x) (b.y - d.y) (b.x - d.x) (a.y - d.y)
  obtain ⟨k1, l1⟩ := o3C_close (a.z - d.z) (b.x - d.x) (c.y - d.y) (c.x - d.x) (b.y - d.y)
  obtain ⟨k2, l2⟩ := o3C_close (b.z - d.z) (c.x - d.x) (a.y - d.y) (a.x - d.x) (c.y - d.y)
  obtain ⟨k3, l3⟩ := o3C_close (c.z - d.z) (a.x - d.x) (b.y - d.y) (b.x - d.x) (a.y - d.y)
  have Q3 := o3Q_nonneg (c.z - d.z) (a.x - d.x) (b.y - d.y) (b.x - d.x) (a.y - d.y)
  have hperm : o3Perm (diffs a b c d) = rn (rn (o3A (a.z - d.z) (b.x - d.x) (c.y - d.y) (c.x - d.x) (b.y - d.y) +
      o3A (b.z - d.z) (c.x - d.x) (a.y - d.y) (a.x - d.x) (c.y - d.y)) + o3A (c.z - d.z) (a.x - d.x) (b.y - d.y) (b.x - d.x) (a.y - d.y)) := rfl
  have hcorr : o3Corr (diffs a b c d) (diffTails a b c d (diffs a b c d)) = rn (rn (o3C (a.z - d.z) (b.x - d.x) (c.y - d.y) (c.x - d.x) (b.y - d.y) +
      o3C (b.z - d.z) (c.x - d.x) (a.y - d.y) (a.x - d.x) (c.y - d.y)) + o3C (c.z - d.z) (a.x - d.x) (b.y - d.y) (b.x - d.x) (a.y - d.y)) := by
    rw [diffTails_eq ha hb hc hd]
    rfl
  have hD : vol6 a b c d = (a.z - d.z) * ((b.x - d.x) * (c.y - d.y) - (c.x - d.x) * (b.y - d.y)) +
      (b.z - d.z) * ((c.x - d.x) * (a.y - d.y) - (a.x - d.x) * (c.y - d.y)) +
      (c.z - d.z) * ((a.x - d.x) * (b.y - d.y) - (b.x - d.x) * (a.y - d.y)) := rfl
  have hzz := add_nonneg (rn_nonneg (add_nonneg A1 A2)) A3
  have hP := add_rn_le A1 A2
  have ht : (diffTails a b c d (diffs a b c d)).IsF := by
    rw [diffTails_eq ha hb hc hd]
    exact ⟨lost_isF ha.1 hd.1, lost_isF ha.2.1 hd.2.1, lost_isF ha.2.2 hd.2.2, lost_isF hb.1 hd.1, lost_isF hb.2.1 hd.2.1, lost_isF hb.2.2 hd.2.2,
      lost_isF hc.1 hd.1, lost_isF hc.2.1 hd.2.1, lost_isF hc.2.2 hd.2.2⟩
  obtain ⟨r, hr, hrs⟩ := o3Exact_spec (diffs_isF a b c d) ht hp hs
  have hsum : ((diffs a b c d).add (diffTails a b c d (diffs a b c d))).det = vol6 a b c d := by
    rw [diffTails_eq ha hb hc hd]
    simp only [Diffs.add, diffs, fsub, rn_add_lost, Diffs.det, vol6]
  have hsp : ((diffTails a b c d (diffs a b c d)).cdz - (diffTails a b c d (diffs a b c d)).cdx) *
      ((diffTails a b c d (diffs a b c d)).ady * ((diffs a b c d).bdz + (diffTails a b c d (diffs a b c d)).bdz) -
        (diffTails a b c d (diffs a b c d)).bdy * ((diffs a b c d).adz + (diffTails a b c d (diffs a b c d)).adz)) = o3Spurious a b c d := by
    rw [diffTails_eq ha hb hc hd]
    simp only [diffs, fsub, rn_add_lost, o3Spurious]
  rw [hsum, hsp] at hrs
  have hzero : (diffTails a b c d (diffs a b c d)).adx = 0 ∧ (diffTails a b c d (diffs a b c d)).bdx = 0 ∧
      (diffTails a b c d (diffs a b c d)).cdx = 0 ∧ (diffTails a b c d (diffs a b c d)).ady = 0 ∧ (diffTails a b c d (diffs a b c d)).bdy = 0 ∧
      (diffTails a b c d (diffs a b c d)).cdy = 0 ∧ (diffTails a b c d (diffs a b c d)).adz = 0 ∧ (diffTails a b c d (diffs a b c d)).bdz = 0 ∧
      (diffTails a b c d (diffs a b c d)).cdz = 0 → (diffs a b c d).det = vol6 a b c d := by
    rintro ⟨z1, z2, z3, z4, z5, z6, z7, z8, z9⟩
    rw [← hsum]
    simp only [Diffs.add, Diffs.det, z1, z2, z3, z4, z5, z6, z7, z8, z9, add_zero]
  rw [hdet] at he
  generalize o3A (a.z - d.z) (b.x - d.x) (c.y - d.y) (c.x - d.x) (b.y - d.y) = a1 at *
  generalize o3A (b.z - d.z) (c.x - d.x) (a.y - d.y) (a.x - d.x) (c.y - d.y) = a2 at *
  generalize o3A (c.z - d.z) (a.x - d.x) (b.y - d.y) (b.x - d.x) (a.y - d.y) = a3 at *
  generalize o3Q (a.z - d.z) (b.x - d.x) (c.y - d.y) (c.x - d.x) (b.y - d.y) = p1 at *
  generalize o3Q (b.z - d.z) (c.x - d.x) (a.y - d.y) (a.x - d.x) (c.y - d.y) = p2 at *
  generalize o3Q (c.z - d.z) (a.x - d.x) (b.y - d.y) (b.x - d.x) (a.y - d.y) = p3 at *
  generalize o3C (a.z - d.z) (b.x - d.x) (c.y - d.y) (c.x - d.x) (b.y - d.y) = c1 at *
  generalize o3C (b.z - d.z) (c.x - d.x) (a.y - d.y) (a.x - d.x) (c.y - d.y) = c2 at *
  generalize o3C (c.z - d.z) (a.x - d.x) (b.y - d.y) (b.x - d.x) (a.y - d.y) = c3 at *
  have hPP : p1 + p2 + p3 ≤ (rn (a1 + a2) + a3) * (1 + 1 / 9007199254740992) ^ 4 := by
    generalize rn (a1 + a2) = s at *
    norm_num at q1 q2 q3 hP ⊢
    linarith
  simp only [orient3dAdapt, hf, Option.bind_eq_bind, Option.bind_some, o3Rest, hcorr, hperm]
  split
  · next h =>
    refine ⟨_, rfl, Or.inl (o3_stageB (P := p1 + p2 + p3) ?_ he ?_ hzz hPP h)⟩
    · rw [hD]
      have u1 := abs_add_le ((a.z - d.z) * ((b.x - d.x) * (c.y - d.y) - (c.x - d.x) * (b.y - d.y)) - rn (a.z - d.z) * (rn (b.x - d.x) * rn (c.y - d.y) - rn (c.x - d.x) * rn (b.y - d.y)) +
        ((b.z - d.z) * ((c.x - d.x) * (a.y - d.y) - (a.x - d.x) * (c.y - d.y)) - rn (b.z - d.z) * (rn (c.x - d.x) * rn (a.y - d.y) - rn (a.x - d.x) * rn (c.y - d.y))))
        ((c.z - d.z) * ((a.x - d.x) * (b.y - d.y) - (b.x - d.x) * (a.y - d.y)) - rn (c.z - d.z) * (rn (a.x - d.x) * rn (b.y - d.y) - rn (b.x - d.x) * rn (a.y - d.y)))
      have u2 := abs_add_le ((a.z - d.z) * ((b.x - d.x) * (c.y - d.y) - (c.x - d.x) * (b.y - d.y)) - rn (a.z - d.z) * (rn (b.x - d.x) * rn (c.y - d.y) - rn (c.x - d.x) * rn (b.y - d.y)))
        ((b.z - d.z) * ((c.x - d.x) * (a.y - d.y) - (a.x - d.x) * (c.y - d.y)) - rn (b.z - d.z) * (rn (c.x - d.x) * rn (a.y - d.y) - rn (a.x - d.x) * rn (c.y - d.y)))
      refine le_trans (le_of_eq ?_) ((u1.trans (add_le_add_left (u2.trans (add_le_add g1 g2)) _)).trans (add_le_add_right g3 _) |>.trans (le_of_eq ?_))
      · congr 1; ring
      · ring
    · refine (abs_add_le _ _).trans (add_le_add ((abs_add_le _ _).trans (add_le_add v1 v2)) v3)
  · next hB =>
    split
    · next h =>
      refine ⟨_, rfl, Or.inl ?_⟩
      rw [← hzero h]
      exact hsame
    · split
      · next h =>
        refine ⟨_, rfl, Or.inl ?_⟩
        rw [hD]
        refine o3_stageC k1 k2 k3 l1 l2 l3 Q3 he ?_ hPP h
        rcases hzz.eq_or_lt with h0 | h0
        · exfalso
          rw [← h0, rn_zero, fmul, mul_zero, rn_zero] at hB
          rcases le_total 0 (estimate fin) with e | e
          · exact hB (Or.inl e)
          · exact hB (Or.inr (by linarith))
        · exact h0
      · exact ⟨r, hr, Or.inr hrs⟩

/-- **What `orient3d` computes, for any four points with double coordinates**: it never panics, and the number it returns has the sign of the exact determinant
or the sign of the exact determinant plus the spurious term of the exact stage. -/
theorem c29_orient3d_partial {a b c d : P3} (ha : a.IsF) (hb : b.IsF) (hc : c.IsF) (hd : d.IsF) :
    ∃ r, orient3d a b c d = some r ∧ (SameSign r (vol6 a b c d) ∨ SameSign r (vol6 a b c d + o3Spurious a b c d)) := by
  simp only [orient3d]
  split
  · next h =>
    refine ⟨_, rfl, Or.inl ?_⟩
    exact o3_stageA (o3T_close (a.z - d.z) (b.x - d.x) (c.y - d.y) (c.x - d.x) (b.y - d.y))
      (o3T_close (b.z - d.z) (c.x - d.x) (a.y - d.y) (a.x - d.x) (c.y - d.y))
      (o3T_close (c.z - d.z) (a.x - d.x) (b.y - d.y) (b.x - d.x) (a.y - d.y)) (o3T_le _ _ _ _ _) (o3T_le _ _ _ _ _) (o3T_le _ _ _ _ _) h
  · exact orient3dAdapt_spec ha hb hc hd

end Verif.Float
