import Verif.Float.InsphereFilter
import Verif.Float.Orient3dProps
/-!
# `insphere`: the static filter, and what the result is
-/
namespace Verif.Float

local notation "ε" => (1 / 9007199254740992 : ℚ)

/-! ### The static filter -/

theorem ispStatic_ge : 1031 / 2 ^ 53 ≤ ispStatic := by decide +kernel

theorem isEps_ge {m : ℚ} (h0 : 0 ≤ m) : m ^ 5 * (1031 * ε) ≤ isEps m * (1 + ε) ^ 5 := by
  have hc : 0 ≤ ispStatic := le_trans (by norm_num) ispStatic_ge
  have h1 := mul_rn_le h0 h0
  have n1 := rn_nonneg (mul_nonneg h0 h0)
  have h2 := mul_rn_le n1 n1
  have n2 := rn_nonneg (mul_nonneg n1 n1)
  have h3 := mul_rn_le n2 h0
  have n3 := rn_nonneg (mul_nonneg n2 h0)
  have h4 := mul_rn_le n3 hc
  simp only [isEps, fmul]
  generalize rn (rn (rn (rn (m * m) * rn (m * m)) * m) * ispStatic) = w4 at *
  generalize rn (rn (rn (m * m) * rn (m * m)) * m) = w3 at *
  generalize rn (rn (m * m) * rn (m * m)) = w2 at *
  generalize rn (m * m) = w1 at *
  have k1 : m * m * (m * m) ≤ w1 * (1 + ε) * (w1 * (1 + ε)) := mul_le_mul h1 h1 (mul_nonneg h0 h0) (by positivity)
  have k2 : m * m * (m * m) ≤ w2 * (1 + ε) ^ 3 := by
    rw [show w1 * (1 + ε) * (w1 * (1 + ε)) = w1 * w1 * (1 + ε) ^ 2 by ring] at k1
    have := mul_le_mul_of_nonneg_right h2 (by positivity : (0 : ℚ) ≤ (1 + ε) ^ 2)
    refine k1.trans (this.trans (le_of_eq (by ring)))
  have k3 : m ^ 5 ≤ w3 * (1 + ε) ^ 4 := by
    have := mul_le_mul_of_nonneg_right k2 h0
    have h := mul_le_mul_of_nonneg_right h3 (by positivity : (0 : ℚ) ≤ (1 + ε) ^ 3)
    calc m ^ 5 = m * m * (m * m) * m := by ring
      _ ≤ w2 * (1 + ε) ^ 3 * m := this
      _ = w2 * m * (1 + ε) ^ 3 := by ring
      _ ≤ w3 * (1 + ε) * (1 + ε) ^ 3 := h
      _ = _ := by ring
  calc m ^ 5 * (1031 * ε) ≤ w3 * (1 + ε) ^ 4 * ispStatic :=
        mul_le_mul k3 (le_trans (by norm_num) ispStatic_ge) (by norm_num) (by positivity)
    _ = w3 * ispStatic * (1 + ε) ^ 4 := by ring
    _ ≤ w4 * (1 + ε) * (1 + ε) ^ 4 := mul_le_mul_of_nonneg_right h4 (by positivity)
    _ = _ := by ring

/-- Hadamard's inequality. -/
theorem det3_hadamard (p q r : P3) : det3 p q r ^ 2 ≤ p.sq * q.sq * r.sq := by
  have h1 : (q.x * r.y - r.x * q.y) ^ 2 + (q.z * r.x - r.z * q.x) ^ 2 + (q.y * r.z - r.y * q.z) ^ 2 ≤ q.sq * r.sq := by
    have : q.sq * r.sq - ((q.x * r.y - r.x * q.y) ^ 2 + (q.z * r.x - r.z * q.x) ^ 2 + (q.y * r.z - r.y * q.z) ^ 2) = (q.x * r.x + q.y * r.y + q.z * r.z) ^ 2 := by
      unfold P3.sq; ring
    have := sq_nonneg (q.x * r.x + q.y * r.y + q.z * r.z)
    linarith
  have h2 := mul_le_mul_of_nonneg_left h1 p.sq_nonneg
  rw [mul_assoc]
  refine le_trans ?_ h2
  have : p.sq * ((q.x * r.y - r.x * q.y) ^ 2 + (q.z * r.x - r.z * q.x) ^ 2 + (q.y * r.z - r.y * q.z) ^ 2) - det3 p q r ^ 2 =
      (p.x * (q.z * r.x - r.z * q.x) - p.y * (q.y * r.z - r.y * q.z)) ^ 2 + (p.x * (q.x * r.y - r.x * q.y) - p.z * (q.y * r.z - r.y * q.z)) ^ 2 +
      (p.y * (q.x * r.y - r.x * q.y) - p.z * (q.z * r.x - r.z * q.x)) ^ 2 := by
    unfold P3.sq det3; ring
  have := sq_nonneg (p.x * (q.z * r.x - r.z * q.x) - p.y * (q.y * r.z - r.y * q.z))
  have := sq_nonneg (p.x * (q.x * r.y - r.x * q.y) - p.z * (q.y * r.z - r.y * q.z))
  have := sq_nonneg (p.y * (q.x * r.y - r.x * q.y) - p.z * (q.z * r.x - r.z * q.x))
  linarith

/-- The rounded coordinates are bounded. -/
def P3.Bd (p : P3) (m : ℚ) : Prop := |rn p.x| ≤ m ∧ |rn p.y| ≤ m ∧ |rn p.z| ≤ m

theorem mul_self_le {x m : ℚ} (h : |x| ≤ m) : x * x ≤ m ^ 2 := by
  rw [← abs_mul_abs_self, pow_two]
  exact mul_le_mul h h (abs_nonneg _) ((abs_nonneg _).trans h)

theorem P3.Bd.sq {p : P3} {m : ℚ} (h : p.Bd m) : p.rd.sq ≤ m ^ 2 * 3 := by
  have h1 := mul_self_le h.1
  have h2 := mul_self_le h.2.1
  have h3 := mul_self_le h.2.2
  simp only [P3.sq, P3.rd]
  linarith

theorem Bd.det {p q r : P3} {m : ℚ} (m0 : 0 ≤ m) (hp : p.Bd m) (hq : q.Bd m) (hr : r.Bd m) : |det3 p.rd q.rd r.rd| ≤ m ^ 3 * (52 / 10) := by
  apply abs_le_of_sq_le_sq _ (by positivity)
  refine (det3_hadamard _ _ _).trans ?_
  have h1 := mul_le_mul hp.sq hq.sq q.rd.sq_nonneg (by positivity)
  have h2 := mul_le_mul h1 hr.sq r.rd.sq_nonneg (by positivity)
  refine h2.trans ?_
  have : 0 ≤ m ^ 6 := by positivity
  nlinarith

theorem abs_mul_le_sq {x y m : ℚ} (h : |x| ≤ m) (k : |y| ≤ m) : |x * y| ≤ m ^ 2 := by
  rw [abs_mul, pow_two]
  exact mul_le_mul h k (abs_nonneg _) ((abs_nonneg _).trans h)

theorem o3Q_bd {z x y u v m : ℚ} (hz : |rn z| ≤ m) (hx : |rn x| ≤ m) (hy : |rn y| ≤ m) (hu : |rn u| ≤ m) (hv : |rn v| ≤ m) :
    o3Q z x y u v ≤ m ^ 3 * 2 := by
  unfold o3Q
  have h1 := abs_mul_le_sq hx hy
  have h2 := abs_mul_le_sq hu hv
  have m0 := (abs_nonneg _).trans hz
  refine (mul_le_mul hz (add_le_add h1 h2) (by positivity) m0).trans (le_of_eq ?_)
  ring

theorem Bd.rowQ {p q r : P3} {m : ℚ} (hp : p.Bd m) (hq : q.Bd m) (hr : r.Bd m) : rowQ p q r ≤ m ^ 3 * 6 := by
  have h1 := o3Q_bd hp.2.2 hq.1 hr.2.1 hr.1 hq.2.1
  have h2 := o3Q_bd hq.2.2 hr.1 hp.2.1 hp.1 hr.2.1
  have h3 := o3Q_bd hr.2.2 hp.1 hq.2.1 hq.1 hp.2.1
  unfold Float.rowQ
  linarith

theorem o3A_le (z x y u v : ℚ) : o3A z x y u v ≤ o3Q z x y u v * (1 + ε) ^ 3 := by
  unfold o3A o3Q
  have h1 := abs_rn_le' (rn x * rn y)
  have h2 := abs_rn_le' (rn u * rn v)
  have h3 := abs_rn_le' (|rn (rn x * rn y)| + |rn (rn u * rn v)|)
  have n3 := add_nonneg (abs_nonneg (rn (rn x * rn y))) (abs_nonneg (rn (rn u * rn v)))
  rw [abs_of_nonneg n3, abs_of_nonneg (rn_nonneg n3)] at h3
  have n4 := mul_nonneg (rn_nonneg n3) (abs_nonneg (rn z))
  have h4 := abs_rn_le' (rn (|rn (rn x * rn y)| + |rn (rn u * rn v)|) * |rn z|)
  rw [abs_of_nonneg n4, abs_of_nonneg (rn_nonneg n4)] at h4
  have h5 : rn (|rn (rn x * rn y)| + |rn (rn u * rn v)|) ≤ (|rn x * rn y| + |rn u * rn v|) * (1 + ε) ^ 2 := by
    refine h3.trans ?_
    have := mul_le_mul_of_nonneg_right (add_le_add h1 h2) (by norm_num : (0 : ℚ) ≤ 1 + ε)
    refine this.trans (le_of_eq (by ring))
  have h6 := mul_le_mul_of_nonneg_right h5 (abs_nonneg (rn z))
  have h7 := mul_le_mul_of_nonneg_right h6 (by norm_num : (0 : ℚ) ≤ 1 + ε)
  exact (h4.trans h7).trans (le_of_eq (by ring))

theorem rowA_le (p q r : P3) : rowA p q r ≤ rowQ p q r * (1 + 6 * ε) := by
  have q1 := o3A_le p.z q.x r.y r.x q.y
  have q2 := o3A_le q.z r.x p.y p.x r.y
  have q3 := o3A_le r.z p.x q.y q.x p.y
  have p1 := o3A_nonneg p.z q.x r.y r.x q.y
  have p2 := o3A_nonneg q.z r.x p.y p.x r.y
  have p3 := o3A_nonneg r.z p.x q.y q.x p.y
  have s1 := o3Q_nonneg p.z q.x r.y r.x q.y
  have s2 := o3Q_nonneg q.z r.x p.y p.x r.y
  have s3 := o3Q_nonneg r.z p.x q.y q.x p.y
  unfold rowQ rowA
  generalize o3A p.z q.x r.y r.x q.y = A1 at *
  generalize o3A q.z r.x p.y p.x r.y = A2 at *
  generalize o3A r.z p.x q.y q.x p.y = A3 at *
  have a4 := abs_rn_le' (A1 + A2)
  have p4 := rn_nonneg (add_nonneg p1 p2)
  rw [abs_of_nonneg (add_nonneg p1 p2), abs_of_nonneg p4] at a4
  have a5 := abs_rn_le' (rn (A1 + A2) + A3)
  rw [abs_of_nonneg (add_nonneg p4 p3), abs_of_nonneg (rn_nonneg (add_nonneg p4 p3))] at a5
  generalize rn (rn (A1 + A2) + A3) = S at *
  generalize rn (A1 + A2) = B at *
  norm_num at q1 q2 q3 a4 a5 ⊢
  linarith

/-- A summand, its computed value and a common bound of the coordinates. -/
theorem static_term {X Xr Xc K J A Q m : ℚ} (h : RowOk X Xr Xc K J A Q) {p : P3} (m0 : 0 ≤ m) (hp : p.Bd m) (hA : A ≤ Q * (1 + 6 * ε)) (hQ : Q ≤ m ^ 3 * 6)
    (hX : |Xr| ≤ m ^ 3 * (52 / 10)) :
    |p.sq * X - fmul (sqF p.rd) Xc| ≤ m ^ 5 * (239 * ε) ∧ |fmul (sqF p.rd) Xc| ≤ m ^ 5 * (157 / 10) := by
  have hd := sq_diff p
  have hs := hp.sq
  have S0 := p.rd.sq_nonneg
  obtain ⟨-, z2, -⟩ := sqF_bounds p.rd
  generalize sqF p.rd = L at *
  generalize p.rd.sq = S at *
  generalize p.sq = H at *
  have M0 : 0 ≤ m ^ 3 := by positivity
  have N0 : 0 ≤ m ^ 2 := by positivity
  have c1 : |X| ≤ m ^ 3 * (521 / 100) := by
    have := abs_add_le (X - Xr) Xr
    rw [sub_add_cancel] at this
    have h1 := h.diff
    norm_num at h1 hX hQ this ⊢
    linarith
  have c2 : |X - Xc| ≤ m ^ 3 * (481 / 10 * ε) := by
    have h1 := h.close
    norm_num at h1 hQ hA ⊢
    linarith
  have c3 : |Xc| ≤ m ^ 3 * (522 / 100) := by
    have := abs_sub X (X - Xc)
    rw [sub_sub_cancel] at this
    norm_num at c1 c2 this ⊢
    linarith
  have c4 : |H - L| ≤ m ^ 2 * (151 / 10 * ε) := by
    have := abs_add_le (H - S) (S - L)
    rw [sub_add_sub_cancel] at this
    norm_num at hd z2 hs this ⊢
    linarith
  have c5 : |L| ≤ m ^ 2 * (3 + 16 * ε) := by
    have := abs_sub S (S - L)
    rw [sub_sub_cancel, abs_of_nonneg S0] at this
    norm_num at z2 hs this ⊢
    linarith
  have b1 := mul_bound c4 c1
  have b2 := mul_bound c5 c2
  have b3 := mul_bound c5 c3
  have M5 : 0 ≤ m ^ 5 := by positivity
  rw [← pow_add] at b1 b2 b3
  have r1 := rr' (L * Xc)
  have r2 := abs_rn_le' (L * Xc)
  unfold fmul
  have u1 := abs_add_le ((H - L) * X) (L * (X - Xc) + (L * Xc - rn (L * Xc)))
  have u2 := abs_add_le (L * (X - Xc)) (L * Xc - rn (L * Xc))
  rw [show (H - L) * X + (L * (X - Xc) + (L * Xc - rn (L * Xc))) = H * X - rn (L * Xc) by ring] at u1
  generalize |(H - L) * X| = y1 at *
  generalize |L * (X - Xc)| = y2 at *
  generalize |L * Xc| = y3 at *
  norm_num at b1 b2 b3 r1 r2 u1 u2 ⊢
  constructor <;> linarith

/-- The first filter. -/
theorem is_stageA {T1 T2 T3 T4 t1 t2 t3 t4 m d : ℚ} (m0 : 0 ≤ m) (h1 : |T1 - t1| ≤ m ^ 5 * (239 * ε) ∧ |t1| ≤ m ^ 5 * (157 / 10))
    (h2 : |T2 - t2| ≤ m ^ 5 * (239 * ε) ∧ |t2| ≤ m ^ 5 * (157 / 10)) (h3 : |T3 - t3| ≤ m ^ 5 * (239 * ε) ∧ |t3| ≤ m ^ 5 * (157 / 10))
    (h4 : |T4 - t4| ≤ m ^ 5 * (239 * ε) ∧ |t4| ≤ m ^ 5 * (157 / 10)) (hd : d = fadd (fsub t4 t3) (fsub t2 t1)) (h : d > isEps m ∨ -d > isEps m) :
    SameSign d (T4 - T3 + (T2 - T1)) := by
  have hlt : isEps m < |d| := by
    rcases h with h | h
    · exact lt_of_lt_of_le h (le_abs_self _)
    · exact lt_of_lt_of_le h (neg_le_abs _)
  have he := isEps_ge m0
  have M5 : 0 ≤ m ^ 5 := by positivity
  generalize m ^ 5 = M at *
  generalize isEps m = e at *
  obtain ⟨a1, b1⟩ := h1
  obtain ⟨a2, b2⟩ := h2
  obtain ⟨a3, b3⟩ := h3
  obtain ⟨a4, b4⟩ := h4
  simp only [fadd, fsub] at hd
  have r1 := rr' (t4 - t3)
  have r2 := rr' (t2 - t1)
  have r3 := rr (rn (t4 - t3) + rn (t2 - t1))
  rw [← hd] at r3
  generalize rn (t4 - t3) = s1 at *
  generalize rn (t2 - t1) = s2 at *
  have e1 := abs_sub t4 t3
  have e2 := abs_sub t2 t1
  apply SameSign.of_close
  have u1 := abs_add_le ((T4 - t4) - (T3 - t3) + ((T2 - t2) - (T1 - t1))) ((t4 - t3 - s1) + ((t2 - t1 - s2) + (s1 + s2 - d)))
  have u2 := abs_add_le ((T4 - t4) - (T3 - t3)) ((T2 - t2) - (T1 - t1))
  have u3 := abs_sub (T4 - t4) (T3 - t3)
  have u4 := abs_sub (T2 - t2) (T1 - t1)
  have u5 := abs_add_le (t4 - t3 - s1) ((t2 - t1 - s2) + (s1 + s2 - d))
  have u6 := abs_add_le (t2 - t1 - s2) (s1 + s2 - d)
  rw [show (T4 - t4) - (T3 - t3) + ((T2 - t2) - (T1 - t1)) + ((t4 - t3 - s1) + ((t2 - t1 - s2) + (s1 + s2 - d))) = T4 - T3 + (T2 - T1) - d by ring] at u1
  norm_num at a1 a2 a3 a4 b1 b2 b3 b4 r1 r2 r3 e1 e2 he hlt u1 u2 u3 u4 u5 u6 ⊢
  linarith

theorem maxVar_bd (r : Rows) : 0 ≤ maxVar r.rd ∧ r.a.Bd (maxVar r.rd) ∧ r.b.Bd (maxVar r.rd) ∧ r.c.Bd (maxVar r.rd) ∧ r.d.Bd (maxVar r.rd) := by
  have h0 : |rn r.a.x| ≤ maxVar r.rd := by simp [maxVar, Rows.rd, P3.rd]
  refine ⟨(abs_nonneg _).trans h0, ⟨h0, ?_, ?_⟩, ⟨?_, ?_, ?_⟩, ⟨?_, ?_, ?_⟩, ⟨?_, ?_, ?_⟩⟩ <;> simp [maxVar, Rows.rd, P3.rd]

/-! ### The result -/

/-- The size of a determinant of three rows: the sum of the absolute values of its products. -/
def size3 (p q r : P3) : ℚ :=
  |p.z| * (|q.x * r.y| + |r.x * q.y|) + |q.z| * (|r.x * p.y| + |p.x * r.y|) + |r.z| * (|p.x * q.y| + |q.x * p.y|)

/-- The size of the in-sphere determinant: the sum of the absolute values of its products. -/
def inSphereSize (a b c d e : P3) : ℚ :=
  (a.sub e).sq * size3 (b.sub e) (c.sub e) (d.sub e) + (b.sub e).sq * size3 (c.sub e) (d.sub e) (a.sub e) +
  (c.sub e).sq * size3 (d.sub e) (a.sub e) (b.sub e) + (d.sub e).sq * size3 (a.sub e) (b.sub e) (c.sub e)

theorem abs_rn_mul_le (x y : ℚ) : |rn x * rn y| ≤ |x * y| * (1 + ε) ^ 2 := by
  rw [abs_mul, abs_mul]
  refine (mul_le_mul (abs_rn_le' x) (abs_rn_le' y) (abs_nonneg _) (by positivity)).trans (le_of_eq (by ring))

theorem rowQ_size (p q r : P3) : rowQ p q r ≤ size3 p q r * (1 + ε) ^ 3 := by
  have key : ∀ z x y u v : ℚ, o3Q z x y u v ≤ |z| * (|x * y| + |u * v|) * (1 + ε) ^ 3 := by
    intro z x y u v
    unfold o3Q
    have h := add_le_add (abs_rn_mul_le x y) (abs_rn_mul_le u v)
    refine (mul_le_mul (abs_rn_le' z) h (by positivity) (by positivity)).trans (le_of_eq (by ring))
  have h1 := key p.z q.x r.y r.x q.y
  have h2 := key q.z r.x p.y p.x r.y
  have h3 := key r.z p.x q.y q.x p.y
  unfold rowQ size3
  rw [add_mul, add_mul]
  linarith

theorem sq_size (p : P3) : p.rd.sq ≤ p.sq * (1 + ε) ^ 2 := by
  have h1 := abs_rn_mul_le p.x p.x
  have h2 := abs_rn_mul_le p.y p.y
  have h3 := abs_rn_mul_le p.z p.z
  simp only [abs_mul_self] at h1 h2 h3
  simp only [P3.sq, P3.rd]
  linarith

theorem term_size (p q r s : P3) : p.rd.sq * rowQ q r s ≤ p.sq * size3 q r s * (1 + ε) ^ 5 := by
  refine (mul_le_mul (sq_size p) (rowQ_size q r s) (rowQ_nonneg _ _ _) ?_).trans (le_of_eq (by ring))
  have := p.sq_nonneg
  positivity

/-- Whichever stage answers, the sign is right unless a difference was rounded and the determinant is tiny. -/
theorem insphere_spec {a b c d e : P3} (ha : a.IsF) (hb : b.IsF) (hc : c.IsF) (hd : d.IsF) (he : e.IsF) :
    ∃ r, insphere a b c d e = some r ∧ (SameSign r (inSphereDet a b c d e) ∨
      (¬ (exactRows a b c d e).lo.isZero ∧ |inSphereDet a b c d e| ≤ inSphereSize a b c d e * (21 * ε ^ 2))) := by
  obtain ⟨ex, hex, hexs⟩ := insphereExact_spec ha hb hc hd he
  have rA := row_minus (b.sub e) (c.sub e) (d.sub e)
  have rB := row_plus (c.sub e) (d.sub e) (a.sub e)
  have rC := row_plus (d.sub e) (a.sub e) (b.sub e)
  have rD := row_minus (a.sub e) (b.sub e) (c.sub e)
  have tA := sterm_ok rA (a.sub e)
  have tB := sterm_ok rB (b.sub e)
  have tC := sterm_ok rC (c.sub e)
  have tD := sterm_ok rD (d.sub e)
  have hsz : (a.sub e).rd.sq * rowQ (b.sub e) (c.sub e) (d.sub e) + (b.sub e).rd.sq * rowQ (c.sub e) (d.sub e) (a.sub e) +
      (c.sub e).rd.sq * rowQ (d.sub e) (a.sub e) (b.sub e) + (d.sub e).rd.sq * rowQ (a.sub e) (b.sub e) (c.sub e) ≤ inSphereSize a b c d e * (1 + ε) ^ 5 := by
    have h1 := term_size (a.sub e) (b.sub e) (c.sub e) (d.sub e)
    have h2 := term_size (b.sub e) (c.sub e) (d.sub e) (a.sub e)
    have h3 := term_size (c.sub e) (d.sub e) (a.sub e) (b.sub e)
    have h4 := term_size (d.sub e) (a.sub e) (b.sub e) (c.sub e)
    unfold inSphereSize
    simp only [add_mul]
    linarith
  have hsz0 : 0 ≤ (a.sub e).rd.sq * rowQ (b.sub e) (c.sub e) (d.sub e) + (b.sub e).rd.sq * rowQ (c.sub e) (d.sub e) (a.sub e) +
      (c.sub e).rd.sq * rowQ (d.sub e) (a.sub e) (b.sub e) + (d.sub e).rd.sq * rowQ (a.sub e) (b.sub e) (c.sub e) :=
    add_nonneg (add_nonneg (add_nonneg tA.nonneg tB.nonneg) tC.nonneg) tD.nonneg
  have hfin : ∃ fin, insphereFin (rowsOf a b c d e) = some fin ∧ Proper fin ∧
      fin.sum = det4 (exactRows a b c d e).rd (exactRows a b c d e).rd.lifts := by
    obtain ⟨fin, h1, h2, h3⟩ := rowFin_spec (r := rowsOf a b c d e) (a.sub e).rd_isF (b.sub e).rd_isF (c.sub e).rd_isF (d.sub e).rd_isF
      (ups_lift (a.sub e).rd_isF (s := (a.sub e).rd.neg) ⟨(rn_isF _).neg, (rn_isF _).neg, (rn_isF _).neg⟩) (ups_lift (b.sub e).rd_isF (b.sub e).rd_isF)
      (ups_lift (c.sub e).rd_isF (s := (c.sub e).rd.neg) ⟨(rn_isF _).neg, (rn_isF _).neg, (rn_isF _).neg⟩) (ups_lift (d.sub e).rd_isF (d.sub e).rd_isF)
    refine ⟨fin, h1, h2, h3.trans ?_⟩
    rw [rowsOf_eq]
    simp only [det4, Rows.lifts, P3.sq, P3.neg, Rows.rd, exactRows]
    ring
  obtain ⟨fin, hf, hp, hs⟩ := hfin
  have hest := estimate_close hp.exp
  have hsame := estimate_sameSign hp.exp
  rw [hs] at hest hsame
  simp only [insphere]
  split
  · next h =>
    refine ⟨_, rfl, Or.inl ?_⟩
    obtain ⟨m0, mA, mB, mC, mD⟩ := maxVar_bd (exactRows a b c d e)
    exact is_stageA m0 (static_term rA m0 mA (rowA_le _ _ _) (Bd.rowQ mB mC mD) (Bd.det m0 mB mC mD))
      (static_term rB m0 mB (rowA_le _ _ _) (Bd.rowQ mC mD mA) (Bd.det m0 mC mD mA))
      (static_term rC m0 mC (rowA_le _ _ _) (Bd.rowQ mD mA mB) (Bd.det m0 mD mA mB))
      (static_term rD m0 mD (rowA_le _ _ _) (Bd.rowQ mA mB mC) (Bd.det m0 mA mB mC)) rfl h
  simp only [insphereAdapt, hf, Option.bind_eq_bind, Option.bind_some, adaptRest]
  have hz : (exactRows a b c d e).lo.isZero → SameSign (estimate fin) (inSphereDet a b c d e) := by
    intro hz
    rw [Rows.rd_of_lo hz] at hsame
    exact hsame
  have hle : ∀ {s : ℚ}, s ≤ ((a.sub e).rd.sq * rowQ (b.sub e) (c.sub e) (d.sub e) + (b.sub e).rd.sq * rowQ (c.sub e) (d.sub e) (a.sub e) +
      (c.sub e).rd.sq * rowQ (d.sub e) (a.sub e) (b.sub e) + (d.sub e).rd.sq * rowQ (a.sub e) (b.sub e) (c.sub e)) * (20 * ε ^ 2) →
      s ≤ inSphereSize a b c d e * (21 * ε ^ 2) := by
    intro s h
    refine h.trans ?_
    generalize (a.sub e).rd.sq * rowQ (b.sub e) (c.sub e) (d.sub e) + (b.sub e).rd.sq * rowQ (c.sub e) (d.sub e) (a.sub e) +
      (c.sub e).rd.sq * rowQ (d.sub e) (a.sub e) (b.sub e) + (d.sub e).rd.sq * rowQ (a.sub e) (b.sub e) (c.sub e) = q at *
    norm_num at hsz ⊢
    linarith
  split
  · next h =>
    refine ⟨_, rfl, ?_⟩
    by_cases hzz : (exactRows a b c d e).lo.isZero
    · exact Or.inl (hz hzz)
    · rcases is_stageB tA tB tC tD hest h with k | k
      · exact Or.inl k
      · exact Or.inr ⟨hzz, hle k⟩
  split
  · next h =>
    refine ⟨_, rfl, Or.inl ?_⟩
    rw [rowTails_eq ha hb hc hd he] at h
    exact hz (of_decide_eq_true h)
  · next hzz =>
    rw [rowTails_eq ha hb hc hd he] at hzz
    have hzz : ¬ (exactRows a b c d e).lo.isZero := fun k => hzz (decide_eq_true k)
    split
    · next h =>
      refine ⟨_, rfl, ?_⟩
      have := is_stageC tA tB tC tD hest (by
        rw [rowTails_eq ha hb hc hd he, fmul_two (x := rowCorr2 _ _) (rn_isF _)]
        rfl) h
      rcases this with k | k
      · exact Or.inl k
      · exact Or.inr ⟨hzz, hle k⟩
    · exact ⟨ex, hex, Or.inl hexs⟩

/-- The full claim: the sign is right for all doubles. Its proof needs smaller error bounds for the second and third stage than we have. -/
def InsphereExact : Prop := ∀ a b c d e : P3, a.IsF → b.IsF → c.IsF → d.IsF → e.IsF →
  ∃ r, insphere a b c d e = some r ∧ SameSign r (inSphereDet a b c d e)

/-- **`insphere` is exact up to the last bit of doubled precision**: it never panics and for all doubles the sign is right, unless the determinant is smaller
than `21 / 2^106` times the sum of the absolute values of its products. Missing for `InsphereExact`: that the answers of the second and third stage are right
for such tiny determinants as well. -/
theorem c73_insphere_partial {a b c d e : P3} (ha : a.IsF) (hb : b.IsF) (hc : c.IsF) (hd : d.IsF) (he : e.IsF) :
    ∃ r, insphere a b c d e = some r ∧
      (inSphereSize a b c d e * (21 / 2 ^ 106) < |inSphereDet a b c d e| → SameSign r (inSphereDet a b c d e)) := by
  obtain ⟨r, hr, h⟩ := insphere_spec ha hb hc hd he
  refine ⟨r, hr, fun hlt => h.resolve_right fun k => ?_⟩
  have := k.2
  norm_num at this hlt
  linarith

/-- The twelve differences to `e` are doubles. -/
def ExactDiffs (a b c d e : P3) : Prop := (a.sub e).IsF ∧ (b.sub e).IsF ∧ (c.sub e).IsF ∧ (d.sub e).IsF

theorem lo_of_isF {p : P3} (h : p.IsF) : p.lo.isZero := by
  simp only [P3.isZero, P3.lo, lost, rn_of_isF h.1, rn_of_isF h.2.1, rn_of_isF h.2.2, sub_self, and_self]

/-- If subtracting the last point is exact, for example for integers up to `2^52`, the sign is always right. -/
theorem c73_exact_differences {a b c d e : P3} (ha : a.IsF) (hb : b.IsF) (hc : c.IsF) (hd : d.IsF) (he : e.IsF) (hx : ExactDiffs a b c d e) :
    ∃ r, insphere a b c d e = some r ∧ SameSign r (inSphereDet a b c d e) := by
  obtain ⟨r, hr, h⟩ := insphere_spec ha hb hc hd he
  refine ⟨r, hr, h.resolve_right fun k => k.1 ?_⟩
  exact ⟨lo_of_isF hx.1, lo_of_isF hx.2.1, lo_of_isF hx.2.2.1, lo_of_isF hx.2.2.2⟩

/-- The last stage alone is exact for all doubles. -/
theorem c73_exact_stage {a b c d e : P3} (ha : a.IsF) (hb : b.IsF) (hc : c.IsF) (hd : d.IsF) (he : e.IsF) :
    ∃ r, insphereExact a b c d e = some r ∧ SameSign r (inSphereDet a b c d e) := insphereExact_spec ha hb hc hd he

/-! ### What the sign means -/

/-- The square of the distance. -/
def dist3 (p q : P3) : ℚ := (p.sub q).sq

/-- If `o` is the centre of the sphere through `a`, `b`, `c` and `d` the determinant is the volume times the power of `e`. -/
theorem inSphereDet_eq {a b c d e o : P3} {R : ℚ} (h1 : dist3 o a = R) (h2 : dist3 o b = R) (h3 : dist3 o c = R) (h4 : dist3 o d = R) :
    inSphereDet a b c d e = vol6 a b c d * (R - dist3 o e) := by
  have key : ∀ p : P3, dist3 o p = R → (p.sub e).sq = R - dist3 o e + 2 * ((p.x - e.x) * (o.x - e.x) + (p.y - e.y) * (o.y - e.y) + (p.z - e.z) * (o.z - e.z)) := by
    intro p hp
    rw [← hp]
    simp only [dist3, P3.sq, P3.sub]
    ring
  simp only [inSphereDet, det4, Rows.lifts, exactRows]
  rw [key a h1, key b h2, key c h3, key d h4]
  simp only [det3, P3.sub, vol6]
  ring

/-- **The meaning**: for a positively oriented tetrahedron and a point whose determinant is not tiny the answer is positive exactly if the point lies inside of
the sphere and negative exactly if it lies outside. -/
theorem c73_sphere_partial {a b c d e o : P3} {R : ℚ} (ha : a.IsF) (hb : b.IsF) (hc : c.IsF) (hd : d.IsF) (he : e.IsF)
    (h1 : dist3 o a = R) (h2 : dist3 o b = R) (h3 : dist3 o c = R) (h4 : dist3 o d = R) (h : 0 < vol6 a b c d)
    (hx : ExactDiffs a b c d e ∨ inSphereSize a b c d e * (21 / 2 ^ 106) < |inSphereDet a b c d e|) :
    ∃ r, insphere a b c d e = some r ∧ (0 < r ↔ dist3 o e < R) ∧ (r < 0 ↔ R < dist3 o e) ∧ (r = 0 ↔ dist3 o e = R) := by
  have : ∃ r, insphere a b c d e = some r ∧ SameSign r (inSphereDet a b c d e) := by
    rcases hx with hx | hx
    · exact c73_exact_differences ha hb hc hd he hx
    · obtain ⟨r, hr, hs⟩ := c73_insphere_partial ha hb hc hd he
      exact ⟨r, hr, hs hx⟩
  obtain ⟨r, hr, hs⟩ := this
  rw [inSphereDet_eq h1 h2 h3 h4] at hs
  have pos : 0 < r ↔ dist3 o e < R := by rw [hs.1, mul_pos_iff_of_pos_left h, sub_pos]
  have neg : r < 0 ↔ R < dist3 o e := by rw [hs.2, ← neg_pos, ← mul_neg, mul_pos_iff_of_pos_left h, neg_sub, sub_pos]
  refine ⟨r, hr, pos, neg, ?_⟩
  constructor
  · intro h0
    rw [h0] at pos neg
    exact le_antisymm (not_lt.1 fun k => lt_irrefl _ (neg.2 k)) (not_lt.1 fun k => lt_irrefl _ (pos.2 k))
  · intro h0
    rw [h0] at pos neg
    exact le_antisymm (not_lt.1 fun k => lt_irrefl _ (pos.1 k)) (not_lt.1 fun k => lt_irrefl _ (neg.1 k))

/-- A tetrahedron with corners on the axes, and the opposite corner of the cube: on the sphere, which only the stages after the first can tell. -/
example : insphere ⟨1, 0, 0⟩ ⟨0, 1, 0⟩ ⟨0, 0, 1⟩ ⟨0, 0, 0⟩ ⟨1, 1, 1⟩ = some 0 ∧ 0 < vol6 ⟨1, 0, 0⟩ ⟨0, 1, 0⟩ ⟨0, 0, 1⟩ ⟨0, 0, 0⟩ := by decide +kernel

/-- Moving it by one unit in the last place inwards or outwards is noticed. -/
example : (∃ r, insphere ⟨1, 0, 0⟩ ⟨0, 1, 0⟩ ⟨0, 0, 1⟩ ⟨0, 0, 0⟩ ⟨1, 1, 1 - 1 / 2 ^ 53⟩ = some r ∧ 0 < r) ∧
    ∃ r, insphere ⟨1, 0, 0⟩ ⟨0, 1, 0⟩ ⟨0, 0, 1⟩ ⟨0, 0, 0⟩ ⟨1, 1, 1 + 1 / 2 ^ 52⟩ = some r ∧ r < 0 := by
  refine ⟨⟨(insphere ⟨1, 0, 0⟩ ⟨0, 1, 0⟩ ⟨0, 0, 1⟩ ⟨0, 0, 0⟩ ⟨1, 1, 1 - 1 / 2 ^ 53⟩).get (by decide +kernel), by decide +kernel, by decide +kernel⟩,
    ⟨(insphere ⟨1, 0, 0⟩ ⟨0, 1, 0⟩ ⟨0, 0, 1⟩ ⟨0, 0, 0⟩ ⟨1, 1, 1 + 1 / 2 ^ 52⟩).get (by decide +kernel), by decide +kernel, by decide +kernel⟩⟩

/-- Its determinant is far larger than the threshold, so the hypothesis of the theorem holds. -/
example : inSphereSize ⟨1, 0, 0⟩ ⟨0, 1, 0⟩ ⟨0, 0, 1⟩ ⟨0, 0, 0⟩ ⟨1, 1, 1 + 1 / 2 ^ 52⟩ * (21 / 2 ^ 106) <
    |inSphereDet ⟨1, 0, 0⟩ ⟨0, 1, 0⟩ ⟨0, 0, 1⟩ ⟨0, 0, 0⟩ ⟨1, 1, 1 + 1 / 2 ^ 52⟩| := by decide +kernel

end Verif.Float
