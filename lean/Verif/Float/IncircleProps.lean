import Verif.Float.IncircleFilter
/-!
# `incircle`: the sign is exact
-/
namespace Verif.Float

theorem diff2_isF (a b c d : P2) : (diff2 a b c d).IsF := ⟨rn_isF _, rn_isF _, rn_isF _, rn_isF _, rn_isF _, rn_isF _⟩

/-- The tails are what rounding the differences lost. -/
theorem diff2Tails_eq {a b c d : P2} (ha : a.IsF) (hb : b.IsF) (hc : c.IsF) (hd : d.IsF) :
    diff2Tails a b c d (diff2 a b c d) = ⟨lost (a.x - d.x), lost (a.y - d.y), lost (b.x - d.x), lost (b.y - d.y), lost (c.x - d.x), lost (c.y - d.y)⟩ := by
  simp only [diff2Tails, diff2, fsub, lost, twoDiffTail_spec ha.1 hd.1, twoDiffTail_spec ha.2 hd.2,
    twoDiffTail_spec hb.1 hd.1, twoDiffTail_spec hb.2 hd.2, twoDiffTail_spec hc.1 hd.1, twoDiffTail_spec hc.2 hd.2]

theorem icCorr1_eq (p q x y u v : ℚ) :
    icCorr1 (rn p) (rn q) (lost p) (lost q) (rn x) (rn v) (rn u) (rn y) (lost x) (lost v) (lost u) (lost y) = icC p q x y u v := by
  unfold icCorr1
  rw [fmul_two (x := fadd _ _) (rn_isF _)]
  rfl

theorem incircleAdapt_spec {a b c d : P2} (ha : a.IsF) (hb : b.IsF) (hc : c.IsF) (hd : d.IsF) :
    ∃ r, incircleAdapt a b c d (icPerm (diff2 a b c d)) = some r ∧ SameSign r (inCircleDet a b c d) := by
  obtain ⟨fin, hf, hp, hs⟩ := icFin_spec (diff2_isF a b c d)
  have he := estimate_close hp.exp
  have hsame := estimate_sameSign hp.exp
  rw [hs] at he hsame
  have hdet : (diff2 a b c d).det = icS (a.x - d.x) (a.y - d.y) * (rn (b.x - d.x) * rn (c.y - d.y) - rn (c.x - d.x) * rn (b.y - d.y)) +
      icS (b.x - d.x) (b.y - d.y) * (rn (c.x - d.x) * rn (a.y - d.y) - rn (a.x - d.x) * rn (c.y - d.y)) +
      icS (c.x - d.x) (c.y - d.y) * (rn (a.x - d.x) * rn (b.y - d.y) - rn (b.x - d.x) * rn (a.y - d.y)) := rfl
  have A1 := icA_nonneg (a.x - d.x) (a.y - d.y) (b.x - d.x) (c.y - d.y) (c.x - d.x) (b.y - d.y)
  have A2 := icA_nonneg (b.x - d.x) (b.y - d.y) (c.x - d.x) (a.y - d.y) (a.x - d.x) (c.y - d.y)
  have A3 := icA_nonneg (c.x - d.x) (c.y - d.y) (a.x - d.x) (b.y - d.y) (b.x - d.x) (a.y - d.y)
  have q1 := icQ_le (a.x - d.x) (a.y - d.y) (b.x - d.x) (c.y - d.y) (c.x - d.x) (b.y - d.y)
  have q2 := icQ_le (b.x - d.x) (b.y - d.y) (c.x - d.x) (a.y - d.y) (a.x - d.x) (c.y - d.y)
  have q3 := icQ_le (c.x - d.x) (c.y - d.y) (a.x - d.x) (b.y - d.y) (b.x - d.x) (a.y - d.y)
  have g1 := ic_diff_close (a.x - d.x) (a.y - d.y) (b.x - d.x) (c.y - d.y) (c.x - d.x) (b.y - d.y)
  have g2 := ic_diff_close (b.x - d.x) (b.y - d.y) (c.x - d.x) (a.y - d.y) (a.x - d.x) (c.y - d.y)
  have g3 := ic_diff_close (c.x - d.x) (c.y - d.y) (a.x - d.x) (b.y - d.y) (b.x - d.x) (a.y - d.y)
  have v1 := ic_val_le (a.x - d.x) (a.y - d.y) (b.x - d.x) (c.y - d.y) (c.x - d.x) (b.y - d.y)
  have v2 := ic_val_le (b.x - d.x) (b.y - d.y) (c.x - d.x) (a.y - d.y) (a.x - d.x) (c.y - d.y)
  have v3 := ic_val_le (c.x - d.x) (c.y - d.y) (a.x - d.x) (b.y - d.y) (b.x - d.x) (a.y - d.y)
  obtain ⟨k1, l1⟩ := icC_close (a.x - d.x) (a.y - d.y) (b.x - d.x) (c.y - d.y) (c.x - d.x) (b.y - d.y)
  obtain ⟨k2, l2⟩ := icC_close (b.x - d.x) (b.y - d.y) (c.x - d.x) (a.y - d.y) (a.x - d.x) (c.y - d.y)
  obtain ⟨k3, l3⟩ := icC_close (c.x - d.x) (c.y - d.y) (a.x - d.x) (b.y - d.y) (b.x - d.x) (a.y - d.y)
  have Q3 := icQ_nonneg (c.x - d.x) (c.y - d.y) (a.x - d.x) (b.y - d.y) (b.x - d.x) (a.y - d.y)
  have hperm : icPerm (diff2 a b c d) = rn (rn (icA (a.x - d.x) (a.y - d.y) (b.x - d.x) (c.y - d.y) (c.x - d.x) (b.y - d.y) +
      icA (b.x - d.x) (b.y - d.y) (c.x - d.x) (a.y - d.y) (a.x - d.x) (c.y - d.y)) + icA (c.x - d.x) (c.y - d.y) (a.x - d.x) (b.y - d.y) (b.x - d.x) (a.y - d.y)) := rfl
  have hcorr : icCorr (diff2 a b c d) (diff2Tails a b c d (diff2 a b c d)) = rn (rn (icC (a.x - d.x) (a.y - d.y) (b.x - d.x) (c.y - d.y) (c.x - d.x) (b.y - d.y) +
      icC (b.x - d.x) (b.y - d.y) (c.x - d.x) (a.y - d.y) (a.x - d.x) (c.y - d.y)) + icC (c.x - d.x) (c.y - d.y) (a.x - d.x) (b.y - d.y) (b.x - d.x) (a.y - d.y)) := by
    rw [diff2Tails_eq ha hb hc hd]
    unfold icCorr diff2 fsub
    simp only [icCorr1_eq]
    rfl
  have hD : inCircleDet a b c d = ((a.x - d.x) * (a.x - d.x) + (a.y - d.y) * (a.y - d.y)) * ((b.x - d.x) * (c.y - d.y) - (c.x - d.x) * (b.y - d.y)) +
      ((b.x - d.x) * (b.x - d.x) + (b.y - d.y) * (b.y - d.y)) * ((c.x - d.x) * (a.y - d.y) - (a.x - d.x) * (c.y - d.y)) +
      ((c.x - d.x) * (c.x - d.x) + (c.y - d.y) * (c.y - d.y)) * ((a.x - d.x) * (b.y - d.y) - (b.x - d.x) * (a.y - d.y)) := rfl
  have hzz := add_nonneg (rn_nonneg (add_nonneg A1 A2)) A3
  have hP := add_rn_le A1 A2
  have ht : (diff2Tails a b c d (diff2 a b c d)).IsF := by
    rw [diff2Tails_eq ha hb hc hd]
    exact ⟨lost_isF ha.1 hd.1, lost_isF ha.2 hd.2, lost_isF hb.1 hd.1, lost_isF hb.2 hd.2, lost_isF hc.1 hd.1, lost_isF hc.2 hd.2⟩
  obtain ⟨r, hr, hrs⟩ := icExact_spec (diff2_isF a b c d) ht ⟨hp, hs⟩
  have hsum : ((diff2 a b c d).add (diff2Tails a b c d (diff2 a b c d))).det = inCircleDet a b c d := by
    rw [diff2Tails_eq ha hb hc hd]
    simp only [Diff2.add, diff2, fsub, rn_add_lost, Diff2.det, inCircleDet]
  rw [hsum] at hrs
  have hzero : (diff2Tails a b c d (diff2 a b c d)).adx = 0 ∧ (diff2Tails a b c d (diff2 a b c d)).bdx = 0 ∧ (diff2Tails a b c d (diff2 a b c d)).cdx = 0 ∧ (diff2Tails a b c d (diff2 a b c d)).ady = 0 ∧ (diff2Tails a b c d (diff2 a b c d)).bdy = 0 ∧
      (diff2Tails a b c d (diff2 a b c d)).cdy = 0 → (diff2 a b c d).det = inCircleDet a b c d := by
    rintro ⟨z1, z2, z3, z4, z5, z6⟩
    rw [← hsum]
    simp only [Diff2.add, Diff2.det, z1, z2, z3, z4, z5, z6, add_zero]
  rw [hdet] at he
  generalize icA (a.x - d.x) (a.y - d.y) (b.x - d.x) (c.y - d.y) (c.x - d.x) (b.y - d.y) = a1 at *
  generalize icA (b.x - d.x) (b.y - d.y) (c.x - d.x) (a.y - d.y) (a.x - d.x) (c.y - d.y) = a2 at *
  generalize icA (c.x - d.x) (c.y - d.y) (a.x - d.x) (b.y - d.y) (b.x - d.x) (a.y - d.y) = a3 at *
  generalize icQ (a.x - d.x) (a.y - d.y) (b.x - d.x) (c.y - d.y) (c.x - d.x) (b.y - d.y) = p1 at *
  generalize icQ (b.x - d.x) (b.y - d.y) (c.x - d.x) (a.y - d.y) (a.x - d.x) (c.y - d.y) = p2 at *
  generalize icQ (c.x - d.x) (c.y - d.y) (a.x - d.x) (b.y - d.y) (b.x - d.x) (a.y - d.y) = p3 at *
  generalize icC (a.x - d.x) (a.y - d.y) (b.x - d.x) (c.y - d.y) (c.x - d.x) (b.y - d.y) = c1 at *
  generalize icC (b.x - d.x) (b.y - d.y) (c.x - d.x) (a.y - d.y) (a.x - d.x) (c.y - d.y) = c2 at *
  generalize icC (c.x - d.x) (c.y - d.y) (a.x - d.x) (b.y - d.y) (b.x - d.x) (a.y - d.y) = c3 at *
  have hPP : p1 + p2 + p3 ≤ (rn (a1 + a2) + a3) * (1 + 1 / 9007199254740992) ^ 6 := by
    generalize rn (a1 + a2) = s at *
    norm_num at q1 q2 q3 hP ⊢
    linarith
  simp only [incircleAdapt, hf, Option.bind_eq_bind, Option.bind_some, icRest, hcorr, hperm]
  split
  · next h =>
    refine ⟨_, rfl, ic_stageB (P := p1 + p2 + p3) ?_ he ?_ hzz hPP h⟩
    · rw [hD]
      have u1 := abs_add_le (((a.x - d.x) * (a.x - d.x) + (a.y - d.y) * (a.y - d.y)) * ((b.x - d.x) * (c.y - d.y) - (c.x - d.x) * (b.y - d.y)) - icS (a.x - d.x) (a.y - d.y) * (rn (b.x - d.x) * rn (c.y - d.y) - rn (c.x - d.x) * rn (b.y - d.y)) +
        (((b.x - d.x) * (b.x - d.x) + (b.y - d.y) * (b.y - d.y)) * ((c.x - d.x) * (a.y - d.y) - (a.x - d.x) * (c.y - d.y)) - icS (b.x - d.x) (b.y - d.y) * (rn (c.x - d.x) * rn (a.y - d.y) - rn (a.x - d.x) * rn (c.y - d.y))))
        (((c.x - d.x) * (c.x - d.x) + (c.y - d.y) * (c.y - d.y)) * ((a.x - d.x) * (b.y - d.y) - (b.x - d.x) * (a.y - d.y)) - icS (c.x - d.x) (c.y - d.y) * (rn (a.x - d.x) * rn (b.y - d.y) - rn (b.x - d.x) * rn (a.y - d.y)))
      have u2 := abs_add_le (((a.x - d.x) * (a.x - d.x) + (a.y - d.y) * (a.y - d.y)) * ((b.x - d.x) * (c.y - d.y) - (c.x - d.x) * (b.y - d.y)) - icS (a.x - d.x) (a.y - d.y) * (rn (b.x - d.x) * rn (c.y - d.y) - rn (c.x - d.x) * rn (b.y - d.y)))
        (((b.x - d.x) * (b.x - d.x) + (b.y - d.y) * (b.y - d.y)) * ((c.x - d.x) * (a.y - d.y) - (a.x - d.x) * (c.y - d.y)) - icS (b.x - d.x) (b.y - d.y) * (rn (c.x - d.x) * rn (a.y - d.y) - rn (a.x - d.x) * rn (c.y - d.y)))
      refine le_trans (le_of_eq ?_) ((u1.trans (add_le_add_left (u2.trans (add_le_add g1 g2)) _)).trans (add_le_add_right g3 _) |>.trans (le_of_eq ?_))
      · congr 1; ring
      · ring
    · refine (abs_add_le _ _).trans (add_le_add ((abs_add_le _ _).trans (add_le_add v1 v2)) v3)
  · next hB =>
    split
    · next h =>
      refine ⟨_, rfl, ?_⟩
      rw [← hzero h]
      exact hsame
    · split
      · next h =>
        refine ⟨_, rfl, ?_⟩
        rw [hD]
        refine ic_stageC k1 k2 k3 l1 l2 l3 Q3 he ?_ hPP h
        rcases hzz.eq_or_lt with h0 | h0
        · exfalso
          rw [← h0, rn_zero, fmul, mul_zero, rn_zero] at hB
          rcases le_total 0 (estimate fin) with e | e
          · exact hB (Or.inl e)
          · exact hB (Or.inr (by linarith))
        · exact h0
      · exact ⟨r, hr, hrs⟩

/-- **`incircle` is exact**: for any four points with double coordinates it does not panic and returns a number with the sign of the determinant. -/
theorem c71_incircle {a b c d : P2} (ha : a.IsF) (hb : b.IsF) (hc : c.IsF) (hd : d.IsF) :
    ∃ r, incircle a b c d = some r ∧ SameSign r (inCircleDet a b c d) := by
  simp only [incircle]
  split
  · next h =>
    refine ⟨_, rfl, ?_⟩
    exact ic_stageA (icT_close (a.x - d.x) (a.y - d.y) (b.x - d.x) (c.y - d.y) (c.x - d.x) (b.y - d.y)) (icT_close (b.x - d.x) (b.y - d.y) (c.x - d.x) (a.y - d.y) (a.x - d.x) (c.y - d.y))
      (icT_close (c.x - d.x) (c.y - d.y) (a.x - d.x) (b.y - d.y) (b.x - d.x) (a.y - d.y)) (icT_le _ _ _ _ _ _) (icT_le _ _ _ _ _ _) (icT_le _ _ _ _ _ _) h
  · exact incircleAdapt_spec ha hb hc hd

/-! ### What the sign means -/

/-- Twice the signed area. -/
def turn2 (a b c : P2) : ℚ := (a.x - c.x) * (b.y - c.y) - (b.x - c.x) * (a.y - c.y)

/-- The squared distance. -/
def dist2 (p q : P2) : ℚ := (p.x - q.x) * (p.x - q.x) + (p.y - q.y) * (p.y - q.y)

/-- If `o` has the same distance to `a`, `b` and `c` then the determinant is the area times the power of `d` with respect to the circle. -/
theorem inCircleDet_eq {a b c d o : P2} (h1 : dist2 o a = dist2 o c) (h2 : dist2 o b = dist2 o c) :
    inCircleDet a b c d = turn2 a b c * (dist2 o c - dist2 o d) := by
  unfold dist2 at *
  unfold inCircleDet turn2
  linear_combination ((d.x - b.x) * (d.y - c.y) - (d.x - c.x) * (d.y - b.y)) * h1 + ((d.x - c.x) * (d.y - a.y) - (d.x - a.x) * (d.y - c.y)) * h2

/-- **The meaning**: if `a b c` turns to the left and `o` is the centre of its circle then the answer is positive exactly for the points inside of the circle,
negative exactly for the points outside of it and zero exactly for the points on it. -/
theorem c71_circle {a b c d o : P2} (ha : a.IsF) (hb : b.IsF) (hc : c.IsF) (hd : d.IsF) (h1 : dist2 o a = dist2 o c) (h2 : dist2 o b = dist2 o c)
    (h : 0 < turn2 a b c) : ∃ r, incircle a b c d = some r ∧ (0 < r ↔ dist2 o d < dist2 o c) ∧ (r < 0 ↔ dist2 o c < dist2 o d) ∧
      (r = 0 ↔ dist2 o d = dist2 o c) := by
  obtain ⟨r, hr, hs⟩ := c71_incircle ha hb hc hd
  rw [inCircleDet_eq h1 h2] at hs
  have pos : 0 < r ↔ dist2 o d < dist2 o c := by rw [hs.1, mul_pos_iff_of_pos_left h, sub_pos]
  have neg : r < 0 ↔ dist2 o c < dist2 o d := by rw [hs.2, ← neg_pos, ← mul_neg, mul_pos_iff_of_pos_left h, neg_sub, sub_pos]
  refine ⟨r, hr, pos, neg, ?_⟩
  constructor
  · intro h0
    rw [h0] at pos neg
    exact le_antisymm (not_lt.1 fun k => lt_irrefl _ (neg.2 k)) (not_lt.1 fun k => lt_irrefl _ (pos.2 k))
  · intro h0
    rw [h0] at pos neg
    exact le_antisymm (not_lt.1 fun k => lt_irrefl _ (pos.1 k)) (not_lt.1 fun k => lt_irrefl _ (neg.1 k))

/-- **Consistency**: exchanging any two neighbours of the four points exactly reverses the answer, so that any permutation gives the same verdict up to its sign. -/
theorem c71_swap {a b c d : P2} (ha : a.IsF) (hb : b.IsF) (hc : c.IsF) (hd : d.IsF) :
    ∃ r s1 s2 s3, incircle a b c d = some r ∧ incircle b a c d = some s1 ∧ incircle a c b d = some s2 ∧ incircle a b d c = some s3 ∧
      ∀ s ∈ [s1, s2, s3], SameSign s (-r) := by
  obtain ⟨r, hr, h0⟩ := c71_incircle ha hb hc hd
  obtain ⟨s1, q1, h1⟩ := c71_incircle hb ha hc hd
  obtain ⟨s2, q2, h2⟩ := c71_incircle ha hc hb hd
  obtain ⟨s3, q3, h3⟩ := c71_incircle ha hb hd hc
  refine ⟨r, s1, s2, s3, hr, q1, q2, q3, ?_⟩
  rw [show inCircleDet b a c d = -inCircleDet a b c d by unfold inCircleDet; ring] at h1
  rw [show inCircleDet a c b d = -inCircleDet a b c d by unfold inCircleDet; ring] at h2
  rw [show inCircleDet a b d c = -inCircleDet a b c d by unfold inCircleDet; ring] at h3
  have key : ∀ {s : ℚ}, SameSign s (-inCircleDet a b c d) → SameSign s (-r) := by
    intro s hs
    unfold SameSign at *
    rw [neg_pos, neg_lt_zero] at *
    exact ⟨hs.1.trans h0.2.symm, hs.2.trans h0.1.symm⟩
  intro s hs
  rcases (by simpa using hs : s = s1 ∨ s = s2 ∨ s = s3) with rfl | rfl | rfl
  exacts [key h1, key h2, key h3]

/-- Points of the unit circle, a point inside of it and one outside. -/
example : incircle ⟨1, 0⟩ ⟨0, 1⟩ ⟨-1, 0⟩ ⟨0, -1⟩ = some 0 ∧ incircle ⟨1, 0⟩ ⟨0, 1⟩ ⟨-1, 0⟩ ⟨1 / 2, 1 / 4⟩ = some (11 / 8) ∧
    incircle ⟨1, 0⟩ ⟨0, 1⟩ ⟨-1, 0⟩ ⟨2, 1⟩ = some (-8) ∧ turn2 ⟨1, 0⟩ ⟨0, 1⟩ ⟨-1, 0⟩ = 2 := by decide +kernel

/-- A point that is inside of the circle by less than double precision: the last stage finds it. -/
example : incircle ⟨1, 0⟩ ⟨0, 1⟩ ⟨-1, 0⟩ ⟨1 / 2 ^ 60, -1 + 1 / 2 ^ 53⟩ = some (1 / 2 ^ 51) ∧
    incircle ⟨1, 0⟩ ⟨0, 1⟩ ⟨-1, 0⟩ ⟨1 / 2 ^ 60, -1⟩ = some (-1 / 2 ^ 119) := by decide +kernel

/-- The hypotheses hold for the unit circle. -/
example : P2.IsF ⟨1 / 2 ^ 60, -1⟩ ∧ dist2 ⟨0, 0⟩ ⟨1, 0⟩ = dist2 ⟨0, 0⟩ ⟨-1, 0⟩ ∧ dist2 ⟨0, 0⟩ ⟨0, 1⟩ = dist2 ⟨0, 0⟩ ⟨-1, 0⟩ ∧
    dist2 ⟨0, 0⟩ ⟨-1, 0⟩ < dist2 ⟨0, 0⟩ ⟨1 / 2 ^ 60, -1⟩ := by
  refine ⟨⟨⟨1, -60, ?_, ?_⟩, ⟨-1, 0, ?_, ?_⟩⟩, ?_, ?_, ?_⟩ <;> norm_num [dist2]

end Verif.Float
