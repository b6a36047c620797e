import Verif.Interval.Spec
import Verif.Float.Rn
import Mathlib.Tactic.Linarith
/-!
# Interval operations
-/
namespace Verif.Interval
open Verif.Float (Mult rne lsb pw_pos pw_add pw_mono pw_lt)

variable {A : Arith}

theorem Arith.Sound.zero (h : A.Sound) : A.rnd 0 = 0 := by
  have := h.odd 0
  rw [neg_zero] at this
  linarith

theorem Lane.Ok.nonpos {a : Lane} (h : a.Ok) (hs : a.s = true) : a.v ≤ 0 := by
  by_contra hc
  have := h.pos (not_le.1 hc)
  rw [hs] at this; cases this

theorem Lane.Ok.nonneg {a : Lane} (h : a.Ok) (hs : a.s = false) : 0 ≤ a.v := by
  by_contra hc
  have := h.neg (not_le.1 hc)
  rw [hs] at this; cases this

theorem lane_ok (x : ℚ) : (lane x).Ok := ⟨fun h => by simpa [lane] using h, fun h => by simpa [lane] using h.le⟩

theorem neg_lane_ok (x : ℚ) : (lane x).neg.Ok := by
  constructor
  · intro h
    have : 0 < x := by simpa [lane, Lane.neg] using h
    simpa [lane, Lane.neg] using this.le
  · intro h
    have : x < 0 := by simpa [lane, Lane.neg] using h
    simpa [lane, Lane.neg] using this

theorem of_holds (x : ℚ) : Holds (Itv.of x) x :=
  ⟨le_rfl, by simp [Itv.of, lane, Lane.neg], lane_ok x, neg_lane_ok x, by simp [Itv.of, lane, Lane.neg]⟩

theorem nextUp_ok (hA : A.Sound) {a : Lane} {P : ℚ} (ha : a.v = A.rnd P) : (a.nextUp A).Ok := by
  constructor
  · intro h
    by_contra hc
    have h1 : ¬ a.v < 0 := by simpa [Lane.nextUp] using hc
    rw [ha] at h1
    have := hA.pos _ (not_lt.1 h1)
    simp only [Lane.nextUp, ha] at h
    linarith
  · intro h
    by_contra hc
    have h1 : a.v < 0 := by simpa [Lane.nextUp] using hc
    rw [ha] at h1
    have := hA.neg _ h1
    simp only [Lane.nextUp, ha] at h
    linarith

/-- The last step of every operation. -/
theorem finish (hA : A.Sound) {p0 p1 : Lane} {P0 P1 x : ℚ} (h0 : p0.v = A.rnd P0) (h1 : p1.v = A.rnd P1) (hx : x ≤ P0) (hx' : -x ≤ P1) :
    Holds (Itv.nextUp A ⟨p0, p1⟩) x := by
  refine ⟨?_, ?_, nextUp_ok hA h0, nextUp_ok hA h1, ?_⟩
  · simp only [Itv.nextUp, Lane.nextUp, h0]
    exact hx.trans (hA.above _)
  · simp only [Itv.nextUp, Lane.nextUp, h1]
    have := hA.above P1
    linarith
  · rintro ⟨s0, s1⟩
    have s0 : A.rnd P0 < 0 := by simpa [Itv.nextUp, Lane.nextUp, h0] using s0
    have s1 : A.rnd P1 < 0 := by simpa [Itv.nextUp, Lane.nextUp, h1] using s1
    have h2 := hA.mono (x := -P1) (y := P0) (by linarith)
    rw [hA.odd] at h2
    linarith

theorem add_holds (hA : A.Sound) {a b : Itv} {x y : ℚ} (ha : Holds a x) (hb : Holds b y) : Holds (Itv.add A a b) (x + y) :=
  finish hA rfl rfl (by have := ha.hi; have := hb.hi; linarith) (by have := ha.lo; have := hb.lo; linarith)

theorem sub_holds (hA : A.Sound) {a b : Itv} {x y : ℚ} (ha : Holds a x) (hb : Holds b y) : Holds (Itv.sub A a b) (x - y) :=
  finish hA rfl rfl (by have := ha.hi; have := hb.lo; linarith) (by have := ha.lo; have := hb.hi; linarith)

theorem neg_holds {a : Itv} {x : ℚ} (ha : Holds a x) : Holds a.neg (-x) :=
  ⟨by have := ha.lo; simp only [Itv.neg]; linarith, by have := ha.hi; simp only [Itv.neg]; linarith, ha.ok1, ha.ok0,
    fun h => ha.one ⟨h.2, h.1⟩⟩

theorem max_v (hA : A.Sound) {p q : Lane} {P Q : ℚ} (hp : p.v = A.rnd P) (hq : q.v = A.rnd Q) :
    (Lane.max p q).v = A.rnd (Max.max P Q) := by
  unfold Lane.max
  rcases le_total P Q with h | h
  · have := hA.mono h
    rw [max_eq_right h]
    split_ifs with hc
    · exact hq
    · rw [hp, hq] at hc
      rw [hp]; linarith
  · have := hA.mono h
    rw [max_eq_left h, if_neg (by rw [hp, hq]; linarith)]
    exact hp

/-- The bounds of a product. -/
theorem mul_bounds {a0 a1 b0 b1 x y : ℚ} (h1 : x ≤ a0) (h2 : -a1 ≤ x) (h3 : y ≤ b0) (h4 : -b1 ≤ y) :
    (0 ≤ a0 → 0 ≤ a1 → 0 ≤ b0 → 0 ≤ b1 → x * y ≤ max (a0 * b0) (a1 * b1) ∧ -(x * y) ≤ max (a0 * b1) (a1 * b0)) ∧
    (0 ≤ a0 → 0 ≤ a1 → b0 ≤ 0 → x * y ≤ a1 * b1 ∧ -(x * y) ≤ a0 * b1) ∧
    (0 ≤ a0 → 0 ≤ a1 → b1 ≤ 0 → x * y ≤ a0 * b0 ∧ -(x * y) ≤ a1 * b0) ∧
    (a0 ≤ 0 → 0 ≤ b0 → 0 ≤ b1 → x * y ≤ a1 * b1 ∧ -(x * y) ≤ a1 * b0) ∧
    (a0 ≤ 0 → b0 ≤ 0 → x * y ≤ a1 * b1 ∧ -(x * y) ≤ -a0 * b0) ∧
    (a0 ≤ 0 → b1 ≤ 0 → x * y ≤ a0 * -b1 ∧ -(x * y) ≤ a1 * b0) ∧
    (a1 ≤ 0 → 0 ≤ b0 → 0 ≤ b1 → x * y ≤ a0 * b0 ∧ -(x * y) ≤ a0 * b1) ∧
    (a1 ≤ 0 → b0 ≤ 0 → x * y ≤ -a1 * b0 ∧ -(x * y) ≤ a0 * b1) ∧
    (a1 ≤ 0 → b1 ≤ 0 → x * y ≤ a0 * b0 ∧ -(x * y) ≤ a1 * -b1) := by
  refine ⟨fun p1 p2 p3 p4 => ?_, fun p1 p2 p3 => ?_, fun p1 p2 p3 => ?_, fun p1 p2 p3 => ?_, fun p1 p2 => ?_, fun p1 p2 => ?_,
    fun p1 p2 p3 => ?_, fun p1 p2 => ?_, fun p1 p2 => ?_⟩
  · constructor
    · rcases le_total 0 x with hx | hx
      · refine le_max_of_le_left ?_
        have e1 := mul_le_mul_of_nonneg_left h3 hx
        have e2 := mul_le_mul_of_nonneg_right h1 p3
        linarith
      · refine le_max_of_le_right ?_
        have e1 := mul_le_mul_of_nonneg_left h4 (neg_nonneg.2 hx)
        have e2 := mul_le_mul_of_nonneg_right h2 p4
        linarith
    · rcases le_total 0 x with hx | hx
      · refine le_max_of_le_left ?_
        have e1 := mul_le_mul_of_nonneg_left h4 hx
        have e2 := mul_le_mul_of_nonneg_right h1 p4
        linarith
      · refine le_max_of_le_right ?_
        have e1 := mul_le_mul_of_nonneg_left h3 (neg_nonneg.2 hx)
        have e2 := mul_le_mul_of_nonneg_right h2 p3
        linarith
  all_goals
    have g1 := sub_nonneg.2 h1
    have g2 : 0 ≤ x + a1 := by linarith
    have g3 := sub_nonneg.2 h3
    have g4 : 0 ≤ y + b1 := by linarith
    constructor <;> nlinarith [mul_nonneg g1 g3, mul_nonneg g1 g4, mul_nonneg g2 g3, mul_nonneg g2 g4]

theorem mul_spec (hA : A.Sound) {a b : Itv} {x y : ℚ} (ha : Holds a x) (hb : Holds b y) :
    ∃ r, Itv.mul A a b = some r ∧ (¬ badArm a b → Holds r (x * y)) ∧ (badArm a b → Holds r (-(x * y))) := by
  obtain ⟨b1, b2, b3, b4, b5, b6, b7, b8, b9⟩ := mul_bounds ha.hi ha.lo hb.hi hb.lo
  have na : a.d0.s = true → a.d1.s = false := fun h => by
    cases h' : a.d1.s
    · rfl
    · exact absurd ⟨h, h'⟩ ha.one
  have nb : b.d0.s = true → b.d1.s = false := fun h => by
    cases h' : b.d1.s
    · rfl
    · exact absurd ⟨h, h'⟩ hb.one
  cases sa0 : a.d0.s <;> cases sa1 : a.d1.s
  · have qa0 := ha.ok0.nonneg sa0
    have qa1 := ha.ok1.nonneg sa1
    cases sb0 : b.d0.s <;> cases sb1 : b.d1.s
    · have qb0 := hb.ok0.nonneg sb0
      have qb1 := hb.ok1.nonneg sb1
      obtain ⟨c1, c2⟩ := b1 qa0 qa1 qb0 qb1
      have hm : 4 * a.mask + b.mask = 0 := by simp [Itv.mask, sa0, sa1, sb0, sb1]
      refine ⟨_, by simp only [Itv.mul, hm, if_true, Option.map_some]; rfl, fun h => absurd (Or.inl hm) h, fun _ => ?_⟩
      exact finish hA (max_v hA rfl rfl) (max_v hA rfl rfl) c2 (by rw [neg_neg]; exact c1)
    · have qb1 := hb.ok1.nonpos sb1
      obtain ⟨c1, c2⟩ := b3 qa0 qa1 qb1
      have hm : 4 * a.mask + b.mask = 2 := by simp [Itv.mask, sa0, sa1, sb0, sb1]
      refine ⟨_, by simp only [Itv.mul, hm]; rfl, fun _ => finish hA rfl rfl c1 c2, fun h => by simp [badArm, hm] at h⟩
    · have qb0 := hb.ok0.nonpos sb0
      obtain ⟨c1, c2⟩ := b2 qa0 qa1 qb0
      have hm : 4 * a.mask + b.mask = 1 := by simp [Itv.mask, sa0, sa1, sb0, sb1]
      refine ⟨_, by simp only [Itv.mul, hm]; rfl, fun _ => finish hA rfl rfl c1 c2, fun h => by simp [badArm, hm] at h⟩
    · rw [nb sb0] at sb1; cases sb1
  · have qa1 := ha.ok1.nonpos sa1
    cases sb0 : b.d0.s <;> cases sb1 : b.d1.s
    · have qb0 := hb.ok0.nonneg sb0
      have qb1 := hb.ok1.nonneg sb1
      obtain ⟨c1, c2⟩ := b7 qa1 qb0 qb1
      have hm : 4 * a.mask + b.mask = 8 := by simp [Itv.mask, sa0, sa1, sb0, sb1]
      refine ⟨_, by simp only [Itv.mul, hm]; rfl, fun h => absurd (Or.inr hm) h, fun _ => ?_⟩
      exact finish hA rfl rfl c2 (by rw [neg_neg]; exact c1)
    · have qb1 := hb.ok1.nonpos sb1
      obtain ⟨c1, c2⟩ := b9 qa1 qb1
      have hm : 4 * a.mask + b.mask = 10 := by simp [Itv.mask, sa0, sa1, sb0, sb1]
      refine ⟨_, by simp only [Itv.mul, hm]; rfl, fun _ => finish hA rfl rfl c1 c2, fun h => by simp [badArm, hm] at h⟩
    · have qb0 := hb.ok0.nonpos sb0
      obtain ⟨c1, c2⟩ := b8 qa1 qb0
      have hm : 4 * a.mask + b.mask = 9 := by simp [Itv.mask, sa0, sa1, sb0, sb1]
      refine ⟨_, by simp only [Itv.mul, hm]; rfl, fun _ => finish hA rfl rfl c1 c2, fun h => by simp [badArm, hm] at h⟩
    · rw [nb sb0] at sb1; cases sb1
  · have qa0 := ha.ok0.nonpos sa0
    cases sb0 : b.d0.s <;> cases sb1 : b.d1.s
    · have qb0 := hb.ok0.nonneg sb0
      have qb1 := hb.ok1.nonneg sb1
      obtain ⟨c1, c2⟩ := b4 qa0 qb0 qb1
      have hm : 4 * a.mask + b.mask = 4 := by simp [Itv.mask, sa0, sa1, sb0, sb1]
      refine ⟨_, by simp only [Itv.mul, hm]; rfl, fun _ => finish hA rfl rfl c1 c2, fun h => by simp [badArm, hm] at h⟩
    · have qb1 := hb.ok1.nonpos sb1
      obtain ⟨c1, c2⟩ := b6 qa0 qb1
      have hm : 4 * a.mask + b.mask = 6 := by simp [Itv.mask, sa0, sa1, sb0, sb1]
      refine ⟨_, by simp only [Itv.mul, hm]; rfl, fun _ => finish hA rfl rfl c1 c2, fun h => by simp [badArm, hm] at h⟩
    · have qb0 := hb.ok0.nonpos sb0
      obtain ⟨c1, c2⟩ := b5 qa0 qb0
      have hm : 4 * a.mask + b.mask = 5 := by simp [Itv.mask, sa0, sa1, sb0, sb1]
      refine ⟨_, by simp only [Itv.mul, hm]; rfl, fun _ => finish hA rfl rfl c1 c2, fun h => by simp [badArm, hm] at h⟩
    · rw [nb sb0] at sb1; cases sb1
  · rw [na sa0] at sa1; cases sa1

/-! ### Double precision -/

/-- A number of double precision. -/
def IsD (x : ℚ) : Prop := ∃ m e : ℤ, |m| < 2 ^ 53 ∧ -1074 ≤ e ∧ x = m * 2 ^ e

theorem IsD.isF {x : ℚ} (h : IsD x) : Float.IsF x := by
  obtain ⟨m, e, h1, -, h2⟩ := h; exact ⟨m, e, h1, h2⟩

theorem IsD.mult {x : ℚ} (h : IsD x) : Mult (-1074) x := by
  obtain ⟨m, e, -, h1, h2⟩ := h
  exact Mult.mono h1 ⟨m, h2⟩

theorem isD_of {x : ℚ} (h1 : Float.IsF x) (h2 : Mult (-1074) x) : IsD x := by
  obtain ⟨m, e, hm, rfl⟩ := h1
  by_cases he : -1074 ≤ e
  · exact ⟨m, e, hm, he, rfl⟩
  · obtain ⟨k, hk⟩ := h2
    refine ⟨k, -1074, ?_, le_rfl, hk⟩
    have h3 : |(k : ℚ)| * 2 ^ (-1074 : ℤ) ≤ |(m : ℚ)| * 2 ^ (-1074 : ℤ) := by
      have e1 : |(m : ℚ) * 2 ^ e| = |(m : ℚ)| * 2 ^ e := by rw [abs_mul, abs_of_pos (pw_pos e)]
      have e2 : |(k : ℚ) * 2 ^ (-1074 : ℤ)| = |(k : ℚ)| * 2 ^ (-1074 : ℤ) := by rw [abs_mul, abs_of_pos (pw_pos _)]
      rw [← e2, ← hk, e1]
      exact mul_le_mul_of_nonneg_left (pw_mono (by omega)) (abs_nonneg _)
    have h4 := le_of_mul_le_mul_right h3 (pw_pos _)
    have h5 : |k| ≤ |m| := by exact_mod_cast h4
    linarith

theorem lsb64_ge (x : ℚ) : -1074 ≤ lsb64 x := by
  unfold lsb64; split_ifs
  · exact le_rfl
  · exact le_max_right _ _

theorem lsb64_bound (x : ℚ) : |x| < 2 ^ (lsb64 x + 53) := by
  unfold lsb64
  split_ifs with h
  · rw [h, abs_zero]; exact pw_pos _
  · exact (Float.log_bounds h).2.trans_le (pw_mono (by have := le_max_left (lsb x) (-1074); omega))

theorem rnd64_mult (x : ℚ) : Mult (lsb64 x) (rnd64 x) := ⟨_, rfl⟩

theorem rnd64_isD (x : ℚ) : IsD (rnd64 x) := by
  have hp := pw_pos (lsb64 x)
  have h1 : |rnd64 x| ≤ 2 ^ (lsb64 x + 53) := by
    have h2 := Float.rne_near (x / 2 ^ lsb64 x) 0
    have h3 := lsb64_bound x
    have hb : |x / 2 ^ lsb64 x| < 2 ^ (53 : ℤ) := by
      rw [abs_div, abs_of_pos hp, div_lt_iff₀ hp, ← pw_add, add_comm]; exact h3
    have h5 : |(rne (x / 2 ^ lsb64 x) : ℚ)| ≤ 2 ^ (53 : ℤ) := by
      by_contra hc
      have hc := not_le.1 hc
      have h6 := Float.rne_err (x / 2 ^ lsb64 x)
      have h7 : (2 : ℤ) ^ 53 + 1 ≤ |rne (x / 2 ^ lsb64 x)| := by
        have : ((2 : ℤ) ^ 53 : ℚ) < |(rne (x / 2 ^ lsb64 x) : ℚ)| := by push_cast; exact_mod_cast hc
        exact_mod_cast this
      have h8 : (2 : ℚ) ^ (53 : ℤ) + 1 ≤ |(rne (x / 2 ^ lsb64 x) : ℚ)| := by
        have h7' := (Int.cast_le (R := ℚ)).2 h7
        rw [Int.cast_abs] at h7'
        refine le_trans (le_of_eq ?_) h7'
        norm_num
      have h9 := abs_sub_abs_le_abs_sub (rne (x / 2 ^ lsb64 x) : ℚ) (x / 2 ^ lsb64 x)
      rw [abs_sub_comm] at h9
      linarith
    unfold rnd64
    rw [abs_mul, abs_of_pos hp, add_comm, pw_add]
    exact mul_le_mul_of_nonneg_right h5 hp.le
  exact isD_of (Float.isF_of_le (rnd64_mult x) h1) ((rnd64_mult x).mono (lsb64_ge x))

/-- Rounding to nearest. -/
theorem rnd64_near {x f : ℚ} (hf : IsD f) : |x - rnd64 x| ≤ |x - f| := by
  have grid : Mult (lsb64 x) f → |x - rnd64 x| ≤ |x - f| := by
    rintro ⟨k, hk⟩
    have hp := pw_pos (lsb64 x)
    have h1 := Float.rne_near (x / 2 ^ lsb64 x) k
    have e1 : |x - rnd64 x| = |x / 2 ^ lsb64 x - rne (x / 2 ^ lsb64 x)| * 2 ^ lsb64 x := by
      rw [← abs_of_pos hp, ← abs_mul, abs_of_pos hp, sub_mul, div_mul_cancel₀ _ hp.ne']; rfl
    have e2 : |x - f| = |x / 2 ^ lsb64 x - k| * 2 ^ lsb64 x := by
      rw [← abs_of_pos hp, ← abs_mul, abs_of_pos hp, sub_mul, div_mul_cancel₀ _ hp.ne', hk]
    rw [e1, e2]
    exact mul_le_mul_of_nonneg_right h1 hp.le
  by_cases hx : x = 0
  · exact grid (by rw [lsb64, if_pos hx]; exact hf.mult)
  rcases le_total (lsb x) (-1074) with h | h
  · exact grid (by rw [lsb64, if_neg hx, max_eq_right h]; exact hf.mult)
  · have hl : lsb64 x = lsb x := by rw [lsb64, if_neg hx, max_eq_left h]
    have : rnd64 x = Float.rn x := by rw [rnd64, hl, Float.rn, if_neg hx]
    rw [this]
    exact Float.rn_near hf.isF

theorem rnd64_of {x : ℚ} (hx : IsD x) : rnd64 x = x := by
  have := rnd64_near (x := x) hx
  rw [sub_self, abs_zero] at this
  have := abs_nonpos_iff.1 this
  linarith

theorem lsb64_neg (x : ℚ) : lsb64 (-x) = lsb64 x := by simp [lsb64, Float.lsb_neg]

theorem rnd64_odd (x : ℚ) : rnd64 (-x) = -rnd64 x := by
  unfold rnd64
  rw [lsb64_neg, neg_div, Float.rne_neg]; push_cast; ring

theorem rnd64_mono {x y : ℚ} (h : x ≤ y) : rnd64 x ≤ rnd64 y := by
  by_contra hc
  have hc := not_le.1 hc
  have h1 := rnd64_near (x := x) (rnd64_isD y)
  have h2 := rnd64_near (x := y) (rnd64_isD x)
  -- both are as close to the other point, so x = y
  rcases abs_cases (x - rnd64 x) with ⟨a1, a2⟩ | ⟨a1, a2⟩ <;> rcases abs_cases (x - rnd64 y) with ⟨b1, b2⟩ | ⟨b1, b2⟩ <;>
    rcases abs_cases (y - rnd64 x) with ⟨c1, c2⟩ | ⟨c1, c2⟩ <;> rcases abs_cases (y - rnd64 y) with ⟨d1, d2⟩ | ⟨d1, d2⟩ <;>
    rw [a1, b1] at h1 <;> rw [c1, d1] at h2 <;>
    first
    | linarith
    | (have : x = y := by linarith
       rw [this] at hc; exact lt_irrefl _ hc)

theorem next64_isD {x : ℚ} (hx : IsD x) : IsD (next64 x) := by
  have hl := lsb64_ge x
  have hb := lsb64_bound x
  have hp := pw_pos (lsb64 x)
  have hm : Mult (lsb64 x) x := by have := rnd64_mult x; rwa [rnd64_of hx] at this
  unfold next64
  split_ifs with h
  · obtain ⟨h1, h2, h3⟩ := h
    have hm' : Mult (lsb64 x - 1) (x + 2 ^ (lsb64 x - 1)) := (hm.mono (by omega)).add (Mult.pw _)
    refine isD_of (Float.isF_of_le hm' ?_) (hm'.mono (by omega))
    have e1 : (2 : ℚ) ^ (lsb64 x - 1 + 53) = 2 ^ (lsb64 x + 52) := by congr 1; ring
    have := pw_pos (lsb64 x - 1)
    have h5 : (2 : ℚ) ^ (lsb64 x - 1) ≤ 2 ^ (lsb64 x + 52) := pw_mono (by omega)
    rw [e1, abs_le]
    constructor <;> linarith
  · have hm' : Mult (lsb64 x) (x + 2 ^ lsb64 x) := hm.add (Mult.pw _)
    refine isD_of (Float.isF_of_le hm' ?_) (hm'.mono hl)
    have h1 := (hm.abs.lt_iff ((Mult.pw (lsb64 x + 53)).mono (f := lsb64 x) (by omega))).1 hb
    have := abs_add_le x (2 ^ lsb64 x)
    rw [abs_of_pos hp] at this
    linarith

theorem next64_gt (x : ℚ) : x < next64 x := by
  unfold next64
  split_ifs
  · have := pw_pos (lsb64 x - 1); linarith
  · have := pw_pos (lsb64 x); linarith

/-- On doubles, `next_up` does not pass zero. -/
theorem next64_neg {x : ℚ} (hx : IsD x) (h : x < 0) : next64 x ≤ 0 := by
  have hm : Mult (lsb64 x) x := by have := rnd64_mult x; rwa [rnd64_of hx] at this
  have h1 := (hm.lt_iff (Mult.zero _)).1 h
  unfold next64
  split_ifs
  · have : (2 : ℚ) ^ (lsb64 x - 1) ≤ 2 ^ lsb64 x := pw_mono (by omega)
    linarith
  · exact h1

/-- Double precision (without overflow) meets the assumptions. -/
theorem f64_sound : f64.Sound where
  mono := rnd64_mono
  odd := rnd64_odd
  above x := by
    show x ≤ next64 (rnd64 x)
    by_contra hc
    have hc := not_le.1 hc
    have h1 := next64_gt (rnd64 x)
    have h2 := rnd64_near (x := x) (next64_isD (rnd64_isD x))
    rw [abs_of_pos (by linarith), abs_of_pos (by linarith)] at h2
    linarith
  neg x h := next64_neg (rnd64_isD x) h
  pos x h := lt_of_le_of_lt h (next64_gt _)

end Verif.Interval
