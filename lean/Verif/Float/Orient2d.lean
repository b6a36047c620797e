import Verif.Float.TwoTwo
import Verif.Float.Num
/-!
# `orient2d` (`src/predicates/predicates.rs` lines 442-527) returns the sign of the determinant

The model follows the code operation by operation in the rounding model of `Float/Model.lean` (53 bits, ties to even, unbounded exponents).
-/
namespace Verif.Float

/-- The constants of lines 48-51. -/
def resErr : ℚ := boundAB (1 / 2 ^ 53) 3 8
@[inherit_doc resErr] def ccwA : ℚ := boundAB (1 / 2 ^ 53) 3 16
@[inherit_doc resErr] def ccwB : ℚ := boundAB (1 / 2 ^ 53) 2 12
@[inherit_doc resErr] def ccwC : ℚ := boundC (1 / 2 ^ 53) 9 64

/-- The last stage of `orient2d_adapt` (lines 481-495). -/
def orient2dExact (b : List ℚ) (acx acy bcx bcy acxtail acytail bcxtail bcytail : ℚ) : Option ℚ := do
  let (s1, s0) := twoProduct acxtail bcy
  let (t1, t0) := twoProduct acytail bcx
  let c1 ← fastExpansionSumZeroelim b (arr4 (twoTwoDiff s1 s0 t1 t0))
  let (s1, s0) := twoProduct acx bcytail
  let (t1, t0) := twoProduct acy bcxtail
  let c2 ← fastExpansionSumZeroelim c1 (arr4 (twoTwoDiff s1 s0 t1 t0))
  let (s1, s0) := twoProduct acxtail bcytail
  let (t1, t0) := twoProduct acytail bcxtail
  let d ← fastExpansionSumZeroelim c2 (arr4 (twoTwoDiff s1 s0 t1 t0))
  d.getLast?

/-- `orient2d_adapt` (lines 442-496). -/
def orient2dAdapt (ax ay bx bY cx cy detsum : ℚ) : Option ℚ :=
  let acx := fsub ax cx
  let bcx := fsub bx cx
  let acy := fsub ay cy
  let bcy := fsub bY cy
  let (detleft, detlefttail) := twoProduct acx bcy
  let (detright, detrighttail) := twoProduct acy bcx
  let b := arr4 (twoTwoDiff detleft detlefttail detright detrighttail)
  let det := estimate b
  let errbound := fmul ccwB detsum
  if det ≥ errbound ∨ -det ≥ errbound then some det
  else
    let acxtail := twoDiffTail ax cx acx
    let bcxtail := twoDiffTail bx cx bcx
    let acytail := twoDiffTail ay cy acy
    let bcytail := twoDiffTail bY cy bcy
    if acxtail = 0 ∧ acytail = 0 ∧ bcxtail = 0 ∧ bcytail = 0 then some det
    else
      let errbound := fadd (fmul ccwC detsum) (fmul resErr |det|)
      let det := fadd det (fsub (fadd (fmul acx bcytail) (fmul bcy acxtail)) (fadd (fmul acy bcxtail) (fmul bcx acytail)))
      if det ≥ errbound ∨ -det ≥ errbound then some det
      else orient2dExact b acx acy bcx bcy acxtail acytail bcxtail bcytail

/-- The end of `orient2d` (lines 521-526). -/
def orient2dTail (ax ay bx bY cx cy det detsum : ℚ) : Option ℚ :=
  let errbound := fmul ccwA detsum
  if det ≥ errbound ∨ -det ≥ errbound then some det else orient2dAdapt ax ay bx bY cx cy detsum

/-- `orient2d` (lines 498-527). -/
def orient2d (ax ay bx bY cx cy : ℚ) : Option ℚ :=
  let detleft := fmul (fsub ax cx) (fsub bY cy)
  let detright := fmul (fsub ay cy) (fsub bx cx)
  let det := fsub detleft detright
  if detleft > 0 then
    if detright ≤ 0 then some det else orient2dTail ax ay bx bY cx cy det (fadd detleft detright)
  else if detleft < 0 then
    if detright ≥ 0 then some det else orient2dTail ax ay bx bY cx cy det (fsub (-detleft) detright)
  else some det

/-! ### Specification -/

/-- The determinant: twice the signed area of the triangle. -/
def area2 (ax ay bx bY cx cy : ℚ) : ℚ := (ax - cx) * (bY - cy) - (ay - cy) * (bx - cx)

/-- `r` has the sign of `d`. -/
def SameSign (r d : ℚ) : Prop := (0 < r ↔ 0 < d) ∧ (r < 0 ↔ d < 0)

theorem SameSign.of_close {r d : ℚ} (h : |d - r| < |r|) : SameSign r d := by
  rcases abs_cases r with ⟨h1, h2⟩ | ⟨h1, h2⟩ <;> rcases abs_cases (d - r) with ⟨h3, h4⟩ | ⟨h3, h4⟩ <;> rw [h1, h3] at h <;>
    constructor <;> constructor <;> intro <;> linarith

theorem SameSign.of_close' {r d : ℚ} (h : |r - d| < |d|) : SameSign r d := by
  obtain ⟨h1, h2⟩ := SameSign.of_close h
  exact ⟨h1.symm, h2.symm⟩

/-! ### Error bounds -/

theorem ccwA_eq : ccwA = (3 + 16 / 2 ^ 53) / 2 ^ 53 := by decide +kernel
theorem ccwB_eq : ccwB = (2 + 12 / 2 ^ 53) / 2 ^ 53 := by decide +kernel
theorem ccwC_eq : ccwC = (9 + 64 / 2 ^ 53) / 2 ^ 53 / 2 ^ 53 := by decide +kernel
theorem resErr_eq : resErr = (3 + 8 / 2 ^ 53) / 2 ^ 53 := by decide +kernel

theorem rr (x : ℚ) : |x - rn x| ≤ |rn x| * (1 / 9007199254740992) := by
  have := rn_rel' x
  norm_num at this ⊢; linarith

theorem rr' (x : ℚ) : |x - rn x| ≤ |x| * (1 / 9007199254740992) := by
  have := rn_rel x
  norm_num at this ⊢; linarith

theorem abs_rn_le' (x : ℚ) : |rn x| ≤ |x| * (1 + 1 / 9007199254740992) := by
  have h1 := rr' x
  have h2 := abs_sub x (x - rn x)
  rw [show x - (x - rn x) = rn x by ring] at h2
  linarith

theorem abs_le_rn (x : ℚ) : |x| ≤ |rn x| * (1 + 1 / 9007199254740992) := by
  have h1 := rr x
  have h2 := abs_add_le (x - rn x) (rn x)
  rw [show x - rn x + rn x = x by ring] at h2
  linarith

/-- The product of two rounded numbers. -/
theorem prod_close (x y : ℚ) : |x * y - rn x * rn y| ≤ |rn x * rn y| * (2 / 9007199254740992 + 1 / 9007199254740992 ^ 2) := by
  have h1 := rr x
  have h2 := rr y
  have e : x * y - rn x * rn y = rn x * (y - rn y) + rn y * (x - rn x) + (x - rn x) * (y - rn y) := by ring
  have t1 := abs_add_le (rn x * (y - rn y) + rn y * (x - rn x)) ((x - rn x) * (y - rn y))
  have t2 := abs_add_le (rn x * (y - rn y)) (rn y * (x - rn x))
  rw [e]
  rw [abs_mul, abs_mul] at t2
  rw [abs_mul (x - rn x)] at t1
  have m1 := mul_le_mul_of_nonneg_left h2 (abs_nonneg (rn x))
  have m2 := mul_le_mul_of_nonneg_left h1 (abs_nonneg (rn y))
  have m3 := mul_le_mul h1 h2 (abs_nonneg _) (by have := abs_nonneg (rn x); positivity)
  rw [abs_mul (rn x) (rn y)]
  generalize |rn x| = p at *
  generalize |rn y| = q at *
  have e3 : p * (1 / 9007199254740992) * (q * (1 / 9007199254740992)) = p * q * (1 / 9007199254740992 ^ 2) := by ring
  have e4 : p * (q * (1 / 9007199254740992)) = p * q * (1 / 9007199254740992) := by ring
  have e5 : q * (p * (1 / 9007199254740992)) = p * q * (1 / 9007199254740992) := by ring
  rw [e3] at m3; rw [e4] at m1; rw [e5] at m2
  have e6 : p * q * (2 / 9007199254740992 + 1 / 9007199254740992 ^ 2) = p * q * (1 / 9007199254740992) + p * q * (1 / 9007199254740992) + p * q * (1 / 9007199254740992 ^ 2) := by ring
  rw [e6]; linarith

/-! ### `estimate` -/

theorem estimate_fold {s t q δ : ℚ} {l : List ℚ} (h : Nonov s t l) (hδ : 0 ≤ δ) (hq : |q - s| ≤ δ * |s|) :
    |l.foldl fadd q - (s + l.sum)| ≤ (δ + 1 / 27021597764222976) * 4 ^ l.length * |s + l.sum| := by
  induction l generalizing s t q δ with
  | nil =>
    simp only [List.foldl_nil, List.sum_nil, add_zero, List.length_nil, pow_zero, mul_one]
    refine hq.trans (mul_le_mul_of_nonneg_right ?_ (abs_nonneg s))
    norm_num
  | cons x l ih =>
    obtain ⟨-, ⟨w, hw, hs, -⟩, hn⟩ := h
    have h3 : |s| ≤ 3 * |s + x| := by
      by_cases h0 : x = 0
      · rw [h0, add_zero]; have := abs_nonneg s; linarith
      · have h1 := hw.le_abs h0
        have h2 := abs_sub (s + x) s
        rw [show s + x - s = x by ring] at h2
        linarith
    have hstep : |fadd q x - (s + x)| ≤ (4 * δ + 1 / 9007199254740992) * |s + x| := by
      have h1 := rr' (q + x)
      have h2 := abs_add_le (q - s) (s + x)
      rw [show q - s + (s + x) = q + x by ring] at h2
      have h4 := abs_add_le (fadd q x - (q + x)) (q - s)
      rw [show fadd q x - (q + x) + (q - s) = fadd q x - (s + x) by ring, abs_sub_comm (fadd q x) (q + x)] at h4
      have h5 : |q + x - fadd q x| ≤ |q + x| * (1 / 9007199254740992) := h1
      have h6 : δ * |s| ≤ δ * (3 * |s + x|) := mul_le_mul_of_nonneg_left h3 hδ
      have h7 : 0 ≤ δ * |s + x| := mul_nonneg hδ (abs_nonneg _)
      have h8 : (4 * δ + 1 / 9007199254740992) * |s + x| = 4 * (δ * |s + x|) + 1 / 9007199254740992 * |s + x| := by ring
      rw [h8]
      linarith
    have := ih hn (by linarith) hstep
    rw [List.foldl_cons, List.sum_cons, ← add_assoc, List.length_cons, pow_succ]
    refine this.trans (le_of_eq ?_)
    ring

/-- `estimate` of an expansion of moderate length has the right sign. -/
theorem estimate_sign {e : List ℚ} (h : Expansion e) (hl : e.length ≤ 26) : SameSign (estimate e) e.sum := by
  have := estimate_fold (q := 0) (δ := 0) h le_rfl (by simp)
  rw [zero_add, zero_add] at this
  by_cases h0 : e.sum = 0
  · rw [h0] at this ⊢
    simp only [sub_zero, abs_zero, mul_zero] at this
    have : estimate e = 0 := abs_eq_zero.1 (le_antisymm this (abs_nonneg _))
    rw [this]; exact ⟨Iff.rfl, Iff.rfl⟩
  · apply SameSign.of_close'
    refine this.trans_lt ?_
    have hp : 0 < |e.sum| := abs_pos.2 h0
    have : (4 : ℚ) ^ e.length ≤ 4 ^ 26 := pow_le_pow_right₀ (by norm_num) hl
    have hc : (1 / 27021597764222976 : ℚ) * 4 ^ e.length < 1 := by
      have : (1 / 27021597764222976 : ℚ) * 4 ^ e.length ≤ 1 / 27021597764222976 * 4 ^ 26 := mul_le_mul_of_nonneg_left this (by norm_num)
      refine this.trans_lt (by norm_num)
    calc _ < 1 * |e.sum| := mul_lt_mul_of_pos_right hc hp
      _ = _ := one_mul _

/-- The error of `estimate` on the result of `two_two_diff`, relative to the size of the operands. -/
theorem estimate_arr4 {A B : ℚ} (ha : IsF (A - rn A)) (hb : IsF (B - rn B)) (hd : |rn A - rn B| ≤ (|rn A| + |rn B|) / 4) :
    |A - B - estimate (arr4 (twoTwoDiff (rn A) (A - rn A) (rn B) (B - rn B)))| ≤
      |estimate (arr4 (twoTwoDiff (rn A) (A - rn A) (rn B) (B - rn B)))| * (1 / 9007199254740992) + (|rn A| + |rn B|) * (2 / 9007199254740992 ^ 2) := by
  have hs := (twoTwoDiff_spec ha hb).2
  have h1 := rn_isF A
  have h2 := rn_isF B
  have rA := rr A
  have rB := rr B
  have hF0 : IsF (A - rn A - (B - rn B) - rn (A - rn A - (B - rn B))) := by
    have := sum_err_isF ha hb.neg
    rwa [← sub_eq_add_neg] at this
  revert hs
  simp only [twoTwoDiff, twoOneDiff, arr4]
  rw [twoDiff_spec ha hb]
  have h3 := rn_isF (A - rn A - (B - rn B))
  simp only
  rw [twoSum_spec h1 h3]
  simp only
  have h4 := sum_err_isF h1 h3
  rw [twoDiff_spec h4 h2]
  simp only
  rw [twoSum_spec (rn_isF _) (rn_isF _)]
  simp only
  generalize rn A = a1 at *
  generalize rn B = b1 at *
  generalize ha0 : A - a1 = a0 at *
  generalize hb0 : B - b1 = b0 at *
  have r1 := rr' (a0 - b0)
  have r1' := abs_rn_le' (a0 - b0)
  generalize rn (a0 - b0) = i at *
  have r2 := rr' (a1 + i)
  generalize hj : rn (a1 + i) = j at *
  have r3 := rr' (a1 + i - j - b1)
  generalize hi2 : rn (a1 + i - j - b1) = i2 at *
  have r4 := rr' (j + i2)
  generalize hx3 : rn (j + i2) = x3 at *
  generalize hx0 : a0 - b0 - i = x0 at *
  generalize hx1 : a1 + i - j - b1 - i2 = x1 at *
  generalize hx2 : j + i2 - x3 = x2 at *
  intro hs
  simp only [estimate, List.foldl_cons, List.foldl_nil]
  have e0 : fadd 0 x0 = x0 := by rw [fadd, zero_add, rn_of_isF hF0]
  rw [e0]
  simp only [fadd]
  have q1 := rr' (x0 + x1)
  generalize rn (x0 + x1) = p1 at *
  have q2 := rr' (p1 + x2)
  generalize rn (p1 + x2) = p2 at *
  have q3 := rr (p2 + x3)
  generalize rn (p2 + x3) = p3 at *
  simp only [List.sum_cons, List.sum_nil, add_zero] at hs
  have t1 := abs_sub a0 b0
  have t2 := abs_add_le a1 i
  have t3 := abs_sub (a1 + i - j) b1
  have t4 := abs_add_le (a1 - b1) (i - x1)
  rw [show a1 - b1 + (i - x1) = j + i2 by rw [← hx1]; ring] at t4
  have t5 := abs_sub i x1
  have t6 := abs_sub a1 (a1 - b1)
  rw [show a1 - (a1 - b1) = b1 by ring] at t6
  have t7 := abs_add_le x0 x1
  have t8 := abs_sub (x0 + x1) (x0 + x1 - p1)
  rw [show x0 + x1 - (x0 + x1 - p1) = p1 by ring] at t8
  have t9 := abs_add_le p1 x2
  have t10 := abs_add_le (x0 + x1 - p1 + (p1 + x2 - p2)) (p2 + x3 - p3)
  have t11 := abs_add_le (x0 + x1 - p1) (p1 + x2 - p2)
  rw [show x0 + x1 - p1 + (p1 + x2 - p2) + (p2 + x3 - p3) = A - B - p3 by rw [← hs]; ring] at t10
  have t12 := abs_nonneg a1
  have t13 := abs_nonneg b1
  linarith

/-! ### The stages -/

/-- A difference of two products of doubles as an expansion. -/
theorem diff_expansion {a b c d : ℚ} (ha : IsF a) (hb : IsF b) (hc : IsF c) (hd : IsF d) :
    Expansion (arr4 (twoTwoDiff (twoProduct a b).1 (twoProduct a b).2 (twoProduct c d).1 (twoProduct c d).2)) ∧
      (arr4 (twoTwoDiff (twoProduct a b).1 (twoProduct a b).2 (twoProduct c d).1 (twoProduct c d).2)).sum = a * b - c * d := by
  rw [twoProduct_spec ha hb, twoProduct_spec hc hd]
  exact twoTwoDiff_spec (prod_err_isF ha hb) (prod_err_isF hc hd)

theorem orient2dExact_spec {b : List ℚ} {X Z W Y x z w y : ℚ} (hb : Expansion b) (hs : b.sum = X * Y - Z * W) (hX : IsF X) (hZ : IsF Z)
    (hW : IsF W) (hY : IsF Y) (hx : IsF x) (hz : IsF z) (hw : IsF w) (hy : IsF y) :
    ∃ r, orient2dExact b X Z W Y x z w y = some r ∧ SameSign r ((X + x) * (Y + y) - (Z + z) * (W + w)) := by
  obtain ⟨e1, s1⟩ := diff_expansion hx hY hz hW
  obtain ⟨e2, s2⟩ := diff_expansion hX hy hZ hw
  obtain ⟨e3, s3⟩ := diff_expansion hx hy hz hw
  obtain ⟨c1, f1, g1, t1, -⟩ := fastExpansionSum_spec hb e1 (by simp [arr4])
  obtain ⟨c2, f2, g2, t2, -⟩ := fastExpansionSum_spec g1 e2 (by simp [arr4])
  obtain ⟨d, f3, g3, t3, n3, z3⟩ := fastExpansionSum_spec g2 e3 (by simp [arr4])
  obtain ⟨r, hr, p1, p2, -⟩ := Proper.last ⟨g3, n3, z3⟩
  refine ⟨r, ?_, ?_⟩
  · simp only [orient2dExact]
    rw [f1, Option.bind_eq_bind, Option.bind_some, f2, Option.bind_some, f3, Option.bind_some, hr]
  · have : d.sum = (X + x) * (Y + y) - (Z + z) * (W + w) := by rw [t3, t2, t1, hs, s1, s2, s3]; ring
    rw [← this]
    exact ⟨p1.symm, p2.symm⟩

/-- The numbers in the analysis of one call: the exact differences `x`, `y`, `z`, `w` and `S`, the sum of the two rounded products. -/
theorem products_close (x y z w : ℚ) :
    |x * y - z * w - (rn x * rn y - rn z * rn w)| ≤ (|rn (rn x * rn y)| + |rn (rn z * rn w)|) * (2 / 9007199254740992 + 7 / 2 / 9007199254740992 ^ 2) ∧
    |rn x * rn y| + |rn z * rn w| ≤ (|rn (rn x * rn y)| + |rn (rn z * rn w)|) * (1 + 1 / 9007199254740992) := by
  have h1 := prod_close x y
  have h2 := prod_close z w
  have h3 := abs_le_rn (rn x * rn y)
  have h4 := abs_le_rn (rn z * rn w)
  have h5 := abs_sub (x * y - rn x * rn y) (z * w - rn z * rn w)
  rw [show x * y - rn x * rn y - (z * w - rn z * rn w) = x * y - z * w - (rn x * rn y - rn z * rn w) by ring] at h5
  have h6 := abs_nonneg (rn (rn x * rn y))
  have h7 := abs_nonneg (rn (rn z * rn w))
  constructor <;> linarith

/-- What a successful comparison with an error bound means. -/
theorem bound_test {c S det : ℚ} (hc : 0 ≤ c) (hS : 0 ≤ S) (h : det ≥ fmul c (rn S) ∨ -det ≥ fmul c (rn S)) :
    c * S ≤ |det| * (1 + 1 / 9007199254740992) ^ 2 := by
  have h1 : fmul c (rn S) ≤ |det| := by
    rcases h with h | h
    · exact le_trans h (le_abs_self _)
    · exact le_trans h (neg_le_abs _)
  have h2 : c * rn S ≤ fmul c (rn S) * (1 + 1 / 9007199254740992) := by
    have e := abs_le_rn (c * rn S)
    have n1 : 0 ≤ c * rn S := mul_nonneg hc (rn_nonneg hS)
    rw [abs_of_nonneg n1, abs_of_nonneg (rn_nonneg n1)] at e
    exact e
  have h3 : S ≤ rn S * (1 + 1 / 9007199254740992) := by
    have e := abs_le_rn S
    rwa [abs_of_nonneg hS, abs_of_nonneg (rn_nonneg hS)] at e
  have h4 := mul_le_mul_of_nonneg_left h3 hc
  have e4 : c * (rn S * (1 + 1 / 9007199254740992)) = c * rn S * (1 + 1 / 9007199254740992) := by ring
  rw [e4] at h4
  have h5 : |det| * (1 + 1 / 9007199254740992) ^ 2 = |det| * (1 + 1 / 9007199254740992) * (1 + 1 / 9007199254740992) := by ring
  rw [h5]
  linarith

/-- The first filter. -/
theorem stageA {x y z w S : ℚ} (hS : S = |rn (rn x * rn y)| + |rn (rn z * rn w)|) (h0 : 0 < S)
    (h : rn (rn (rn x * rn y) - rn (rn z * rn w)) ≥ fmul ccwA (rn S) ∨ -rn (rn (rn x * rn y) - rn (rn z * rn w)) ≥ fmul ccwA (rn S)) :
    SameSign (rn (rn (rn x * rn y) - rn (rn z * rn w))) (x * y - z * w) := by
  have hb := bound_test (by rw [ccwA_eq]; norm_num) h0.le h
  rw [ccwA_eq] at hb
  apply SameSign.of_close
  have h1 := (products_close x y z w).1
  have h2 := rr (rn (rn x * rn y) - rn (rn z * rn w))
  have h3 := rr (rn x * rn y)
  have h4 := rr (rn z * rn w)
  rw [← hS] at h1
  generalize rn (rn (rn x * rn y) - rn (rn z * rn w)) = det at *
  have t1 := abs_add_le (x * y - z * w - (rn x * rn y - rn z * rn w)) ((rn x * rn y - rn (rn x * rn y)) - (rn z * rn w - rn (rn z * rn w)) + (rn (rn x * rn y) - rn (rn z * rn w) - det))
  have t2 := abs_add_le ((rn x * rn y - rn (rn x * rn y)) - (rn z * rn w - rn (rn z * rn w))) (rn (rn x * rn y) - rn (rn z * rn w) - det)
  have t3 := abs_sub (rn x * rn y - rn (rn x * rn y)) (rn z * rn w - rn (rn z * rn w))
  rw [show x * y - z * w - (rn x * rn y - rn z * rn w) + ((rn x * rn y - rn (rn x * rn y)) - (rn z * rn w - rn (rn z * rn w)) +
    (rn (rn x * rn y) - rn (rn z * rn w) - det)) = x * y - z * w - det by ring] at t1
  norm_num at *
  linarith

/-- When the first filter does not decide, the two rounded products nearly cancel. -/
theorem stageA_fails {L R S : ℚ} (h0 : 0 < S)
    (h : ¬ (rn (L - R) ≥ fmul ccwA (rn S) ∨ -rn (L - R) ≥ fmul ccwA (rn S))) : |L - R| ≤ S / 4 := by
  simp only [not_or, ge_iff_le, not_le] at h
  have h1 : |rn (L - R)| < fmul ccwA (rn S) := abs_lt.2 ⟨by linarith [h.2], h.1⟩
  have h2 := abs_rn_le' (ccwA * rn S)
  have h3 := abs_rn_le' S
  have h4 := abs_le_rn (L - R)
  have c0 : 0 ≤ ccwA := by rw [ccwA_eq]; norm_num
  rw [abs_of_pos h0, abs_of_nonneg (rn_nonneg h0.le)] at h3
  rw [abs_of_nonneg (mul_nonneg c0 (rn_nonneg h0.le)), abs_of_nonneg (rn_nonneg (mul_nonneg c0 (rn_nonneg h0.le))), ccwA_eq] at h2
  simp only [fmul, ccwA_eq] at h1
  norm_num at *
  linarith

/-- The second filter. -/
theorem stageB {x y z w S est : ℚ} (hS : S = |rn (rn x * rn y)| + |rn (rn z * rn w)|) (h0 : 0 < S)
    (he : |rn x * rn y - rn z * rn w - est| ≤ |est| * (1 / 9007199254740992) + S * (2 / 9007199254740992 ^ 2))
    (h : est ≥ fmul ccwB (rn S) ∨ -est ≥ fmul ccwB (rn S)) : SameSign est (x * y - z * w) := by
  have hb := bound_test (by rw [ccwB_eq]; norm_num) h0.le h
  rw [ccwB_eq] at hb
  apply SameSign.of_close
  have h1 := (products_close x y z w).1
  rw [← hS] at h1
  have t1 := abs_add_le (x * y - z * w - (rn x * rn y - rn z * rn w)) (rn x * rn y - rn z * rn w - est)
  rw [show x * y - z * w - (rn x * rn y - rn z * rn w) + (rn x * rn y - rn z * rn w - est) = x * y - z * w - est by ring] at t1
  norm_num at *
  linarith

/-- The rounded sum of two rounded products, each small. -/
theorem two_products_close {a b p : ℚ} (ha : |a| ≤ p * (1 / 9007199254740992)) (hb : |b| ≤ p * (1 / 9007199254740992)) :
    |a + b - rn (rn a + rn b)| ≤ p * (4 / 9007199254740992 ^ 2 + 3 / 9007199254740992 ^ 3) ∧
    |rn (rn a + rn b)| ≤ p * (2 / 9007199254740992 + 6 / 9007199254740992 ^ 2) := by
  have h1 := rr' a
  have h2 := rr' b
  have h3 := rr' (rn a + rn b)
  have h4 := abs_rn_le' a
  have h5 := abs_rn_le' b
  have h6 := abs_add_le (rn a) (rn b)
  have t1 := abs_add_le (a - rn a + (b - rn b)) (rn a + rn b - rn (rn a + rn b))
  have t2 := abs_add_le (a - rn a) (b - rn b)
  rw [show a - rn a + (b - rn b) + (rn a + rn b - rn (rn a + rn b)) = a + b - rn (rn a + rn b) by ring] at t1
  have t3 := abs_rn_le' (rn a + rn b)
  generalize rn (rn a + rn b) = r at *
  generalize rn a = ra at *
  generalize rn b = rb at *
  have p0 : 0 ≤ p := by have q := abs_nonneg a; linarith
  constructor <;> norm_num at * <;> linarith

/-- The product of a rounded number and a rounding error. -/
theorem mul_tail_le (u v : ℚ) : |rn u * (v - rn v)| ≤ |rn u * rn v| * (1 / 9007199254740992) := by
  rw [abs_mul, abs_mul, mul_assoc]
  exact mul_le_mul_of_nonneg_left (rr v) (abs_nonneg _)

theorem tail_tail_le (u v : ℚ) : |(u - rn u) * (v - rn v)| ≤ |rn u * rn v| * (1 / 9007199254740992 ^ 2) := by
  rw [abs_mul, abs_mul]
  have h := mul_le_mul (rr u) (rr v) (abs_nonneg _) (by positivity)
  refine h.trans (le_of_eq ?_)
  ring

/-- The third filter. -/
theorem stageC {x y z w S est det : ℚ} (hS : S = |rn (rn x * rn y)| + |rn (rn z * rn w)|) (h0 : 0 < S)
    (he : |rn x * rn y - rn z * rn w - est| ≤ |est| * (1 / 9007199254740992) + S * (2 / 9007199254740992 ^ 2))
    (hd : det = rn (est + rn (rn (rn (rn x * (y - rn y)) + rn (rn y * (x - rn x))) - rn (rn (rn z * (w - rn w)) + rn (rn w * (z - rn z))))))
    (h : det ≥ fadd (fmul ccwC (rn S)) (fmul resErr |est|) ∨ -det ≥ fadd (fmul ccwC (rn S)) (fmul resErr |est|)) :
    SameSign det (x * y - z * w) := by
  have hb : (9 + 64 / 2 ^ 53) / 2 ^ 53 / 2 ^ 53 * S + (3 + 8 / 2 ^ 53) / 2 ^ 53 * |est| ≤ |det| * (1 + 1 / 9007199254740992) ^ 3 := by
    have c0 : 0 ≤ ccwC := by rw [ccwC_eq]; norm_num
    have c1 : 0 ≤ resErr := by rw [resErr_eq]; norm_num
    have n1 := mul_nonneg c0 (rn_nonneg h0.le)
    have n2 := mul_nonneg c1 (abs_nonneg est)
    have h1 : fadd (fmul ccwC (rn S)) (fmul resErr |est|) ≤ |det| := by
      rcases h with h | h
      · exact le_trans h (le_abs_self _)
      · exact le_trans h (neg_le_abs _)
    have h2 := abs_le_rn (rn (ccwC * rn S) + rn (resErr * |est|))
    have h3 := abs_le_rn (ccwC * rn S)
    have h4 := abs_le_rn (resErr * |est|)
    have h5 := abs_le_rn S
    rw [abs_of_nonneg (add_nonneg (rn_nonneg n1) (rn_nonneg n2)), abs_of_nonneg (rn_nonneg (add_nonneg (rn_nonneg n1) (rn_nonneg n2)))] at h2
    rw [abs_of_nonneg n1, abs_of_nonneg (rn_nonneg n1)] at h3
    rw [abs_of_nonneg n2, abs_of_nonneg (rn_nonneg n2)] at h4
    rw [abs_of_pos h0, abs_of_nonneg (rn_nonneg h0.le)] at h5
    simp only [fadd, fmul] at h1
    have n3 := rn_nonneg n2
    have n4 := abs_nonneg est
    generalize rn (rn (ccwC * rn S) + rn (resErr * |est|)) = f1 at *
    generalize rn (ccwC * rn S) = f2 at *
    generalize rn (resErr * |est|) = f3 at *
    generalize rn S = f4 at *
    rw [ccwC_eq] at *
    rw [resErr_eq] at *
    generalize |est| = f5 at *
    norm_num at *
    linarith
  apply SameSign.of_close
  obtain ⟨-, h2⟩ := products_close x y z w
  rw [← hS] at h2
  obtain ⟨l1, l2⟩ := two_products_close (mul_tail_le x y) (by have := mul_tail_le y x; rwa [mul_comm (rn y) (rn x)] at this)
  obtain ⟨r1, r2⟩ := two_products_close (mul_tail_le z w) (by have := mul_tail_le w z; rwa [mul_comm (rn w) (rn z)] at this)
  have q1 := tail_tail_le x y
  have q2 := tail_tail_le z w
  have d1 := rr (est + rn (rn (rn (rn x * (y - rn y)) + rn (rn y * (x - rn x))) - rn (rn (rn z * (w - rn w)) + rn (rn w * (z - rn z)))))
  rw [← hd] at d1
  generalize rn (rn (rn x * (y - rn y)) + rn (rn y * (x - rn x))) = lc at *
  generalize rn (rn (rn z * (w - rn w)) + rn (rn w * (z - rn z))) = rc at *
  have d2 := rr' (lc - rc)
  have d3 := abs_sub lc rc
  generalize rn (lc - rc) = corr at *
  have key : x * y - z * w - det = (est + corr - det) + ((rn x * rn y - rn z * rn w - est) + ((lc - rc - corr) +
      ((rn x * (y - rn y) + rn y * (x - rn x) - lc - (rn z * (w - rn w) + rn w * (z - rn z) - rc)) + ((x - rn x) * (y - rn y) - (z - rn z) * (w - rn w))))) := by ring
  have t1 := abs_add_le (est + corr - det) ((rn x * rn y - rn z * rn w - est) + ((lc - rc - corr) +
      ((rn x * (y - rn y) + rn y * (x - rn x) - lc - (rn z * (w - rn w) + rn w * (z - rn z) - rc)) + ((x - rn x) * (y - rn y) - (z - rn z) * (w - rn w)))))
  have t2 := abs_add_le (rn x * rn y - rn z * rn w - est) ((lc - rc - corr) +
      ((rn x * (y - rn y) + rn y * (x - rn x) - lc - (rn z * (w - rn w) + rn w * (z - rn z) - rc)) + ((x - rn x) * (y - rn y) - (z - rn z) * (w - rn w))))
  have t3 := abs_add_le (lc - rc - corr)
      ((rn x * (y - rn y) + rn y * (x - rn x) - lc - (rn z * (w - rn w) + rn w * (z - rn z) - rc)) + ((x - rn x) * (y - rn y) - (z - rn z) * (w - rn w)))
  have t4 := abs_add_le (rn x * (y - rn y) + rn y * (x - rn x) - lc - (rn z * (w - rn w) + rn w * (z - rn z) - rc)) ((x - rn x) * (y - rn y) - (z - rn z) * (w - rn w))
  have t5 := abs_sub (rn x * (y - rn y) + rn y * (x - rn x) - lc) (rn z * (w - rn w) + rn w * (z - rn z) - rc)
  have t6 := abs_sub ((x - rn x) * (y - rn y)) ((z - rn z) * (w - rn w))
  rw [← key] at t1
  clear key hd h hS
  generalize |x * y - z * w - det| = a1 at *
  generalize |est + corr - det| = a2 at *
  generalize |rn x * rn y - rn z * rn w - est + (lc - rc - corr + (rn x * (y - rn y) + rn y * (x - rn x) - lc - (rn z * (w - rn w) + rn w * (z - rn z) - rc) + ((x - rn x) * (y - rn y) - (z - rn z) * (w - rn w))))| = a3 at *
  generalize |lc - rc - corr + (rn x * (y - rn y) + rn y * (x - rn x) - lc - (rn z * (w - rn w) + rn w * (z - rn z) - rc) + ((x - rn x) * (y - rn y) - (z - rn z) * (w - rn w)))| = a4 at *
  generalize |rn x * (y - rn y) + rn y * (x - rn x) - lc - (rn z * (w - rn w) + rn w * (z - rn z) - rc) + ((x - rn x) * (y - rn y) - (z - rn z) * (w - rn w))| = a5 at *
  generalize |rn x * (y - rn y) + rn y * (x - rn x) - lc - (rn z * (w - rn w) + rn w * (z - rn z) - rc)| = a6 at *
  generalize |(x - rn x) * (y - rn y) - (z - rn z) * (w - rn w)| = a7 at *
  generalize |(x - rn x) * (y - rn y)| = a8 at *
  generalize |(z - rn z) * (w - rn w)| = a9 at *
  generalize |rn x * (y - rn y) + rn y * (x - rn x) - lc| = a10 at *
  generalize |rn z * (w - rn w) + rn w * (z - rn z) - rc| = a11 at *
  generalize |rn x * rn y - rn z * rn w - est| = a12 at *
  have e0 := abs_nonneg est
  generalize |est| = a13 at *
  generalize |lc - rc - corr| = a14 at *
  generalize |lc - rc| = a15 at *
  generalize |rn x * rn y| = p at *
  generalize |rn z * rn w| = r at *
  norm_num at *
  linarith

/-! ### The whole function -/

theorem orient2dAdapt_spec {ax ay bx bY cx cy S : ℚ} (hax : IsF ax) (hay : IsF ay) (hbx : IsF bx) (hby : IsF bY) (hcx : IsF cx) (hcy : IsF cy)
    (hS : S = |rn (rn (ax - cx) * rn (bY - cy))| + |rn (rn (ay - cy) * rn (bx - cx))|) (h0 : 0 < S)
    (hc : |rn (rn (ax - cx) * rn (bY - cy)) - rn (rn (ay - cy) * rn (bx - cx))| ≤ S / 4) :
    ∃ r, orient2dAdapt ax ay bx bY cx cy (rn S) = some r ∧ SameSign r (area2 ax ay bx bY cx cy) := by
  have i1 := prod_err_isF (rn_isF (ax - cx)) (rn_isF (bY - cy))
  have i2 := prod_err_isF (rn_isF (ay - cy)) (rn_isF (bx - cx))
  obtain ⟨hB, hs⟩ := twoTwoDiff_spec i1 i2
  have he := estimate_arr4 i1 i2 (by rw [← hS]; exact hc)
  rw [← hS] at he
  have hx := twoDiffTail_spec hax hcx
  have hz := twoDiffTail_spec hay hcy
  have hw := twoDiffTail_spec hbx hcx
  have hy := twoDiffTail_spec hby hcy
  have tail : ∀ {a b : ℚ}, IsF a → IsF b → IsF (a - b - rn (a - b)) := by
    intro a b ha hb
    have := sum_err_isF ha hb.neg
    rwa [← sub_eq_add_neg] at this
  simp only [orient2dAdapt, fsub, twoProduct_spec (rn_isF (ax - cx)) (rn_isF (bY - cy)), twoProduct_spec (rn_isF (ay - cy)) (rn_isF (bx - cx)), hx, hz, hw, hy]
  have hl : (arr4 (twoTwoDiff (rn (rn (ax - cx) * rn (bY - cy))) (rn (ax - cx) * rn (bY - cy) - rn (rn (ax - cx) * rn (bY - cy)))
    (rn (rn (ay - cy) * rn (bx - cx))) (rn (ay - cy) * rn (bx - cx) - rn (rn (ay - cy) * rn (bx - cx))))).length = 4 := rfl
  generalize arr4 (twoTwoDiff (rn (rn (ax - cx) * rn (bY - cy))) (rn (ax - cx) * rn (bY - cy) - rn (rn (ax - cx) * rn (bY - cy)))
    (rn (rn (ay - cy) * rn (bx - cx))) (rn (ay - cy) * rn (bx - cx) - rn (rn (ay - cy) * rn (bx - cx)))) = B at *
  have hD : area2 ax ay bx bY cx cy = (ax - cx) * (bY - cy) - (ay - cy) * (bx - cx) := rfl
  by_cases t1 : estimate B ≥ fmul ccwB (rn S) ∨ -estimate B ≥ fmul ccwB (rn S)
  · rw [if_pos t1]
    exact ⟨_, rfl, stageB hS h0 he t1⟩
  rw [if_neg t1]
  by_cases t2 : ax - cx - rn (ax - cx) = 0 ∧ ay - cy - rn (ay - cy) = 0 ∧ bx - cx - rn (bx - cx) = 0 ∧ bY - cy - rn (bY - cy) = 0
  · rw [if_pos t2]
    refine ⟨_, rfl, ?_⟩
    have := estimate_sign hB (by rw [hl]; norm_num)
    rw [hs] at this
    obtain ⟨u1, u2, u3, u4⟩ := t2
    rw [hD]
    rwa [← sub_eq_zero.1 u1, ← sub_eq_zero.1 u2, ← sub_eq_zero.1 u3, ← sub_eq_zero.1 u4] at this
  rw [if_neg t2]
  split
  · next t3 =>
    refine ⟨_, rfl, ?_⟩
    rw [hD]
    exact stageC hS h0 he rfl t3
  · obtain ⟨r, h1, h2⟩ := orient2dExact_spec hB hs (rn_isF (ax - cx)) (rn_isF (ay - cy)) (rn_isF (bx - cx)) (rn_isF (bY - cy))
      (tail hax hcx) (tail hay hcy) (tail hbx hcx) (tail hby hcy)
    refine ⟨r, h1, ?_⟩
    rw [hD]
    convert h2 using 2 <;> ring

/-- The early returns: with products of different signs no cancellation is possible. -/
theorem early_return {x y z w : ℚ} (h : (0 < rn (rn x * rn y) ∧ rn (rn z * rn w) ≤ 0) ∨ (rn (rn x * rn y) < 0 ∧ 0 ≤ rn (rn z * rn w)) ∨
    rn (rn x * rn y) = 0) : SameSign (rn (rn (rn x * rn y) - rn (rn z * rn w))) (x * y - z * w) := by
  have pos : ∀ u v : ℚ, 0 < rn (rn u * rn v) ↔ 0 < u * v := by
    intro u v
    rw [rn_pos, mul_pos_iff, mul_pos_iff, rn_pos, rn_pos, rn_neg_iff, rn_neg_iff]
  have neg : ∀ u v : ℚ, rn (rn u * rn v) < 0 ↔ u * v < 0 := by
    intro u v
    rw [rn_neg_iff, mul_neg_iff, mul_neg_iff, rn_pos, rn_pos, rn_neg_iff, rn_neg_iff]
  have p1 := pos x y
  have p2 := pos z w
  have n1 := neg x y
  have n2 := neg z w
  simp only [SameSign, rn_pos, rn_neg_iff]
  generalize rn (rn x * rn y) = l at *
  generalize rn (rn z * rn w) = r at *
  rcases h with ⟨h, h'⟩ | ⟨h, h'⟩ | h
  · have a1 := p1.1 h
    have a2 : z * w ≤ 0 := not_lt.1 fun q => absurd (p2.2 q) (not_lt.2 h')
    constructor <;> constructor <;> intro <;> linarith
  · have a1 := n1.1 h
    have a2 : 0 ≤ z * w := not_lt.1 fun q => absurd (n2.2 q) (not_lt.2 h')
    constructor <;> constructor <;> intro <;> linarith
  · have a1 : x * y = 0 := le_antisymm (not_lt.1 fun q => absurd (p1.2 q) (by rw [h]; exact lt_irrefl _))
      (not_lt.1 fun q => absurd (n1.2 q) (by rw [h]; exact lt_irrefl _))
    rw [h, a1, zero_sub, zero_sub, neg_pos, neg_pos, neg_lt_zero, neg_lt_zero]
    exact ⟨n2, p2⟩

/-- **`orient2d` decides the orientation of any three points with double coordinates**: it never panics and the number it returns has the sign of
the exact determinant. -/
theorem c70_orient2d {ax ay bx bY cx cy : ℚ} (hax : IsF ax) (hay : IsF ay) (hbx : IsF bx) (hby : IsF bY) (hcx : IsF cx) (hcy : IsF cy) :
    ∃ r, orient2d ax ay bx bY cx cy = some r ∧ SameSign r (area2 ax ay bx bY cx cy) := by
  have rest : ∀ S : ℚ, S = |rn (rn (ax - cx) * rn (bY - cy))| + |rn (rn (ay - cy) * rn (bx - cx))| → 0 < S →
      ∃ r, orient2dTail ax ay bx bY cx cy (rn (rn (rn (ax - cx) * rn (bY - cy)) - rn (rn (ay - cy) * rn (bx - cx)))) (rn S) = some r ∧
        SameSign r (area2 ax ay bx bY cx cy) := by
    intro S hS h0
    simp only [orient2dTail]
    by_cases t : rn (rn (rn (ax - cx) * rn (bY - cy)) - rn (rn (ay - cy) * rn (bx - cx))) ≥ fmul ccwA (rn S) ∨
        -rn (rn (rn (ax - cx) * rn (bY - cy)) - rn (rn (ay - cy) * rn (bx - cx))) ≥ fmul ccwA (rn S)
    · rw [if_pos t]
      exact ⟨_, rfl, stageA hS h0 t⟩
    · rw [if_neg t]
      exact orient2dAdapt_spec hax hay hbx hby hcx hcy hS h0 (stageA_fails h0 t)
  have early := early_return (x := ax - cx) (y := bY - cy) (z := ay - cy) (w := bx - cx)
  simp only [orient2d]
  have e1 : fmul (fsub ax cx) (fsub bY cy) = rn (rn (ax - cx) * rn (bY - cy)) := rfl
  have e2 : fmul (fsub ay cy) (fsub bx cx) = rn (rn (ay - cy) * rn (bx - cx)) := rfl
  rw [← e1, ← e2] at early rest
  generalize fmul (fsub ax cx) (fsub bY cy) = l at *
  generalize fmul (fsub ay cy) (fsub bx cx) = r at *
  by_cases l1 : l > 0
  · rw [if_pos l1]
    by_cases r1 : r ≤ 0
    · rw [if_pos r1]
      exact ⟨_, rfl, early (Or.inl ⟨l1, r1⟩)⟩
    · rw [if_neg r1]
      have r2 := not_le.1 r1
      exact rest _ (by rw [abs_of_pos l1, abs_of_pos r2]) (by linarith)
  rw [if_neg l1]
  by_cases l2 : l < 0
  · rw [if_pos l2]
    by_cases r1 : r ≥ 0
    · rw [if_pos r1]
      exact ⟨_, rfl, early (Or.inr (Or.inl ⟨l2, r1⟩))⟩
    · rw [if_neg r1]
      have r2 := not_le.1 r1
      exact rest _ (by rw [abs_of_neg l2, abs_of_neg r2]; ring) (by linarith)
  · rw [if_neg l2]
    exact ⟨_, rfl, early (Or.inr (Or.inr (le_antisymm (not_lt.1 l1) (not_lt.1 l2))))⟩

/-- A concrete case which needs the exact stage: the point `c` lies `2⁻¹¹²` beside the line through `(1,1)` and `(2,2)`, the differences and both filters see
only zeros, and the answer is right on both sides of the line and on it. -/
example : orient2d 1 1 2 2 (1 / 2 ^ 60) (1 / 2 ^ 60 + 1 / 2 ^ 112) = some (1 / 2 ^ 112) ∧
    orient2d 1 1 2 2 (1 / 2 ^ 60 + 1 / 2 ^ 112) (1 / 2 ^ 60) = some (-1 / 2 ^ 112) ∧
    orient2d 1 1 2 2 (1 / 2 ^ 60) (1 / 2 ^ 60) = some 0 ∧
    fsub (fmul (fsub 1 (1 / 2 ^ 60)) (fsub 2 (1 / 2 ^ 60 + 1 / 2 ^ 112))) (fmul (fsub 1 (1 / 2 ^ 60 + 1 / 2 ^ 112)) (fsub 2 (1 / 2 ^ 60))) = 0 := by
  decide +kernel

example : ∃ r, orient2d 1 1 2 2 (1 / 2 ^ 60) (1 / 2 ^ 60 + 1 / 2 ^ 112) = some r ∧ 0 < r := by
  obtain ⟨r, h, s⟩ := c70_orient2d (ax := 1) (ay := 1) (bx := 2) (bY := 2) (cx := 1 / 2 ^ 60) (cy := 1 / 2 ^ 60 + 1 / 2 ^ 112)
    ⟨1, 0, by norm_num, by norm_num⟩ ⟨1, 0, by norm_num, by norm_num⟩ ⟨2, 0, by norm_num, by norm_num⟩ ⟨2, 0, by norm_num, by norm_num⟩
    ⟨1, -60, by norm_num, by norm_num⟩ ⟨4503599627370497, -112, by norm_num, by norm_num⟩
  exact ⟨r, h, s.1.2 (by norm_num [area2])⟩

/-- Swapping the first two points reverses the answer, and three points with a repeated one are collinear: consequences for the callers. -/
theorem c70_swap {ax ay bx bY cx cy r r' : ℚ} (hax : IsF ax) (hay : IsF ay) (hbx : IsF bx) (hby : IsF bY) (hcx : IsF cx) (hcy : IsF cy)
    (h : orient2d ax ay bx bY cx cy = some r) (h' : orient2d bx bY ax ay cx cy = some r') : (0 < r ↔ r' < 0) ∧ (r = 0 ↔ r' = 0) := by
  obtain ⟨q, e, s1, s2⟩ := c70_orient2d hax hay hbx hby hcx hcy
  obtain ⟨q', e', s1', s2'⟩ := c70_orient2d hbx hby hax hay hcx hcy
  obtain rfl : r = q := Option.some.inj (h.symm.trans e)
  obtain rfl : r' = q' := Option.some.inj (h'.symm.trans e')
  have : area2 bx bY ax ay cx cy = -area2 ax ay bx bY cx cy := by simp only [area2]; ring
  rw [this] at s1' s2'
  rw [neg_pos] at s1'
  rw [neg_lt_zero] at s2'
  refine ⟨s1.trans s2'.symm, ?_, ?_⟩
  · rintro rfl
    refine le_antisymm (not_lt.1 fun q => ?_) (not_lt.1 fun q => ?_)
    · exact lt_irrefl _ (s2.2 (s1'.1 q))
    · exact lt_irrefl _ (s1.2 (s2'.1 q))
  · rintro rfl
    refine le_antisymm (not_lt.1 fun q => ?_) (not_lt.1 fun q => ?_)
    · exact lt_irrefl _ (s2'.2 (s1.1 q))
    · exact lt_irrefl _ (s1'.2 (s2.1 q))

example : orient2d 0 0 1 0 0 1 = some 1 ∧ orient2d 1 0 0 0 0 1 = some (-1) := by decide +kernel

end Verif.Float
