import Verif.Float.Num
/-!
# Properties of the expansion arithmetic (`src/predicates/predicates.rs`, `src/predicates/expansion_number.rs`)

Expansions are lists of doubles from the smallest component to the largest; the value of an expansion is the sum of the list.
-/
namespace Verif.Float
open Verif.Pred InSphere

/-! ### C24: sums and differences -/

/-- The statement of C24 for the sum. -/
def C24 : Prop := ∀ e f, Expansion e → Expansion f → ∃ r, fastExpansionSumZeroelim e f = some r ∧ Expansion r ∧ r.sum = e.sum + f.sum

/-- **C24** for inputs of at least two components together (in particular, for two expansions that are not empty): the result of
`fast_expansion_sum_zeroelim` is a nonoverlapping expansion with the exact sum of the values, without zeros (a single zero
component stands for the number zero). Missing: the inputs of `c24_refuted`. -/
theorem c24_sum_partial {e f : List ℚ} (he : Expansion e) (hf : Expansion f) (hn : 2 ≤ e.length + f.length) :
    ∃ r, fastExpansionSumZeroelim e f = some r ∧ Expansion r ∧ r.sum = e.sum + f.sum ∧ ((∀ y ∈ r, y ≠ 0) ∨ r = [0]) := by
  obtain ⟨r, h1, h2, h3, -, h4⟩ := fastExpansionSum_spec he hf hn
  exact ⟨r, h1, h2, h3, h4⟩

/-- **C24** for `fast_expansion_diff_zeroelim`. -/
theorem c24_diff_partial {e f : List ℚ} (he : Expansion e) (hf : Expansion f) (hn : 2 ≤ e.length + f.length) :
    ∃ r, fastExpansionDiffZeroelim e f = some r ∧ Expansion r ∧ r.sum = e.sum - f.sum ∧ ((∀ y ∈ r, y ≠ 0) ∨ r = [0]) := by
  obtain ⟨r, h1, h2, h3, -, h4⟩ := fastExpansionSum_spec he hf.neg (by simpa using hn)
  exact ⟨r, h1, h2, by rw [h3, sum_map_neg]; ring, h4⟩

/-- **C24** fails otherwise: the only component is dropped, and two empty expansions panic. -/
theorem c24_lost (x : ℚ) : fastExpansionSumZeroelim [x] [] = some [] ∧ fastExpansionSumZeroelim [] [x] = some [] ∧
    fastExpansionSumZeroelim [] [] = none := by
  simp [fastExpansionSumZeroelim, twoArr]

theorem c24_refuted : ¬ C24 := by
  intro h
  obtain ⟨r, h1, -, h2⟩ := h [1] [] (Expansion.single ⟨1, 0, by norm_num, by norm_num⟩) trivial
  rw [(c24_lost 1).1] at h1
  cases h1
  norm_num at h2

/-- `grow_expansion` and `grow_expansion_zeroelim` add one number to a list of doubles. -/
theorem c24_grow {e : List ℚ} {b : ℚ} (he : ∀ y ∈ e, IsF y) (hb : IsF b) :
    (growExpansion b e).sum = e.sum + b ∧ (growExpansionZeroelim b e).sum = e.sum + b ∧
      (growExpansion b e).length = e.length + 1 ∧ ∀ y ∈ growExpansionZeroelim b e, y ≠ 0 := by
  induction e generalizing b with
  | nil =>
    refine ⟨by simp [growExpansion], ?_, by simp [growExpansion], ?_⟩
    · simp only [growExpansionZeroelim]
      split_ifs with h
      · simp
      · simp [not_not.1 h]
    · intro y hy
      simp only [growExpansionZeroelim] at hy
      split_ifs at hy with h
      · rw [List.mem_singleton] at hy; rwa [hy]
      · simp at hy
  | cons x xs ih =>
    obtain ⟨h1, h2, h3, h4⟩ := ih (b := rn (b + x)) (fun y hy => he y (List.mem_cons_of_mem _ hy)) (rn_isF _)
    simp only [growExpansion, growExpansionZeroelim, twoSum_spec hb (he x List.mem_cons_self)]
    refine ⟨?_, ?_, by simp [h3], ?_⟩
    · rw [List.sum_cons, h1, List.sum_cons]; ring
    · split_ifs with h
      · rw [List.sum_cons, h2, List.sum_cons]; ring
      · rw [h2, List.sum_cons]; have := not_not.1 h; linarith
    · split_ifs with h
      · intro y hy
        rcases List.mem_cons.1 hy with rfl | hy
        · exact h
        · exact h4 y hy
      · exact h4

/-- Two components of different magnitudes form an expansion. -/
theorem exp_pair : Expansion [1, 2 ^ 60] :=
  ⟨⟨1, 0, by norm_num, by norm_num⟩, ⟨0, ⟨1, by norm_num⟩, by norm_num, by norm_num⟩,
    ⟨1, 60, by norm_num, by norm_num⟩, ⟨60, ⟨1, by norm_num⟩, by norm_num, by norm_num⟩, trivial⟩

example : Expansion [1, 2 ^ 60] ∧ fastExpansionSumZeroelim [1, 2 ^ 60] [1, 2 ^ 60] = some [2, 2 ^ 61] ∧
    fastExpansionDiffZeroelim [1, 2 ^ 60] [1 / 2 ^ 70, 2 ^ 120] = some [-1 / 2 ^ 70, 1, 2 ^ 60, -2 ^ 120] ∧
    fastExpansionDiffZeroelim [1, 2 ^ 60] [1, 2 ^ 60] = some [0] ∧ growExpansionZeroelim 1 [1, 2 ^ 60] = [2, 2 ^ 60] :=
  ⟨exp_pair, by decide +kernel, by decide +kernel, by decide +kernel, by decide +kernel⟩

/-! ### C25: `expansion_sum` -/

/-- The statement of C25. -/
def C25 : Prop := ∀ e f, Expansion e → Expansion f → f ≠ [] → ∃ r, expansionSum e f = some r ∧ r.sum = e.sum + f.sum

theorem inner_eq (q : ℚ) (h : List ℚ) : expansionSumInner q h = growExpansion q h := by
  induction h generalizing q with
  | nil => rfl
  | cons x xs ih => simp only [expansionSumInner, growExpansion, ih]

theorem grow_isF {e : List ℚ} {b : ℚ} (he : ∀ y ∈ e, IsF y) (hb : IsF b) : ∀ y ∈ growExpansion b e, IsF y := by
  induction e generalizing b with
  | nil => simpa [growExpansion] using hb
  | cons x xs ih =>
    have hx := he x List.mem_cons_self
    simp only [growExpansion, twoSum_spec hb hx]
    intro y hy
    rcases List.mem_cons.1 hy with rfl | hy
    · exact sum_err_isF hb hx
    · exact ih (fun y hy => he y (List.mem_cons_of_mem _ hy)) (rn_isF _) y hy

theorem outer_sum (es : List ℚ) : ∀ (start : Nat) (harr : List ℚ), (∀ y ∈ es, IsF y) → (∀ y ∈ harr, IsF y) →
    (expansionSumOuter start es harr).sum = harr.sum + es.sum := by
  induction es with
  | nil => intro start harr _ _; simp [expansionSumOuter]
  | cons e es ih =>
    intro start harr h1 h2
    have hd : ∀ y ∈ harr.drop start, IsF y := fun y hy => h2 y (List.mem_of_mem_drop hy)
    have he := h1 e List.mem_cons_self
    rw [expansionSumOuter, ih _ _ (fun y hy => h1 y (List.mem_cons_of_mem _ hy)), inner_eq, List.sum_append, (c24_grow hd he).1]
    · have : (harr.take start).sum + (harr.drop start).sum = harr.sum := by
        rw [← List.sum_append, List.take_append_drop]
      rw [List.sum_cons]; linarith
    · intro y hy
      rcases List.mem_append.1 hy with hy | hy
      · exact h2 y (List.mem_of_mem_take hy)
      · rw [inner_eq] at hy; exact grow_isF hd he y hy

/-- What `expansion_sum` computes: its second loop runs over the first expansion again, so of the second one only the first
component is added, and all but the first component of the first one are added twice. -/
theorem c25_value {e f : List ℚ} {f0 : ℚ} (he : ∀ y ∈ e, IsF y) (hf : ∀ y ∈ f0 :: f, IsF y) :
    ∃ r, expansionSum e (f0 :: f) = some r ∧ r.sum = e.sum + f0 + (e.drop 1).sum := by
  refine ⟨_, rfl, ?_⟩
  have h0 := hf f0 List.mem_cons_self
  rw [outer_sum _ _ _ (fun y hy => he y (List.mem_of_mem_drop hy)) (grow_isF he h0), (c24_grow he h0).1]

/-- **C25** for expansions of one component. Missing: every other case, see `c25_refuted`. -/
theorem c25_expansion_sum_partial {a b : ℚ} (ha : IsF a) (hb : IsF b) : ∃ r, expansionSum [a] [b] = some r ∧ r.sum = a + b := by
  obtain ⟨r, h1, h2⟩ := c25_value (e := [a]) (f0 := b) (f := []) (by simpa) (by simpa)
  exact ⟨r, h1, by simpa using h2⟩

/-- **C25** is wrong. -/
theorem c25_refuted : ¬ C25 := by
  intro h
  obtain ⟨r, h1, h2⟩ := h [1, 2 ^ 60] [0] exp_pair (Expansion.single IsF.zero) (by simp)
  obtain ⟨r', h3, h4⟩ := c25_value (e := [1, 2 ^ 60]) (f0 := 0) (f := []) exp_pair.isF (by simpa using IsF.zero)
  rw [h1] at h3
  cases h3
  rw [h2] at h4
  norm_num at h4

example : expansionSum [1, 2 ^ 60] [0] = some [0, 1, 0, 2 ^ 61] ∧ expansionSum [1] [1, 2 ^ 60] = some [0, 2] := by decide +kernel

/-! ### C26: products -/

/-- **C26.** `scale_expansion_zeroelim` multiplies the value by a double, exactly, and its result is nonoverlapping again. -/
theorem c26_scale {e : List ℚ} {b : ℚ} (he : Expansion e) (hb : IsF b) (hn : e ≠ []) :
    ∃ r, scaleExpansionZeroelim e b = some r ∧ Expansion r ∧ r.sum = b * e.sum ∧ ((∀ y ∈ r, y ≠ 0) ∨ r = [0]) := by
  obtain ⟨r, h1, h2, h3, -, h4⟩ := scaleExpansion_spec he hb hn
  exact ⟨r, h1, h2, h3, h4⟩

/-- **C26.** `mul_expansion_zeroelim` multiplies the values, exactly. -/
theorem c26_mul {e f : List ℚ} (he : Expansion e) (hf : Expansion f) (hen : e ≠ []) (hfn : f ≠ []) :
    ∃ r, mulExpansionZeroelim e f = some r ∧ Expansion r ∧ r.sum = e.sum * f.sum ∧ ((∀ y ∈ r, y ≠ 0) ∨ r = [0]) := by
  obtain ⟨r, h1, h2, h3⟩ := mulExpansion_spec he hf hen hfn
  exact ⟨r, h1, h2.exp, h3, h2.nz⟩

/-- An empty expansion panics. -/
theorem c26_empty (b : ℚ) : scaleExpansionZeroelim [] b = none ∧ mulExpansionZeroelim [] [] = none := by
  refine ⟨rfl, rfl⟩

/-- `expansion_invert` negates the value and keeps the expansion nonoverlapping. -/
theorem c26_invert {e : List ℚ} (he : Expansion e) : Expansion (expansionInvert e) ∧ (expansionInvert e).sum = -e.sum :=
  ⟨he.neg, sum_map_neg e⟩

example : scaleExpansionZeroelim [1, 2 ^ 60] (2 ^ 52 + 1) = some [2 ^ 52 + 1, 2 ^ 112 + 2 ^ 60] ∧
    mulExpansionZeroelim [1, 2 ^ 60] [1, 2 ^ 60] = some [1, 2 ^ 61, 2 ^ 120] ∧
    mulExpansionZeroelim [1, 2 ^ 60] [0] = some [0] := by decide +kernel

/-! ### C27: signs -/

/-- **C27.** The last component of a nonoverlapping expansion has the sign of the value, unless it is zero. -/
theorem c27_sign {e : List ℚ} (h : Expansion e) {z : ℚ} (hz : e.getLast? = some z) (h0 : z ≠ 0) :
    (0 < e.sum ↔ 0 < z) ∧ (e.sum < 0 ↔ z < 0) ∧ e.sum ≠ 0 := h.sign hz h0

/-- The expansion numbers that can be built: from doubles by sums, differences, products, negation and scaling by powers of
two; beside each number the number it stands for. -/
inductive Built : ENum → ℚ → Prop where
  | of {x : ℚ} : IsF x → Built (.of x) x
  | add {x y a b} : Built x a → Built y b → Built (x + y) (a + b)
  | sub {x y a b} : Built x a → Built y b → Built (x - y) (a - b)
  | mul {x y a b} : Built x a → Built y b → Built (x * y) (a * b)
  | neg {x a} : Built x a → Built x.neg (-a)
  | scale {x a} (k : ℤ) : Built x a → Built (x.scale k) (a * 2 ^ (-k))

/-- **C27.** On every expansion number that can be built nothing panics, the value is exact, and `not_zero` and `negative`
decide its sign. -/
theorem c27_decide {x : ENum} {a : ℚ} (h : Built x a) :
    (∃ e, x.v = some e ∧ Expansion e ∧ e.sum = a) ∧ x.notZero = some (decide (a ≠ 0)) ∧ x.negative = some (decide (a < 0)) := by
  have hr : x.Rep a := by
    induction h with
    | of h => exact .of h
    | add _ _ h1 h2 => exact h1.add h2
    | sub _ _ h1 h2 => exact h1.sub h2
    | mul _ _ h1 h2 => exact h1.mul h2
    | neg _ h => exact h.neg
    | scale k _ h => exact h.scale k
  refine ⟨?_, hr.notZero, hr.negative⟩
  obtain ⟨e, h1, h2, h3⟩ := hr
  exact ⟨e, h1, h2.exp, h3⟩

/-- Not every list of doubles would do: here the last component has the wrong sign. -/
example : ∃ e : List ℚ, (∀ y ∈ e, IsF y) ∧ 0 < e.sum ∧ (⟨some e⟩ : ENum).negative = some true :=
  ⟨[2, -1], by
    intro y hy
    simp only [List.mem_cons, List.not_mem_nil, or_false] at hy
    rcases hy with rfl | rfl
    · exact ⟨2, 0, by norm_num, by norm_num⟩
    · exact ⟨-1, 0, by norm_num, by norm_num⟩, by norm_num, by decide +kernel⟩

example : Built (ENum.of 3 * ENum.of 5 - ENum.of (2 ^ 60)) (3 * 5 - 2 ^ 60) :=
  .sub (.mul (.of ⟨3, 0, by norm_num, by norm_num⟩) (.of ⟨5, 0, by norm_num, by norm_num⟩)) (.of ⟨1, 60, by norm_num, by norm_num⟩)

/-- **C27, C30.** The exact stage of the four `orient3d` functions on implicit points, executed with expansions of doubles, does
not panic and finds the side on which the represented points lie. -/
theorem c27_orient3d {i j k m : Imp ℚ} {X Y Z W a b c : Pt ℚ} (hi : ImpF i) (hj : ImpF j) (hk : ImpF k) (hm : ImpF m) (ha : PtF a)
    (hb : PtF b) (hc : PtF c) (ri : RepI i X) (rj : RepI j Y) (rk : RepI k Z) (rm : RepI m W) :
    ieeeE i a b c = some (some (side X a b c)) ∧ iieeE i j a b = some (some (side X Y a b)) ∧
      iiieE i j k a = some (some (side X Y Z a)) ∧ iiiiE i j k m = some (some (side X Y Z W)) := by
  rw [ieeeE_eq hi ha hb hc, iieeE_eq hi hj ha hb, iiieE_eq hi hj hk ha, iiiiE_eq hi hj hk hm, ieee_eq expEnv_sound ri,
    iiee_eq expEnv_sound ri rj, iiie_eq expEnv_sound ri rj rk, iiii_eq expEnv_sound ri rj rk rm]
  exact ⟨rfl, rfl, rfl, rfl⟩

/-- **C27, C32.** The same for the three `orient2d` functions on implicit points. -/
theorem c27_orient2d {axis : Nat} (hax : axis < 3) {i j k : Imp ℚ} {X Y Z a b : Pt ℚ} (hi : ImpF i) (hj : ImpF j) (hk : ImpF k)
    (ha : PtF a) (hb : PtF b) (ri : RepI i X) (rj : RepI j Y) (rk : RepI k Z) :
    ieeE axis i a b = some (some (turn axis X a b)) ∧ iieE axis i j a = some (some (turn axis X Y a)) ∧
      iiiE axis i j k = some (some (turn axis X Y Z)) := by
  rw [ieeE_eq axis hi ha hb, iieE_eq axis hi hj ha, iiiE_eq axis hi hj hk, iee_eq expEnv_sound hax ri,
    iie_eq expEnv_sound hax ri rj, iii_eq expEnv_sound hax ri rj rk]
  exact ⟨rfl, rfl, rfl⟩

/-- **C27, C33.** The same for the comparison of coordinates. -/
theorem c27_less_than {axis : Nat} (hax : axis < 3) {i j : Imp ℚ} {X Y a : Pt ℚ} (hi : ImpF i) (hj : ImpF j) (ha : PtF a)
    (ri : RepI i X) (rj : RepI j Y) :
    ltIeE axis i a = some (some (Pred.cmp (coord axis X) (coord axis a))) ∧
      ltIiE axis i j = some (some (Pred.cmp (coord axis X) (coord axis Y))) := by
  rw [ltIeE_eq axis hi ha, ltIiE_eq axis hi hj, ltIe_eq expEnv_sound hax ri, ltIi_eq expEnv_sound hax ri rj]
  exact ⟨rfl, rfl⟩

/-- Small integers are doubles. -/
theorem isF_int (n : ℤ) (h : |n| < 2 ^ 53) : IsF n := ⟨n, 0, h, by simp⟩

theorem isF_nat (n : Nat) [n.AtLeastTwo] (h : n < 2 ^ 53) : IsF (OfNat.ofNat n) := by
  have h1 := isF_int n (by rw [Nat.abs_cast]; exact_mod_cast h)
  have h2 : ((n : ℤ) : ℚ) = OfNat.ofNat n := by norm_cast
  rwa [h2] at h1

theorem isF_one : IsF 1 := ⟨1, 0, by norm_num, by norm_num⟩

theorem exL_double : ImpF (.lpi exL) := by
  refine ⟨⟨?_, ?_, ?_⟩, ⟨?_, ?_, ?_⟩, ⟨?_, ?_, ?_⟩, ⟨?_, ?_, ?_⟩, ⟨?_, ?_, ?_⟩⟩ <;> simp only [exL] <;>
    first | exact IsF.zero | exact isF_one | exact isF_one.neg | exact isF_nat _ (by norm_num)

theorem exT_double : ImpF (.tpi exT) := by
  refine ⟨⟨?_, ?_, ?_⟩, ⟨?_, ?_, ?_⟩, ⟨?_, ?_, ?_⟩, ⟨?_, ?_, ?_⟩, ⟨?_, ?_, ?_⟩, ⟨?_, ?_, ?_⟩, ⟨?_, ?_, ?_⟩, ⟨?_, ?_, ?_⟩,
    ⟨?_, ?_, ?_⟩⟩ <;> simp only [exT] <;>
    first | exact IsF.zero | exact isF_one | exact isF_one.neg | exact isF_nat _ (by norm_num)

/-- The hypotheses of the theorems above are met, and the functions really run on expansions. -/
example : ImpF (.lpi exL) ∧ ImpF (.tpi exT) ∧ RepI (.lpi exL) ⟨1, 3 / 2, 0⟩ ∧ RepI (.tpi exT) ⟨1, 2, 3⟩ ∧
    iieeE (.tpi exT) (.lpi exL) ⟨0, 0, 0⟩ ⟨0, 1, 0⟩ = some (some .positive) ∧
    ltIiE 1 (.tpi exT) (.lpi exL) = some (some .positive) :=
  ⟨exL_double, exT_double, exL_rep, exT_rep, by decide +kernel, by decide +kernel⟩

end Verif.Float
