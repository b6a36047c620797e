import Verif.Float.Orient2d
/-!
# `orient3d` (`src/predicates/predicates.rs` lines 529-789): the model and the exact stage

The model follows the code operation by operation in the rounding model of `Float/Model.lean` (53 bits, ties to even, unbounded exponents).
A point is given by its three coordinates.
-/
namespace Verif.Float

/-- A point with three coordinates. -/
structure P3 where
  x : ℚ
  y : ℚ
  z : ℚ
  deriving DecidableEq

/-- The constants of lines 52-54. -/
def o3dA : ℚ := boundAB (1 / 2 ^ 53) 7 56
@[inherit_doc o3dA] def o3dB : ℚ := boundAB (1 / 2 ^ 53) 3 28
@[inherit_doc o3dA] def o3dC : ℚ := boundC (1 / 2 ^ 53) 26 288

/-- The two products of `two_product` as the array that the code stores them in, `arr[1]` and `arr[0]` of an array of four zeros. -/
def arr2 (x : ℚ × ℚ) : List ℚ := [x.2, x.1, 0, 0]

/-- `two_two_diff(two_product(a, b), two_product(c, d))` as it occurs throughout. -/
def diffProducts (a b c d : ℚ) : List ℚ :=
  arr4 (twoTwoDiff (twoProduct a b).1 (twoProduct a b).2 (twoProduct c d).1 (twoProduct c d).2)

/-- `helper1` (lines 608-656). -/
def o3Helper1 (adxtail adytail bdx bdy cdx cdy : ℚ) : List ℚ × List ℚ :=
  if adxtail = 0 then
    if adytail = 0 then ([0, 0, 0, 0], [0, 0, 0, 0])
    else (arr2 (twoProduct (-adytail) bdx), arr2 (twoProduct adytail cdx))
  else if adytail = 0 then (arr2 (twoProduct adxtail bdy), arr2 (twoProduct (-adxtail) cdy))
  else (diffProducts adxtail bdy adytail bdx, diffProducts adytail cdx adxtail cdy)

/-- `if tail != 0.0 { fin = fin + e * tail }` (lines 675-688 and 735-748). -/
def addScaled (fin e : List ℚ) (tail : ℚ) : Option (List ℚ) :=
  if tail ≠ 0 then do
    let v ← scaleExpansionZeroelim e tail
    fastExpansionSumZeroelim fin v
  else some fin

/-- One half of `helper2` (lines 702-711 and 712-721): `two_product(a, b)` times `z` and, if it is not zero, times `ztail`. -/
def o3Triple (a b z ztail : ℚ) (fin : List ℚ) : Option (List ℚ) := do
  let fin ← fastExpansionSumZeroelim fin (arr4 (twoOneProduct (twoProduct a b).1 (twoProduct a b).2 z))
  if ztail ≠ 0 then fastExpansionSumZeroelim fin (arr4 (twoOneProduct (twoProduct a b).1 (twoProduct a b).2 ztail)) else some fin

/-- `if b != 0.0 { .. }` around the halves of `helper2`. -/
def o3TripleIf (a b z ztail : ℚ) (cond : ℚ) (fin : List ℚ) : Option (List ℚ) :=
  if cond ≠ 0 then o3Triple a b z ztail fin else some fin

/-- `helper2` (lines 690-723). -/
def o3Helper2 (adxtail bdytail bdztail bdz cdz cdytail cdztail : ℚ) (fin : List ℚ) : Option (List ℚ) :=
  if adxtail ≠ 0 then do
    let fin ← o3TripleIf adxtail bdytail cdz cdztail bdytail fin
    o3TripleIf (-adxtail) cdytail bdz bdztail cdytail fin
  else some fin

/-- The closure of lines 664-672: the sum of two cross terms, and `fin` with that sum times `z` added. -/
def o3Xyt (e f : List ℚ) (z : ℚ) (fin : List ℚ) : Option (List ℚ × List ℚ) := do
  let sum ← fastExpansionSumZeroelim e f
  let w ← scaleExpansionZeroelim sum z
  let fin ← fastExpansionSumZeroelim fin w
  pure (sum, fin)

/-- The differences and their tails, as named in `orient3d_adapt`. -/
structure Diffs where
  adx : ℚ
  ady : ℚ
  adz : ℚ
  bdx : ℚ
  bdy : ℚ
  bdz : ℚ
  cdx : ℚ
  cdy : ℚ
  cdz : ℚ

/-- Lines 537-545. -/
def diffs (a b c d : P3) : Diffs where
  adx := fsub a.x d.x
  ady := fsub a.y d.y
  adz := fsub a.z d.z
  bdx := fsub b.x d.x
  bdy := fsub b.y d.y
  bdz := fsub b.z d.z
  cdx := fsub c.x d.x
  cdy := fsub c.y d.y
  cdz := fsub c.z d.z

/-- Lines 576-584. -/
def diffTails (a b c d : P3) (h : Diffs) : Diffs where
  adx := twoDiffTail a.x d.x h.adx
  ady := twoDiffTail a.y d.y h.ady
  adz := twoDiffTail a.z d.z h.adz
  bdx := twoDiffTail b.x d.x h.bdx
  bdy := twoDiffTail b.y d.y h.bdy
  bdz := twoDiffTail b.z d.z h.bdz
  cdx := twoDiffTail c.x d.x h.cdx
  cdy := twoDiffTail c.y d.y h.cdy
  cdz := twoDiffTail c.z d.z h.cdz

/-- The expansions `bc`, `ca`, `ab` of lines 547-565. -/
def o3Bc (h : Diffs) : List ℚ := diffProducts h.bdx h.cdy h.cdx h.bdy
@[inherit_doc o3Bc] def o3Ca (h : Diffs) : List ℚ := diffProducts h.cdx h.ady h.adx h.cdy
@[inherit_doc o3Bc] def o3Ab (h : Diffs) : List ℚ := diffProducts h.adx h.bdy h.bdx h.ady

/-- `fin` before the filters (lines 551, 557, 563 and 566-567). -/
def o3Fin (h : Diffs) : Option (List ℚ) := do
  let adet ← scaleExpansionZeroelim (o3Bc h) h.adz
  let bdet ← scaleExpansionZeroelim (o3Ca h) h.bdz
  let cdet ← scaleExpansionZeroelim (o3Ab h) h.cdz
  let abdet ← fastExpansionSumZeroelim adet bdet
  fastExpansionSumZeroelim abdet cdet

/-- The exact stage (lines 658-749). The third call of `helper2` passes `cdztail` where `cdxtail` is meant (line 732). -/
def o3Exact (h t : Diffs) (fin : List ℚ) : Option ℚ := do
  let (at_b, at_c) := o3Helper1 t.adx t.ady h.bdx h.bdy h.cdx h.cdy
  let (bt_c, bt_a) := o3Helper1 t.bdx t.bdy h.cdx h.cdy h.adx h.ady
  let (ct_a, ct_b) := o3Helper1 t.cdx t.cdy h.adx h.ady h.bdx h.bdy
  let (xyt0, fin) ← o3Xyt bt_c ct_b h.adz fin
  let (xyt1, fin) ← o3Xyt ct_a at_c h.bdz fin
  let (xyt2, fin) ← o3Xyt at_b bt_a h.cdz fin
  let fin ← addScaled fin (o3Bc h) t.adz
  let fin ← addScaled fin (o3Ca h) t.bdz
  let fin ← addScaled fin (o3Ab h) t.cdz
  let fin ← o3Helper2 t.adx t.bdy t.bdz h.bdz h.cdz t.cdy t.cdz fin
  let fin ← o3Helper2 t.bdx t.cdy t.cdz h.cdz h.adz t.ady t.adz fin
  let fin ← o3Helper2 t.cdz t.ady t.adz h.adz h.bdz t.bdy t.bdz fin
  let fin ← addScaled fin xyt0 t.adz
  let fin ← addScaled fin xyt1 t.bdz
  let fin ← addScaled fin xyt2 t.cdz
  fin.getLast?

/-- The correction of lines 600-605. -/
def o3Corr (h t : Diffs) : ℚ :=
  fadd
    (fadd
      (fadd (fmul h.adz (fsub (fadd (fmul h.bdx t.cdy) (fmul h.cdy t.bdx)) (fadd (fmul h.bdy t.cdx) (fmul h.cdx t.bdy))))
        (fmul t.adz (fsub (fmul h.bdx h.cdy) (fmul h.bdy h.cdx))))
      (fadd (fmul h.bdz (fsub (fadd (fmul h.cdx t.ady) (fmul h.ady t.cdx)) (fadd (fmul h.cdy t.adx) (fmul h.adx t.cdy))))
        (fmul t.bdz (fsub (fmul h.cdx h.ady) (fmul h.cdy h.adx)))))
    (fadd (fmul h.cdz (fsub (fadd (fmul h.adx t.bdy) (fmul h.bdy t.adx)) (fadd (fmul h.ady t.bdx) (fmul h.bdx t.ady))))
      (fmul t.cdz (fsub (fmul h.adx h.bdy) (fmul h.ady h.bdx))))

/-- The part of `orient3d_adapt` after the second filter (lines 576-749). -/
def o3Rest (h t : Diffs) (permanent det : ℚ) (fin : List ℚ) : Option ℚ :=
  if t.adx = 0 ∧ t.bdx = 0 ∧ t.cdx = 0 ∧ t.ady = 0 ∧ t.bdy = 0 ∧ t.cdy = 0 ∧ t.adz = 0 ∧ t.bdz = 0 ∧ t.cdz = 0 then some det
  else
    let errbound := fadd (fmul o3dC permanent) (fmul resErr |det|)
    let det := fadd det (o3Corr h t)
    if det ≥ errbound ∨ -det ≥ errbound then some det else o3Exact h t fin

/-- `orient3d_adapt` (lines 529-750). -/
def orient3dAdapt (a b c d : P3) (permanent : ℚ) : Option ℚ := do
  let h := diffs a b c d
  let fin ← o3Fin h
  let det := estimate fin
  let errbound := fmul o3dB permanent
  if det ≥ errbound ∨ -det ≥ errbound then some det else o3Rest h (diffTails a b c d h) permanent det fin

/-- The determinant of lines 777 and 811 (`orient3d_fast`). -/
def o3Det (h : Diffs) : ℚ :=
  fadd
    (fadd (fmul h.adz (fsub (fmul h.bdx h.cdy) (fmul h.cdx h.bdy))) (fmul h.bdz (fsub (fmul h.cdx h.ady) (fmul h.adx h.cdy))))
    (fmul h.cdz (fsub (fmul h.adx h.bdy) (fmul h.bdx h.ady)))

/-- The permanent of lines 779-781. -/
def o3Perm (h : Diffs) : ℚ :=
  fadd
    (fadd (fmul (fadd |fmul h.bdx h.cdy| |fmul h.cdx h.bdy|) |h.adz|) (fmul (fadd |fmul h.cdx h.ady| |fmul h.adx h.cdy|) |h.bdz|))
    (fmul (fadd |fmul h.adx h.bdy| |fmul h.bdx h.ady|) |h.cdz|)

/-- `orient3d` (lines 752-789). -/
def orient3d (a b c d : P3) : Option ℚ :=
  let h := diffs a b c d
  let det := o3Det h
  let permanent := o3Perm h
  let errBound := fmul o3dA permanent
  if det > errBound ∨ -det > errBound then some det else orient3dAdapt a b c d permanent

/-! ### Specification -/

/-- The determinant: six times the signed volume of the tetrahedron. -/
def vol6 (a b c d : P3) : ℚ :=
  (a.z - d.z) * ((b.x - d.x) * (c.y - d.y) - (c.x - d.x) * (b.y - d.y)) +
  (b.z - d.z) * ((c.x - d.x) * (a.y - d.y) - (a.x - d.x) * (c.y - d.y)) +
  (c.z - d.z) * ((a.x - d.x) * (b.y - d.y) - (b.x - d.x) * (a.y - d.y))

/-- The coordinates are doubles. -/
def P3.IsF (p : P3) : Prop := Float.IsF p.x ∧ Float.IsF p.y ∧ Float.IsF p.z

/-! ### The exact stage -/

/-- The computation succeeds with a proper expansion of the value `s`. -/
def Val (o : Option (List ℚ)) (s : ℚ) : Prop := ∃ r, o = some r ∧ Proper r ∧ r.sum = s

theorem Val.some {r : List ℚ} (h : Proper r) : Val (some r) r.sum := ⟨r, rfl, h, rfl⟩

theorem Val.bind {o : Option (List ℚ)} {s s' : ℚ} {f : List ℚ → Option (List ℚ)} (h : Val o s) (hf : ∀ r, Proper r → r.sum = s → Val (f r) s') :
    Val (o.bind f) s' := by
  obtain ⟨r, rfl, h1, h2⟩ := h
  exact hf r h1 h2

theorem val_sum {e f : List ℚ} (he : Expansion e) (hf : Expansion f) (hn : 2 ≤ e.length + f.length) :
    Val (fastExpansionSumZeroelim e f) (e.sum + f.sum) := by
  obtain ⟨r, h1, h2, h3, h4, h5⟩ := fastExpansionSum_spec he hf hn
  exact ⟨r, h1, ⟨h2, h4, h5⟩, h3⟩

theorem Proper.length_pos {e : List ℚ} (h : Proper e) : 1 ≤ e.length := List.length_pos_of_ne_nil h.ne

theorem val_scale {e : List ℚ} {b : ℚ} (he : Expansion e) (hn : e ≠ []) (hb : IsF b) : Val (scaleExpansionZeroelim e b) (b * e.sum) := by
  obtain ⟨r, h1, h2, h3, h4, h5⟩ := scaleExpansion_spec he hb hn
  exact ⟨r, h1, ⟨h2, h4, h5⟩, h3⟩

theorem Nonov.append_zero {s t : ℚ} {l : List ℚ} (h : Nonov s t l) : Nonov s t (l ++ [0]) := by
  induction l generalizing s t with
  | nil =>
    obtain ⟨w, hw⟩ := exists_pw_gt (2 * |s| + |t|)
    have h1 := abs_nonneg s
    have h2 := abs_nonneg t
    rw [abs_of_nonneg (by linarith)] at hw
    exact ⟨IsF.zero, ⟨w, Mult.zero w, by linarith, by linarith⟩, trivial⟩
  | cons x l ih => exact ⟨h.1, h.2.1, ih h.2.2⟩

theorem arr2_spec {a b : ℚ} (ha : IsF a) (hb : IsF b) : Expansion (arr2 (twoProduct a b)) ∧ (arr2 (twoProduct a b)).sum = a * b := by
  rw [twoProduct_spec ha hb]
  refine ⟨Nonov.append_zero (l := [_, _, 0]) (Nonov.append_zero (l := [_, _]) (pair_nonov (prod_err_isF ha hb))), ?_⟩
  simp [arr2]

theorem diffProducts_spec {a b c d : ℚ} (ha : IsF a) (hb : IsF b) (hc : IsF c) (hd : IsF d) :
    Expansion (diffProducts a b c d) ∧ (diffProducts a b c d).sum = a * b - c * d := diff_expansion ha hb hc hd

theorem diffProducts_ne (a b c d : ℚ) : diffProducts a b c d ≠ [] := by simp [diffProducts, arr4]

theorem diffProducts_len (a b c d : ℚ) : (diffProducts a b c d).length = 4 := rfl

theorem zeros_expansion : Expansion [0, 0, 0, 0] :=
  Nonov.append_zero (l := [0, 0, 0]) (Nonov.append_zero (l := [0, 0]) (Nonov.append_zero (l := [0]) (Nonov.append_zero (l := []) trivial)))

/-- `helper1` computes the two cross terms. -/
theorem o3Helper1_spec {at_ bt x1 y1 x2 y2 : ℚ} (ha : IsF at_) (hb : IsF bt) (hx1 : IsF x1) (hy1 : IsF y1) (hx2 : IsF x2) (hy2 : IsF y2) :
    (Expansion (o3Helper1 at_ bt x1 y1 x2 y2).1 ∧ (o3Helper1 at_ bt x1 y1 x2 y2).1.sum = at_ * y1 - bt * x1 ∧ (o3Helper1 at_ bt x1 y1 x2 y2).1.length = 4) ∧
    (Expansion (o3Helper1 at_ bt x1 y1 x2 y2).2 ∧ (o3Helper1 at_ bt x1 y1 x2 y2).2.sum = bt * x2 - at_ * y2 ∧ (o3Helper1 at_ bt x1 y1 x2 y2).2.length = 4) := by
  unfold o3Helper1
  by_cases h1 : at_ = 0
  · rw [if_pos h1]
    by_cases h2 : bt = 0
    · rw [if_pos h2]
      refine ⟨⟨zeros_expansion, ?_, rfl⟩, zeros_expansion, ?_, rfl⟩ <;> simp [h1, h2]
    · rw [if_neg h2]
      refine ⟨⟨(arr2_spec hb.neg hx1).1, ?_, rfl⟩, (arr2_spec hb hx2).1, ?_, rfl⟩
      · rw [(arr2_spec hb.neg hx1).2, h1]; ring
      · rw [(arr2_spec hb hx2).2, h1]; ring
  · rw [if_neg h1]
    by_cases h2 : bt = 0
    · rw [if_pos h2]
      refine ⟨⟨(arr2_spec ha hy1).1, ?_, rfl⟩, (arr2_spec ha.neg hy2).1, ?_, rfl⟩
      · rw [(arr2_spec ha hy1).2, h2]; ring
      · rw [(arr2_spec ha.neg hy2).2, h2]; ring
    · rw [if_neg h2]
      exact ⟨⟨(diffProducts_spec ha hy1 hb hx1).1, (diffProducts_spec ha hy1 hb hx1).2, rfl⟩,
        (diffProducts_spec hb hx2 ha hy2).1, (diffProducts_spec hb hx2 ha hy2).2, rfl⟩

theorem addScaled_spec {fin e : List ℚ} {tail : ℚ} (hf : Proper fin) (he : Expansion e) (hn : e ≠ []) (ht : IsF tail) :
    Val (addScaled fin e tail) (fin.sum + tail * e.sum) := by
  unfold addScaled
  split
  · refine (val_scale he hn ht).bind fun v hv hs => ?_
    rw [← hs]
    exact val_sum hf.exp hv.exp (by have := hf.length_pos; have := hv.length_pos; omega)
  · next h =>
    rw [not_not.1 h, zero_mul, add_zero]
    exact Val.some hf

theorem o3Triple_spec {a b z zt : ℚ} {fin : List ℚ} (hf : Proper fin) (ha : IsF a) (hb : IsF b) (hz : IsF z) (hzt : IsF zt) :
    Val (o3Triple a b z zt fin) (fin.sum + a * b * (z + zt)) := by
  unfold o3Triple
  rw [twoProduct_spec ha hb]
  obtain ⟨e1, s1⟩ := twoOneProduct_spec (prod_err_isF ha hb) hz
  obtain ⟨e2, s2⟩ := twoOneProduct_spec (prod_err_isF ha hb) hzt
  refine (val_sum hf.exp e1 (by simp [arr4])).bind fun r hr hs => ?_
  rw [s1] at hs
  by_cases h : zt ≠ 0
  · rw [if_pos h]
    have := val_sum hr.exp e2 (by simp [arr4])
    rw [hs, s2] at this
    rwa [show fin.sum + a * b * (z + zt) = fin.sum + a * b * z + a * b * zt by ring]
  · rw [if_neg h, not_not.1 h, add_zero, ← hs]
    exact Val.some hr

theorem o3TripleIf_spec {a b z zt : ℚ} {fin : List ℚ} (hf : Proper fin) (ha : IsF a) (hb : IsF b) (hz : IsF z) (hzt : IsF zt) :
    Val (o3TripleIf a b z zt b fin) (fin.sum + a * b * (z + zt)) := by
  unfold o3TripleIf
  split
  · exact o3Triple_spec hf ha hb hz hzt
  · next h =>
    rw [not_not.1 h, mul_zero, zero_mul, add_zero]
    exact Val.some hf

/-- `helper2` adds the terms with two tails of `x` and `y`. -/
theorem o3Helper2_spec {xt yt zt z z' yt' zt' : ℚ} {fin : List ℚ} (hf : Proper fin) (hxt : IsF xt) (hyt : IsF yt) (hzt : IsF zt) (hz : IsF z)
    (hz' : IsF z') (hyt' : IsF yt') (hzt' : IsF zt') :
    Val (o3Helper2 xt yt zt z z' yt' zt' fin) (fin.sum + xt * yt * (z' + zt') - xt * yt' * (z + zt)) := by
  unfold o3Helper2
  split
  · refine (o3TripleIf_spec hf hxt hyt hz' hzt').bind fun r hr hs => ?_
    have := o3TripleIf_spec hr hxt.neg hyt' hz hzt
    rw [hs] at this
    rwa [show fin.sum + xt * yt * (z' + zt') - xt * yt' * (z + zt) = fin.sum + xt * yt * (z' + zt') + -xt * yt' * (z + zt) by ring]
  · next h =>
    rw [not_not.1 h]
    simp only [zero_mul, add_zero, sub_zero]
    exact Val.some hf

theorem o3Xyt_spec {e f fin : List ℚ} {z : ℚ} (hf : Proper fin) (h1 : Expansion e) (h2 : Expansion f) (hl : 2 ≤ e.length + f.length) (hz : IsF z) :
    ∃ s r, o3Xyt e f z fin = some (s, r) ∧ Proper s ∧ s.sum = e.sum + f.sum ∧ Proper r ∧ r.sum = fin.sum + z * (e.sum + f.sum) := by
  obtain ⟨s, q1, p1, t1⟩ := val_sum h1 h2 hl
  obtain ⟨w, q2, p2, t2⟩ := val_scale p1.exp p1.ne hz
  obtain ⟨r, q3, p3, t3⟩ := val_sum hf.exp p2.exp (by have := hf.length_pos; have := p2.length_pos; omega)
  refine ⟨s, r, ?_, p1, t1, p3, ?_⟩
  · simp [o3Xyt, q1, q2, q3]
  · rw [t3, t2, t1]

/-- All the numbers are doubles. -/
structure Diffs.IsF (h : Diffs) : Prop where
  adx : Float.IsF h.adx
  ady : Float.IsF h.ady
  adz : Float.IsF h.adz
  bdx : Float.IsF h.bdx
  bdy : Float.IsF h.bdy
  bdz : Float.IsF h.bdz
  cdx : Float.IsF h.cdx
  cdy : Float.IsF h.cdy
  cdz : Float.IsF h.cdz

/-- The determinant of nine entries. -/
def Diffs.det (h : Diffs) : ℚ :=
  h.adz * (h.bdx * h.cdy - h.cdx * h.bdy) + h.bdz * (h.cdx * h.ady - h.adx * h.cdy) + h.cdz * (h.adx * h.bdy - h.bdx * h.ady)

/-- Entrywise sum. -/
def Diffs.add (h t : Diffs) : Diffs where
  adx := h.adx + t.adx
  ady := h.ady + t.ady
  adz := h.adz + t.adz
  bdx := h.bdx + t.bdx
  bdy := h.bdy + t.bdy
  bdz := h.bdz + t.bdz
  cdx := h.cdx + t.cdx
  cdy := h.cdy + t.cdy
  cdz := h.cdz + t.cdz

theorem o3Fin_spec {h : Diffs} (hh : h.IsF) : Val (o3Fin h) h.det := by
  obtain ⟨e1, s1⟩ := diffProducts_spec hh.bdx hh.cdy hh.cdx hh.bdy
  obtain ⟨e2, s2⟩ := diffProducts_spec hh.cdx hh.ady hh.adx hh.cdy
  obtain ⟨e3, s3⟩ := diffProducts_spec hh.adx hh.bdy hh.bdx hh.ady
  unfold o3Fin
  refine (val_scale e1 (diffProducts_ne _ _ _ _) hh.adz).bind fun r1 p1 t1 => ?_
  refine (val_scale e2 (diffProducts_ne _ _ _ _) hh.bdz).bind fun r2 p2 t2 => ?_
  refine (val_scale e3 (diffProducts_ne _ _ _ _) hh.cdz).bind fun r3 p3 t3 => ?_
  have l1 := p1.length_pos
  have l2 := p2.length_pos
  have l3 := p3.length_pos
  refine (val_sum p1.exp p2.exp (by omega)).bind fun r p t => ?_
  have l := p.length_pos
  have := val_sum p.exp p3.exp (by omega)
  rwa [t, t1, t2, t3, s1, s2, s3] at this

/-- **What the exact stage computes**: the sign of the determinant of the exact differences plus a spurious term, which is due to the wrong argument in the
third call of `helper2`. -/
theorem o3Exact_spec {h t : Diffs} {fin : List ℚ} (hh : h.IsF) (ht : t.IsF) (hf : Proper fin) (hs : fin.sum = h.det) :
    ∃ r, o3Exact h t fin = some r ∧
      SameSign r ((h.add t).det + (t.cdz - t.cdx) * (t.ady * (h.bdz + t.bdz) - t.bdy * (h.adz + t.adz))) := by
  obtain ⟨⟨a1, a2, a3⟩, a4, a5, a6⟩ := o3Helper1_spec ht.adx ht.ady hh.bdx hh.bdy hh.cdx hh.cdy
  obtain ⟨⟨b1, b2, b3⟩, b4, b5, b6⟩ := o3Helper1_spec ht.bdx ht.bdy hh.cdx hh.cdy hh.adx hh.ady
  obtain ⟨⟨c1, c2, c3⟩, c4, c5, c6⟩ := o3Helper1_spec ht.cdx ht.cdy hh.adx hh.ady hh.bdx hh.bdy
  obtain ⟨e1, s1⟩ := diffProducts_spec hh.bdx hh.cdy hh.cdx hh.bdy
  obtain ⟨e2, s2⟩ := diffProducts_spec hh.cdx hh.ady hh.adx hh.cdy
  obtain ⟨e3, s3⟩ := diffProducts_spec hh.adx hh.bdy hh.bdx hh.ady
  obtain ⟨x0, f0, q0, px0, tx0, pf0, tf0⟩ := o3Xyt_spec hf b1 c4 (by omega) hh.adz
  obtain ⟨x1, f1, q1, px1, tx1, pf1, tf1⟩ := o3Xyt_spec pf0 c1 a4 (by omega) hh.bdz
  obtain ⟨x2, f2, q2, px2, tx2, pf2, tf2⟩ := o3Xyt_spec pf1 a1 b4 (by omega) hh.cdz
  obtain ⟨f3, q3, pf3, tf3⟩ := addScaled_spec pf2 e1 (diffProducts_ne _ _ _ _) ht.adz
  obtain ⟨f4, q4, pf4, tf4⟩ := addScaled_spec pf3 e2 (diffProducts_ne _ _ _ _) ht.bdz
  obtain ⟨f5, q5, pf5, tf5⟩ := addScaled_spec pf4 e3 (diffProducts_ne _ _ _ _) ht.cdz
  obtain ⟨f6, q6, pf6, tf6⟩ := o3Helper2_spec pf5 ht.adx ht.bdy ht.bdz hh.bdz hh.cdz ht.cdy ht.cdz
  obtain ⟨f7, q7, pf7, tf7⟩ := o3Helper2_spec pf6 ht.bdx ht.cdy ht.cdz hh.cdz hh.adz ht.ady ht.adz
  obtain ⟨f8, q8, pf8, tf8⟩ := o3Helper2_spec pf7 ht.cdz ht.ady ht.adz hh.adz hh.bdz ht.bdy ht.bdz
  obtain ⟨f9, q9, pf9, tf9⟩ := addScaled_spec pf8 px0.exp px0.ne ht.adz
  obtain ⟨f10, q10, pf10, tf10⟩ := addScaled_spec pf9 px1.exp px1.ne ht.bdz
  obtain ⟨f11, q11, pf11, tf11⟩ := addScaled_spec pf10 px2.exp px2.ne ht.cdz
  obtain ⟨r, hr, g1, g2, -⟩ := pf11.last
  refine ⟨r, ?_, ?_⟩
  · simp only [o3Exact, o3Bc, o3Ca, o3Ab, q0, q1, q2, q3, q4, q5, q6, q7, q8, q9, q10, q11, hr, Option.bind_eq_bind, Option.bind_some]
  · have : f11.sum = (h.add t).det + (t.cdz - t.cdx) * (t.ady * (h.bdz + t.bdz) - t.bdy * (h.adz + t.adz)) := by
      rw [tf11, tf10, tf9, tf8, tf7, tf6, tf5, tf4, tf3, tf2, tf1, tf0, tx0, tx1, tx2, hs, s1, s2, s3, a2, a5, b2, b5, c2, c5]
      simp only [Diffs.det, Diffs.add]
      ring
    rw [← this]
    exact ⟨g1.symm, g2.symm⟩

end Verif.Float
