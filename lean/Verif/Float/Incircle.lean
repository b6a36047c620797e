import Verif.Float.Orient3d
/-!
# `incircle` (`src/predicates/predicates.rs` lines 814-1112): the model and the exact stage

The model follows the code operation by operation in the rounding model of `Float/Model.lean` (53 bits, ties to even, unbounded exponents).
-/
namespace Verif.Float

/-- A point with two coordinates. -/
structure P2 where
  x : ℚ
  y : ℚ
  deriving DecidableEq

/-- The constants of lines 55-57. -/
def iccA : ℚ := boundAB (1 / 2 ^ 53) 10 96
@[inherit_doc iccA] def iccB : ℚ := boundAB (1 / 2 ^ 53) 4 48
@[inherit_doc iccA] def iccC : ℚ := boundC (1 / 2 ^ 53) 44 576

/-- The differences (or their tails) as named in `incircle_adapt`. -/
structure Diff2 where
  adx : ℚ
  ady : ℚ
  bdx : ℚ
  bdy : ℚ
  cdx : ℚ
  cdy : ℚ

/-- Lines 822-827 and 1082-1087. -/
def diff2 (a b c d : P2) : Diff2 where
  adx := fsub a.x d.x
  ady := fsub a.y d.y
  bdx := fsub b.x d.x
  bdy := fsub b.y d.y
  cdx := fsub c.x d.x
  cdy := fsub c.y d.y

/-- Lines 868-873. -/
def diff2Tails (a b c d : P2) (h : Diff2) : Diff2 where
  adx := twoDiffTail a.x d.x h.adx
  ady := twoDiffTail a.y d.y h.ady
  bdx := twoDiffTail b.x d.x h.bdx
  bdy := twoDiffTail b.y d.y h.bdy
  cdx := twoDiffTail c.x d.x h.cdx
  cdy := twoDiffTail c.y d.y h.cdy

/-- The expansions `bc`, `ca`, `ab` of lines 829-832, 839-842 and 849-852. -/
def icBc (h : Diff2) : List ℚ := diffProducts h.bdx h.cdy h.cdx h.bdy
@[inherit_doc icBc] def icCa (h : Diff2) : List ℚ := diffProducts h.cdx h.ady h.adx h.cdy
@[inherit_doc icBc] def icAb (h : Diff2) : List ℚ := diffProducts h.adx h.bdy h.bdx h.ady

/-- `e * x * x + e * y * y` (lines 833-837, 843-847, 853-857). -/
def icLift (e : List ℚ) (x y : ℚ) : Option (List ℚ) := do
  let ex ← scaleExpansionZeroelim e x
  let exx ← scaleExpansionZeroelim ex x
  let ey ← scaleExpansionZeroelim e y
  let eyy ← scaleExpansionZeroelim ey y
  fastExpansionSumZeroelim exx eyy

/-- `fin` before the filters (lines 829-860). -/
def icFin (h : Diff2) : Option (List ℚ) := do
  let adet ← icLift (icBc h) h.adx h.ady
  let bdet ← icLift (icCa h) h.bdx h.bdy
  let cdet ← icLift (icAb h) h.cdx h.cdy
  let abdet ← fastExpansionSumZeroelim adet bdet
  fastExpansionSumZeroelim abdet cdet

/-- `two_two_sum(two_product(a, b), two_product(c, d))` (lines 1000-1009). -/
def sumProducts (a b c d : ℚ) : List ℚ :=
  arr4 (twoTwoSum (twoProduct a b).1 (twoProduct a b).2 (twoProduct c d).1 (twoProduct c d).2)

/-- `two_two_sum(square(x), square(y))` (lines 902-918). -/
def sumSquares (x y : ℚ) : List ℚ :=
  arr4 (twoTwoSum (square x).1 (square x).2 (square y).1 (square y).2)

/-- `aa`, `bb`, `cc` (lines 898-918): the empty vector unless one of the tails is not zero. -/
def icSquares (t1 t2 t3 t4 x y : ℚ) : List ℚ := if t1 ≠ 0 ∨ t2 ≠ 0 ∨ t3 ≠ 0 ∨ t4 ≠ 0 then sumSquares x y else []

/-- `helper1` (lines 920-945): returns `axtbc` and the new `fin`. -/
def icHelper1 (adxtail : ℚ) (bc : List ℚ) (adx : ℚ) (cc : List ℚ) (bdy : ℚ) (bb : List ℚ) (cdy : ℚ) (fin : List ℚ) : Option (List ℚ × List ℚ) := do
  let axtbc ← scaleExpansionZeroelim bc adxtail
  let temp16a ← scaleExpansionZeroelim axtbc (fmul 2 adx)
  let axtcc ← scaleExpansionZeroelim cc adxtail
  let temp16b ← scaleExpansionZeroelim axtcc bdy
  let axtbb ← scaleExpansionZeroelim bb adxtail
  let temp16c ← scaleExpansionZeroelim axtbb (-cdy)
  let temp32a ← fastExpansionSumZeroelim temp16a temp16b
  let temp48 ← fastExpansionSumZeroelim temp16c temp32a
  let fin ← fastExpansionSumZeroelim fin temp48
  pure (axtbc, fin)

/-- `let mut axtbc = []; if adxtail != 0.0 { axtbc = helper1(..) }` (lines 946-974). -/
def icHelper1If (adxtail : ℚ) (bc : List ℚ) (adx : ℚ) (cc : List ℚ) (bdy : ℚ) (bb : List ℚ) (cdy : ℚ) (fin : List ℚ) : Option (List ℚ × List ℚ) :=
  if adxtail ≠ 0 then icHelper1 adxtail bc adx cc bdy bb cdy fin else some ([], fin)

/-- `bct` and `bctt` (lines 997-1016). -/
def icTails (bdxtail bdytail cdxtail cdytail bdx bdy cdx cdy : ℚ) : Option (List ℚ × List ℚ) :=
  if bdxtail ≠ 0 ∨ bdytail ≠ 0 ∨ cdxtail ≠ 0 ∨ cdytail ≠ 0 then do
    let bct ← fastExpansionSumZeroelim (sumProducts bdxtail cdy bdx cdytail) (sumProducts cdxtail (-bdy) cdx (-bdytail))
    pure (bct, diffProducts bdxtail cdytail cdxtail bdytail)
  else some ([0], [0])

/-- Lines 1019-1023 and 1044-1048: returns `axtbct` and the new `fin`. -/
def icFirst (axtbc bct : List ℚ) (adxtail adx : ℚ) (fin : List ℚ) : Option (List ℚ × List ℚ) := do
  let temp16a ← scaleExpansionZeroelim axtbc adxtail
  let axtbct ← scaleExpansionZeroelim bct adxtail
  let temp32a ← scaleExpansionZeroelim axtbct (fmul 2 adx)
  let temp48 ← fastExpansionSumZeroelim temp16a temp32a
  let fin ← fastExpansionSumZeroelim fin temp48
  pure (axtbct, fin)

/-- Lines 1024-1028 and 1029-1033: `if t != 0.0 { fin += e * s * t }`. -/
def icSecond (e : List ℚ) (s t : ℚ) (fin : List ℚ) : Option (List ℚ) :=
  if t ≠ 0 then do
    let temp8 ← scaleExpansionZeroelim e s
    let temp16a ← scaleExpansionZeroelim temp8 t
    fastExpansionSumZeroelim fin temp16a
  else some fin

/-- Lines 1035-1041 and 1050-1056. -/
def icThird (axtbct bctt : List ℚ) (adxtail adx : ℚ) (fin : List ℚ) : Option (List ℚ) := do
  let temp32a ← scaleExpansionZeroelim axtbct adxtail
  let axtbctt ← scaleExpansionZeroelim bctt adxtail
  let temp16a ← scaleExpansionZeroelim axtbctt (fmul 2 adx)
  let temp16b ← scaleExpansionZeroelim axtbctt adxtail
  let temp32b ← fastExpansionSumZeroelim temp16a temp16b
  let temp64 ← fastExpansionSumZeroelim temp32a temp32b
  fastExpansionSumZeroelim fin temp64

/-- Lines 1018-1042. -/
def icX (axtbc bct bctt bb cc : List ℚ) (adxtail adx bdytail cdytail : ℚ) (fin : List ℚ) : Option (List ℚ) :=
  if adxtail ≠ 0 then do
    let (axtbct, fin) ← icFirst axtbc bct adxtail adx fin
    let fin ← icSecond cc adxtail bdytail fin
    let fin ← icSecond bb (-adxtail) cdytail fin
    icThird axtbct bctt adxtail adx fin
  else some fin

/-- Lines 1043-1057. -/
def icY (aytbc bct bctt : List ℚ) (adytail ady : ℚ) (fin : List ℚ) : Option (List ℚ) :=
  if adytail ≠ 0 then do
    let (aytbct, fin) ← icFirst aytbc bct adytail ady fin
    icThird aytbct bctt adytail ady fin
  else some fin

/-- `helper2` (lines 976-1059). -/
def icHelper2 (adxtail adytail bdxtail bdytail cdxtail cdytail adx ady bdx bdy cdx cdy : ℚ) (axtbc aytbc bb cc fin : List ℚ) : Option (List ℚ) :=
  if adxtail ≠ 0 ∨ adytail ≠ 0 then do
    let (bct, bctt) ← icTails bdxtail bdytail cdxtail cdytail bdx bdy cdx cdy
    let fin ← icX axtbc bct bctt bb cc adxtail adx bdytail cdytail fin
    icY aytbc bct bctt adytail ady fin
  else some fin

/-- The exact stage (lines 898-1072). -/
def icExact (h t : Diff2) (fin : List ℚ) : Option ℚ := do
  let aa := icSquares t.bdx t.bdy t.cdx t.cdy h.adx h.ady
  let bb := icSquares t.cdx t.cdy t.adx t.ady h.bdx h.bdy
  let cc := icSquares t.adx t.ady t.bdx t.bdy h.cdx h.cdy
  let (axtbc, fin) ← icHelper1If t.adx (icBc h) h.adx cc h.bdy bb h.cdy fin
  let (aytbc, fin) ← icHelper1If t.ady (icBc h) h.ady bb h.cdx cc h.bdx fin
  let (bxtca, fin) ← icHelper1If t.bdx (icCa h) h.bdx aa h.cdy cc h.ady fin
  let (bytca, fin) ← icHelper1If t.bdy (icCa h) h.bdy cc h.adx aa h.cdx fin
  let (cxtab, fin) ← icHelper1If t.cdx (icAb h) h.cdx bb h.ady aa h.bdy fin
  let (cytab, fin) ← icHelper1If t.cdy (icAb h) h.cdy aa h.bdx bb h.adx fin
  let fin ← icHelper2 t.adx t.ady t.bdx t.bdy t.cdx t.cdy h.adx h.ady h.bdx h.bdy h.cdx h.cdy axtbc aytbc bb cc fin
  let fin ← icHelper2 t.bdx t.bdy t.cdx t.cdy t.adx t.ady h.bdx h.bdy h.cdx h.cdy h.adx h.ady bxtca bytca cc aa fin
  let fin ← icHelper2 t.cdx t.cdy t.adx t.ady t.bdx t.bdy h.cdx h.cdy h.adx h.ady h.bdx h.bdy cxtab cytab aa bb fin
  fin.getLast?

/-- One line of the correction (lines 885-887, 888-890 and 891-893). -/
def icCorr1 (adx ady adxtail adytail bdx bdy cdx cdy bdxtail bdytail cdxtail cdytail : ℚ) : ℚ :=
  fadd
    (fmul (fadd (fmul adx adx) (fmul ady ady))
      (fsub (fadd (fmul bdx cdytail) (fmul cdy bdxtail)) (fadd (fmul bdy cdxtail) (fmul cdx bdytail))))
    (fmul (fmul 2 (fadd (fmul adx adxtail) (fmul ady adytail))) (fsub (fmul bdx cdy) (fmul bdy cdx)))

/-- The correction (lines 885-893). -/
def icCorr (h t : Diff2) : ℚ :=
  fadd
    (fadd (icCorr1 h.adx h.ady t.adx t.ady h.bdx h.bdy h.cdx h.cdy t.bdx t.bdy t.cdx t.cdy)
      (icCorr1 h.bdx h.bdy t.bdx t.bdy h.cdx h.cdy h.adx h.ady t.cdx t.cdy t.adx t.ady))
    (icCorr1 h.cdx h.cdy t.cdx t.cdy h.adx h.ady h.bdx h.bdy t.adx t.ady t.bdx t.bdy)

/-- The part of `incircle_adapt` after the second filter (lines 868-1072). -/
def icRest (h t : Diff2) (permanent det : ℚ) (fin : List ℚ) : Option ℚ :=
  if t.adx = 0 ∧ t.bdx = 0 ∧ t.cdx = 0 ∧ t.ady = 0 ∧ t.bdy = 0 ∧ t.cdy = 0 then some det
  else
    let errbound := fadd (fmul iccC permanent) (fmul resErr |det|)
    let det := fadd det (icCorr h t)
    if det ≥ errbound ∨ -det ≥ errbound then some det else icExact h t fin

/-- `incircle_adapt` (lines 814-1073). -/
def incircleAdapt (a b c d : P2) (permanent : ℚ) : Option ℚ := do
  let h := diff2 a b c d
  let fin ← icFin h
  let det := estimate fin
  let errbound := fmul iccB permanent
  if det ≥ errbound ∨ -det ≥ errbound then some det else icRest h (diff2Tails a b c d h) permanent det fin

/-- `alift`, `blift`, `clift` (lines 1091, 1095, 1099). -/
def icSq (x y : ℚ) : ℚ := fadd (fmul x x) (fmul y y)

/-- The determinant of line 1101. -/
def icDet (h : Diff2) : ℚ :=
  fadd
    (fadd (fmul (icSq h.adx h.ady) (fsub (fmul h.bdx h.cdy) (fmul h.cdx h.bdy)))
      (fmul (icSq h.bdx h.bdy) (fsub (fmul h.cdx h.ady) (fmul h.adx h.cdy))))
    (fmul (icSq h.cdx h.cdy) (fsub (fmul h.adx h.bdy) (fmul h.bdx h.ady)))

/-- The permanent of lines 1103-1105. -/
def icPerm (h : Diff2) : ℚ :=
  fadd
    (fadd (fmul (fadd |fmul h.bdx h.cdy| |fmul h.cdx h.bdy|) (icSq h.adx h.ady))
      (fmul (fadd |fmul h.cdx h.ady| |fmul h.adx h.cdy|) (icSq h.bdx h.bdy)))
    (fmul (fadd |fmul h.adx h.bdy| |fmul h.bdx h.ady|) (icSq h.cdx h.cdy))

/-- `incircle` (lines 1075-1112). -/
def incircle (a b c d : P2) : Option ℚ :=
  let h := diff2 a b c d
  let det := icDet h
  let permanent := icPerm h
  let errbound := fmul iccA permanent
  if det > errbound ∨ -det > errbound then some det else incircleAdapt a b c d permanent

/-! ### Specification -/

/-- The coordinates are doubles. -/
def P2.IsF (p : P2) : Prop := Float.IsF p.x ∧ Float.IsF p.y

/-- The determinant with the rows `x, y, x² + y²` of the differences to `d`. -/
def inCircleDet (a b c d : P2) : ℚ :=
  ((a.x - d.x) * (a.x - d.x) + (a.y - d.y) * (a.y - d.y)) * ((b.x - d.x) * (c.y - d.y) - (c.x - d.x) * (b.y - d.y)) +
  ((b.x - d.x) * (b.x - d.x) + (b.y - d.y) * (b.y - d.y)) * ((c.x - d.x) * (a.y - d.y) - (a.x - d.x) * (c.y - d.y)) +
  ((c.x - d.x) * (c.x - d.x) + (c.y - d.y) * (c.y - d.y)) * ((a.x - d.x) * (b.y - d.y) - (b.x - d.x) * (a.y - d.y))

/-! ### The exact stage -/

theorem sumProducts_spec {a b c d : ℚ} (ha : IsF a) (hb : IsF b) (hc : IsF c) (hd : IsF d) :
    Expansion (sumProducts a b c d) ∧ (sumProducts a b c d).sum = a * b + c * d := by
  unfold sumProducts
  rw [twoProduct_spec ha hb, twoProduct_spec hc hd]
  exact twoTwoSum_spec (prod_err_isF ha hb) (prod_err_isF hc hd)

theorem sumSquares_spec {x y : ℚ} (hx : IsF x) (hy : IsF y) : Expansion (sumSquares x y) ∧ (sumSquares x y).sum = x * x + y * y := by
  unfold sumSquares
  rw [square_spec hx, square_spec hy]
  exact twoTwoSum_spec (prod_err_isF hx hx) (prod_err_isF hy hy)

/-- A number is available as an expansion that is not empty. -/
def Avail (e : List ℚ) (s : ℚ) : Prop := Expansion e ∧ e ≠ [] ∧ e.sum = s

theorem Proper.avail {e : List ℚ} (h : Proper e) : Avail e e.sum := ⟨h.exp, h.ne, rfl⟩

theorem diffProducts_avail {a b c d : ℚ} (ha : IsF a) (hb : IsF b) (hc : IsF c) (hd : IsF d) : Avail (diffProducts a b c d) (a * b - c * d) :=
  ⟨(diffProducts_spec ha hb hc hd).1, diffProducts_ne _ _ _ _, (diffProducts_spec ha hb hc hd).2⟩

theorem icSquares_avail {t1 t2 t3 t4 x y : ℚ} (hx : IsF x) (hy : IsF y) (h : t1 ≠ 0 ∨ t2 ≠ 0 ∨ t3 ≠ 0 ∨ t4 ≠ 0) :
    Avail (icSquares t1 t2 t3 t4 x y) (x * x + y * y) := by
  rw [icSquares, if_pos h]
  exact ⟨(sumSquares_spec hx hy).1, by simp [sumSquares, arr4], (sumSquares_spec hx hy).2⟩

theorem IsF.two {x : ℚ} (h : IsF x) : IsF (2 * x) := by
  have := h.scale 1
  rwa [zpow_one, mul_comm] at this

theorem fmul_two {x : ℚ} (h : IsF x) : fmul 2 x = 2 * x := rn_of_isF h.two

theorem ascale {e : List ℚ} {s b : ℚ} (he : Avail e s) (hb : IsF b) : ∃ r, scaleExpansionZeroelim e b = some r ∧ Avail r (b * s) ∧ Proper r := by
  obtain ⟨r, h1, h2, h3⟩ := val_scale he.1 he.2.1 hb
  rw [he.2.2] at h3
  exact ⟨r, h1, h3 ▸ h2.avail, h2⟩

theorem asum {e f : List ℚ} {s t : ℚ} (he : Avail e s) (hf : Avail f t) : ∃ r, fastExpansionSumZeroelim e f = some r ∧ Avail r (s + t) ∧ Proper r := by
  obtain ⟨r, h1, h2, h3⟩ := val_sum he.1 hf.1 (by
    have := List.length_pos_of_ne_nil he.2.1
    have := List.length_pos_of_ne_nil hf.2.1
    omega)
  rw [he.2.2, hf.2.2] at h3
  exact ⟨r, h1, h3 ▸ h2.avail, h2⟩

/-- A number as a proper expansion. -/
def PVal (e : List ℚ) (s : ℚ) : Prop := Proper e ∧ e.sum = s

theorem psum {e f : List ℚ} {s t : ℚ} (he : PVal e s) (hf : Avail f t) : ∃ r, fastExpansionSumZeroelim e f = some r ∧ PVal r (s + t) := by
  obtain ⟨r, h1, h2, h3⟩ := asum (he.2 ▸ he.1.avail) hf
  exact ⟨r, h1, h3, h2.2.2⟩

theorem icLift_spec {e : List ℚ} {s x y : ℚ} (he : Avail e s) (hx : IsF x) (hy : IsF y) :
    ∃ r, icLift e x y = some r ∧ Avail r ((x * x + y * y) * s) ∧ Proper r := by
  obtain ⟨r1, q1, a1, -⟩ := ascale he hx
  obtain ⟨r2, q2, a2, -⟩ := ascale a1 hx
  obtain ⟨r3, q3, a3, -⟩ := ascale he hy
  obtain ⟨r4, q4, a4, -⟩ := ascale a3 hy
  obtain ⟨r5, q5, a5, p5⟩ := asum a2 a4
  refine ⟨r5, ?_, ?_, p5⟩
  · simp [icLift, q1, q2, q3, q4, q5]
  · convert a5 using 1; ring

/-- All the numbers are doubles. -/
structure Diff2.IsF (h : Diff2) : Prop where
  adx : Float.IsF h.adx
  ady : Float.IsF h.ady
  bdx : Float.IsF h.bdx
  bdy : Float.IsF h.bdy
  cdx : Float.IsF h.cdx
  cdy : Float.IsF h.cdy

/-- The determinant of the differences. -/
def Diff2.det (h : Diff2) : ℚ :=
  (h.adx * h.adx + h.ady * h.ady) * (h.bdx * h.cdy - h.cdx * h.bdy) + (h.bdx * h.bdx + h.bdy * h.bdy) * (h.cdx * h.ady - h.adx * h.cdy) +
  (h.cdx * h.cdx + h.cdy * h.cdy) * (h.adx * h.bdy - h.bdx * h.ady)

/-- Entrywise sum. -/
def Diff2.add (h t : Diff2) : Diff2 where
  adx := h.adx + t.adx
  ady := h.ady + t.ady
  bdx := h.bdx + t.bdx
  bdy := h.bdy + t.bdy
  cdx := h.cdx + t.cdx
  cdy := h.cdy + t.cdy

theorem icFin_spec {h : Diff2} (hh : h.IsF) : Val (icFin h) h.det := by
  obtain ⟨r1, q1, a1, -⟩ := icLift_spec (diffProducts_avail hh.bdx hh.cdy hh.cdx hh.bdy) hh.adx hh.ady
  obtain ⟨r2, q2, a2, -⟩ := icLift_spec (diffProducts_avail hh.cdx hh.ady hh.adx hh.cdy) hh.bdx hh.bdy
  obtain ⟨r3, q3, a3, -⟩ := icLift_spec (diffProducts_avail hh.adx hh.bdy hh.bdx hh.ady) hh.cdx hh.cdy
  obtain ⟨r4, q4, a4, -⟩ := asum a1 a2
  obtain ⟨r5, q5, a5, p5⟩ := asum a4 a3
  refine ⟨r5, ?_, p5, a5.2.2⟩
  simp [icFin, icBc, icCa, icAb, q1, q2, q3, q4, q5]

theorem icHelper1If_spec {xt x y z bcs ccs bbs fs : ℚ} {bc cc bb fin : List ℚ} (hf : PVal fin fs) (hbc : Avail bc bcs)
    (hcc : xt ≠ 0 → Avail cc ccs) (hbb : xt ≠ 0 → Avail bb bbs) (hxt : IsF xt) (hx : IsF x) (hy : IsF y) (hz : IsF z) :
    ∃ e r, icHelper1If xt bc x cc y bb z fin = some (e, r) ∧ (xt ≠ 0 → Avail e (xt * bcs)) ∧
      PVal r (fs + xt * (2 * x * bcs + y * ccs - z * bbs)) := by
  by_cases h0 : xt = 0
  · refine ⟨[], fin, ?_, fun h => absurd h0 h, ?_⟩
    · rw [icHelper1If, if_neg (not_not.2 h0)]
    · rwa [h0, zero_mul, add_zero]
  · obtain ⟨r1, q1, a1, -⟩ := ascale hbc hxt
    obtain ⟨r2, q2, a2, -⟩ := ascale a1 hx.two
    obtain ⟨r3, q3, a3, -⟩ := ascale (hcc h0) hxt
    obtain ⟨r4, q4, a4, -⟩ := ascale a3 hy
    obtain ⟨r5, q5, a5, -⟩ := ascale (hbb h0) hxt
    obtain ⟨r6, q6, a6, -⟩ := ascale a5 hz.neg
    obtain ⟨r7, q7, a7, -⟩ := asum a2 a4
    obtain ⟨r8, q8, a8, -⟩ := asum a6 a7
    obtain ⟨r9, q9, a9⟩ := psum hf a8
    refine ⟨r1, r9, ?_, fun _ => a1, ?_⟩
    · rw [icHelper1If, if_pos h0]
      simp [icHelper1, fmul_two hx, q1, q2, q3, q4, q5, q6, q7, q8, q9]
    · convert a9 using 1; ring

theorem zero_avail : Avail [0] 0 := ⟨Nonov.append_zero (l := []) trivial, by simp, by simp⟩

theorem icTails_spec {bxt byt cxt cyt bx bY cx cy : ℚ} (h1 : IsF bxt) (h2 : IsF byt) (h3 : IsF cxt) (h4 : IsF cyt) (h5 : IsF bx) (h6 : IsF bY)
    (h7 : IsF cx) (h8 : IsF cy) :
    ∃ e f, icTails bxt byt cxt cyt bx bY cx cy = some (e, f) ∧ Avail e (bxt * cy + bx * cyt - cxt * bY - cx * byt) ∧
      Avail f (bxt * cyt - cxt * byt) := by
  unfold icTails
  split
  · obtain ⟨e1, s1⟩ := sumProducts_spec h1 h8 h5 h4
    obtain ⟨e2, s2⟩ := sumProducts_spec h3 h6.neg h7 h2.neg
    obtain ⟨r, q, a, -⟩ := asum ⟨e1, by simp [sumProducts, arr4], s1⟩ ⟨e2, by simp [sumProducts, arr4], s2⟩
    refine ⟨r, _, by simp [q], ?_, diffProducts_avail h1 h4 h3 h2⟩
    convert a using 1; ring
  · next h =>
    simp only [not_or, not_not] at h
    obtain ⟨z1, z2, z3, z4⟩ := h
    refine ⟨[0], [0], rfl, ?_, ?_⟩
    · convert zero_avail using 1; rw [z1, z2, z3, z4]; ring
    · convert zero_avail using 1; rw [z1, z2, z3, z4]; ring

theorem icFirst_spec {e f fin : List ℚ} {s t xt x fs : ℚ} (hf : PVal fin fs) (he : Avail e s) (ht : Avail f t) (hxt : IsF xt) (hx : IsF x) :
    ∃ g r, icFirst e f xt x fin = some (g, r) ∧ Avail g (xt * t) ∧ PVal r (fs + xt * s + 2 * x * xt * t) := by
  obtain ⟨r1, q1, a1, -⟩ := ascale he hxt
  obtain ⟨r2, q2, a2, -⟩ := ascale ht hxt
  obtain ⟨r3, q3, a3, -⟩ := ascale a2 hx.two
  obtain ⟨r4, q4, a4, -⟩ := asum a1 a3
  obtain ⟨r5, q5, a5⟩ := psum hf a4
  refine ⟨r2, r5, ?_, a2, ?_⟩
  · simp [icFirst, fmul_two hx, q1, q2, q3, q4, q5]
  · convert a5 using 1; ring

theorem icSecond_spec {e fin : List ℚ} {s a b fs : ℚ} (hf : PVal fin fs) (he : Avail e s) (ha : IsF a) (hb : IsF b) :
    ∃ r, icSecond e a b fin = some r ∧ PVal r (fs + a * b * s) := by
  unfold icSecond
  split
  · obtain ⟨r1, q1, a1, -⟩ := ascale he ha
    obtain ⟨r2, q2, a2, -⟩ := ascale a1 hb
    obtain ⟨r3, q3, a3⟩ := psum hf a2
    refine ⟨r3, by simp [q1, q2, q3], ?_⟩
    convert a3 using 1; ring
  · next h =>
    rw [not_not.1 h]
    refine ⟨fin, rfl, ?_⟩
    convert hf using 1; ring

theorem icThird_spec {e f fin : List ℚ} {s t xt x fs : ℚ} (hf : PVal fin fs) (he : Avail e s) (ht : Avail f t) (hxt : IsF xt) (hx : IsF x) :
    ∃ r, icThird e f xt x fin = some r ∧ PVal r (fs + xt * s + 2 * x * xt * t + xt * xt * t) := by
  obtain ⟨r1, q1, a1, -⟩ := ascale he hxt
  obtain ⟨r2, q2, a2, -⟩ := ascale ht hxt
  obtain ⟨r3, q3, a3, -⟩ := ascale a2 hx.two
  obtain ⟨r4, q4, a4, -⟩ := ascale a2 hxt
  obtain ⟨r5, q5, a5, -⟩ := asum a3 a4
  obtain ⟨r6, q6, a6, -⟩ := asum a1 a5
  obtain ⟨r7, q7, a7⟩ := psum hf a6
  refine ⟨r7, ?_, ?_⟩
  · simp [icThird, fmul_two hx, q1, q2, q3, q4, q5, q6, q7]
  · convert a7 using 1; ring

/-- `helper2` adds the terms with at least two tails, one of them of the first point. -/
theorem icHelper2_spec {xt yt bxt byt cxt cyt x y bx bY cx cy bcs bbs ccs fs : ℚ} {axtbc aytbc bb cc fin : List ℚ} (hf : PVal fin fs)
    (hx' : xt ≠ 0 → Avail axtbc (xt * bcs)) (hy' : yt ≠ 0 → Avail aytbc (yt * bcs)) (hbb : xt ≠ 0 → Avail bb bbs) (hcc : xt ≠ 0 → Avail cc ccs)
    (g1 : IsF xt) (g2 : IsF yt) (h1 : IsF bxt) (h2 : IsF byt) (h3 : IsF cxt) (h4 : IsF cyt) (g3 : IsF x) (g4 : IsF y) (h5 : IsF bx) (h6 : IsF bY)
    (h7 : IsF cx) (h8 : IsF cy) :
    ∃ r, icHelper2 xt yt bxt byt cxt cyt x y bx bY cx cy axtbc aytbc bb cc fin = some r ∧
      PVal r (fs + (xt * xt + yt * yt) * (bcs + (bxt * cy + bx * cyt - cxt * bY - cx * byt) + (bxt * cyt - cxt * byt)) +
        2 * (x * xt + y * yt) * ((bxt * cy + bx * cyt - cxt * bY - cx * byt) + (bxt * cyt - cxt * byt)) + xt * byt * ccs - xt * cyt * bbs) := by
  unfold icHelper2
  split
  · obtain ⟨e, f, q0, a0, b0⟩ := icTails_spec h1 h2 h3 h4 h5 h6 h7 h8
    generalize bxt * cy + bx * cyt - cxt * bY - cx * byt = T1 at *
    generalize bxt * cyt - cxt * byt = T2 at *
    obtain ⟨r1, q1, a1⟩ : ∃ r, icX axtbc e f bb cc xt x byt cyt fin = some r ∧
        PVal r (fs + xt * xt * (bcs + T1 + T2) + 2 * x * xt * (T1 + T2) + xt * byt * ccs - xt * cyt * bbs) := by
      unfold icX
      split
      · next h0 =>
        obtain ⟨s1, s2, k1, k2, k3⟩ := icFirst_spec hf (hx' h0) a0 g1 g3
        obtain ⟨s3, k4, k5⟩ := icSecond_spec k3 (hcc h0) g1 h2
        obtain ⟨s4, k6, k7⟩ := icSecond_spec k5 (hbb h0) g1.neg h4
        obtain ⟨s5, k8, k9⟩ := icThird_spec k7 k2 b0 g1 g3
        refine ⟨s5, by simp [k1, k4, k6, k8], ?_⟩
        convert k9 using 1; ring
      · next h0 =>
        refine ⟨fin, rfl, ?_⟩
        convert hf using 1; rw [not_not.1 h0]; ring
    obtain ⟨r2, q2, a2⟩ : ∃ r, icY aytbc e f yt y r1 = some r ∧
        PVal r (fs + xt * xt * (bcs + T1 + T2) + 2 * x * xt * (T1 + T2) + xt * byt * ccs - xt * cyt * bbs + yt * yt * (bcs + T1 + T2) +
          2 * y * yt * (T1 + T2)) := by
      unfold icY
      split
      · next h0 =>
        obtain ⟨s1, s2, k1, k2, k3⟩ := icFirst_spec a1 (hy' h0) a0 g2 g4
        obtain ⟨s5, k8, k9⟩ := icThird_spec k3 k2 b0 g2 g4
        refine ⟨s5, by simp [k1, k8], ?_⟩
        convert k9 using 1; ring
      · next h0 =>
        refine ⟨r1, rfl, ?_⟩
        convert a1 using 1; rw [not_not.1 h0]; ring
    refine ⟨r2, by simp [q0, q1, q2], ?_⟩
    convert a2 using 1; ring
  · next h =>
    simp only [not_or, not_not] at h
    refine ⟨fin, rfl, ?_⟩
    convert hf using 1; rw [h.1, h.2]; ring

/-- **The exact stage computes the determinant** of the exact differences. -/
theorem icExact_spec {h t : Diff2} {fin : List ℚ} (hh : h.IsF) (ht : t.IsF) (hf : PVal fin h.det) :
    ∃ r, icExact h t fin = some r ∧ SameSign r (h.add t).det := by
  have bc := diffProducts_avail hh.bdx hh.cdy hh.cdx hh.bdy
  have ca := diffProducts_avail hh.cdx hh.ady hh.adx hh.cdy
  have ab := diffProducts_avail hh.adx hh.bdy hh.bdx hh.ady
  have aa := icSquares_avail (t1 := t.bdx) (t2 := t.bdy) (t3 := t.cdx) (t4 := t.cdy) hh.adx hh.ady
  have bb := icSquares_avail (t1 := t.cdx) (t2 := t.cdy) (t3 := t.adx) (t4 := t.ady) hh.bdx hh.bdy
  have cc := icSquares_avail (t1 := t.adx) (t2 := t.ady) (t3 := t.bdx) (t4 := t.bdy) hh.cdx hh.cdy
  obtain ⟨e1, f1, q1, m1, n1⟩ := icHelper1If_spec hf bc (fun z => cc (Or.inl z)) (fun z => bb (Or.inr (Or.inr (Or.inl z)))) ht.adx hh.adx hh.bdy hh.cdy
  obtain ⟨e2, f2, q2, m2, n2⟩ := icHelper1If_spec n1 bc (fun z => bb (Or.inr (Or.inr (Or.inr z)))) (fun z => cc (Or.inr (Or.inl z))) ht.ady hh.ady hh.cdx hh.bdx
  obtain ⟨e3, f3, q3, m3, n3⟩ := icHelper1If_spec n2 ca (fun z => aa (Or.inl z)) (fun z => cc (Or.inr (Or.inr (Or.inl z)))) ht.bdx hh.bdx hh.cdy hh.ady
  obtain ⟨e4, f4, q4, m4, n4⟩ := icHelper1If_spec n3 ca (fun z => cc (Or.inr (Or.inr (Or.inr z)))) (fun z => aa (Or.inr (Or.inl z))) ht.bdy hh.bdy hh.adx hh.cdx
  obtain ⟨e5, f5, q5, m5, n5⟩ := icHelper1If_spec n4 ab (fun z => bb (Or.inl z)) (fun z => aa (Or.inr (Or.inr (Or.inl z)))) ht.cdx hh.cdx hh.ady hh.bdy
  obtain ⟨e6, f6, q6, m6, n6⟩ := icHelper1If_spec n5 ab (fun z => aa (Or.inr (Or.inr (Or.inr z)))) (fun z => bb (Or.inr (Or.inl z))) ht.cdy hh.cdy hh.bdx hh.adx
  obtain ⟨f7, q7, n7⟩ := icHelper2_spec n6 m1 m2 (fun z => bb (Or.inr (Or.inr (Or.inl z)))) (fun z => cc (Or.inl z)) ht.adx ht.ady ht.bdx ht.bdy ht.cdx ht.cdy
    hh.adx hh.ady hh.bdx hh.bdy hh.cdx hh.cdy
  obtain ⟨f8, q8, n8⟩ := icHelper2_spec n7 m3 m4 (fun z => cc (Or.inr (Or.inr (Or.inl z)))) (fun z => aa (Or.inl z)) ht.bdx ht.bdy ht.cdx ht.cdy ht.adx ht.ady
    hh.bdx hh.bdy hh.cdx hh.cdy hh.adx hh.ady
  obtain ⟨f9, q9, n9⟩ := icHelper2_spec n8 m5 m6 (fun z => aa (Or.inr (Or.inr (Or.inl z)))) (fun z => bb (Or.inl z)) ht.cdx ht.cdy ht.adx ht.ady ht.bdx ht.bdy
    hh.cdx hh.cdy hh.adx hh.ady hh.bdx hh.bdy
  obtain ⟨r, hr, g1, g2, -⟩ := n9.1.last
  refine ⟨r, ?_, ?_⟩
  · simp only [icExact, icBc, icCa, icAb, q1, q2, q3, q4, q5, q6, q7, q8, q9, hr, Option.bind_eq_bind, Option.bind_some]
  · have : f9.sum = (h.add t).det := by
      rw [n9.2]
      simp only [Diff2.det, Diff2.add]
      ring
    rw [← this]
    exact ⟨g1.symm, g2.symm⟩

end Verif.Float
