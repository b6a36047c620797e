import Verif.Float.Incircle
import Verif.Float.ExpansionProps
/-!
# `insphere` and `orient4d` (`src/predicates/predicates.rs` lines 1114-2031): the model and the exact stage

The model follows the code operation by operation in the rounding model of `Float/Model.lean` (53 bits, ties to even, unbounded exponents).
The two functions differ in the fourth column only: `insphere` has the squared lengths of the differences there, `orient4d` the differences of given
heights. What they share is modelled once.
-/
namespace Verif.Float

/-- The constants of lines 58-60. -/
def ispA : ℚ := boundAB (1 / 2 ^ 53) 16 224
@[inherit_doc ispA] def ispB : ℚ := boundAB (1 / 2 ^ 53) 5 72
@[inherit_doc ispA] def ispC : ℚ := boundC (1 / 2 ^ 53) 71 1408

/-- The static bound of line 1561: the double next to `1.145750161413163e-13`. -/
def ispStatic : ℚ := rn (1145750161413163 / 10 ^ 28)

/-- The differences (or their tails) of four points to the fifth. -/
structure Rows where
  a : P3
  b : P3
  c : P3
  d : P3

/-- The fourth column. -/
structure Hts where
  a : ℚ
  b : ℚ
  c : ℚ
  d : ℚ

/-- Lines 1319-1330, 1499-1510, 1781-1792 and 1947-1958. -/
def rowsOf (a b c d e : P3) : Rows where
  a := ⟨fsub a.x e.x, fsub a.y e.y, fsub a.z e.z⟩
  b := ⟨fsub b.x e.x, fsub b.y e.y, fsub b.z e.z⟩
  c := ⟨fsub c.x e.x, fsub c.y e.y, fsub c.z e.z⟩
  d := ⟨fsub d.x e.x, fsub d.y e.y, fsub d.z e.z⟩

/-- Lines 1428-1439 and 1866-1881. -/
def rowTails (a b c d e : P3) (h : Rows) : Rows where
  a := ⟨twoDiffTail a.x e.x h.a.x, twoDiffTail a.y e.y h.a.y, twoDiffTail a.z e.z h.a.z⟩
  b := ⟨twoDiffTail b.x e.x h.b.x, twoDiffTail b.y e.y h.b.y, twoDiffTail b.z e.z h.b.z⟩
  c := ⟨twoDiffTail c.x e.x h.c.x, twoDiffTail c.y e.y h.c.y, twoDiffTail c.z e.z h.c.z⟩
  d := ⟨twoDiffTail d.x e.x h.d.x, twoDiffTail d.y e.y h.d.y, twoDiffTail d.z e.z h.d.z⟩

/-! ### Expansions -/

/-- `ab`, `bc`, … (lines 1122-1170, 1332-1360 and so on). -/
def mList (p q : P3) : List ℚ := diffProducts p.x q.y q.x p.y

/-- `e1 * z1 + e2 * z2 + e3 * z3` (lines 1172-1176, 1362-1366 and so on). -/
def triple (e1 : List ℚ) (z1 : ℚ) (e2 : List ℚ) (z2 : ℚ) (e3 : List ℚ) (z3 : ℚ) : Option (List ℚ) := do
  let temp8a ← scaleExpansionZeroelim e1 z1
  let temp8b ← scaleExpansionZeroelim e2 z2
  let temp16 ← fastExpansionSumZeroelim temp8a temp8b
  let temp8c ← scaleExpansionZeroelim e3 z3
  fastExpansionSumZeroelim temp8c temp16

/-- `p + q - (r + s)` (lines 1232-1236 and so on). -/
def quad (p q r s : List ℚ) : Option (List ℚ) := do
  let temp48a ← fastExpansionSumZeroelim p q
  let temp48b ← fastExpansionSumZeroelim r s
  fastExpansionSumZeroelim temp48a (expansionInvert temp48b)

/-- `e * p.x * s.x + e * p.y * s.y + e * p.z * s.z` (lines 1237-1244, 1367-1374 and so on). -/
def lift3 (e : List ℚ) (p s : P3) : Option (List ℚ) := do
  let temp ← scaleExpansionZeroelim e p.x
  let xdet ← scaleExpansionZeroelim temp s.x
  let temp ← scaleExpansionZeroelim e p.y
  let ydet ← scaleExpansionZeroelim temp s.y
  let temp ← scaleExpansionZeroelim e p.z
  let zdet ← scaleExpansionZeroelim temp s.z
  let xydet ← fastExpansionSumZeroelim xdet ydet
  fastExpansionSumZeroelim xydet zdet

/-- `-p` where the code negates each coordinate. -/
def P3.neg (p : P3) : P3 := ⟨-p.x, -p.y, -p.z⟩

/-- The ten products of three coordinates of lines 1172-1230 and 1665-1723. -/
structure Triples3 where
  abc : List ℚ
  bcd : List ℚ
  cde : List ℚ
  dea : List ℚ
  eab : List ℚ
  abd : List ℚ
  bce : List ℚ
  cda : List ℚ
  deb : List ℚ
  eac : List ℚ

/-- Lines 1122-1230 and 1615-1723. -/
def triples3 (a b c d e : P3) : Option Triples3 := do
  let abc ← triple (mList b c) a.z (mList a c) (-b.z) (mList a b) c.z
  let bcd ← triple (mList c d) b.z (mList b d) (-c.z) (mList b c) d.z
  let cde ← triple (mList d e) c.z (mList c e) (-d.z) (mList c d) e.z
  let dea ← triple (mList e a) d.z (mList d a) (-e.z) (mList d e) a.z
  let eab ← triple (mList a b) e.z (mList e b) (-a.z) (mList e a) b.z
  let abd ← triple (mList b d) a.z (mList d a) b.z (mList a b) d.z
  let bce ← triple (mList c e) b.z (mList e b) c.z (mList b c) e.z
  let cda ← triple (mList d a) c.z (mList a c) d.z (mList c d) a.z
  let deb ← triple (mList e b) d.z (mList b d) e.z (mList d e) b.z
  let eac ← triple (mList a c) e.z (mList c e) a.z (mList e a) c.z
  pure ⟨abc, bcd, cde, dea, eab, abd, bce, cda, deb, eac⟩

/-- `bcde`, `cdea`, `deab`, `eabc`, `abcd` (lines 1232-1292 and 1725-1756), each multiplied with its factor in the fourth column by `up`, and the sum of the
results (lines 1302-1307 and 1759-1764). -/
def exactSum (t : Triples3) (upA upB upC upD upE : List ℚ → Option (List ℚ)) : Option ℚ := do
  let adet ← quad t.cde t.bce t.deb t.bcd >>= upA
  let bdet ← quad t.dea t.cda t.eac t.cde >>= upB
  let cdet ← quad t.eab t.deb t.abd t.dea >>= upC
  let ddet ← quad t.abc t.eac t.bce t.eab >>= upD
  let edet ← quad t.bcd t.abd t.cda t.abc >>= upE
  let abdet ← fastExpansionSumZeroelim adet bdet
  let cddet ← fastExpansionSumZeroelim cdet ddet
  let cdedet ← fastExpansionSumZeroelim cddet edet
  let deter ← fastExpansionSumZeroelim abdet cdedet
  deter.getLast?

/-- `insphere_exact` (lines 1114-1308). -/
def insphereExact (a b c d e : P3) : Option ℚ := do
  let t ← triples3 a b c d e
  exactSum t (lift3 · a a) (lift3 · b b) (lift3 · c c) (lift3 · d d) (lift3 · e e)

/-- `orient4d_exact` (lines 1602-1765). -/
def orient4dExact (a b c d e : P3) (ah bh ch dh eh : ℚ) : Option ℚ := do
  let t ← triples3 a b c d e
  exactSum t (scaleExpansionZeroelim · ah) (scaleExpansionZeroelim · bh) (scaleExpansionZeroelim · ch) (scaleExpansionZeroelim · dh)
    (scaleExpansionZeroelim · eh)

/-- `fin1` of the adaptive stage (lines 1332-1420 and 1798-1858); `upA` .. `upD` multiply with the fourth column. -/
def rowFin (h : Rows) (upA upB upC upD : List ℚ → Option (List ℚ)) : Option (List ℚ) := do
  let adet ← triple (mList h.c h.d) h.b.z (mList h.b h.d) (-h.c.z) (mList h.b h.c) h.d.z >>= upA
  let bdet ← triple (mList h.d h.a) h.c.z (mList h.a h.c) h.d.z (mList h.c h.d) h.a.z >>= upB
  let cdet ← triple (mList h.a h.b) h.d.z (mList h.b h.d) h.a.z (mList h.d h.a) h.b.z >>= upC
  let ddet ← triple (mList h.b h.c) h.a.z (mList h.a h.c) (-h.b.z) (mList h.a h.b) h.c.z >>= upD
  let abdet ← fastExpansionSumZeroelim adet bdet
  let cddet ← fastExpansionSumZeroelim cdet ddet
  fastExpansionSumZeroelim abdet cddet

/-! ### Ordinary arithmetic -/

/-- `ab`, `bc`, … as numbers (lines 1512-1533 and 1964-1985). -/
def m2 (p q : P3) : ℚ := fsub (fmul p.x q.y) (fmul q.x p.y)

/-- `z1 * m1 + z2 * m2 + z3 * m3`. -/
def plus3 (z1 m1 z2 m2 z3 m3 : ℚ) : ℚ := fadd (fadd (fmul z1 m1) (fmul z2 m2)) (fmul z3 m3)

/-- `z1 * m1 - z2 * m2 + z3 * m3`. -/
def minus3 (z1 m1 z2 m2 z3 m3 : ℚ) : ℚ := fadd (fsub (fmul z1 m1) (fmul z2 m2)) (fmul z3 m3)

/-- `det` (lines 1535-1542 and 1987-1992). -/
def rowDet (r : Rows) (h : Hts) : ℚ :=
  let abc := minus3 r.a.z (m2 r.b r.c) r.b.z (m2 r.a r.c) r.c.z (m2 r.a r.b)
  let bcd := minus3 r.b.z (m2 r.c r.d) r.c.z (m2 r.b r.d) r.d.z (m2 r.b r.c)
  let cda := plus3 r.c.z (m2 r.d r.a) r.d.z (m2 r.a r.c) r.a.z (m2 r.c r.d)
  let dab := plus3 r.d.z (m2 r.a r.b) r.a.z (m2 r.b r.d) r.b.z (m2 r.d r.a)
  fadd (fsub (fmul h.d abc) (fmul h.c dab)) (fsub (fmul h.b cda) (fmul h.a bcd))

/-- `|p.x q.y| + |q.x p.y|`. -/
def permMinor (p q : P3) : ℚ := fadd |fmul p.x q.y| |fmul q.x p.y|

/-- One row of `permanent`. -/
def permRow (p q r : P3) : ℚ := fadd (fadd (fmul (permMinor q r) |p.z|) (fmul (permMinor r p) |q.z|)) (fmul (permMinor p q) |r.z|)

/-- `permanent` (lines 1582-1597 and 2006-2021). -/
def rowPerm (r : Rows) (h : Hts) : ℚ :=
  fadd
    (fadd (fadd (fmul (permRow r.b r.c r.d) h.a) (fmul (permRow r.c r.d r.a) h.b)) (fmul (permRow r.d r.a r.b) h.c))
    (fmul (permRow r.a r.b r.c) h.d)

/-- `aex * aex + aey * aey + aez * aez` (lines 1537-1540 and 1463-1477). -/
def sqF (p : P3) : ℚ := fadd (fadd (fmul p.x p.x) (fmul p.y p.y)) (fmul p.z p.z)

/-- `aex * aextail + aey * aeytail + aez * aeztail` (lines 1478-1485). -/
def dotF (p t : P3) : ℚ := fadd (fadd (fmul p.x t.x) (fmul p.y t.y)) (fmul p.z t.z)

/-- `alift`, … -/
def liftsF (r : Rows) : Hts := ⟨sqF r.a, sqF r.b, sqF r.c, sqF r.d⟩

/-- The last entry `ab[3]` of the expansion. -/
def mTop (p q : P3) : ℚ :=
  let (x1, x0) := twoProduct p.x q.y
  let (y1, y0) := twoProduct q.x p.y
  (twoTwoDiff x1 x0 y1 y0).1

/-- `abeps`, `bceps`, … (lines 1457-1462 and 1902-1907). -/
def mEps (p q p' q' : P3) : ℚ := fsub (fadd (fmul p.x q'.y) (fmul q.y p'.x)) (fadd (fmul p.y q'.x) (fmul q.x p'.y))

/-- The first part of the correction (lines 1463-1475 and 1908-1920). -/
def rowCorr1 (r t : Rows) (h : Hts) : ℚ :=
  fsub
    (fadd
      (fmul h.b
        (fadd (plus3 r.c.z (mEps r.d r.a t.d t.a) r.d.z (mEps r.a r.c t.a t.c) r.a.z (mEps r.c r.d t.c t.d))
          (plus3 t.c.z (mTop r.d r.a) t.d.z (mTop r.a r.c) t.a.z (mTop r.c r.d))))
      (fmul h.d
        (fadd (minus3 r.a.z (mEps r.b r.c t.b t.c) r.b.z (mEps r.a r.c t.a t.c) r.c.z (mEps r.a r.b t.a t.b))
          (minus3 t.a.z (mTop r.b r.c) t.b.z (mTop r.a r.c) t.c.z (mTop r.a r.b)))))
    (fadd
      (fmul h.a
        (fadd (minus3 r.b.z (mEps r.c r.d t.c t.d) r.c.z (mEps r.b r.d t.b t.d) r.d.z (mEps r.b r.c t.b t.c))
          (minus3 t.b.z (mTop r.c r.d) t.c.z (mTop r.b r.d) t.d.z (mTop r.b r.c))))
      (fmul h.c
        (fadd (plus3 r.d.z (mEps r.a r.b t.a t.b) r.a.z (mEps r.b r.d t.b t.d) r.b.z (mEps r.d r.a t.d t.a))
          (plus3 t.d.z (mTop r.a r.b) t.a.z (mTop r.b r.d) t.b.z (mTop r.d r.a)))))

/-- The second part (lines 1477-1485 and 1921-1924); `l` is the tail of the fourth column. -/
def rowCorr2 (r : Rows) (l : Hts) : ℚ :=
  fsub
    (fadd (fmul l.b (plus3 r.c.z (mTop r.d r.a) r.d.z (mTop r.a r.c) r.a.z (mTop r.c r.d)))
      (fmul l.d (minus3 r.a.z (mTop r.b r.c) r.b.z (mTop r.a r.c) r.c.z (mTop r.a r.b))))
    (fadd (fmul l.a (minus3 r.b.z (mTop r.c r.d) r.c.z (mTop r.b r.d) r.d.z (mTop r.b r.c)))
      (fmul l.c (plus3 r.d.z (mTop r.a r.b) r.a.z (mTop r.b r.d) r.b.z (mTop r.d r.a))))

/-- All the entries are zero. -/
def P3.isZero (p : P3) : Prop := p.x = 0 ∧ p.y = 0 ∧ p.z = 0

instance (p : P3) : Decidable p.isZero := by unfold P3.isZero; infer_instance

/-- The test of lines 1440-1454 and, with the heights, 1882-1900. -/
def Rows.isZero (t : Rows) : Prop := t.a.isZero ∧ t.b.isZero ∧ t.c.isZero ∧ t.d.isZero

instance (t : Rows) : Decidable t.isZero := by unfold Rows.isZero; infer_instance

@[inherit_doc Rows.isZero] def Hts.isZero (t : Hts) : Prop := t.a = 0 ∧ t.b = 0 ∧ t.c = 0 ∧ t.d = 0

instance (t : Hts) : Decidable t.isZero := by unfold Hts.isZero; infer_instance

/-- The second and third filter of both functions: `det` is the estimate, `corr` the correction, `zero` the test that all tails vanish and `exact` the
last stage. -/
def adaptRest (permanent det corr : ℚ) (zero : Bool) (exact : Option ℚ) : Option ℚ :=
  if det ≥ fmul ispB permanent ∨ -det ≥ fmul ispB permanent then some det
  else if zero then some det
  else
    let errbound := fadd (fmul ispC permanent) (fmul resErr |det|)
    let det := fadd det corr
    if det ≥ errbound ∨ -det ≥ errbound then some det else exact

/-- `fin1` of `insphere_adapt` (lines 1332-1420). -/
def insphereFin (h : Rows) : Option (List ℚ) := rowFin h (lift3 · h.a h.a.neg) (lift3 · h.b h.b) (lift3 · h.c h.c.neg) (lift3 · h.d h.d)

/-- The tails of the squared lengths, without the factor two. -/
def dotsF (r t : Rows) : Hts := ⟨dotF r.a t.a, dotF r.b t.b, dotF r.c t.c, dotF r.d t.d⟩

/-- `insphere_adapt` (lines 1310-1489). -/
def insphereAdapt (a b c d e : P3) (permanent : ℚ) : Option ℚ := do
  let h := rowsOf a b c d e
  let fin ← insphereFin h
  let t := rowTails a b c d e h
  adaptRest permanent (estimate fin) (fadd (rowCorr1 h t (liftsF h)) (fmul 2 (rowCorr2 h (dotsF h t)))) (decide t.isZero) (insphereExact a b c d e)

/-- `max_var` (lines 1544-1556). -/
def maxVar (r : Rows) : ℚ :=
  max (max (max (max (max (max (max (max (max (max (max |r.a.x| |r.b.x|) |r.c.x|) |r.d.x|) |r.a.y|) |r.b.y|) |r.c.y|) |r.d.y|) |r.a.z|) |r.b.z|) |r.c.z|)
    |r.d.z|

/-- `epsilon` (lines 1557-1561). -/
def isEps (m : ℚ) : ℚ := fmul (fmul (fmul (fmul m m) (fmul m m)) m) ispStatic

/-- `insphere` (lines 1491-1600). -/
def insphere (a b c d e : P3) : Option ℚ :=
  let h := rowsOf a b c d e
  let det := rowDet h (liftsF h)
  let epsilon := isEps (maxVar h)
  if det > epsilon ∨ -det > epsilon then some det else insphereAdapt a b c d e (rowPerm h (liftsF h))

/-- The differences of the heights (lines 1793-1796 and 1959-1962). -/
def htsOf (ah bh ch dh eh : ℚ) : Hts := ⟨fsub ah eh, fsub bh eh, fsub ch eh, fsub dh eh⟩

/-- The tails of the heights (lines 1869-1881). -/
def htTails (ah bh ch dh eh : ℚ) (h : Hts) : Hts :=
  ⟨twoDiffTail ah eh h.a, twoDiffTail bh eh h.b, twoDiffTail ch eh h.c, twoDiffTail dh eh h.d⟩

/-- Absolute values of the heights in `permanent`. -/
def Hts.abs (h : Hts) : Hts := ⟨|h.a|, |h.b|, |h.c|, |h.d|⟩

/-- `fin1` of `orient4d_adapt` (lines 1798-1858). -/
def orient4dFin (r : Rows) (h : Hts) : Option (List ℚ) :=
  rowFin r (scaleExpansionZeroelim · (-h.a)) (scaleExpansionZeroelim · h.b) (scaleExpansionZeroelim · (-h.c)) (scaleExpansionZeroelim · h.d)

/-- `orient4d_adapt` (lines 1767-1932). -/
def orient4dAdapt (a b c d e : P3) (ah bh ch dh eh permanent : ℚ) : Option ℚ := do
  let r := rowsOf a b c d e
  let h := htsOf ah bh ch dh eh
  let fin ← orient4dFin r h
  let t := rowTails a b c d e r
  let l := htTails ah bh ch dh eh h
  adaptRest permanent (estimate fin) (fadd (rowCorr1 r t h) (rowCorr2 r l)) (decide (t.isZero ∧ l.isZero)) (orient4dExact a b c d e ah bh ch dh eh)

/-- `orient4d` (lines 1934-2031). -/
def orient4d (a b c d e : P3) (ah bh ch dh eh : ℚ) : Option ℚ :=
  let r := rowsOf a b c d e
  let h := htsOf ah bh ch dh eh
  let det := rowDet r h
  let permanent := rowPerm r h.abs
  let errbound := fmul ispA permanent
  if det > errbound ∨ -det > errbound then some det else orient4dAdapt a b c d e ah bh ch dh eh permanent

/-! ### Specification -/

/-- The determinant of three rows. -/
def det3 (p q r : P3) : ℚ := p.z * (q.x * r.y - r.x * q.y) + q.z * (r.x * p.y - p.x * r.y) + r.z * (p.x * q.y - q.x * p.y)

/-- The difference of two points. -/
def P3.sub (p q : P3) : P3 := ⟨p.x - q.x, p.y - q.y, p.z - q.z⟩

/-- The determinant with the fourth column `h`. -/
def det4 (r : Rows) (h : Hts) : ℚ := h.d * det3 r.a r.b r.c - h.c * det3 r.d r.a r.b + (h.b * det3 r.c r.d r.a - h.a * det3 r.b r.c r.d)

/-- The exact differences. -/
def exactRows (a b c d e : P3) : Rows := ⟨a.sub e, b.sub e, c.sub e, d.sub e⟩

/-- The squared length. -/
def P3.sq (p : P3) : ℚ := p.x * p.x + p.y * p.y + p.z * p.z

/-- The squared lengths of the rows. -/
def Rows.lifts (r : Rows) : Hts := ⟨r.a.sq, r.b.sq, r.c.sq, r.d.sq⟩

/-- The in-sphere determinant of the differences to `e`. -/
def inSphereDet (a b c d e : P3) : ℚ := det4 (exactRows a b c d e) (exactRows a b c d e).lifts

/-- The orientation of five points in space with heights. -/
def orient4dDet (a b c d e : P3) (ah bh ch dh eh : ℚ) : ℚ := det4 (exactRows a b c d e) ⟨ah - eh, bh - eh, ch - eh, dh - eh⟩

/-! ### The exact stage -/

theorem mList_avail {p q : P3} (hp : p.IsF) (hq : q.IsF) : Avail (mList p q) (p.x * q.y - q.x * p.y) :=
  diffProducts_avail hp.1 hq.2.1 hq.1 hp.2.1

theorem triple_spec {e1 e2 e3 : List ℚ} {s1 s2 s3 z1 z2 z3 : ℚ} (h1 : Avail e1 s1) (h2 : Avail e2 s2) (h3 : Avail e3 s3) (k1 : IsF z1) (k2 : IsF z2)
    (k3 : IsF z3) {s : ℚ} (hs : s = z1 * s1 + z2 * s2 + z3 * s3) : ∃ r, triple e1 z1 e2 z2 e3 z3 = some r ∧ Avail r s := by
  obtain ⟨r1, q1, a1, -⟩ := ascale h1 k1
  obtain ⟨r2, q2, a2, -⟩ := ascale h2 k2
  obtain ⟨r3, q3, a3, -⟩ := asum a1 a2
  obtain ⟨r4, q4, a4, -⟩ := ascale h3 k3
  obtain ⟨r5, q5, a5, -⟩ := asum a4 a3
  refine ⟨r5, by simp [triple, q1, q2, q3, q4, q5], ?_⟩
  rw [hs]
  convert a5 using 1; ring

theorem Avail.invert {e : List ℚ} {s : ℚ} (h : Avail e s) : Avail (expansionInvert e) (-s) :=
  ⟨(c26_invert h.1).1, by simpa [expansionInvert] using h.2.1, by rw [(c26_invert h.1).2, h.2.2]⟩

theorem quad_spec {p q r s : List ℚ} {a b c d : ℚ} (h1 : Avail p a) (h2 : Avail q b) (h3 : Avail r c) (h4 : Avail s d) :
    ∃ t, quad p q r s = some t ∧ Avail t (a + b - (c + d)) := by
  obtain ⟨r1, q1, a1, -⟩ := asum h1 h2
  obtain ⟨r2, q2, a2, -⟩ := asum h3 h4
  obtain ⟨r3, q3, a3, -⟩ := asum a1 a2.invert
  exact ⟨r3, by simp [quad, q1, q2, q3], by convert a3 using 1; ring⟩

theorem lift3_spec {e : List ℚ} {t : ℚ} {p s : P3} (h : Avail e t) (hp : p.IsF) (hs : s.IsF) :
    ∃ r, lift3 e p s = some r ∧ Avail r ((p.x * s.x + p.y * s.y + p.z * s.z) * t) := by
  obtain ⟨r1, q1, a1, -⟩ := ascale h hp.1
  obtain ⟨r2, q2, a2, -⟩ := ascale a1 hs.1
  obtain ⟨r3, q3, a3, -⟩ := ascale h hp.2.1
  obtain ⟨r4, q4, a4, -⟩ := ascale a3 hs.2.1
  obtain ⟨r5, q5, a5, -⟩ := ascale h hp.2.2
  obtain ⟨r6, q6, a6, -⟩ := ascale a5 hs.2.2
  obtain ⟨r7, q7, a7, -⟩ := asum a2 a4
  obtain ⟨r8, q8, a8, -⟩ := asum a7 a6
  refine ⟨r8, by simp [lift3, q1, q2, q3, q4, q5, q6, q7, q8], ?_⟩
  convert a8 using 1; ring

/-- The value of each of the ten expansions. -/
structure Triples3.Ok (t : Triples3) (a b c d e : P3) : Prop where
  abc : Avail t.abc (det3 a b c)
  bcd : Avail t.bcd (det3 b c d)
  cde : Avail t.cde (det3 c d e)
  dea : Avail t.dea (det3 d e a)
  eab : Avail t.eab (det3 e a b)
  abd : Avail t.abd (det3 a b d)
  bce : Avail t.bce (det3 b c e)
  cda : Avail t.cda (det3 c d a)
  deb : Avail t.deb (det3 d e b)
  eac : Avail t.eac (det3 e a c)

theorem triples3_spec {a b c d e : P3} (ha : a.IsF) (hb : b.IsF) (hc : c.IsF) (hd : d.IsF) (he : e.IsF) :
    ∃ t, triples3 a b c d e = some t ∧ t.Ok a b c d e := by
  obtain ⟨r1, q1, a1⟩ := triple_spec (mList_avail hb hc) (mList_avail ha hc) (mList_avail ha hb) ha.2.2 hb.2.2.neg hc.2.2 (s := det3 a b c) (by unfold det3; ring)
  obtain ⟨r2, q2, a2⟩ := triple_spec (mList_avail hc hd) (mList_avail hb hd) (mList_avail hb hc) hb.2.2 hc.2.2.neg hd.2.2 (s := det3 b c d) (by unfold det3; ring)
  obtain ⟨r3, q3, a3⟩ := triple_spec (mList_avail hd he) (mList_avail hc he) (mList_avail hc hd) hc.2.2 hd.2.2.neg he.2.2 (s := det3 c d e) (by unfold det3; ring)
  obtain ⟨r4, q4, a4⟩ := triple_spec (mList_avail he ha) (mList_avail hd ha) (mList_avail hd he) hd.2.2 he.2.2.neg ha.2.2 (s := det3 d e a) (by unfold det3; ring)
  obtain ⟨r5, q5, a5⟩ := triple_spec (mList_avail ha hb) (mList_avail he hb) (mList_avail he ha) he.2.2 ha.2.2.neg hb.2.2 (s := det3 e a b) (by unfold det3; ring)
  obtain ⟨r6, q6, a6⟩ := triple_spec (mList_avail hb hd) (mList_avail hd ha) (mList_avail ha hb) ha.2.2 hb.2.2 hd.2.2 (s := det3 a b d) (by unfold det3; ring)
  obtain ⟨r7, q7, a7⟩ := triple_spec (mList_avail hc he) (mList_avail he hb) (mList_avail hb hc) hb.2.2 hc.2.2 he.2.2 (s := det3 b c e) (by unfold det3; ring)
  obtain ⟨r8, q8, a8⟩ := triple_spec (mList_avail hd ha) (mList_avail ha hc) (mList_avail hc hd) hc.2.2 hd.2.2 ha.2.2 (s := det3 c d a) (by unfold det3; ring)
  obtain ⟨r9, q9, a9⟩ := triple_spec (mList_avail he hb) (mList_avail hb hd) (mList_avail hd he) hd.2.2 he.2.2 hb.2.2 (s := det3 d e b) (by unfold det3; ring)
  obtain ⟨r0, q0, a0⟩ := triple_spec (mList_avail ha hc) (mList_avail hc he) (mList_avail he ha) he.2.2 ha.2.2 hc.2.2 (s := det3 e a c) (by unfold det3; ring)
  refine ⟨⟨r1, r2, r3, r4, r5, r6, r7, r8, r9, r0⟩, ?_, ⟨a1, a2, a3, a4, a5, a6, a7, a8, a9, a0⟩⟩
  simp [triples3, q1, q2, q3, q4, q5, q6, q7, q8, q9, q0]

/-- What is needed from multiplying with the fourth column. -/
def Ups (up : List ℚ → Option (List ℚ)) (h : ℚ) : Prop := ∀ {e : List ℚ} {s : ℚ}, Avail e s → ∃ r, up e = some r ∧ Avail r (h * s)

theorem ups_scale {h : ℚ} (hh : IsF h) : Ups (scaleExpansionZeroelim · h) h := by
  intro e s he
  obtain ⟨r, h1, h2, -⟩ := ascale he hh
  exact ⟨r, h1, h2⟩

theorem ups_lift {p s : P3} (hp : p.IsF) (hs : s.IsF) : Ups (lift3 · p s) (p.x * s.x + p.y * s.y + p.z * s.z) := fun he => lift3_spec he hp hs

theorem exactSum_spec {a b c d e : P3} {t : Triples3} (ht : t.Ok a b c d e) {uA uB uC uD uE : List ℚ → Option (List ℚ)} {ah bh ch dh eh : ℚ}
    (hA : Ups uA ah) (hB : Ups uB bh) (hC : Ups uC ch) (hD : Ups uD dh) (hE : Ups uE eh) :
    ∃ r, exactSum t uA uB uC uD uE = some r ∧ SameSign r (orient4dDet a b c d e ah bh ch dh eh) := by
  obtain ⟨r1, q1, a1⟩ := quad_spec ht.cde ht.bce ht.deb ht.bcd
  obtain ⟨r2, q2, a2⟩ := quad_spec ht.dea ht.cda ht.eac ht.cde
  obtain ⟨r3, q3, a3⟩ := quad_spec ht.eab ht.deb ht.abd ht.dea
  obtain ⟨r4, q4, a4⟩ := quad_spec ht.abc ht.eac ht.bce ht.eab
  obtain ⟨r5, q5, a5⟩ := quad_spec ht.bcd ht.abd ht.cda ht.abc
  obtain ⟨s1, p1, b1⟩ := hA a1
  obtain ⟨s2, p2, b2⟩ := hB a2
  obtain ⟨s3, p3, b3⟩ := hC a3
  obtain ⟨s4, p4, b4⟩ := hD a4
  obtain ⟨s5, p5, b5⟩ := hE a5
  obtain ⟨t1, w1, c1, -⟩ := asum b1 b2
  obtain ⟨t2, w2, c2, -⟩ := asum b3 b4
  obtain ⟨t3, w3, c3, -⟩ := asum c2 b5
  obtain ⟨t4, w4, c4, d4⟩ := asum c1 c3
  obtain ⟨r, hr, g1, g2, -⟩ := d4.last
  refine ⟨r, by simp [exactSum, q1, q2, q3, q4, q5, p1, p2, p3, p4, p5, w1, w2, w3, w4, hr], ?_⟩
  have hv : SameSign r t4.sum := ⟨g1.symm, g2.symm⟩
  rw [c4.2.2] at hv
  convert hv using 1
  simp only [orient4dDet, det4, exactRows, P3.sub, det3]
  ring

theorem insphereExact_spec {a b c d e : P3} (ha : a.IsF) (hb : b.IsF) (hc : c.IsF) (hd : d.IsF) (he : e.IsF) :
    ∃ r, insphereExact a b c d e = some r ∧ SameSign r (inSphereDet a b c d e) := by
  obtain ⟨t, h1, h2⟩ := triples3_spec ha hb hc hd he
  obtain ⟨r, h3, h4⟩ := exactSum_spec h2 (ups_lift ha ha) (ups_lift hb hb) (ups_lift hc hc) (ups_lift hd hd) (ups_lift he he)
  refine ⟨r, by simp [insphereExact, h1, h3], ?_⟩
  convert h4 using 1
  simp only [orient4dDet, inSphereDet, Rows.lifts, P3.sq, det4, exactRows, P3.sub, det3]
  ring

theorem orient4dExact_spec {a b c d e : P3} {ah bh ch dh eh : ℚ} (ha : a.IsF) (hb : b.IsF) (hc : c.IsF) (hd : d.IsF) (he : e.IsF)
    (ka : IsF ah) (kb : IsF bh) (kc : IsF ch) (kd : IsF dh) (ke : IsF eh) :
    ∃ r, orient4dExact a b c d e ah bh ch dh eh = some r ∧ SameSign r (orient4dDet a b c d e ah bh ch dh eh) := by
  obtain ⟨t, h1, h2⟩ := triples3_spec ha hb hc hd he
  obtain ⟨r, h3, h4⟩ := exactSum_spec h2 (ups_scale ka) (ups_scale kb) (ups_scale kc) (ups_scale kd) (ups_scale ke)
  exact ⟨r, by simp [orient4dExact, h1, h3], h4⟩

end Verif.Float
