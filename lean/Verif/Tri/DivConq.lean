import Verif.Tri.Flood
/-!
# Divide and conquer Delaunay triangulation (`src/triangle/triangle.rs` lines 354-866) and `triangulate` (lines 9-93)

Loops run on fuel; running out of fuel is `none`, like a panic.
-/
namespace Verif.Tri

/-- The predicates on vertices with the comparisons of coordinates used in `merge_hulls`. -/
structure Geo extends Preds where
  xlt : Nat → Nat → Bool
  ylt : Nat → Nat → Bool

/-- `make_triangle` (lines 214-218). -/
def makeTri (m : Mesh) : Mesh × HE :=
  ({ n := m.n + 1
     vert := fun x => if x.tri = m.n then none else m.vert x
     mark := fun x => if x.tri = m.n then none else m.mark x
     nei := fun x => if x.tri = m.n then none else m.nei x }, ⟨m.n, 0⟩)

/-- The loops of lines 383-388 and 401-406: walk along the hull while the apex `ap` is below the point `pt`. -/
def walkLow (lt : Nat → Nat → Bool) (m : Mesh) : Nat → HE → Nat → Nat → Option (HE × Nat × Nat)
  | 0, _, _, _ => none
  | k + 1, e, pt, ap =>
    if lt ap pt then do
      let e' ← m.nei e.next
      let ap' ← apex m e'
      walkLow lt m k e' ap ap'
    else some (e, pt, ap)

/-- The loops of lines 390-399 and 408-415: walk along the hull while the vertex across the edge is above the point `pt`. The last result is the previous point. -/
def walkHigh (lt : Nat → Nat → Bool) (m : Mesh) : Nat → HE → Nat → Nat → Option (HE × Nat × Nat)
  | 0, _, _, _ => none
  | k + 1, e, pt, ap => do
    let c ← m.nei e
    let cv ← apex m c
    if lt pt cv then walkHigh lt m k c.next cv pt else some (e, pt, ap)

/-- The first restoring loop (lines 514-519). -/
def restoreLeft (lt : Nat → Nat → Bool) (m : Mesh) : Nat → HE → Nat → Option HE
  | 0, _, _ => none
  | k + 1, e, pt => do
    let c ← m.nei e
    let cv ← apex m c
    if lt cv pt then restoreLeft lt m k c.prev cv else some e

/-- The second restoring loop (lines 520-525). -/
def restoreRight (lt : Nat → Nat → Bool) (m : Mesh) : Nat → HE → Nat → Nat → Option HE
  | 0, _, _, _ => none
  | k + 1, e, pt, ap =>
    if lt pt ap then do
      let e' ← m.nei e.prev
      let ap' ← apex m e'
      restoreRight lt m k e' ap ap'
    else some e

/-- The half edges and vertices of the tangent loop: `inner_left`, `inner_left_dest`, `inner_left_apex`, `inner_right`, `inner_right_org`, `inner_right_apex`. -/
structure Tan where
  il : HE
  ild : Nat
  ila : Nat
  ir : HE
  iro : Nat
  ira : Nat

/-- First half of the body (lines 423-437); also whether something changed. -/
def tanLeft (P : Preds) (m : Mesh) (t : Tan) : Option (Tan × Bool) :=
  if P.ccw t.ild t.ila t.iro > 0 then do
    let il ← m.nei t.il.prev
    let a ← apex m il
    return ({ t with il := il, ild := t.ila, ila := a }, true)
  else some (t, false)

/-- Second half of the body (lines 438-453). -/
def tanRight (P : Preds) (m : Mesh) (t : Tan) : Option (Tan × Bool) :=
  if P.ccw t.ira t.iro t.ild > 0 then do
    let ir ← m.nei t.ir.next
    let a ← apex m ir
    return ({ t with ir := ir, iro := t.ira, ira := a }, true)
  else some (t, false)

/-- The lower tangent (lines 418-454). -/
def tangent (P : Preds) (m : Mesh) : Nat → Tan → Option Tan
  | 0, _ => none
  | k + 1, t => do
    let (t1, b1) ← tanLeft P m t
    let (t2, b2) ← tanRight P m t1
    if b1 || b2 then tangent P m k t2 else some t2

/-- `bad_edge`: the incircle test unless the apex is invalid (lines 542-552, 583-597). -/
def badEdge (P : Preds) (ll lr u : Nat) (na : Option Nat) : Option Nat := na.filter fun v => decide (P.inc ll lr u v > 0)

/-- The loop that removes edges of the left triangulation (lines 556-598). The results are the mesh, `left_cand` and `upper_left`. -/
def eatLeft (P : Preds) (ll lr : Nat) : Nat → Mesh → HE → HE → Nat → Option (Mesh × HE × Nat)
  | 0, _, _, _, _ => none
  | k + 1, m, lc, ne, ul =>
    match badEdge P ll lr ul (apex m ne) with
    | none => some (m, lc, ul)
    | some na => do
      let n1 := ne.next
      let tc ← m.nei n1
      let n2 := n1.next
      let sc ← m.nei n2
      let m1 := bond (bond m n2 tc) lc sc
      let lc' := lc.next
      let oc ← m1.nei lc'
      let n3 := n2.prev
      let m2 := bond m1 n3 oc
      let m3 := setApex (setDest (setOrg m2 lc' (some ll)) lc' none) lc' (some na)
      let m4 := setApex (setDest (setOrg m3 n3 none) n3 (some ul)) n3 (some na)
      eatLeft P ll lr k m4 lc' sc na

/-- The loop that removes edges of the right triangulation (lines 620-658). -/
def eatRight (P : Preds) (ll lr : Nat) : Nat → Mesh → HE → HE → Nat → Option (Mesh × HE × Nat)
  | 0, _, _, _, _ => none
  | k + 1, m, rc, ne, ur =>
    match badEdge P ll lr ur (apex m ne) with
    | none => some (m, rc, ur)
    | some na => do
      let n1 := ne.prev
      let tc ← m.nei n1
      let n2 := n1.prev
      let sc ← m.nei n2
      let m1 := bond (bond m n2 tc) rc sc
      let rc' := rc.prev
      let oc ← m1.nei rc'
      let n3 := n2.next
      let m2 := bond m1 n3 oc
      let m3 := setApex (setDest (setOrg m2 rc' none) rc' (some lr)) rc' (some na)
      let m4 := setApex (setDest (setOrg m3 n3 (some ur)) n3 none) n3 (some na)
      eatRight P ll lr k m4 rc' sc na

/-- The state of the knitting loop (lines 455-482). -/
structure Knit where
  m : Mesh
  base : HE
  lc : HE
  rc : HE
  ll : Nat
  lr : Nat
  ul : Nat
  ur : Nat

/-- Lines 528-600. -/
def knitEatLeft (P : Preds) (N : Nat) (s : Knit) (fin : Bool) : Option Knit :=
  if fin then some s else do
    let ne ← s.m.nei s.lc.prev
    let (m, lc, ul) ← eatLeft P s.ll s.lr N s.m s.lc ne s.ul
    return { s with m := m, lc := lc, ul := ul }

/-- Lines 602-659. -/
def knitEatRight (P : Preds) (N : Nat) (s : Knit) (fin : Bool) : Option Knit :=
  if fin then some s else do
    let ne ← s.m.nei s.rc.next
    let (m, rc, ur) ← eatRight P s.ll s.lr N s.m s.rc ne s.ur
    return { s with m := m, rc := rc, ur := ur }

/-- Lines 661-678: a new triangle on the right or on the left. An invalid next apex makes the next round panic. -/
def knitStep (P : Preds) (s : Knit) (lfin rfin : Bool) : Option Knit :=
  if lfin || (!rfin && decide (P.inc s.ul s.ll s.lr s.ur > 0)) then do
    let m1 := bond s.m s.base s.rc
    let base := s.rc.prev
    let m2 := setDest m1 base (some s.ll)
    let rc ← m2.nei base
    let ur ← apex m2 rc
    return { s with m := m2, base := base, rc := rc, lr := s.ur, ur := ur }
  else do
    let m1 := bond s.m s.base s.lc
    let base := s.lc.next
    let m2 := setOrg m1 base (some s.lr)
    let lc ← m2.nei base
    let ul ← apex m2 lc
    return { s with m := m2, base := base, lc := lc, ll := s.ul, ul := ul }

/-- The top bounding triangle (lines 491-500). -/
def knitTop (s : Knit) : Mesh :=
  let (m, ne) := makeTri s.m
  let m1 := setDest (setOrg m ne (some s.ll)) ne (some s.lr)
  bond (bond (bond m1 ne s.base) ne.next s.rc) ne.next.next s.lc

/-- The knitting loop (lines 483-679) up to and including the top bounding triangle. -/
def knit (P : Preds) (N : Nat) : Nat → Knit → Option Mesh
  | 0, _ => none
  | k + 1, s => do
    let lfin := decide (P.ccw s.ul s.ll s.lr ≤ 0)
    let rfin := decide (P.ccw s.ur s.ll s.lr ≤ 0)
    if lfin && rfin then some (knitTop s)
    else do
      let s1 ← knitEatLeft P N s lfin
      let s2 ← knitEatRight P N s1 rfin
      let s3 ← knitStep P s2 lfin rfin
      knit P N k s3

/-- The walks of a horizontal cut (lines 374-416): `far_left`, `far_right` and the tangent data. -/
def preMerge (G : Geo) (N : Nat) (m : Mesh) (axis : Bool) (fl fr : HE) (t : Tan) : Option (HE × HE × Tan) :=
  if axis then do
    let flp ← org m fl
    let fla ← apex m fl
    let frp ← dest m fr
    let (fl, _, _) ← walkLow G.ylt m N fl flp fla
    let (il, ild, ila) ← walkHigh G.ylt m N t.il t.ild t.ila
    let (ir, iro, ira) ← walkLow G.ylt m N t.ir t.iro t.ira
    let (fr, _, _) ← walkHigh G.ylt m N fr frp frp
    return (fl, fr, ⟨il, ild, ila, ir, iro, ira⟩)
  else some (fl, fr, t)

/-- The walks at the end (lines 502-526). -/
def postMerge (G : Geo) (N : Nat) (m : Mesh) (axis : Bool) (fl fr : HE) : Option (HE × HE) :=
  if axis then do
    let flp ← org m fl
    let frp ← dest m fr
    let fra ← apex m fr
    let fl ← restoreLeft G.xlt m N fl flp
    let fr ← restoreRight G.xlt m N fr frp fra
    return (fl, fr)
  else some (fl, fr)

/-- The bottom bounding triangle (lines 456-470): the mesh and `base_edge`. -/
def knitBottom (m : Mesh) (t : Tan) : Mesh × HE :=
  let (m, b) := makeTri m
  let m1 := bond (bond m b t.il) b.next t.ir
  let b2 := b.next.next
  (setDest (setOrg m1 b2 (some t.iro)) b2 (some t.ild), b2)

/-- `merge_hulls` (lines 354-680): the mesh, `far_left` and `far_right`. `axis` is true for 1. -/
def mergeHulls (G : Geo) (N : Nat) (m : Mesh) (axis : Bool) (fl il ir fr : HE) : Option (Mesh × HE × HE) := do
  let ild ← dest m il
  let ila ← apex m il
  let iro ← org m ir
  let ira ← apex m ir
  let (fl, fr, t) ← preMerge G N m axis fl fr ⟨il, ild, ila, ir, iro, ira⟩
  let t ← tangent G.toPreds m N t
  let lc ← m.nei t.il
  let rc ← m.nei t.ir
  let (m, base) := knitBottom m t
  let flp := org m fl
  let fl := if some t.ild = flp then base.next else fl
  let frp := dest m fr
  let fr := if some t.iro = frp then base.prev else fr
  let ul ← apex m lc
  let ur ← apex m rc
  let m ← knit G.toPreds N N ⟨m, base, lc, rc, t.ild, t.iro, ul, ur⟩
  let (fl, fr) ← postMerge G N m axis fl fr
  return (m, fl, fr)

/-- `div_conq_recurse` on two points (lines 691-710). -/
def base2 (m : Mesh) (a b : Nat) : Mesh × HE × HE :=
  let (m, l) := makeTri m
  let m := setDest (setOrg m l (some a)) l (some b)
  let (m, r) := makeTri m
  let m := setDest (setOrg m r (some b)) r (some a)
  let m := bond m l r
  let l := l.prev
  let r := r.next
  let m := bond m l r
  let l := l.prev
  let r := r.next
  let m := bond m l r
  (m, r.prev, r)

/-- Three collinear points (lines 727-757). -/
def base3flat (m : Mesh) (a b c : Nat) : Mesh × HE × HE :=
  let (m, t0) := makeTri m
  let (m, t1) := makeTri m
  let (m, t2) := makeTri m
  let (m, t3) := makeTri m
  let m := setDest (setOrg m t0 (some a)) t0 (some b)
  let m := setDest (setOrg m t1 (some b)) t1 (some a)
  let m := setDest (setOrg m t2 (some c)) t2 (some b)
  let m := setDest (setOrg m t3 (some b)) t3 (some c)
  let m := bond (bond m t0 t1) t2 t3
  let m := bond (bond m t0.next t3.prev) t1.prev t2.next
  let m := bond (bond m t0.next.next t1.prev.prev) t2.next.next t3.prev.prev
  (m, t1.prev.prev, t2.next.next)

/-- Three points that are not collinear (lines 757-801); `pos` says whether they are in counterclockwise order. -/
def base3 (m : Mesh) (a b c : Nat) (pos : Bool) : Mesh × HE × HE :=
  let (m, t0) := makeTri m
  let (m, t1) := makeTri m
  let (m, t2) := makeTri m
  let (m, t3) := makeTri m
  let m := setOrg (setDest (setOrg m t0 (some a)) t1 (some a)) t3 (some a)
  let (u, v) := if pos then (b, c) else (c, b)
  let m := setDest (setOrg (setDest m t0 (some u)) t1 (some u)) t2 (some u)
  let m := setDest (setOrg (setApex m t0 (some v)) t2 (some v)) t3 (some v)
  let m := bond (bond (bond m t0 t1) t0.next t2) t0.next.next t3
  let m := bond m t1.prev t2.next
  let m := bond m t1.prev.prev t3.prev
  let m := bond m t2.next.next t3.prev.prev
  let fl := t1.prev.prev
  (m, fl, if pos then t2.next.next else fl.next)

/-- `div_conq_recurse` (lines 682-823): the mesh, `far_left`, `far_right`. Fewer than two points recur for ever. -/
def divConq (G : Geo) (N : Nat) : Nat → Mesh → List Nat → Bool → Option (Mesh × HE × HE)
  | 0, _, _, _ => none
  | k + 1, m, pts, axis =>
    match pts with
    | [a, b] => some (base2 m a b)
    | [a, b, c] => if G.ccw a b c = 0 then some (base3flat m a b c) else some (base3 m a b c (decide (G.ccw a b c > 0)))
    | pts => do
      let d := pts.length / 2
      let (m, fl, il) ← divConq G N k m (pts.take d) (!axis)
      let (m, ir, fr) ← divConq G N k m (pts.drop d) (!axis)
      mergeHulls G N m axis fl il ir fr

/-- `mark_ghost` (lines 825-837): walk around the hull from `start`. -/
def markGhost (m : Mesh) (start : HE) : Nat → HE → (Nat → Bool) → Option (Nat → Bool)
  | 0, _, _ => none
  | k + 1, e, g => do
    let g' := fun t => if t = e.tri then true else g t
    let e' ← m.nei e.next
    if e' = start then some g' else markGhost m start k e' g'

/-- The body of the loop of `make_vertex_map` (lines 852-863). -/
def vmapStep (m : Mesh) (g : Nat → Bool) (f : VMap) (e : HE) : Option VMap := do
  let v ← m.vert e
  if f v ≠ none then some f
  else do
    let h ← m.nei e.next
    return updv f v (if g h.tri then e.prev else h)

/-- The corners of the triangles in order. -/
def corners (n : Nat) : List HE := (List.range n).flatMap fun t => [⟨t, 0⟩, ⟨t, 1⟩, ⟨t, 2⟩]

/-- `make_vertex_map` (lines 839-866). -/
def makeVMap (m : Mesh) (g : Nat → Bool) : Option VMap :=
  ((corners m.n).filter fun e => !g e.tri).foldlM (vmapStep m g) fun _ => none

/-- The corners of the triangles that are not ghosts (lines 77-91). -/
def output (m : Mesh) (g : Nat → Bool) : List (Option Nat) := ((List.range m.n).filter fun t => !g t).flatMap fun t => [m.vert ⟨t, 0⟩, m.vert ⟨t, 1⟩, m.vert ⟨t, 2⟩]

/-- `triangulate` (lines 9-93) after sorting the points. `order` is the order of the points after `alternate_axes`. -/
def triangulate (G : Geo) (N : Nat) (order : List Nat) (segs : List (Nat × Nat)) : Option (List (Option Nat)) := do
  let (m, left, _) ← divConq G N N ⟨0, fun _ => none, fun _ => none, fun _ => none⟩ order false
  let g ← markGhost m left N left fun _ => false
  let f ← makeVMap m g
  let (m, _) ← skeletonFrom flip G.toPreds g N m f segs 0
  let (_, g) ← flood m N g
  return output m g

end Verif.Tri
