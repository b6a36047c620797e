import Verif.Tet.Large
import Verif.InSphere.Model
/-!
# Model of point location and of the driver of the tetrahedralization

`src/triangle/tetrahedron.rs` lines 703-815 (`locate_dt`), 875-936 (the cavity seeds and the test of a tetrahedron),
1203-1252 (the end of `tetrahedralize`). Coordinates live in an ordered ring and `orient3d`, `insphere` are exact.
-/
namespace Verif.Tet
open InSphere (Pt orient3d insphereS)

/-- `enum LocateResult` (lines 703-709). -/
inductive Loc where
  | outside | onVertex | onEdge | onFace | inTet
deriving Repr, DecidableEq

variable {K : Type} [CommRing K] [LinearOrder K]

/-- `tets.orient3d` (lines 217-232): the slice `points[(p * 3)..]` must hold a point. -/
def orientIdx (pts : List (Pt K)) (a b c d : Nat) : Option K := do
  return orient3d (← pts[a]?) (← pts[b]?) (← pts[c]?) (← pts[d]?)

namespace Mesh

/-- `orient3d(org, dest, apex, pid)` of a handle (lines 718-724). -/
def orientFace (m : Mesh) (pts : List (Pt K)) (t : TriFace) (pid : Nat) : Option K := do
  orientIdx pts (← m.org t) (← m.dest t) (← m.apex t) pid

/-- The loop `while searchtet.ver < 4` (lines 716-729), over the remaining versions; `4` is left when no face qualifies. -/
def startVer (m : Mesh) (pts : List (Pt K)) (pid t : Nat) : List Ver → Option TriFace
  | [] => some ⟨t, 4⟩
  | v :: vs => do
    if (← m.orientFace pts ⟨t, v⟩ pid) < 0 then some ⟨t, v⟩ else startVer m pts pid t vs

/-- Lines 806-813: cross the current face. -/
def cross (m : Mesh) (t : TriFace) : Option (TriFace × Option Loc) := do
  let x ← m.tets[t.tet]?
  let nf ← x.nei (face t.ver)
  if ← m.isHull nf.tet then return (nf, some .outside) else return (nf, none)

/-- One round of the `loop` of `locate_dt` (lines 732-813); `some loc` means the loop is left with that answer. -/
def locateStep (m : Mesh) (pts : List (Pt K)) (pid : Nat) (t : TriFace) : Option (TriFace × Option Loc) := do
  let toppo ← m.oppo t
  if toppo = pid then return (t.esym.eprev, some .onVertex)
  let oriorg ← orientIdx pts (← m.dest t) (← m.apex t) toppo pid
  if oriorg < 0 then m.cross t.enextEsym
  else
    let oridest ← orientIdx pts (← m.apex t) (← m.org t) toppo pid
    if oridest < 0 then m.cross t.eprevEsym
    else
      let oriapex ← orientIdx pts (← m.org t) (← m.dest t) toppo pid
      if oriapex < 0 then m.cross t.esym
      else if oriorg = 0 then
        let t := t.enextEsym
        if oridest = 0 then
          let t := t.eprev
          if oriapex = 0 then return (t, some .onVertex) else return (t, some .onEdge)
        else if oriapex = 0 then return (t.enext, some .onEdge)
        else return (t, some .onFace)
      else if oridest = 0 then
        let t := t.eprevEsym
        if oriapex = 0 then return (t.eprev, some .onEdge) else return (t, some .onFace)
      else if oriapex = 0 then return (t.esym, some .onFace)
      else return (t, some .inTet)

/-- The `loop` (lines 732-813), on fuel. -/
def locateLoop (m : Mesh) (pts : List (Pt K)) (pid : Nat) : Nat → TriFace → Option (Loc × TriFace)
  | 0, _ => none
  | fuel + 1, t => do
    match ← m.locateStep pts pid t with
    | (t, some loc) => return (loc, t)
    | (t, none) => locateLoop m pts pid fuel t

/-- Lines 712-729: the handle from which the walk starts. -/
def locateStart (m : Mesh) (pts : List (Pt K)) (pid : Nat) (search : TriFace) : Option TriFace := do
  let x ← m.tets[search.tet]?
  let t ← if ← m.isHull search.tet then (x.nei 3).map (·.tet) else some search.tet
  m.startVer pts pid t [0, 1, 2, 3]

/-- `locate_dt` (lines 711-815). -/
def locateDt (m : Mesh) (pts : List (Pt K)) (fuel pid : Nat) (search : TriFace) : Option (Loc × TriFace) := do
  m.locateLoop pts pid fuel (← m.locateStart pts pid search)

/-- The loop of the case `ONEDGE` (lines 887-896), on fuel: the tetrahedra met when rotating about the edge. -/
def ringLoop (m : Mesh) (start : Nat) : Nat → TriFace → Option (List Nat)
  | 0, _ => none
  | fuel + 1, t => do
    let next ← m.fnext t
    if next.tet = start then return [t.tet] else return t.tet :: (← ringLoop m start fuel next)

/-- The seeds of the cavity (lines 878-904); `none` inside stands for the early `return false`. -/
def seeds (m : Mesh) (fuel : Nat) (loc : Loc) (t : TriFace) : Option (Option (List Nat)) :=
  match loc with
  | .outside | .inTet => some (some [t.tet])
  | .onVertex => some none
  | .onEdge => (m.ringLoop t.tet fuel t).map some
  | .onFace => do
    let x ← m.tets[t.tet]?
    let nf ← x.nei (face t.ver)
    return some [t.tet, nf.tet]

/-- The geometric test `enqflag` of lines 920-936 for the tetrahedron `t` (without a panic for missing points). -/
def cavityTest (m : Mesh) (pts : List (Pt K)) (pid t : Nat) : Bool :=
  let at' := fun i => pts.getD i ⟨0, 0, 0⟩
  let inS := fun (x : Tet) => insphereS at' (x.data 0) (x.data 1) (x.data 2) (x.data 3) pid == .negative
  match m.tets[t]? with
  | none => false
  | some x =>
    if x.data 3 ≠ m.nPoints then inS x
    else
      let ori := orient3d (at' (x.data 0)) (at' (x.data 1)) (at' (x.data 2)) (at' pid)
      if ori < 0 then true
      else if ori = 0 then
        match (x.nei 3).bind fun h => m.tets[h.tet]? with
        | some y => inS y
        | none => false
      else false

/-- `insert_vertex_bw` (lines 875-1101); the flag is its return value. -/
def insertVertexBw (m : Mesh) (pts : List (Pt K)) (fuel pid : Nat) (search : TriFace) : Option (Mesh × TriFace × Bool) := do
  let (loc, t) ← m.locateDt pts fuel pid search
  match ← m.seeds fuel loc t with
  | none => return (m, t, false)
  | some seed =>
    let (m, s) ← m.insertVertex 1024 fuel (m.cavityTest pts pid) seed pid
    return (m, s, true)

/-- `for i in 4..n_points { if !insert_vertex_bw(..) { break; } }` (lines 1214-1219). -/
def insertLoop (pts : List (Pt K)) (fuel : Nat) : List Nat → Mesh → TriFace → Option Mesh
  | [], m, _ => some m
  | p :: ps, m, s => do
    let (m, s, ok) ← m.insertVertexBw pts fuel p s
    if ok then insertLoop pts fuel ps m s else some m

end Mesh

/-- `t.mask != !0`. -/
def Tet.alive (t : Tet) : Bool := !(t.infected && t.marked && t.dead)

/-- The `tet_map` (lines 1221-1229). -/
def tetMap : List Tet → Nat → List Nat
  | [], _ => []
  | t :: ts, count => if t.alive then count :: tetMap ts (count + 1) else 0 :: tetMap ts count

/-- `nei.tet = tet_map[nei.tet]` (lines 1233-1237). -/
def remapTet (map : List Nat) (t : Tet) : Option Tet := do
  let n0 ← t.nei 0
  let n1 ← t.nei 1
  let n2 ← t.nei 2
  let n3 ← t.nei 3
  let t0 ← map[n0.tet]?
  let t1 ← map[n1.tet]?
  let t2 ← map[n2.tet]?
  let t3 ← map[n3.tet]?
  return { t with nei := ![some ⟨t0, n0.ver⟩, some ⟨t1, n1.ver⟩, some ⟨t2, n2.ver⟩, some ⟨t3, n3.ver⟩] }

/-- One round of lines 1240-1245. -/
def remapLink (map : List Nat) (m : Mesh) (i : Nat) : Option Mesh := do
  let t ← (← m.p2t[i]?)
  let t ← map[t]?
  let m ← m.setP2t i t
  if ← m.isHull t then
    let x ← m.tets[t]?
    let h ← x.nei 3
    m.setP2t i h.tet
  else some m

/-- `for i in 0..n_points` (lines 1240-1245) over the remaining indices. -/
def remapLinks (map : List Nat) : List Nat → Mesh → Option Mesh
  | [], m => some m
  | i :: is, m => do remapLinks map is (← remapLink map m i)

/-- The end of `tetrahedralize` (lines 1221-1248). -/
def Mesh.finish (m : Mesh) : Option Mesh := do
  let map := tetMap m.tets 0
  let tets ← (m.tets.filter (·.alive)).mapM (remapTet map)
  remapLinks map (List.range m.nPoints) { m with tets }

/-- `tetrahedralize` from the sorted indices on (lines 1199-1250): the first four are the corners of the first tetrahedron,
already swapped to be negatively oriented. -/
def tetrahedralizeFrom (pts : List (Pt K)) (fuel : Nat) (order : List Nat) : Option Mesh :=
  match order with
  | p0 :: p1 :: p2 :: p3 :: rest => do
    let (m, s) ← initialDelaunay (Mesh.new pts.length) p0 p1 p2 p3
    let m ← m.insertLoop pts fuel rest s
    m.finish
  | _ => none

end Verif.Tet
