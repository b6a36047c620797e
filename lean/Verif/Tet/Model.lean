import Mathlib.Data.Fin.VecNotation
/-!
# Model of the tetrahedral mesh data structure of `src/triangle/tetrahedron.rs`

* A version is an element of `Fin 12`, a face or corner index an element of `Fin 4`; `ver & 3` is `face ver`.
* The lookup tables (lines 261-351, 407-423) are functions on versions.
* `nei : Fin 4 → Option TriFace`: the default `TriFace` (`tet == INVALID_IND`, lines 19-27) is `none`.
* `mask` (lines 148-172): bit 0 is `infected`, bit 1 is `marked`, and `dead` stands for "all other bits are set",
  so `mask == !0` is `infected && marked && dead`.
* An index out of range, and following an `INVALID_IND` link, is `none`.
-/
namespace Verif.Tet

abbrev Ver := Fin 12

/-- `struct TriFace` (lines 13-17). -/
structure TriFace where
  tet : Nat
  ver : Ver
deriving Repr, DecidableEq

/-- `ver & 3`. -/
def face (v : Ver) : Fin 4 := ⟨v.val % 4, Nat.mod_lt _ (by decide)⟩

/-- A face index used as a version (`TriFace::new(cavetid, ver)` with `ver in 0..4`, line 942). -/
def verOfFace (f : Fin 4) : Ver := ⟨f.val, by omega⟩

/-- A natural number reduced modulo 12 as a version. -/
def mod12 (n : Nat) : Ver := ⟨n % 12, Nat.mod_lt _ (by decide)⟩

/-- `ENEXT_TBL` (lines 261-269, 407). -/
def enext (v : Ver) : Ver := mod12 (v.val + 4)
/-- `EPREV_TBL` (lines 271-279, 408). -/
def eprev (v : Ver) : Ver := mod12 (v.val + 8)
/-- `ESYM_TBL` (line 409). -/
def esym : Ver → Ver := ![9, 6, 11, 4, 3, 7, 1, 5, 10, 0, 8, 2]
/-- `ENEXT_ESYM_TBL` (lines 281-289, 410). -/
def enextEsym (v : Ver) : Ver := esym (enext v)
/-- `EPREV_ESYM_TBL` (lines 291-299, 411). -/
def eprevEsym (v : Ver) : Ver := esym (eprev v)
/-- `BOND_TBL[i][j]` (lines 301-313, 412); `i & 12` is `i / 4 * 4` for `i < 16`. -/
def bondTbl (i j : Ver) : Ver := mod12 (j.val % 4 + (i.val / 4 * 4 + j.val / 4 * 4) % 12)
/-- `FSYM_TBL[i][j]` (lines 315-327, 413). -/
def fsymTbl (i j : Ver) : Ver := mod12 (j.val + 12 - i.val / 4 * 4)
/-- `FACE_PIVOT1` (lines 329-337, 414). -/
def facePivot1 (i : Ver) : Fin 4 := face (esym i)
/-- `FACE_PIVOT2` (lines 339-351, 415). -/
def facePivot2 (i j : Ver) : Ver := fsymTbl (esym i) j
/-- `ORG_PIVOT` (line 416). -/
def orgPivot : Ver → Fin 4 := ![3, 3, 1, 1, 2, 0, 0, 2, 1, 2, 3, 0]
/-- `DEST_PIVOT` (line 417). -/
def destPivot : Ver → Fin 4 := ![2, 0, 0, 2, 1, 2, 3, 0, 3, 3, 1, 1]
/-- `APEX_PIVOT` (line 418). -/
def apexPivot : Ver → Fin 4 := ![1, 2, 3, 0, 3, 3, 1, 1, 2, 0, 0, 2]
/-- `OPPO_PIVOT` (line 419). -/
def oppoPivot : Ver → Fin 4 := ![0, 1, 2, 3, 0, 1, 2, 3, 0, 1, 2, 3]
/-- `VPIVOT` (line 422). -/
def vpivot : Fin 4 → Ver := ![11, 8, 9, 10]
/-- `EPIVOT` (line 423). -/
def epivot : Ver → Ver := ![4, 5, 2, 11, 4, 5, 2, 11, 4, 5, 2, 11]

/-- `struct Tet` (lines 67-71). -/
structure Tet where
  data : Fin 4 → Nat
  nei : Fin 4 → Option TriFace
  infected : Bool := false
  marked : Bool := false
  dead : Bool := false

/-- `Tet::new` (lines 91-102). -/
def Tet.new (pa pb pc pd : Nat) : Tet := { data := ![pa, pb, pc, pd], nei := fun _ => none }

/-- `Tet::index` (lines 105-107): position of the first corner equal to `vid`. -/
def Tet.index (t : Tet) (vid : Nat) : Option (Fin 4) :=
  if t.data 0 = vid then some 0 else if t.data 1 = vid then some 1
  else if t.data 2 = vid then some 2 else if t.data 3 = vid then some 3 else none

/-- `struct TetMesh` (lines 110-115) without the coordinates; `p2t` entries `INVALID_IND` are `none`. -/
structure Mesh where
  nPoints : Nat
  tets : List Tet
  p2t : List (Option Nat)

/-- `TetMesh::new` (lines 118-126). -/
def Mesh.new (nPoints : Nat) : Mesh :=
  { nPoints, tets := [], p2t := List.replicate (nPoints + 1) none }

namespace Mesh

/-- `self.tets[f.tet].data[..]` for `org`, `dest`, `apex`, `oppo` (lines 128-146). -/
def org (m : Mesh) (f : TriFace) : Option Nat := (m.tets[f.tet]?).map (·.data (orgPivot f.ver))
@[inherit_doc org] def dest (m : Mesh) (f : TriFace) : Option Nat := (m.tets[f.tet]?).map (·.data (destPivot f.ver))
@[inherit_doc org] def apex (m : Mesh) (f : TriFace) : Option Nat := (m.tets[f.tet]?).map (·.data (apexPivot f.ver))
@[inherit_doc org] def oppo (m : Mesh) (f : TriFace) : Option Nat := (m.tets[f.tet]?).map (·.data (oppoPivot f.ver))

/-- A write through `self.tets[i]`. -/
def modify (m : Mesh) (i : Nat) (g : Tet → Tet) : Option Mesh :=
  if i < m.tets.length then some { m with tets := m.tets.modify i g } else none

/-- `infect` (lines 149-151). -/
def infect (m : Mesh) (t : Nat) : Option Mesh := m.modify t fun x => { x with infected := true }
/-- `uninfect` (lines 153-155). -/
def uninfect (m : Mesh) (t : Nat) : Option Mesh := m.modify t fun x => { x with infected := false }
/-- `infected` (lines 157-159). -/
def infected (m : Mesh) (t : Nat) : Option Bool := (m.tets[t]?).map (·.infected)
/-- `mark_test` (lines 162-164). -/
def markTest (m : Mesh) (t : Nat) : Option Mesh := m.modify t fun x => { x with marked := true }
/-- `unmark_test` (lines 166-168). -/
def unmarkTest (m : Mesh) (t : Nat) : Option Mesh := m.modify t fun x => { x with marked := false }
/-- `mark_tested` (lines 170-172). -/
def markTested (m : Mesh) (t : Nat) : Option Bool := (m.tets[t]?).map (·.marked)

/-- Writing one neighbour slot. -/
def setNei (m : Mesh) (t : Nat) (f : Fin 4) (h : TriFace) : Option Mesh :=
  m.modify t fun x => { x with nei := Function.update x.nei f (some h) }

/-- `bond` (lines 175-183). -/
def bond (m : Mesh) (t1 t2 : TriFace) : Option Mesh := do
  let m ← m.setNei t1.tet (face t1.ver) ⟨t2.tet, bondTbl t1.ver t2.ver⟩
  m.setNei t2.tet (face t2.ver) ⟨t1.tet, bondTbl t2.ver t1.ver⟩

/-- `fsym`, `fsym_self` (lines 186-197). -/
def fsym (m : Mesh) (t : TriFace) : Option TriFace := do
  let x ← m.tets[t.tet]?
  let nf ← x.nei (face t.ver)
  return ⟨nf.tet, fsymTbl t.ver nf.ver⟩

/-- `fnext_self` (lines 200-204). -/
def fnext (m : Mesh) (t : TriFace) : Option TriFace := do
  let x ← m.tets[t.tet]?
  let nf ← x.nei (facePivot1 t.ver)
  return ⟨nf.tet, facePivot2 t.ver nf.ver⟩

/-- `is_hull_tet` (lines 207-209). -/
def isHull (m : Mesh) (i : Nat) : Option Bool := (m.tets[i]?).map fun t => t.data 3 == m.nPoints

/-! ### `incident` (lines 235-258) -/

/-- The `for i in 0..4` body of `incident` (lines 242-251), over the remaining face indices. -/
def incidentFaces (t : Nat) (pos : Fin 4) : List (Fin 4) → Mesh → List Nat → Option (Mesh × List Nat)
  | [], m, result => some (m, result)
  | i :: is, m, result =>
    if i = pos then incidentFaces t pos is m result
    else do
      let x ← m.tets[t]?
      let nei ← x.nei i
      if !(← m.markTested nei.tet) && !(← m.isHull nei.tet) then
        let m ← m.markTest nei.tet
        incidentFaces t pos is m (result ++ [nei.tet])
      else incidentFaces t pos is m result

/-- The `while idx < result.len()` loop of `incident` (lines 238-253), on fuel. -/
def incidentLoop (vid : Nat) : Nat → Nat → Mesh → List Nat → Option (Mesh × List Nat)
  | 0, _, _, _ => none
  | fuel + 1, idx, m, result =>
    if idx < result.length then do
      let t ← result[idx]?
      let x ← m.tets[t]?
      let pos ← x.index vid
      let (m, result) ← incidentFaces t pos [0, 1, 2, 3] m result
      incidentLoop vid fuel (idx + 1) m result
    else some (m, result)

/-- The final loop removing the marks (lines 254-256). -/
def unmarkAll : List Nat → Mesh → Option Mesh
  | [], m => some m
  | t :: ts, m => do unmarkAll ts (← m.unmarkTest t)

/-- `incident` (lines 235-258). -/
def incident (fuel : Nat) (m : Mesh) (vid : Nat) : Option (Mesh × List Nat) := do
  let t0 ← (← m.p2t[vid]?)
  let m ← m.markTest t0
  let (m, result) ← incidentLoop vid fuel 0 m [t0]
  let m ← unmarkAll result m
  return (m, result)

/-! ### Building -/

/-- `make_tet` (lines 643-647): the new handle has version 11. -/
def makeTet (m : Mesh) (pa pb pc pd : Nat) : Mesh × TriFace :=
  ({ m with tets := m.tets ++ [Tet.new pa pb pc pd] }, ⟨m.tets.length, 11⟩)

/-- `self.p2t[i] = t`. -/
def setP2t (m : Mesh) (i t : Nat) : Option Mesh :=
  if i < m.p2t.length then some { m with p2t := m.p2t.set i (some t) } else none

end Mesh

/-- `esym(&t1, &mut t2)` and friends (lines 425-457) on handles. -/
def TriFace.esym (t : TriFace) : TriFace := ⟨t.tet, Tet.esym t.ver⟩
@[inherit_doc TriFace.esym] def TriFace.enext (t : TriFace) : TriFace := ⟨t.tet, Tet.enext t.ver⟩
@[inherit_doc TriFace.esym] def TriFace.eprev (t : TriFace) : TriFace := ⟨t.tet, Tet.eprev t.ver⟩
@[inherit_doc TriFace.esym] def TriFace.enextEsym (t : TriFace) : TriFace := ⟨t.tet, Tet.enextEsym t.ver⟩
@[inherit_doc TriFace.esym] def TriFace.eprevEsym (t : TriFace) : TriFace := ⟨t.tet, Tet.eprevEsym t.ver⟩

/-- `initial_delaunay` (lines 649-701). -/
def initialDelaunay (m : Mesh) (pa pb pc pd : Nat) : Option (Mesh × TriFace) := do
  let (m, firsttet) := m.makeTet pa pb pc pd
  let (m, tetopa) := m.makeTet pb pc pd m.nPoints
  let (m, tetopb) := m.makeTet pc pa pd m.nPoints
  let (m, tetopc) := m.makeTet pa pb pd m.nPoints
  let (m, tetopd) := m.makeTet pb pa pc m.nPoints
  let m ← m.bond firsttet tetopd
  let m ← m.bond firsttet.esym tetopc
  let m ← m.bond firsttet.enextEsym tetopa
  let m ← m.bond firsttet.eprevEsym tetopb
  let m ← m.bond tetopc.esym tetopd.esym
  let m ← m.bond tetopa.esym tetopd.eprevEsym
  let m ← m.bond tetopb.esym tetopd.enextEsym
  let m ← m.bond tetopc.eprevEsym tetopb.enextEsym
  let m ← m.bond tetopa.eprevEsym tetopc.enextEsym
  let m ← m.bond tetopb.eprevEsym tetopa.enextEsym
  let m ← m.setP2t pa 0
  let m ← m.setP2t pb 0
  let m ← m.setP2t pc 0
  let m ← m.setP2t pd 0
  let m ← m.setP2t m.nPoints tetopa.tet
  return (m, firsttet)

end Verif.Tet
