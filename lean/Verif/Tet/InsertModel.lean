import Verif.Tet.Model
/-!
# Model of `insert_vertex_bw` (lines 875-1101)

Point location (`locate_dt`) and the in-sphere tests are inputs: the cavity seeds (lines 878-904) are the list `seed`, and
`test t` is the outcome `enqflag` of the geometric test for the tetrahedron `t` (lines 920-936), which depends only on the
corners of `t` (and of its solid neighbour) and on the new point, none of which change while the cavity grows.
The `HashMap` is an association list in which the most recent entry comes first.
-/
namespace Verif.Tet

/-- `ROW_V08_TBL`, `ROW_V11_TBL` (lines 952-953). -/
def rowV08 : Ver → Ver := ![8, 9, 10, 11, 0, 1, 2, 3, 4, 5, 6, 7]
@[inherit_doc rowV08] def rowV11 : Ver → Ver := ![8, 9, 10, 11, 0, 1, 2, 3, 4, 5, 6, 7]
/-- `COL_V01_TBL`, `COL_V02_TBL`, `COL_V08_TBL`, `COL_V11_TBL` (lines 954-957). -/
def colV01 : Ver → Ver := ![1, 1, 1, 1, 5, 5, 5, 5, 9, 9, 9, 9]
@[inherit_doc colV01] def colV02 : Ver → Ver := ![2, 2, 2, 2, 6, 6, 6, 6, 10, 10, 10, 10]
@[inherit_doc colV01] def colV08 : Ver → Ver := ![8, 8, 8, 8, 0, 0, 0, 0, 4, 4, 4, 4]
@[inherit_doc colV01] def colV11 : Ver → Ver := ![11, 11, 11, 11, 3, 3, 3, 3, 7, 7, 7, 7]

namespace Mesh

/-- `tets.infect(t); cave_oldtet_list.push(t)` for all seeds (lines 878-904). -/
def infectAll : List Nat → Mesh → Option Mesh
  | [], m => some m
  | t :: ts, m => do infectAll ts (← m.infect t)

/-- State of the cavity search: mesh, `cave_oldtet_list`, `cave_bdry_list`. -/
structure Cavity where
  mesh : Mesh
  old : List Nat
  bdry : List (Nat × Fin 4)

/-- The `for ver in 0..4` body (lines 912-947), over the remaining faces. -/
def cavityFaces (test : Nat → Bool) (c : Nat) : List (Fin 4) → Cavity → Option Cavity
  | [], s => some s
  | f :: fs, s => do
    let x ← s.mesh.tets[c]?
    let nei ← x.nei f
    if ← s.mesh.infected nei.tet then cavityFaces test c fs s
    else
      if (!(← s.mesh.markTested nei.tet)) && test nei.tet then
        let m ← s.mesh.markTest nei.tet
        let m ← m.infect nei.tet
        cavityFaces test c fs { mesh := m, old := s.old ++ [nei.tet], bdry := s.bdry }
      else
        let m ← s.mesh.markTest nei.tet
        cavityFaces test c fs { mesh := m, old := s.old, bdry := s.bdry ++ [(c, f)] }

/-- The `while idx < cave_oldtet_list.len()` loop (lines 910-949), on fuel. -/
def cavityLoop (test : Nat → Bool) : Nat → Nat → Cavity → Option Cavity
  | 0, _, _ => none
  | fuel + 1, idx, s =>
    if idx < s.old.length then do
      let c ← s.old[idx]?
      let s ← cavityFaces test c [0, 1, 2, 3] s
      cavityLoop test fuel (idx + 1) s
    else some s

/-- One iteration of `for vid in verts` (lines 993-998): redirect the link of `vid` unless it already names a new tetrahedron. -/
def relink (pid new vid : Nat) (m : Mesh) : Option Mesh := do
  let tid ← (← m.p2t[vid]?)
  let x ← m.tets[tid]?
  if x.data 2 ≠ pid then m.setP2t vid new else some m

abbrev FaceMap := List ((Nat × Nat) × TriFace)

/-- One iteration of the first filling loop (lines 966-1001); also lines 1036-1063 of the large-cavity branch, which
differs only in not using the map and not replacing `*oldtet`. -/
def fillStep (pid : Nat) (b : Nat × Fin 4) (m : Mesh) (map : FaceMap) : Option (Mesh × FaceMap × TriFace) := do
  let old ← m.tets[b.1]?
  let nei ← old.nei b.2
  let m ← m.unmarkTest nei.tet
  let nei : TriFace := if ← m.isHull b.1 then ⟨nei.tet, epivot nei.ver⟩ else nei
  let v0 ← m.dest nei
  let v1 ← m.org nei
  let v2 ← m.apex nei
  let (m, newtet) := m.makeTet v1 v0 pid v2
  let m ← m.setNei newtet.tet 2 nei
  let m ← m.setNei nei.tet (face nei.ver) ⟨newtet.tet, colV02 nei.ver⟩
  let map := ((v2, v0), ⟨newtet.tet, 8⟩) :: ((v1, v2), ⟨newtet.tet, 1⟩) :: ((v0, v1), ⟨newtet.tet, 11⟩) :: map
  let m ← relink pid newtet.tet v0 m
  let m ← relink pid newtet.tet v1 m
  let m ← relink pid newtet.tet v2 m
  return (m, map, newtet)

/-- The first filling loop; the third component collects the handles stored through `*oldtet = newtet` (line 1000). -/
def fillLoop (pid : Nat) : List (Nat × Fin 4) → Mesh → FaceMap → List TriFace → Option (Mesh × FaceMap × List TriFace)
  | [], m, map, acc => some (m, map, acc)
  | b :: bs, m, map, acc => do
    let (m, map, nt) ← fillStep pid b m map
    fillLoop pid bs m map (acc ++ [nt])

/-- One of the three blocks of the second filling loop (lines 1010-1034): connect the face of version `ver` of `t` if its
slot is still empty. -/
def connect (map : FaceMap) (t : Nat) (ver : Ver) (row col : Ver → Ver) (m : Mesh) : Option Mesh := do
  let x ← m.tets[t]?
  match x.nei (face ver) with
  | some _ => some m
  | none =>
    let j ← m.org ⟨t, ver⟩
    let k ← m.dest ⟨t, ver⟩
    let nn ← map.lookup (j, k)
    let m ← m.setNei t (face ver) ⟨nn.tet, row nn.ver⟩
    m.setNei nn.tet (face nn.ver) ⟨t, col nn.ver⟩

/-- The second filling loop (lines 1007-1035). -/
def connectLoop (map : FaceMap) : List TriFace → Mesh → Option Mesh
  | [], m => some m
  | n :: ns, m => do
    let m ← connect map n.tet 11 rowV11 colV11 m
    let m ← connect map n.tet 1 id colV01 m
    let m ← connect map n.tet 8 rowV08 colV08 m
    connectLoop map ns m

/-- `tets.tets[tid].mask = !0` for all cavity tetrahedra (lines 1096-1098). -/
def killAll : List Nat → Mesh → Option Mesh
  | [], m => some m
  | t :: ts, m => do
    killAll ts (← m.modify t fun x => { x with infected := true, marked := true, dead := true })

/-- The branch for `v_out < 1024` (lines 964-1035), from the cavity boundary on. -/
def fillSmall (pid : Nat) (s : Cavity) : Option (Mesh × TriFace) := do
  let (m, map, news) ← fillLoop pid s.bdry s.mesh [] []
  let search ← news[s.bdry.length / 2]?
  let m ← m.setP2t pid search.tet
  let m ← connectLoop map news m
  return (m, search)

/-- `insert_vertex_bw` from the cavity seeds on, when `v_out = (f_out + 4) >> 1 < 1024`; the large branch is `insertLarge`
in `Verif.Tet.Large`. -/
def insertSmall (fuel : Nat) (test : Nat → Bool) (seed : List Nat) (pid : Nat) (m : Mesh) : Option (Mesh × TriFace) := do
  let m ← infectAll seed m
  let s ← cavityLoop test fuel 0 { mesh := m, old := seed, bdry := [] }
  let (m, search) ← fillSmall pid s
  let m ← killAll s.old m
  return (m, search)

end Mesh
end Verif.Tet
