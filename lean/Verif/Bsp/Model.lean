import Verif.Bsp.SplitFace
import Verif.Poly.Cells
import Verif.Poly.Lists
import Mathlib.Algebra.BigOperators.Group.Finset.Basic
/-!
# `split_cell` with its mesh (`src/polygonlization/bsp_complex.rs` lines 252-576)

`Verif.Poly.splitCell` keeps the links between cells and faces. This file adds the mesh: which edges are split, which faces are cut, and what the
separating face looks like. The mesh is represented by the cycles of its faces.
-/
namespace Verif.Bsp

/-- `SurfaceMesh` (`src/mesh/surface_mesh.rs`) as the complex uses it: the numbers of vertices and edges, and the cycles of the faces. -/
structure PMesh where
  nV : Nat
  nE : Nat
  faces : List Cycle
deriving Repr, DecidableEq

/-- All half-edges. -/
def PMesh.all (m : PMesh) : List HE := m.faces.flatMap hes

/-- `split_edge` (`surface_mesh.rs` lines 225-332). Which half keeps the number of the edge depends on `e_halfedge`, here it is an input. -/
def PMesh.splitEdge (m : PMesh) (keep : Bool) (e : Nat) : Option PMesh := do
  let h ← m.all.find? fun h => h.edge = e
  let a := if keep then h.tail else h.tip
  some { nV := m.nV + 1, nE := m.nE + 1, faces := m.faces.map fun c => c.flatMap (cutCorner e a m.nV m.nE) }

/-- `split_face` (lines 334-427). -/
def PMesh.splitFace (m : PMesh) (f va vb : Nat) : Option PMesh := do
  let c ← m.faces[f]?
  let r ← cutCycle va vb m.nE c
  some { m with nE := m.nE + 1, faces := m.faces.set f r.1 ++ [r.2] }

/-- `add_face_by_halfedges` (lines 429-469). -/
def PMesh.addFace (m : PMesh) (l : List HE) : PMesh := { m with faces := m.faces ++ [l.map fun h => (h.tail, h.edge)] }

/-- `he_twin` (lines 521-535): the next half-edge on the edge with another tail, or the half-edge itself. All half-edges on an edge have the same two
ends, so half-edges on the same edge with the same tail are not told apart. -/
def PMesh.twin (m : PMesh) (h : HE) : HE := if m.all.any fun k => k.edge = h.edge && k.tail != h.tail then h.rev else h

/-- The complex with its mesh. -/
structure St where
  cx : Poly.Complex
  mesh : PMesh
deriving Repr, DecidableEq

/-- The outcomes of the geometric tests that are not computed from the signs, see `Verif.Poly.Tests`. -/
structure Oracle where
  coplanar : Nat → Nat → Bool
  meets : Nat → Bool
  hasPos : Nat → Bool
  hasNeg : Nat → Bool
  inPos : Nat → Bool
  inNeg : Nat → Bool

/-- The faces of a cell. -/
def cellFaces (s : St) (C : Poly.Cell) : Option (List (Nat × Poly.Face × Cycle)) :=
  C.faces.mapM fun f => do
    let F ← s.cx.faces[f]?
    let c ← s.mesh.faces[f]?
    some (f, F, c)

/-- The first occurrences. -/
def uniq : List Nat → List Nat → List Nat
  | acc, [] => acc
  | acc, x :: l => uniq (if x ∈ acc then acc else acc ++ [x]) l

/-- `sign_reversed` for the ends of an edge. -/
def crosses (sgn : Nat → SignType) (h : HE) : Bool :=
  (decide (sgn h.tail = 1) && decide (sgn h.tip = -1)) || (decide (sgn h.tip = 1) && decide (sgn h.tail = -1))

/-- `cell_edges` of `cell_verts_and_edges` (lines 1237-1267) and the edges that the plane crosses (lines 301-312): `e_vertices(eid)` are the two ends
of any half-edge on the edge. -/
def crossing (sgn : Nat → SignType) (hs : List HE) : List Nat :=
  (uniq [] (hs.map HE.edge)).filter fun e => hs.any fun h => h.edge = e && crosses sgn h

/-- `ZeroVert::id` (lines 1589-1594): the vertex, or the new vertex on the edge (`new_vertices[ef_clip_pt_map[&eid]]`, lines 412-415). -/
def ZeroVert.id (L : List Nat) (nV : Nat) : ZeroVert → Option Nat
  | .start h => some h.tail
  | .inter h => if h.edge ∈ L then some (nV + L.idxOf h.edge) else none

/-- `SplitFaceResult::start` and `end` (lines 1604-1629). -/
def Split.key (L : List Nat) (nV : Nat) : Split → Option (Nat × Nat)
  | .two a b => do
    let x ← a.id L nV
    let y ← b.id L nV
    some (x, y)
  | .zero l => do
    let x ← l.head?
    let y ← l.getLast?
    some (x.tail, y.tip)
  | .isPos _ => none

def Split.outline : Split → Bool
  | .isPos _ => false
  | _ => true

def Split.isTwo : Split → Bool
  | .two _ _ => true
  | _ => false

def Split.kind : Split → Poly.Kind
  | .two _ _ => .cut
  | .zero _ => .zero
  | .isPos true => .pos
  | .isPos false => .neg

/-- What the loop over the outlines carries along: the mesh, `zero_ori_halfedges`, and for each face that is cut whether its new part is positive. -/
structure Cut where
  mesh : PMesh
  zs : List HE
  newPos : List (Nat × Bool)

/-- The body of the loop over the outlines (lines 404-497), the mesh part. The half-edge `new_hid` that `split_face` returns is the first one of the
new face. -/
def cutPiece (sgn : Nat → SignType) (L : List Nat) (nV : Nat) (a : Cut) (p : Nat × Split) : Option Cut :=
  match p.2 with
  | .two x y => do
    let va ← x.id L nV
    let vb ← y.id L nV
    let m ← a.mesh.splitFace p.1 va vb
    let n ← m.faces.getLast?
    match hes n with
    | h0 :: h1 :: _ => some { mesh := m, zs := a.zs ++ [if h0.tail = va then h0 else h0.rev], newPos := a.newPos ++ [(p.1, decide (sgn h1.tip = 1))] }
    | _ => none
  | .zero l => some { a with zs := a.zs ++ l }
  | .isPos _ => some a

/-- The signs after the edges have been split: `vert_orientations[tid].insert(vid, Orientation::Zero)` (line 390). -/
def newSgn (sgn : Nat → SignType) (nV v : Nat) : SignType := if v < nV then sgn v else 0

/-- The results of `split_face_verts` for the faces of the cell (lines 322-334). -/
def cellSplits (sgn : Nat → SignType) (m : PMesh) (cid : Nat) (cf : List (Nat × Poly.Face × Cycle)) : List (Nat × Split) :=
  cf.map fun x => (x.1, splitFaceVerts sgn m.twin (decide (x.2.1.cells.1 = cid)) x.2.2)

/-- `zero_outlines` (lines 317-350): the pieces in which the plane meets the faces of the cell, in the order of `make_loop`. -/
def sectionPieces (sgn : Nat → SignType) (s : St) (cid : Nat) (C : Poly.Cell) : Option (List (Nat × Split)) := do
  let cf ← cellFaces s C
  let ps := (cellSplits sgn s.mesh cid cf).filter fun p => p.2.outline
  let keys ← ps.mapM fun p => p.2.key (crossing sgn (cf.flatMap fun x => hes x.2.2)) s.mesh.nV
  let ids ← Poly.loopFrom keys keys.length 0 [0]
  ids.mapM fun i => ps[i]?

/-- The tests for the complex. -/
def tests (G : Oracle) (proper : Bool) (sp ord : List (Nat × Split)) (newPos : List (Nat × Bool)) : Poly.Tests where
  coplanar := G.coplanar
  proper := proper
  kind f := ((sp.lookup f).getD (.isPos true)).kind
  order l := if l = (sp.filter fun p => p.2.isTwo).map Prod.fst then (ord.filter fun p => p.2.isTwo).map Prod.fst else l
  meets := G.meets
  newPos f := (newPos.lookup f).getD false
  hasPos := G.hasPos
  hasNeg := G.hasNeg
  inPos := G.inPos
  inNeg := G.inNeg

/-- `split_cell` (lines 252-576). `sgn` are the orientations of the vertices of the cell with respect to the plane of the triangle. -/
def splitCell (G : Oracle) (sgn : Nat → SignType) (keep : Nat → Bool) (nOri : Nat) (s : St) (cid : Nat) : Option St := do
  let C ← s.cx.cells[cid]?
  let cf ← cellFaces s C
  let verts := cf.flatMap fun x => x.2.2.map Prod.fst
  let proper := verts.any (fun v => sgn v = 1) && verts.any (fun v => sgn v = -1)
  let L := crossing sgn (cf.flatMap fun x => hes x.2.2)
  let sp := cellSplits sgn s.mesh cid cf
  let ps := sp.filter fun p => p.2.outline
  let keys ← ps.mapM fun p => p.2.key L s.mesh.nV
  let ids ← Poly.loopFrom keys keys.length 0 [0]
  let ord ← ids.mapM fun i => ps[i]?
  let pivot ← C.inner.getLast?
  if ((C.inner.filter (G.coplanar pivot)).filter G.meets).isEmpty then
    let cx ← Poly.splitCell (tests G proper sp ord []) nOri s.cx cid
    some { s with cx := cx }
  else
    let m ← L.foldlM (fun m e => m.splitEdge (keep e) e) s.mesh
    let a ← ord.foldlM (cutPiece (newSgn sgn s.mesh.nV) L s.mesh.nV) { mesh := m, zs := [], newPos := [] }
    let cx ← Poly.splitCell (tests G proper sp ord a.newPos) nOri s.cx cid
    some { cx := cx, mesh := a.mesh.addFace a.zs }

/-! ### Specification -/

/-- A face with cells `p` as part of the boundary of cell `k`: `1` if it is the first cell of the face, `-1` if it is the second. -/
def sg (p : Nat × Option Nat) (k : Nat) : Int := (if p.1 = k then 1 else 0) - (if p.2 = some k then 1 else 0)

/-- What face `i` contributes to the boundary of cell `k`. -/
def term (cl : List (Nat × Option Nat)) (fs : List Cycle) (k e u i : Nat) : Int :=
  match cl[i]?, fs[i]? with
  | some p, some c => sg p k * bd (hes c) e u
  | _, _ => 0

/-- A mesh whose faces bound the cells `cl`: every edge has two different ends and occurs in both directions, and **the faces of each cell, with their
signs, form a closed surface**: on every edge and at each of its ends the half-edges of the cell cancel. -/
structure MGood (cl : List (Nat × Option Nat)) (m : PMesh) : Prop where
  len : cl.length = m.faces.length
  lt : ∀ c ∈ m.faces, ∀ x ∈ c, x.1 < m.nV ∧ x.2 < m.nE
  ends : ∀ h ∈ m.all, ∀ k ∈ m.all, h.edge = k.edge → k = h ∨ k = h.rev
  sides : ∀ h ∈ m.all, h.rev ∈ m.all
  proper : ∀ h ∈ m.all, h.tail ≠ h.tip
  closed : ∀ k e u, ((Finset.range m.faces.length).sum fun i => term cl m.faces k e u i) = 0

/-- The complex is linked and its cells are closed. -/
structure Good (s : St) : Prop where
  linked : Poly.Linked s.cx
  mesh : MGood (s.cx.faces.map Poly.Face.cells) s.mesh

/-- The pieces form one closed curve: in some order each begins where the one before ends, and no two begin at the same vertex. -/
def OneLoop (keys : List (Nat × Nat)) : Prop :=
  (keys.map Prod.fst).Nodup ∧ ∃ l : List (Nat × Nat), l.Perm keys ∧ l ≠ [] ∧ l.IsChain (fun p q => p.2 = q.1) ∧ l.getLast?.map Prod.snd = l.head?.map Prod.fst

/-- The faces of a cell have no vertex on side `s`. -/
def OnSide (sgn : Nat → SignType) (m : PMesh) (C : Poly.Cell) (s : SignType) : Prop := ∀ f ∈ C.faces, ∃ c, m.faces[f]? = some c ∧ ∀ x ∈ c, sgn x.1 ≠ s

/-- What geometry has to provide for one call: the plane meets every face of the cell like a convex polygon that it does not contain, it has vertices of the
cell on both sides, and the pieces in which it meets the faces form one closed curve. -/
structure CutOk (sgn : Nat → SignType) (s : St) (cid : Nat) (C : Poly.Cell) : Prop where
  convex : ∀ f ∈ C.faces, ∀ c, s.mesh.faces[f]? = some c → Convex sgn c
  pos : ∃ f ∈ C.faces, ∃ c, s.mesh.faces[f]? = some c ∧ ∃ x ∈ c, sgn x.1 = 1
  neg : ∃ f ∈ C.faces, ∃ c, s.mesh.faces[f]? = some c ∧ ∃ x ∈ c, sgn x.1 = -1
  loop : ∀ cf keys, cellFaces s C = some cf →
    ((cellSplits sgn s.mesh cid cf).filter fun p => p.2.outline).mapM (fun p => p.2.key (crossing sgn (cf.flatMap fun x => hes x.2.2)) s.mesh.nV) = some keys → OneLoop keys

end Verif.Bsp
