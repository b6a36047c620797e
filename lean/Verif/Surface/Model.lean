import Mathlib.Data.List.Rotate
/-!
# Model of `src/mesh/surface_mesh.rs`, `src/mesh/mesh.rs` and of the iterators in `src/mesh/element`

Ids are natural numbers, `INVALID_IND` is `none`; the arrays are lists. `none` as the result of a function is a panic (or a loop
that does not end). Reading an invalid id and using it as an index is a panic at the time of reading.
-/
namespace Verif.Surface

/-- An array of ids. -/
abbrev Ids := List (Option Nat)

/-- `a[i]`, a valid id. -/
def get (a : Ids) (i : Nat) : Option Nat := a[i]?.join

/-- `a[i] = x`. -/
def put (a : Ids) (i : Nat) (x : Nat) : Option Ids := if i < a.length then some (a.set i (some x)) else none

/-- `SurfaceMesh` (`surface_mesh.rs` lines 11-22) with `MeshCoreData` (`mesh_core_data.rs` lines 3-12). -/
structure Mesh where
  vHe : Ids
  heNext : Ids
  heVertex : Ids
  fHe : Ids
  nV : Nat
  nH : Nat
  nF : Nat
  nE : Nat
  heEdge : Ids
  heFace : Ids
  vIn : Ids
  vOut : Ids
  sib : Ids
  eHe : Ids
deriving DecidableEq, Repr

/-- `new_vertices` (lines 173-181). -/
def newVertices (m : Mesh) (n : Nat) : Nat × Mesh :=
  (m.vHe.length, { m with vHe := m.vHe ++ List.replicate n none, nV := m.nV + n })

/-- `new_halfedges` (lines 183-202). -/
def newHalfedges (m : Mesh) (n : Nat) : Nat × Mesh :=
  (m.heNext.length, { m with
    heNext := m.heNext ++ List.replicate n none, heVertex := m.heVertex ++ List.replicate n none,
    heFace := m.heFace ++ List.replicate n none, sib := m.sib ++ List.replicate n none,
    heEdge := m.heEdge ++ List.replicate n none, vIn := m.vIn ++ List.replicate n none,
    vOut := m.vOut ++ List.replicate n none, nH := m.nH + n })

/-- `new_edges` (lines 205-212). -/
def newEdges (m : Mesh) (n : Nat) : Nat × Mesh :=
  (m.eHe.length, { m with eHe := m.eHe ++ List.replicate n none, nE := m.nE + n })

/-- `new_faces` (lines 215-223). -/
def newFaces (m : Mesh) (n : Nat) : Nat × Mesh :=
  (m.fHe.length, { m with fHe := m.fHe ++ List.replicate n none, nF := m.nF + n })

/-! ### `Mesh` (`mesh.rs`) -/

/-- `he_tip_vertex` (`mesh.rs` lines 112-114). -/
def tip (m : Mesh) (h : Nat) : Option Nat := do get m.heVertex (← get m.heNext h)

/-- The loop of an iterator that starts at `curr`, follows `a` and ends when it is back at `start`. -/
def ringLoop (a : Ids) (start : Nat) : Nat → Nat → Option (List Nat)
  | 0, _ => none
  | fuel + 1, curr => do
    let n ← get a curr
    if n = start then pure [curr] else pure (curr :: (← ringLoop a start fuel n))

/-- All items of `FHIter` (`face.rs` lines 97-147), `EHIter` (`edge.rs` lines 92-142), `VIHIter`, `VOHIter` (`vertex.rs` lines
263-367): the start, then the successors until the start comes again. -/
def ringIter (a : Ids) (start : Nat) : Option (List Nat) := ringLoop a start (a.length + 1) start

/-- `he_prev` (`surface_mesh.rs` lines 510-519). -/
def prevLoop (m : Mesh) (hid : Nat) : Nat → Nat → Option Nat
  | 0, _ => none
  | fuel + 1, curr => do
    let n ← get m.heNext curr
    if n = hid then pure curr else prevLoop m hid fuel n

@[inherit_doc prevLoop] def hePrev (m : Mesh) (hid : Nat) : Option Nat := prevLoop m hid (m.heNext.length + 1) hid

/-- `he_twin` (lines 521-535). -/
def twinLoop (m : Mesh) (hid : Nat) : Nat → Nat → Option Nat
  | 0, _ => none
  | fuel + 1, curr => do
    let n ← get m.sib curr
    if n = hid then pure hid
    else if (← get m.heVertex curr) ≠ (← get m.heVertex n) then pure n
    else twinLoop m hid fuel n

@[inherit_doc twinLoop] def heTwin (m : Mesh) (hid : Nat) : Option Nat := twinLoop m hid (m.sib.length + 1) hid

/-- `face(fid).halfedges()`, `face(fid).vertices()` (`face.rs` lines 25-31, 100-200). -/
def faceHalfedges (m : Mesh) (fid : Nat) : Option (List Nat) := do ringIter m.heNext (← get m.fHe fid)
@[inherit_doc faceHalfedges] def faceVertices (m : Mesh) (fid : Nat) : Option (List Nat) := do
  (← faceHalfedges m fid).mapM (get m.heVertex)

/-- `edge(eid).halfedges()` (`edge.rs` lines 87-142). -/
def edgeHalfedges (m : Mesh) (eid : Nat) : Option (List Nat) := do ringIter m.sib (← get m.eHe eid)

/-- `vertex(vid).outgoing_halfedges()` (`vertex.rs` lines 319-367). -/
def outgoing (m : Mesh) (vid : Nat) : Option (List Nat) := do ringIter m.vOut (← get m.vHe vid)

/-- `vertex(vid).incoming_halfedges()` (`vertex.rs` lines 266-316). -/
def incoming (m : Mesh) (vid : Nat) : Option (List Nat) := do ringIter m.vIn (← hePrev m (← get m.vHe vid))

/-- The first valid element not before `id` (`while !is_end() && !valid() { next }` in `VertexIter::new`, and the loop of
`iter_next`, `element/mod.rs` lines 48-60); `fuel` is the number of remaining elements. -/
def skip (valid : Nat → Bool) : Nat → Nat → Nat
  | 0, id => id
  | fuel + 1, id => if valid id then id else skip valid fuel (id + 1)

/-- All items of the iterators over elements. -/
def collect (valid : Nat → Bool) (n : Nat) : Nat → Nat → List Nat
  | 0, _ => []
  | fuel + 1, id => if id = n then [] else id :: collect valid n fuel (skip valid (n - (id + 1)) (id + 1))

/-- `vertices()`, `halfedges()`, `edges()`, `faces()` (`mesh.rs` lines 81-98, `VertexIter`, ...). -/
def elements (a : Ids) : List Nat :=
  let valid := fun i => (get a i).isSome
  collect valid a.length (a.length + 1) (skip valid a.length 0)

/-! ### `SurfaceMesh::new` -/

/-- `circular_tuple_windows()`. -/
def windows (l : List Nat) : List (Nat × Nat) := l.zip (l.rotate 1)

/-- The state of the loop over the corners of a polygon. -/
structure Corner where
  m : Mesh
  first : Option Nat
  prev : Option Nat

/-- The loop over the corners (lines 55-69). -/
def addCorners (fid : Nat) : List Nat → Nat → Corner → Option Corner
  | [], _, s => some s
  | tail :: rest, i, s => do
    let (hid, m) := newHalfedges s.m 1
    let heVertex ← put m.heVertex hid tail
    let heFace ← put m.heFace hid fid
    let vHe ← put m.vHe tail hid
    let m := { m with heVertex := heVertex, heFace := heFace, vHe := vHe }
    if i = 0 then
      let fHe ← put m.fHe fid hid
      addCorners fid rest (i + 1) { m := { m with fHe := fHe }, first := some hid, prev := some hid }
    else
      let heNext ← put m.heNext (← s.prev) hid
      addCorners fid rest (i + 1) { m := { m with heNext := heNext }, first := s.first, prev := some hid }

/-- The body of the loop over the polygons (lines 51-71). -/
def addPolygon (m : Mesh) (fid : Nat) (polygon : List Nat) : Option Mesh := do
  let s ← addCorners fid polygon 0 { m := m, first := none, prev := none }
  let heNext ← put s.m.heNext (← s.prev) (← s.first)
  pure { s.m with heNext := heNext }

/-- Lines 50-72. -/
def addPolygons : List (List Nat) → Nat → Mesh → Option Mesh
  | [], _, m => some m
  | p :: ps, fid, m => do addPolygons ps (fid + 1) (← addPolygon m fid p)

/-- A hash map: the keys in the order of insertion, and the values. -/
structure History where
  keys : List (Nat × Nat)
  val : Nat × Nat → Option Nat

/-- The values. -/
def History.values (h : History) : List Nat := h.keys.filterMap h.val

/-- The key of an edge (line 79). -/
def edgeKey (tail tip : Nat) : Nat × Nat := if tail < tip then (tail, tip) else (tip, tail)

/-- The loop that builds the edges (lines 76-96), over all pairs of consecutive vertices. -/
def buildEdges : List (Nat × Nat) → Nat → Mesh → History → Option (Mesh × History)
  | [], _, m, hist => some (m, hist)
  | (tail, tp) :: rest, hid, m, hist => do
    let key := edgeKey tail tp
    match hist.val key with
    | some prev =>
      let sib ← put m.sib hid prev
      let eid ← get m.heEdge prev
      let heEdge ← put m.heEdge hid eid
      buildEdges rest (hid + 1) { m with sib := sib, heEdge := heEdge }
        { hist with val := fun k => if k = key then some hid else hist.val k }
    | none =>
      let (e, m) := newEdges m 1
      let heEdge ← put m.heEdge hid e
      let sib ← if hid < m.sib.length then some (m.sib.set hid none) else none
      let eHe ← put m.eHe e hid
      buildEdges rest (hid + 1) { m with sib := sib, heEdge := heEdge, eHe := eHe }
        { keys := hist.keys ++ [key], val := fun k => if k = key then some hid else hist.val k }

/-- `while he_sibling_arr[curr_he].valid()` (lines 107-109). -/
def lastSibling (a : Ids) : Nat → Nat → Option Nat
  | 0, _ => none
  | fuel + 1, curr => do
    match ← a[curr]? with
    | some n => lastSibling a fuel n
    | none => pure curr

/-- The loop that closes the rings of siblings (lines 99-111). -/
def closeRings : List Nat → Ids → Option Ids
  | [], a => some a
  | last :: rest, a => do
    match ← a[last]? with
    | none => closeRings rest (← put a last last)
    | some _ => closeRings rest (← put a (← lastSibling a (a.length + 1) last) last)

/-- `he.to()` or `he.from()`. -/
def endOf (m : Mesh) (inc : Bool) (h : Nat) : Option Nat := if inc then tip m h else get m.heVertex h

/-- The degrees (lines 145-149). -/
def degrees (key : Nat → Option Nat) : List Nat → List Nat → Option (List Nat)
  | [], d => some d
  | h :: hs, d => do
    let v ← key h
    let c ← d[v]?
    degrees key hs (d.set v (c + 1))

/-- The running sums (lines 150-154), from `s` on. -/
def sums : Nat → List Nat → List Nat
  | _, [] => []
  | s, c :: cs => (s + c) :: sums (s + c) cs

/-- The loop that puts the halfedges at their places (lines 157-162). -/
def place (key : Nat → Option Nat) : List Nat → List Nat → List Nat → Option (List Nat)
  | [], _, out => some out
  | h :: hs, pos, out => do
    let v ← key h
    let p ← pos[v]?
    if p < out.length then place key hs (pos.set v (p + 1)) (out.set p h) else none

/-- `vertex_cycle` (lines 145-165). -/
def vertexCycle (m : Mesh) (inc : Bool) : Option (List Nat × List Nat) := do
  let hs := elements m.heVertex
  let d ← degrees (endOf m inc) hs (List.replicate m.vHe.length 0)
  let sep := 0 :: sums 0 d
  let out ← place (endOf m inc) hs sep (List.replicate m.heNext.length 0)
  pure (out, sep)

/-- Linking the halfedges `i` to `fin` of a vertex (e.g. lines 124-131). -/
def linkLoop (vh : List Nat) (start len : Nat) : Nat → Nat → Ids → Option Ids
  | 0, _, a => some a
  | fuel + 1, i, a => do
    let ha ← vh[i]?
    let hb ← vh[start + (i - start + 1) % len]?
    linkLoop vh start len fuel (i + 1) (← put a ha hb)

/-- Lines 123-131 and 132-140. -/
def linkVertex (vh sep : List Nat) (v : Nat) (a : Ids) : Option Ids := do
  let start ← sep[v]?
  let fin ← sep[v + 1]?
  linkLoop vh start (fin - start) (fin - start) start a

/-- The loop over the vertices (lines 118-141). -/
def linkVertices (vhIn sepIn vhOut sepOut : List Nat) : List Nat → Mesh → Option Mesh
  | [], m => some m
  | v :: vs, m => do
    match ← m.vHe[v]? with
    | none => linkVertices vhIn sepIn vhOut sepOut vs m
    | some _ =>
      let vIn ← linkVertex vhIn sepIn v m.vIn
      let vOut ← linkVertex vhOut sepOut v m.vOut
      linkVertices vhIn sepIn vhOut sepOut vs { m with vIn := vIn, vOut := vOut }

/-- `polygons.iter().map(|polygon| polygon.iter().max().unwrap()).max().unwrap()` (lines 31-36). -/
def maxIndex (polygons : List (List Nat)) : Option Nat := do (← polygons.mapM List.max?).max?

/-- `MeshCoreData::new` (`mesh_core_data.rs` lines 14-26) and lines 38-48. -/
def emptyMesh (nV nF : Nat) : Mesh :=
  { vHe := List.replicate nV none, heNext := [], heVertex := [], fHe := List.replicate nF none, nV := nV, nH := 0, nF := nF, nE := 0,
    heEdge := [], heFace := [], vIn := [], vOut := [], sib := [], eHe := [] }

/-- `SurfaceMesh::new` (lines 25-141). `order` is the order in which the hash map returns its values (line 102). -/
def new (order : List Nat → List Nat) (polygons : List (List Nat)) : Option Mesh := do
  let nV := (← maxIndex polygons) + 1
  let m ← addPolygons polygons 0 (emptyMesh nV polygons.length)
  let (m, hist) ← buildEdges (polygons.flatMap windows) 0 m { keys := [], val := fun _ => none }
  let sib ← closeRings (order hist.values) m.sib
  let m := { m with sib := sib }
  let (vhIn, sepIn) ← vertexCycle m true
  let (vhOut, sepOut) ← vertexCycle m false
  linkVertices vhIn sepIn vhOut sepOut (List.range m.nV) m

/-! ### Changes -/

/-- `for (&ha, &hb) in l.iter().circular_tuple_windows() { a[ha] = hb; }`. -/
def ringSet (a : Ids) (l : List Nat) : Option Ids := (windows l).foldlM (fun a w => put a w.1 w.2) a

/-- `for &h in l { a[h] = x; }`. -/
def setAll (a : Ids) (l : List Nat) (x : Nat) : Option Ids := l.foldlM (fun a h => put a h x) a

/-- `insert_halfedge` (lines 478-482). -/
def insertHe (a : Ids) (start new : Nat) : Option Ids := do
  let nn ← get a start
  put (← put a start new) new nn

/-- `for (&prev, &next) in olds.iter().zip(&news) { insert_halfedge(a, prev, next) }`. -/
def insertAll (a : Ids) (l : List (Nat × Nat)) : Option Ids := l.foldlM (fun a w => insertHe a w.1 w.2) a

/-- `to_new_halfedge` (a closure of `split_edge`) on all items: the new ids, and the positions. The map from halfedges to positions is the
search in the list of halfedges. -/
def toNew (es nh : List Nat) (l : List Nat) : List Nat × List Nat :=
  (l.map fun h => match es.idxOf? h with
    | some p => nh.getD p 0
    | none => h,
   l.filterMap (es.idxOf? ·))

/-- `split_edge` (lines 225-332). The arrays that do not depend on each other are written one by one and put into the mesh at the end. -/
def splitEdge (m : Mesh) (eid : Nat) : Option (Nat × Mesh) := do
  let es ← edgeHalfedges m eid
  let h0 ← es[0]?
  let va ← get m.heVertex h0
  let vb ← tip m h0
  let (newV, m) := newVertices m 1
  let (s, m) := newHalfedges m es.length
  let nh := List.range' s es.length
  let n0 ← nh[0]?
  let vHe ← put m.vHe newV n0
  let heVertex ← setAll m.heVertex nh newV
  let m := { m with vHe := vHe, heVertex := heVertex }
  let (vaIn, pa) := toNew es nh (← incoming m va)
  let (vbIn, pb) := toNew es nh (← incoming m vb)
  let vIn ← ringSet m.vIn vaIn
  let vIn ← ringSet vIn vbIn
  let vIn ← ringSet vIn es
  let vOut ← ringSet m.vOut nh
  let ea := (← pb.mapM (es[·]?)) ++ (← pa.mapM (nh[·]?))
  let eb := (← pa.mapM (es[·]?)) ++ (← pb.mapM (nh[·]?))
  let sib ← ringSet m.sib ea
  let sib ← ringSet sib eb
  let heNext ← insertAll m.heNext (es.zip nh)
  let heEdge ← setAll m.heEdge ea eid
  let (newE, m) := newEdges m 1
  let heEdge ← setAll heEdge eb newE
  let eHe ← put m.eHe eid (← ea[0]?)
  let eHe ← put eHe newE (← eb[0]?)
  let heFace ← (es.zip nh).foldlM (fun a w => do put a w.2 (← get a w.1)) m.heFace
  pure (newV, { m with vIn := vIn, vOut := vOut, sib := sib, heNext := heNext, heEdge := heEdge, eHe := eHe, heFace := heFace })

/-- The search for the two vertices (lines 344-355): the first two positions with one of the two vertices. -/
def findTwo (m : Mesh) (va vb : Nat) : List Nat → Nat → Option Nat → Option (Option Nat × Option Nat)
  | [], _, p1 => some (p1, none)
  | h :: hs, i, p1 => do
    let v ← get m.heVertex h
    if v = va ∨ v = vb then
      match p1 with
      | none => findTwo m va vb hs (i + 1) (some i)
      | some p => pure (some p, some i)
    else findTwo m va vb hs (i + 1) p1

/-- The end of `split_face` (lines 370-426), when the halfedges from `va` to `vb` and those from `vb` to `va` are known. The arrays are
written one by one and put into the mesh at the end. -/
def cutFace (m : Mesh) (fid va vb : Nat) (first second : List Nat) : Option (Nat × Mesh) := do
  let (fst, m) := newHalfedges m 2
  let snd := fst + 1
  let heVertex ← put (← put m.heVertex fst vb) snd va
  let sib ← put (← put m.sib fst snd) snd fst
  let sl ← second.getLast?
  let fl ← first.getLast?
  let s0 ← second[0]?
  let f0 ← first[0]?
  let vIn ← insertHe m.vIn sl fst
  let vOut ← insertHe m.vOut s0 fst
  let vIn ← insertHe vIn fl snd
  let vOut ← insertHe vOut f0 snd
  let heNext ← put (← put (← put (← put m.heNext fst f0) fl fst) snd s0) sl snd
  let (newE, m) := newEdges m 1
  let heEdge ← put (← put m.heEdge fst newE) snd newE
  let (newF, m) := newFaces m 1
  let heFace ← setAll (← put (← put m.heFace fst fid) snd newF) second newF
  let eHe ← put m.eHe newE fst
  let fHe ← put (← put m.fHe fid fst) newF snd
  pure (snd, { m with
    heVertex := heVertex, sib := sib, vIn := vIn, vOut := vOut, heNext := heNext, heEdge := heEdge, heFace := heFace, eHe := eHe, fHe := fHe })

/-- `split_face` (lines 334-427). -/
def splitFace (m : Mesh) (fid va vb : Nat) : Option (Nat × Mesh) := do
  let fh ← faceHalfedges m fid
  let (p1, p2) ← findTwo m va vb fh 0 none
  let pos1 ← p1
  let pos2 ← p2
  let first := (fh.drop pos1).take (pos2 - pos1)
  let second := fh.drop pos2 ++ fh.take pos1
  if (← get m.heVertex (← fh[pos1]?)) = va then cutFace m fid va vb first second else cutFace m fid vb va first second

/-- The loop of `add_face_by_halfedges` (lines 440-455). -/
def addHalfedges : List (Nat × Nat) → Mesh → Option Mesh
  | [], m => some m
  | (old, nw) :: rest, m => do
    let m := { m with heVertex := ← put m.heVertex nw (← get m.heVertex old) }
    let m := { m with sib := ← insertHe m.sib old nw }
    let m := { m with vIn := ← insertHe m.vIn old nw }
    let m := { m with vOut := ← insertHe m.vOut old nw }
    let m := { m with heEdge := ← put m.heEdge nw (← get m.heEdge old) }
    addHalfedges rest m

/-- `add_face_by_halfedges` (lines 429-469). -/
def addFace (m : Mesh) (hs : List Nat) : Option (Nat × Mesh) := do
  let (s, m) := newHalfedges m hs.length
  let nh := List.range' s hs.length
  let m ← addHalfedges (hs.zip nh) m
  let m := { m with heNext := ← ringSet m.heNext nh }
  let (newF, m) := newFaces m 1
  let m := { m with heFace := ← setAll m.heFace nh newF }
  let m := { m with fHe := ← put m.fHe newF (← nh[0]?) }
  pure (newF, m)

end Verif.Surface
