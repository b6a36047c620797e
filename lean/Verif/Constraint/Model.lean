import Verif.Poly.FaceSearch
import Verif.Tet.LocateModel
import Verif.Geom.Model
/-!
# Model of `insert_constraints` (`src/polygonlization/conforming_mesh.rs` lines 132-347, 410-1007)

* A constraint is a triple of vertex indices (`chunks(3)`, line 141, of an array whose length is a multiple of three).
* `visited` (lines 163, 151) is the list of the marked tetrahedra instead of an array of flags.
* `tet_marks` (lines 133-139) is the list of the pushes `(k, tid, cid)` in the order in which they happen: `tet_marks[k][tid]` is the
  list of the `cid` of the pushes with this `k` and `tid`.
* Coordinates live in an ordered ring and the predicates are exact (`Verif.Geom`); `none` is a panic (or fuel used up in a loop).
-/
namespace Verif.Constraint
open InSphere (Pt Ori orient3d doubleToSign)
open Tet (Mesh TriFace face vpivot orientIdx)

variable {K : Type} [CommRing K] [LinearOrder K]

/-- `Iterator::any` with a predicate that may panic. -/
def anyM {α : Type} (f : α → Option Bool) : List α → Option Bool
  | [] => some false
  | a :: l => do if ← f a then return true else anyM f l

/-- A loop that returns the first answer of its body. -/
def firstM {α β : Type} (f : α → Option (Option β)) : List α → Option (Option β)
  | [] => some none
  | a :: l => do
    match ← f a with
    | some b => return some b
    | none => firstM f l

/-! ### Wrappers (lines 168-347) -/

/-- `vert_inner_segment_cross` (lines 168-183). -/
def vSegCross0 (pts : List (Pt K)) (u1 u2 v1 v2 : Nat) : Option Bool := do
  return Geom.innerSegmentsCross (← pts[u1]?) (← pts[u2]?) (← pts[v1]?) (← pts[v2]?)

/-- `vert_inner_segment_cross_inner_triangle` (lines 186-206). -/
def vSegInnerTri (pts : List (Pt K)) (u1 u2 v1 v2 v3 : Nat) : Option Bool :=
  if u1 = v1 ∨ u1 = v2 ∨ u1 = v3 ∨ u2 = v1 ∨ u2 = v2 ∨ u2 = v3 then some false
  else do return Geom.innerSegmentCrossInnerTriangle (← pts[u1]?) (← pts[u2]?) (← pts[v1]?) (← pts[v2]?) (← pts[v3]?)

/-- `vert_inner_segment_cross_triangle` (lines 209-228). -/
def vSegTri (pts : List (Pt K)) (u1 u2 : Nat) (c : Nat × Nat × Nat) : Option Bool :=
  if u1 = c.1 ∨ u1 = c.2.1 ∨ u1 = c.2.2 ∨ u2 = c.1 ∨ u2 = c.2.1 ∨ u2 = c.2.2 then some false
  else do return Geom.innerSegmentCrossTriangle (← pts[u1]?) (← pts[u2]?) (← pts[c.1]?) (← pts[c.2.1]?) (← pts[c.2.2]?)

/-- `vert_inner_segments_cross` (lines 231-249). -/
def vSegCross (pts : List (Pt K)) (u1 u2 v1 v2 : Nat) : Option Bool :=
  if u1 = v1 ∨ u1 = v2 ∨ u2 = v1 ∨ u2 = v2 then some false
  else do return Geom.innerSegmentsCross (← pts[u1]?) (← pts[u2]?) (← pts[v1]?) (← pts[v2]?)

/-- `verts_in_same_half_space` (lines 252-263). -/
def vSameSpace (pts : List (Pt K)) (u1 u2 v1 v2 v3 : Nat) : Option Bool := do
  return doubleToSign (← orientIdx pts u1 v1 v2 v3) == doubleToSign (← orientIdx pts u2 v1 v2 v3)

/-- `verts_same_half_plane` (lines 266-284). -/
def vSamePlane (pts : List (Pt K)) (u1 u2 v1 v2 : Nat) : Option Bool :=
  if u1 = v1 ∨ u1 = v2 ∨ u2 = v1 ∨ u2 = v2 then some false
  else do return Geom.sameHalfPlane (← pts[u1]?) (← pts[u2]?) (← pts[v1]?) (← pts[v2]?)

/-- `vert_point_in_inner_segment` (lines 287-297). -/
def vInInnerSeg (pts : List (Pt K)) (u v1 v2 : Nat) : Option Bool :=
  if u = v1 ∨ u = v2 then some false else do return Geom.pointInInnerSegment (← pts[u]?) (← pts[v1]?) (← pts[v2]?)

/-- `vert_point_in_segment` (lines 299-309). -/
def vInSeg (pts : List (Pt K)) (u v1 v2 : Nat) : Option Bool :=
  if u = v1 ∨ u = v2 then some true else do return Geom.pointInInnerSegment (← pts[u]?) (← pts[v1]?) (← pts[v2]?)

/-- `vert_point_in_inner_triangle` (lines 312-328). -/
def vInInnerTri (pts : List (Pt K)) (p : Nat) (c : Nat × Nat × Nat) : Option Bool :=
  if p = c.1 ∨ p = c.2.1 ∨ p = c.2.2 then some false
  else do return Geom.pointInTriangle (← pts[p]?) (← pts[c.1]?) (← pts[c.2.1]?) (← pts[c.2.2]?)

/-- `vert_point_in_triangle` (lines 331-347). -/
def vInTri (pts : List (Pt K)) (p : Nat) (c : Nat × Nat × Nat) : Option Bool :=
  if p = c.1 ∨ p = c.2.1 ∨ p = c.2.2 then some true
  else do return Geom.pointInTriangle (← pts[p]?) (← pts[c.1]?) (← pts[c.2.1]?) (← pts[c.2.2]?)

/-! ### The walk along the sides (lines 410-637) -/

/-- `struct IntersectInfo` (lines 162-165). -/
structure Info where
  intersected : List Nat
  visited : List Nat

/-- `if !visited[tid] { intersected.push(tid); visited[tid] = true; }` (lines 468-471, 531-534, 609-612). -/
def Info.touch (s : Info) (t : Nat) : Info := if t ∈ s.visited then s else ⟨s.intersected ++ [t], t :: s.visited⟩

/-- The corners of a tetrahedron. -/
def corners (x : Tet.Tet) : List Nat := [x.data 0, x.data 1, x.data 2, x.data 3]

/-- The body of the loop over the star of `va` (lines 474-513). -/
def vertexStep (m : Mesh) (pts : List (Pt K)) (va vb : Nat) (prev : Option Nat) (tid : Nat) : Option (Option (Nat × List Nat)) :=
  if some tid = prev then some none
  else do
    let x ← m.tets[tid]?
    if (x.index vb).isSome then return some (tid, [vb])
    match (corners x).filter (· ≠ va) with
    | o0 :: o1 :: o2 :: rest =>
      if ← vSegInnerTri pts va vb o0 o1 o2 then return some (tid, o0 :: o1 :: o2 :: rest)
      match ← firstM (fun (e : Nat × Nat) => do if ← vSegCross pts va vb e.1 e.2 then return some [e.1, e.2] else return none) [(o0, o1), (o1, o2), (o2, o0)] with
      | some l => return some (tid, l)
      | none =>
        match ← firstM (fun v => do if ← vInInnerSeg pts v va vb then return some [v] else return none) (o0 :: o1 :: o2 :: rest) with
        | some l => return some (tid, l)
        | none => return none
    | _ => none

/-- `vert_on_constraint_side` (lines 458-515). -/
def vertexOnSide (fuel : Nat) (m : Mesh) (pts : List (Pt K)) (va vb : Nat) (prev : Option Nat) (s : Info) : Option (Mesh × Info × Nat × List Nat) := do
  let (m, inc) ← m.incident fuel va
  let s := inc.foldl Info.touch s
  match ← firstM (vertexStep m pts va vb prev) inc with
  | some (tid, l) => return (m, s, tid, l)
  | none => none

/-- The handles met when turning around the edge of `edge`, from `spin` on and until its tetrahedron comes up again
(the loops of lines 526-537 and 540-596), on fuel. -/
def edgeRing (m : Mesh) (start : Nat) : Nat → TriFace → Option (List TriFace)
  | 0, _ => none
  | fuel + 1, spin => if spin.tet = start then some [] else do return spin :: (← edgeRing m start fuel (← m.fnext spin))

/-- The body of the second loop of `edge_cross_constraint_side` (lines 543-594). -/
def edgeStep (m : Mesh) (pts : List (Pt K)) (va vb ea eb prev : Nat) (spin : TriFace) : Option (Option (Nat × List Nat)) := do
  let tid := spin.tet
  if tid ≠ prev ∧ ¬ (← m.isHull tid) = true then
    let vc ← m.apex spin
    let vd ← m.oppo spin
    if vc = eb ∨ vd = eb then return some (tid, [eb])
    if (← vSegInnerTri pts ea eb vc vd va) && (← vSameSpace pts vb ea vc vd va) then return some (tid, [vc, vd, va])
    if (← vSegInnerTri pts ea eb vc vd vb) && (← vSameSpace pts va ea vc vd vb) then return some (tid, [vc, vd, vb])
    if (← vSegCross pts ea eb vc vd) && (← vSameSpace pts ea va vc vd vb) then return some (tid, [vc, vd])
    if (← vInInnerSeg pts vc ea eb) && (← vSamePlane pts vc eb va vb) then return some (tid, [vc])
    if (← vInInnerSeg pts vd ea eb) && (← vSamePlane pts vd eb va vb) then return some (tid, [vd])
    match ← firstM (fun (e : Nat × Nat) => do
        if (← vSegCross pts ea eb e.1 e.2) && (← vSamePlane pts e.2 eb va vb) then return some [e.1, e.2] else return none)
        [(va, vc), (va, vd), (vb, vc), (vb, vd)] with
    | some l => return some (tid, l)
    | none => return none
  else return none

/-- The first loop of `edge_cross_constraint_side` (lines 526-537). -/
def touchRing (m : Mesh) : List TriFace → Info → Option Info
  | [], s => some s
  | h :: l, s => do if ← m.isHull h.tet then touchRing m l s else touchRing m l (s.touch h.tet)

/-- `edge_cross_constraint_side` (lines 517-599). -/
def edgeCross (fuel : Nat) (m : Mesh) (pts : List (Pt K)) (edge : TriFace) (ea eb prev : Nat) (s : Info) : Option (Info × Nat × List Nat) := do
  let ring ← edgeRing m edge.tet fuel (← m.fnext edge)
  let s ← touchRing m ring s
  let va ← m.org edge
  let vb ← m.dest edge
  match ← firstM (edgeStep m pts va vb ea eb prev) ring with
  | some (tid, l) => return (s, tid, l)
  | none => none

/-- `triangle_pierced_by_constraint_side` (lines 600-637). After three `enext_self` the handle is the one given. -/
def facePierced (m : Mesh) (pts : List (Pt K)) (tri : TriFace) (ea eb : Nat) (s : Info) : Option (Info × Nat × List Nat) := do
  let next ← (← m.tets[tri.tet]?).nei (face tri.ver)
  let s := s.touch next.tet
  let o ← m.oppo next
  if o = eb then return (s, next.tet, [eb])
  let v0 ← m.org tri
  let v1 ← m.dest tri
  let v2 ← m.apex tri
  match ← firstM (fun (e : Nat × Nat) => do if ← vSegInnerTri pts ea eb e.1 e.2 o then return some [e.1, e.2, o] else return none)
      [(v0, v1), (v1, v2), (v2, v0)] with
  | some l => return (s, next.tet, l)
  | none =>
    match ← firstM (fun v => do if ← vSegCross pts ea eb v o then return some [v, o] else return none) [v0, v1, v2] with
    | some l => return (s, next.tet, l)
    | none => return (s, next.tet, [o])

/-- `edge.eprev_esym_self()`. -/
def turn (h : TriFace) : TriFace := ⟨h.tet, Tet.eprevEsym h.ver⟩

/-- The loop that looks for an edge (lines 425-433): at most two turns. -/
def findEdge (m : Mesh) (v1 : Nat) : Nat → TriFace → Option TriFace
  | 0, e => some e
  | n + 1, e => do if (← m.dest e) = v1 then return e else findEdge m v1 n (turn e)

/-- The loop that looks for a face (lines 437-448). -/
def findFace (m : Mesh) (v1 v2 : Nat) : Nat → TriFace → Option TriFace
  | 0, e => some e
  | n + 1, e => do
    let dest ← m.dest e
    let apex ← m.apex e
    if (dest = v1 ∧ apex = v2) ∨ (dest = v2 ∧ apex = v1) then return e else findFace m v1 v2 n (turn e)

/-- The `while` loop of `constraint_sides_intersections` (lines 418-454), on fuel. -/
def sideLoop (pts : List (Pt K)) (va vb bound : Nat) : Nat → Mesh → Info → Nat → List Nat → Option (Mesh × Info)
  | 0, _, _, _, _ => none
  | fuel + 1, m, s, tid, l => do
    if (← l[0]?) = vb then return (m, s)
    match l with
    | [v] =>
      let (m, s, tid, l) ← vertexOnSide bound m pts v vb (some tid) s
      sideLoop pts va vb bound fuel m s tid l
    | [v0, v1] =>
      let edge ← findEdge m v1 2 ⟨tid, vpivot (← (← m.tets[tid]?).index v0)⟩
      let (s, tid, l) ← edgeCross bound m pts edge va vb tid s
      sideLoop pts va vb bound fuel m s tid l
    | [v0, v1, v2] =>
      let f ← findFace m v1 v2 2 ⟨tid, vpivot (← (← m.tets[tid]?).index v0)⟩
      let (s, tid, l) ← facePierced m pts f va vb s
      sideLoop pts va vb bound fuel m s tid l
    | _ => none

/-- One side of the constraint (lines 416-455). -/
def side (fuel : Nat) (m : Mesh) (pts : List (Pt K)) (va vb : Nat) (s : Info) : Option (Mesh × Info) := do
  let (m, s, tid, l) ← vertexOnSide fuel m pts va vb none s
  sideLoop pts va vb fuel fuel m s tid l

/-- `constraint_sides_intersections` (lines 411-456). -/
def sides (fuel : Nat) (m : Mesh) (pts : List (Pt K)) (c : Nat × Nat × Nat) (s : Info) : Option (Mesh × Info) := do
  let (m, s) ← side fuel m pts c.1 c.2.1 s
  let (m, s) ← side fuel m pts c.2.1 c.2.2 s
  side fuel m pts c.2.2 c.1 s

/-! ### Classification of the tetrahedra that a side touches (lines 639-923) -/

/-- One push onto `tet_marks[k][tid]`. -/
structure Mark where
  k : Nat
  tid : Nat
  cid : Nat
deriving DecidableEq, Repr

/-- `lookup_ori` (lines 647-657); `vert_oris` has one entry per tetrahedron (line 658) but is indexed by vertices. -/
def lookupOri (m : Mesh) (pts : List (Pt K)) (c : Nat × Nat × Nat) (v : Nat) : Option K :=
  if v < m.tets.length then orientIdx pts c.1 c.2.1 c.2.2 v else none

/-- The corners of a tetrahedron on, over and under the plane of the constraint (lines 664-676). -/
def split (m : Mesh) (pts : List (Pt K)) (c : Nat × Nat × Nat) : List Nat → Option (List Nat × List Nat × List Nat)
  | [] => some ([], [], [])
  | v :: l => do
    let ori ← lookupOri m pts c v
    let (zero, pos, neg) ← split m pts c l
    if ori = 0 then return (v :: zero, pos, neg) else if ori > 0 then return (zero, v :: pos, neg) else return (zero, pos, v :: neg)

/-- The sides of a triangle (`circular_tuple_windows`). -/
def sidesOf (c : Nat × Nat × Nat) : List (Nat × Nat) := [(c.1, c.2.1), (c.2.1, c.2.2), (c.2.2, c.1)]

/-- `constraint_intersect_face` (lines 718-744). -/
def faceTest (pts : List (Pt K)) (c : Nat × Nat × Nat) (t0 t1 t2 : Nat) : Option Bool := do
  if (← vInTri pts t0 c) && (← vInTri pts t1 c) && (← vInTri pts t2 c) then return true
  anyM (fun (e : (Nat × Nat) × (Nat × Nat)) => vSegCross pts e.1.1 e.1.2 e.2.1 e.2.2)
    ([(t0, t1), (t1, t2), (t2, t0)].flatMap fun e => (sidesOf c).map fun d => (e, d))

/-- The sides of the constraint on which a vertex lies (lines 761-766): bit `i` is the side opposite to corner `i`. -/
def onSides (pts : List (Pt K)) (c : Nat × Nat × Nat) (v : Nat) : Option (Bool × Bool × Bool) := do
  return (← vInSeg pts v c.2.1 c.2.2, ← vInSeg pts v c.2.2 c.1, ← vInSeg pts v c.1 c.2.1)

/-- `constraint_intersect_edge` (lines 746-832). -/
def edgeTest (pts : List (Pt K)) (c : Nat × Nat × Nat) (va vb n0 n1 : Nat) : Option Bool := do
  let ia ← vInInnerTri pts va c
  let ib ← vInInnerTri pts vb c
  if ia && ib then return true
  let (a0, a1, a2) ← onSides pts c va
  let (b0, b1, b2) ← onSides pts c vb
  let ia := ia || (a0 || a1 || a2)
  let ib := ib || (b0 || b1 || b2)
  if ia && ib then
    if !((a0 && b0) || (a1 && b1) || (a2 && b2)) then return true
    if ← vSegTri pts n0 n1 c then return true
    let (o, ea, eb) := if a0 && b0 then (c.1, c.2.1, c.2.2) else if a1 && b1 then (c.2.1, c.2.2, c.1) else (c.2.2, c.1, c.2.1)
    anyM (fun (e : Nat × Nat) => vSegInnerTri pts e.1 o n0 n1 e.2) [(ea, va), (ea, vb), (eb, va), (eb, vb)]
  else if ia || ib then
    if ← anyM (fun (e : Nat × Nat) => vSegCross pts va vb e.1 e.2) (sidesOf c) then return true
    if ← vSegTri pts n0 n1 c then return true
    anyM (fun (e : (Nat × Nat) × Nat) => vSegInnerTri pts e.1.1 e.1.2 n0 n1 e.2) ((sidesOf c).flatMap fun e => [va, vb].map fun v => (e, v))
  else return true

/-- `constraint_intersect_vertex` (lines 834-876). -/
def vertexTest (pts : List (Pt K)) (c : Nat × Nat × Nat) (tv over u0 u1 : Nat) : Option Bool := do
  if ← vInInnerTri pts tv c then return true
  if !(← anyM (fun (e : Nat × Nat) => vInSeg pts tv e.1 e.2) (sidesOf c)) then return true
  if (← vSegTri pts over u0 c) && (← vSegTri pts over u1 c) then return true
  anyM (fun (e : Nat × Nat) => do
    return (← vSegInnerTri pts e.1 e.2 tv over u0) || (← vSegInnerTri pts e.1 e.2 tv over u1) || (← vSegInnerTri pts e.1 e.2 over u0 u1)) (sidesOf c)

/-- Is every edge between `neg` and `pos` crossed by a side (lines 886-901)? -/
def allCross (pts : List (Pt K)) (c : Nat × Nat × Nat) : List (Nat × Nat) → Option Bool
  | [] => some true
  | e :: l => do
    if ← anyM (fun (d : Nat × Nat) => vSegCross0 pts e.1 e.2 d.1 d.2) (sidesOf c) then allCross pts c l else return false

/-- `constraint_intersect_empty` (lines 878-923). -/
def emptyTest (pts : List (Pt K)) (c : Nat × Nat × Nat) (x : Tet.Tet) (neg pos : List Nat) : Option Bool := do
  let pairs := neg.flatMap fun n => pos.map fun p => (n, p)
  if ← allCross pts c pairs then return true
  if ← anyM (fun (e : Nat × Nat) => vSegInnerTri pts e.1 e.2 c.1 c.2.1 c.2.2) pairs then return true
  anyM (fun (e : (Nat × Nat) × (Nat × Nat × Nat)) => vSegInnerTri pts e.1.1 e.1.2 e.2.1 e.2.2.1 e.2.2.2)
    ((sidesOf c).flatMap fun d => [(x.data 0, x.data 1, x.data 2), (x.data 1, x.data 2, x.data 3), (x.data 2, x.data 3, x.data 0),
      (x.data 3, x.data 0, x.data 1)].map fun f => (d, f))

/-- The body of the loop of `set_improper_intersections` (lines 661-715): the array the tetrahedron is marked in, if it is. -/
def improper (m : Mesh) (pts : List (Pt K)) (c : Nat × Nat × Nat) (tid : Nat) : Option (Option Nat) := do
  let x ← m.tets[tid]?
  let (zero, pos, neg) ← split m pts c (corners x)
  match zero with
  | [z0, z1, z2] =>
    let v ← if pos.isEmpty then neg[0]? else pos[0]?
    let i ← x.index v
    return if ← faceTest pts c z0 z1 z2 then some i.val else none
  | [z0, z1] =>
    if neg.length ≠ 1 then return none
    return if ← edgeTest pts c z0 z1 (← neg[0]?) (← pos[0]?) then some 4 else none
  | [z0] =>
    if neg.isEmpty || pos.isEmpty then return none
    let (under, over) ← if neg.length > pos.length then do pure (neg, ← pos[0]?) else do pure (pos, ← neg[0]?)
    return if ← vertexTest pts c z0 over (← under[0]?) (← under[1]?) then some 4 else none
  | _ => return if ← emptyTest pts c x neg pos then some 4 else none

/-- `set_improper_intersections` (lines 639-716). -/
def improperLoop (m : Mesh) (pts : List (Pt K)) (c : Nat × Nat × Nat) (cid : Nat) : List Nat → List Mark → Option (List Mark)
  | [], marks => some marks
  | t :: l, marks => do
    match ← improper m pts c t with
    | some k => improperLoop m pts c cid l (marks ++ [⟨k, t, cid⟩])
    | none => improperLoop m pts c cid l marks

/-! ### The interior of the constraint (lines 925-1007) -/

/-- `constraint_intersect_tet_type` (lines 950-1007). `partition_in_place` puts the corners in the constraint first; only the set of the
others matters. -/
def tetType (m : Mesh) (pts : List (Pt K)) (c : Nat × Nat × Nat) (tid : Nat) : Option Nat := do
  if ← m.isHull tid then return 5
  let x ← m.tets[tid]?
  let ori := fun i : Fin 4 => do return doubleToSign (← orientIdx pts (x.data i) c.1 c.2.1 c.2.2)
  let o0 ← ori 0
  let o1 ← ori 1
  let o2 ← ori 2
  let o3 ← ori 3
  let oris : Fin 4 → Ori := ![o0, o1, o2, o3]
  let inC := fun i : Fin 4 => if oris i = .zero then vInInnerTri pts (x.data i) c else some false
  let i0 ← inC 0
  let i1 ← inC 1
  let i2 ← inC 2
  let i3 ← inC 3
  let ins : Fin 4 → Bool := ![i0, i1, i2, i3]
  match ([0, 1, 2, 3] : List (Fin 4)).filter (fun i => !ins i) with
  | [j] => return j.val
  | [j, k] => return if oris j = oris k then 5 else 4
  | [j, k, l] => return if oris j = oris k ∧ oris j = oris l then 5 else 4
  | _ =>
    if ← anyM (fun (e : Fin 4 × Fin 4) =>
        if oris e.1 ≠ oris e.2 then vSegInnerTri pts (x.data e.1) (x.data e.2) c.1 c.2.1 c.2.2 else some false)
        [(0, 1), (0, 2), (0, 3), (1, 2), (1, 3), (2, 3)] then return 4
    else return 5

/-- The loop over the neighbours (lines 936-945), over the remaining faces. -/
def interiorFaces (m : Mesh) (pts : List (Pt K)) (c : Nat × Nat × Nat) (cid : Nat) (x : Tet.Tet) : List (Fin 4) → Info → List Mark → Option (Info × List Mark)
  | [], s, marks => some (s, marks)
  | f :: fs, s, marks => do
    let adj := (← x.nei f).tet
    if adj ∈ s.visited then interiorFaces m pts c cid x fs s marks
    else
      let t ← tetType m pts c adj
      if t < 5 then interiorFaces m pts c cid x fs ⟨s.intersected ++ [adj], adj :: s.visited⟩ (marks ++ [⟨t, adj, cid⟩])
      else interiorFaces m pts c cid x fs { s with visited := adj :: s.visited } marks

/-- `interior_intersections` (lines 925-948), on fuel. -/
def interiorLoop (m : Mesh) (pts : List (Pt K)) (c : Nat × Nat × Nat) (cid : Nat) : Nat → Nat → Info → List Mark → Option (Info × List Mark)
  | 0, _, _, _ => none
  | fuel + 1, idx, s, marks =>
    if idx < s.intersected.length then do
      let x ← m.tets[← s.intersected[idx]?]?
      let (s, marks) ← interiorFaces m pts c cid x [0, 1, 2, 3] s marks
      interiorLoop m pts c cid fuel (idx + 1) s marks
    else some (s, marks)

/-- The body of the loop of `insert_constraints` (lines 141-157). -/
def insertOne (fuel : Nat) (m : Mesh) (pts : List (Pt K)) (cid : Nat) (c : Nat × Nat × Nat) (marks : List Mark) : Option (Mesh × List Mark) := do
  let (m, f) ← Poly.triangleAtTet fuel m c.1 c.2.1 c.2.2
  match f with
  | some h =>
    let nei ← (← m.tets[h.tet]?).nei (face h.ver)
    return (m, marks ++ [⟨(face h.ver).val, h.tet, cid⟩, ⟨(face nei.ver).val, nei.tet, cid⟩])
  | none =>
    let (m, s) ← sides fuel m pts c ⟨[], []⟩
    let marks ← improperLoop m pts c cid s.intersected marks
    let (_, marks) ← interiorLoop m pts c cid fuel 0 s marks
    return (m, marks)

/-- The loop of `insert_constraints` (lines 141-157). -/
def insertLoop (fuel : Nat) (pts : List (Pt K)) : List (Nat × Nat × Nat) → Nat → Mesh → List Mark → Option (Mesh × List Mark)
  | [], _, m, marks => some (m, marks)
  | c :: cs, i, m, marks => do
    let (m, marks) ← insertOne fuel m pts i c marks
    insertLoop fuel pts cs (i + 1) m marks

/-- `insert_constraints` (lines 132-159). -/
def insertConstraints (fuel : Nat) (pts : List (Pt K)) (m : Mesh) (cs : List (Nat × Nat × Nat)) : Option (Mesh × List Mark) :=
  insertLoop fuel pts cs 0 m []

/-- `tet_marks[k][tid]`. -/
def marksAt (marks : List Mark) (k tid : Nat) : List Nat := (marks.filter fun m => m.k == k && m.tid == tid).map (·.cid)

end Verif.Constraint
