import Verif.Bsp.Model
/-!
# The outlines of a set of faces: `extract_faces_outlines` (`src/polygonlization/bsp_complex.rs` lines 927-1057)

A face of the set is given with its sign. `canon e` is the half-edge `e_halfedge(e)`.
-/
namespace Verif.Bsp

/-- What a face adds to `edge_map[eid]` (lines 934-946). -/
def edgeSum (canon : Nat → HE) (e : Nat) (p : Int × Cycle) : Int :=
  ((hes p.2).map fun h => if h.edge = e then (if (decide (h.tail = (canon e).tail)) ^^ decide (p.1 > 0) then -1 else 1) else 0).sum

/-- `edge_map[eid]`. -/
def edgeCount (canon : Nat → HE) (fs : List (Int × Cycle)) (e : Nat) : Int := (fs.map (edgeSum canon e)).sum

/-- `halfedges` (lines 949-959). The code iterates over a `HashMap`: this is one of the possible orders. -/
def outlineHes (canon : Nat → HE) (fs : List (Int × Cycle)) : List HE :=
  (uniq [] (fs.flatMap fun p => p.2.map Prod.snd)).filterMap fun e =>
    if edgeCount canon fs e = 0 then none else if edgeCount canon fs e > 0 then some (canon e) else some (canon e).rev

/-- The half-edges that leave a vertex: `vert_out_edge_map` (lines 966-985). Half-edges are meant where the code has their numbers: their edges are the keys
of a map and so different. -/
def outsAt (hs : List HE) (v : Nat) : List HE := hs.filter fun h => h.tail = v

/-- `multi_out_verts`. -/
def isMulti (hs : List HE) (v : Nat) : Bool := decide (2 ≤ (outsAt hs v).length)

/-- The calls of `he_next_map.insert` (lines 987-1002), in order. -/
def nextCalls (hs : List HE) (fs : List (Int × Cycle)) : List (Nat × Nat) :=
  fs.flatMap fun p => ((hes p.2).zip ((hes p.2).rotate 1)).filterMap fun q =>
    if isMulti hs q.1.tip then some (if p.1 < 0 then (q.2.edge, q.1.edge) else (q.1.edge, q.2.edge)) else none

/-- `he_next_map.get`: the last call counts. -/
def nextEdge (hs : List HE) (fs : List (Int × Cycle)) (e : Nat) : Option Nat := (nextCalls hs fs).reverse.lookup e

/-- The loop of lines 1030-1041; `fuel` bounds the number of its rounds. -/
def turn (nm : Nat → Option Nat) (group : List HE) : Nat → Nat → Option HE
  | 0, _ => none
  | fuel + 1, cur => do
    let next ← nm cur
    match group.find? fun h => h.edge = next with
    | some h => some h
    | none => turn nm group fuel next

/-- `next_hid` (lines 1021-1045). -/
def nextHe (hs : List HE) (nm : Nat → Option Nat) (fuel : Nat) (vis : List HE) (h : HE) : Option HE :=
  match outsAt hs h.tip with
  | [] => none
  | [k] => some k
  | group =>
    match group.filter fun k => k ∉ vis with
    | [k] => some k
    | _ => turn nm group fuel h.edge

/-- The loop of lines 1018-1051. -/
def trace (next : List HE → HE → Option HE) : Nat → List HE → List HE → Option (List HE × List HE)
  | 0, _, _ => none
  | fuel + 1, vis, out => do
    let h ← out.getLast?
    let k ← next vis h
    if k ∈ vis then some (vis, out) else trace next fuel (k :: vis) (out ++ [k])

/-- The loop of lines 1012-1054. -/
def tracePaths (next : List HE → HE → Option HE) (fuel : Nat) : List HE → List HE → Option (List (List HE))
  | [], _ => some []
  | h :: l, vis =>
    if h ∈ vis then tracePaths next fuel l vis
    else do
      let r ← trace next fuel (h :: vis) [h]
      let rest ← tracePaths next fuel l r.1
      some (r.2 :: rest)

/-- `extract_faces_outlines` with `hs` as the order of `halfedges`. -/
def outlines (fuel : Nat) (hs : List HE) (fs : List (Int × Cycle)) : Option (List (List HE)) := tracePaths (nextHe hs (nextEdge hs fs) fuel) fuel hs []

/-! ### Specification -/

/-- A closed curve: each half-edge begins where the one before ends, and the first one begins where the last one ends. -/
def Closed (l : List HE) : Prop := l ≠ [] ∧ l.IsChain (fun h k => h.tip = k.tail) ∧ l.getLast?.map HE.tip = l.head?.map HE.tail

/-- The half-edges of a face in the direction of its sign. -/
def oriented (p : Int × Cycle) : List HE := if p.1 > 0 then hes p.2 else (hes p.2).reverse.map HE.rev

end Verif.Bsp
