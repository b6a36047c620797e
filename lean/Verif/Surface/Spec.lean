import Verif.Surface.Model
/-!
# Valid surface meshes
-/
namespace Verif.Surface

/-- Following `a` from `x` one passes through the list `l` and arrives at `z`. -/
def Chain (a : Ids) : Nat → List Nat → Nat → Prop
  | x, [], z => get a x = some z
  | x, y :: l, z => get a x = some y ∧ Chain a y l z

/-- Following `a` from `h` one passes exactly once through each element of `P` and returns to `h`. -/
def Ring (a : Ids) (h : Nat) (P : Nat → Prop) : Prop := ∃ t, Chain a h t h ∧ (h :: t).Nodup ∧ ∀ x, x ∈ h :: t ↔ P x

/-- The rings of `a` are the sets of elements with the same key. -/
def Rings (a : Ids) (key : Nat → Option Nat) : Prop := ∀ h k, key h = some k → Ring a h fun x => key x = some k

/-- The two halfedges join the same unordered pair of vertices. -/
def SameEnds (m : Mesh) (h h' : Nat) : Prop :=
  (get m.heVertex h' = get m.heVertex h ∧ tip m h' = tip m h) ∨ (get m.heVertex h' = tip m h ∧ tip m h' = get m.heVertex h)

/-- The arrays have the right sizes. -/
structure Sizes (m : Mesh) : Prop where
  sV : m.vHe.length = m.nV
  sF : m.fHe.length = m.nF
  sE : m.eHe.length = m.nE
  sNext : m.heNext.length = m.nH
  sVertex : m.heVertex.length = m.nH
  sEdge : m.heEdge.length = m.nH
  sFace : m.heFace.length = m.nH
  sIn : m.vIn.length = m.nH
  sOut : m.vOut.length = m.nH
  sSib : m.sib.length = m.nH

/-- A valid mesh: every halfedge has a vertex, a face and an edge; the four kinds of links run around the faces, the edges and the
vertices; the vertices, faces and edges refer to halfedges of theirs; the halfedges of an edge join the same vertices. -/
structure Valid (m : Mesh) : Prop extends Sizes m where
  hasV : ∀ h < m.nH, ∃ v < m.nV, get m.heVertex h = some v
  hasF : ∀ h < m.nH, ∃ f < m.nF, get m.heFace h = some f
  hasE : ∀ h < m.nH, ∃ e < m.nE, get m.heEdge h = some e
  faces : Rings m.heNext (get m.heFace)
  edges : Rings m.sib (get m.heEdge)
  outs : Rings m.vOut (get m.heVertex)
  ins : Rings m.vIn (tip m)
  vhe : ∀ v h, get m.vHe v = some h → get m.heVertex h = some v
  vhe' : ∀ h v, get m.heVertex h = some v → ∃ h', get m.vHe v = some h'
  fhe : ∀ f < m.nF, ∃ h, get m.fHe f = some h ∧ get m.heFace h = some f
  ehe : ∀ e < m.nE, ∃ h, get m.eHe e = some h ∧ get m.heEdge h = some e
  ends : ∀ h h' e, get m.heEdge h = some e → get m.heEdge h' = some e → SameEnds m h h'

end Verif.Surface
