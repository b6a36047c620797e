import Verif.Tet.Model
/-!
# Specification of a consistent tetrahedral complex

Stated only through the handle operations a client uses: `org`, `dest`, `apex`, `oppo`, `fsym`.
-/
namespace Verif.Tet

/-- `h` is glued to `t`: the same triangle traversed the other way round, seen from the tetrahedron on the other side. -/
structure Glued (m : Mesh) (t h : TriFace) : Prop where
  fwd : m.fsym t = some h
  bwd : m.fsym h = some t
  org : m.org h = m.dest t
  dest : m.dest h = m.org t
  apex : m.apex h = m.apex t

/-- All live tetrahedra have four distinct corners and are glued, along each face and in each of its three rotations,
to a live tetrahedron. -/
structure Consistent (m : Mesh) (live : Nat → Prop) : Prop where
  corners : ∀ t, live t → ∃ x, m.tets[t]? = some x ∧ Function.Injective x.data
  glued : ∀ t, live t → ∀ v, ∃ h, live h.tet ∧ Glued m ⟨t, v⟩ h

/-- A ghost vertex only ever occurs as the last corner. -/
def GhostLast (m : Mesh) (live : Nat → Prop) : Prop :=
  ∀ t, live t → ∀ x, m.tets[t]? = some x → ∀ i, x.data i = m.nPoints → i = 3

/-- `p2t` of vertex `v` names a live tetrahedron having `v` as a corner. -/
def LinkOk (m : Mesh) (live : Nat → Prop) (v : Nat) : Prop :=
  ∃ t x, m.p2t[v]? = some (some t) ∧ live t ∧ m.tets[t]? = some x ∧ ∃ i, x.data i = v

/-- Solid tetrahedra face-connected to `t0` through faces that contain `v`. -/
inductive Star (m : Mesh) (v t0 : Nat) : Nat → Prop
  | base : Star m v t0 t0
  | step {t x i h y} : Star m v t0 t → m.tets[t]? = some x → x.data i ≠ v → x.nei i = some h →
      m.tets[h.tet]? = some y → y.data 3 ≠ m.nPoints → Star m v t0 h.tet

/-- The cavity of an insertion: seeds, and neighbours of the cavity that pass the in-sphere test. -/
inductive CavityReach (m : Mesh) (test : Nat → Bool) (seed : List Nat) : Nat → Prop
  | seed {c} : c ∈ seed → CavityReach m test seed c
  | grow {c x f h} : CavityReach m test seed c → m.tets[c]? = some x → x.nei f = some h → test h.tet = true →
      CavityReach m test seed h.tet

/-- A handle outside the cavity `S` on a face of the cavity boundary. -/
def Outer (m : Mesh) (live S : Nat → Prop) (H : TriFace) : Prop :=
  live H.tet ∧ ¬ S H.tet ∧ ∃ c, m.fsym H = some c ∧ S c.tet

/-- No two boundary faces of the cavity have a directed edge in common: the boundary is an edge-manifold surface. -/
def EdgeManifold (m : Mesh) (live S : Nat → Prop) : Prop :=
  ∀ H1 H2, Outer m live S H1 → Outer m live S H2 → m.org H1 = m.org H2 → m.dest H1 = m.dest H2 → H1 = H2

end Verif.Tet
