import Verif.Delaunay.Spec
import Verif.Geom.Spec
/-!
# Specification: how a triangle lies with respect to a tetrahedron

Nothing here refers to how the code finds out.
-/
namespace Verif.Constraint
open InSphere (Pt)
open Delaunay (Comb)
open Geom (InClosedTriangle InClosedSegment)

variable {K : Type} [Field K] [LinearOrder K]

/-- `p` lies in the closed tetrahedron. -/
def InTet (c : Fin 4 → Pt K) (p : Pt K) : Prop := ∃ w, (∀ i, 0 ≤ w i) ∧ Comb c w p

/-- `p` lies in the inside of the tetrahedron. -/
def InsideTet (c : Fin 4 → Pt K) (p : Pt K) : Prop := ∃ w, (∀ i, 0 < w i) ∧ Comb c w p

/-- `p` lies on a side of the triangle. -/
def OnSides (p A B C : Pt K) : Prop := InClosedSegment p A B ∨ InClosedSegment p B C ∨ InClosedSegment p C A

/-- The triangle cuts through the tetrahedron. -/
def Crossed (c : Fin 4 → Pt K) (A B C : Pt K) : Prop := ∃ p, InsideTet c p ∧ InClosedTriangle p A B C

/-- A side of the triangle touches the tetrahedron. -/
def Touched (c : Fin 4 → Pt K) (A B C : Pt K) : Prop := ∃ p, InTet c p ∧ OnSides p A B C

/-- The face opposite to corner `i` lies in the triangle. -/
def FaceIn (c : Fin 4 → Pt K) (i : Fin 4) (A B C : Pt K) : Prop := ∀ j, j ≠ i → InClosedTriangle (c j) A B C

end Verif.Constraint
