import Verif.DisjointSet.Model
import Mathlib.SetTheory.Cardinal.Finite
/-!
# Specification of the disjoint-set structure

It only mentions the merged pairs, never parents or ranks.
-/
namespace Verif.DisjointSet

/-- `x` and `y` are joined by a chain of merged pairs. -/
inductive Conn (pairs : List (Nat × Nat)) : Nat → Nat → Prop
  | pair {x y} : (x, y) ∈ pairs → Conn pairs x y
  | refl (x) : Conn pairs x x
  | symm {x y} : Conn pairs x y → Conn pairs y x
  | trans {x y z} : Conn pairs x y → Conn pairs y z → Conn pairs x z

/-- The pairs merged by a history. -/
def mergedPairs : List Op → List (Nat × Nat)
  | [] => []
  | .merge x y :: ops => (x, y) :: mergedPairs ops
  | _ :: ops => mergedPairs ops

/-- All arguments of a history are elements. -/
def InRange (n : Nat) (ops : List Op) : Prop :=
  ∀ op ∈ ops, match op with
    | .merge x y => x < n ∧ y < n
    | .find x => x < n
    | .output => True

/-- Connectivity as a setoid on the elements `0..n`. -/
def connSetoid (n : Nat) (pairs : List (Nat × Nat)) : Setoid (Fin n) where
  r x y := Conn pairs x y
  iseqv := ⟨fun x => .refl _, fun h => .symm h, fun h h' => .trans h h'⟩

/-- The number of classes. -/
noncomputable def numClasses (n : Nat) (pairs : List (Nat × Nat)) : Nat :=
  Nat.card (Quotient (connSetoid n pairs))

end Verif.DisjointSet
