import Mathlib.Algebra.BigOperators.Group.Finset.Basic
import Mathlib.Algebra.Order.BigOperators.Group.Finset
import Mathlib.Order.Bounds.Basic
import Mathlib.Logic.Relation
/-!
# Networks, flows and cuts

Nothing here refers to the code: a network on the nodes `0 .. n-1` is a capacity function.
-/
namespace Verif.Flow

variable {T : Type} [AddCommGroup T] [LinearOrder T]

/-- Total capacity from `u` to `v` in a list of arcs `(from, to, capacity)`. -/
def totalCap (arcs : List (Nat × Nat × T)) (u v : Nat) : T :=
  ((arcs.filter fun a => a.1 = u ∧ a.2.1 = v).map fun a => a.2.2).sum

/-- What flows into `v` minus what flows out of `v`. -/
def net (n : Nat) (f : Nat → Nat → T) (v : Nat) : T := (∑ u ∈ Finset.range n, f u v) - ∑ u ∈ Finset.range n, f v u

/-- A preflow: within the capacities, and no node but the source sends more than it gets. -/
structure IsPreflow (n s : Nat) (C f : Nat → Nat → T) : Prop where
  nonneg : ∀ u < n, ∀ v < n, 0 ≤ f u v
  le : ∀ u < n, ∀ v < n, f u v ≤ C u v
  net : ∀ v < n, v ≠ s → 0 ≤ net n f v

/-- A flow: within the capacities, and every node but source and sink sends what it gets. -/
structure IsFlow (n s t : Nat) (C f : Nat → Nat → T) : Prop where
  nonneg : ∀ u < n, ∀ v < n, 0 ≤ f u v
  le : ∀ u < n, ∀ v < n, f u v ≤ C u v
  net : ∀ v < n, v ≠ s → v ≠ t → Flow.net n f v = 0

/-- Capacity of a cut: the arcs from nodes in `S` to nodes outside. -/
def cutCap (n : Nat) (C : Nat → Nat → T) (S : Nat → Bool) : T :=
  ∑ u ∈ Finset.range n, ∑ v ∈ Finset.range n, if S u = true ∧ S v = false then C u v else 0

/-- `S` separates the source from the sink. -/
def IsCut (s t : Nat) (S : Nat → Bool) : Prop := S s = true ∧ S t = false

/-- `x` is the maximum value of a flow from `s` to `t`. -/
def IsMaxFlowValue (n s t : Nat) (C : Nat → Nat → T) (x : T) : Prop :=
  IsGreatest {y | ∃ f, IsFlow n s t C f ∧ net n f t = y} x

/-- `x` is the minimum capacity of a cut. -/
def IsMinCutValue (n s t : Nat) (C : Nat → Nat → T) (x : T) : Prop :=
  IsLeast {y | ∃ S, IsCut s t S ∧ cutCap n C S = y} x

/-- There is a path from `u` to `v` along arcs with positive capacity `R`. -/
def Reaches (n : Nat) (R : Nat → Nat → T) : Nat → Nat → Prop :=
  Relation.ReflTransGen fun u v => u < n ∧ v < n ∧ 0 < R u v

end Verif.Flow
