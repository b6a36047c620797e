/-!
# Model of `src/disjoint_set/mod.rs`

`usize` is `Nat`, a `Vec<usize>` is a `List Nat`, an out-of-range index (a panic in Rust) is `none`.
The recursion of `find_set` runs on fuel; running out of fuel is `none` as well, and the theorems show that it does not
happen.  The hash map returned by `output` is an association list in order of first insertion.
-/
namespace Verif.DisjointSet

/-- `struct DisjointSet` (lines 3-7). -/
structure DS where
  parent : List Nat
  rank : List Nat
  nGroups : Nat
deriving Repr, DecidableEq

/-- `DisjointSet::new` (lines 10-16). -/
def new (n : Nat) : DS :=
  { parent := List.range n, rank := List.replicate n 0, nGroups := n }

/-- `find_set` (lines 41-46): the recursive call on the parent, then the write `self.parent[x] = ..`, then the final
read `self.parent[x]`. -/
def findSet : Nat → DS → Nat → Option (DS × Nat)
  | 0, _, _ => none
  | fuel + 1, s, x => do
    let p ← s.parent[x]?
    if x ≠ p then
      let (s', r) ← findSet fuel s p
      if x < s'.parent.length then
        let s'' := { s' with parent := s'.parent.set x r }
        let q ← s''.parent[x]?
        return (s'', q)
      else none
    else
      return (s, p)

/-- `link` (lines 18-32).  `self.n_groups -= 1` would underflow (a panic in debug builds) at `0`. -/
def link (s : DS) (x y : Nat) : Option DS :=
  if x = y then some s
  else do
    let rx ← s.rank[x]?
    let ry ← s.rank[y]?
    if s.nGroups = 0 then none
    else if rx > ry then
      if y < s.parent.length then
        return { s with parent := s.parent.set y x, nGroups := s.nGroups - 1 }
      else none
    else
      if x < s.parent.length then
        return { parent := s.parent.set x y
                 rank := if rx = ry then s.rank.set y (ry + 1) else s.rank
                 nGroups := s.nGroups - 1 }
      else none

/-- `merge` (lines 35-39). -/
def merge (fuel : Nat) (s : DS) (x y : Nat) : Option DS := do
  let (s, x) ← findSet fuel s x
  let (s, y) ← findSet fuel s y
  link s x y

/-- `result.entry(p).or_insert(vec![]).push(i)` (line 52) on an association list. -/
def entryPush (m : List (Nat × List Nat)) (p i : Nat) : List (Nat × List Nat) :=
  match m with
  | [] => [(p, [i])]
  | (k, v) :: m => if k = p then (k, v ++ [i]) :: m else (k, v) :: entryPush m p i

/-- The loop of `output` (lines 50-53), over the remaining indices. -/
def outputLoop (fuel : Nat) : List Nat → DS → List (Nat × List Nat) → Option (DS × List (Nat × List Nat))
  | [], s, m => some (s, m)
  | i :: is, s, m => do
    let (s, p) ← findSet fuel s i
    outputLoop fuel is s (entryPush m p i)

/-- `output` (lines 48-55). -/
def output (fuel : Nat) (s : DS) : Option (DS × List (Nat × List Nat)) :=
  outputLoop fuel (List.range s.parent.length) s []

/-- The calls a client can make.  `find` stands for a bare `find_set` (private in the code, reached through `merge` and
`output`). -/
inductive Op where
  | merge (x y : Nat)
  | find (x : Nat)
  | output
deriving Repr, DecidableEq

/-- One client call. -/
def step (fuel : Nat) (s : DS) : Op → Option DS
  | .merge x y => merge fuel s x y
  | .find x => (findSet fuel s x).map (·.1)
  | .output => (output fuel s).map (·.1)

/-- A history of client calls. -/
def run (fuel : Nat) : DS → List Op → Option DS
  | s, [] => some s
  | s, op :: ops => do run fuel (← step fuel s op) ops

end Verif.DisjointSet
