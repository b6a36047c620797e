import Mathlib.Algebra.Order.Group.Defs
import Mathlib.Order.Defs.LinearOrder
/-!
# Model of `GraphCut` (src/graphcut/mod.rs 1-518), the algorithm of Boykov and Kolmogorov

Simplifications. Capacities are elements of a linearly ordered group instead of doubles. A vector indexed by nodes or arcs is a function; every index that
occurs is a node or an arc of the graph (`GOk`). The list of the arcs of a node that is threaded through `first_arc` and `next` is a list, newest first. The
two queues of active nodes that are threaded through `next` are the lists `q0` and `q1`, and `next[i] != INVALID_IND` means that `i` is in one of them or is
the node `current_node` of lines 428 and 490. The orphans threaded through `next_orphan` are lists. Following parents (`loop`) and the loops of `max_flow` use fuel.
`process_source_orphan` and `process_sink_orphan`, which differ only in the tree and in the arc whose capacity is tested, are one function, and likewise the
two halves of `augment` and the two scans of `max_flow`.
-/
namespace Verif.Cut

/-- `parent`: `INVALID_IND`, `TERMINAL`, `ORPHAN` (lines 38-39) or an arc. -/
inductive Par where
  | free
  | term
  | orphan
  | arc (a : Nat)
  deriving DecidableEq

/-- The part of the graph that `max_flow` does not change: for each arc its `head` and `sister`, for each node its arcs. -/
structure Graph where
  nNodes : Nat
  nArcs : Nat
  head : Nat → Nat
  sister : Nat → Nat
  adj : Nat → List Nat

/-- The remaining fields of `GraphCut` (lines 41-65). -/
structure St (K : Type) where
  rcap : Nat → K
  tr : Nat → K
  flow : K
  sink : Nat → Bool
  par : Nat → Par
  ts : Nat → Nat
  dist : Nat → Nat
  time : Nat
  q0 : List Nat
  q1 : List Nat
  cur : Option Nat

/-- `f[i] = x`. -/
def upd {α : Type} (f : Nat → α) (i : Nat) (x : α) : Nat → α := fun j => if j = i then x else f j

variable {K : Type}

/-- `self.next[i] != INVALID_IND`. -/
def St.flagged (s : St K) (i : Nat) : Prop := i ∈ s.q0 ∨ i ∈ s.q1 ∨ s.cur = some i

instance (s : St K) (i : Nat) : Decidable (s.flagged i) := by unfold St.flagged; infer_instance

/-- `set_active` (lines 111-122). -/
def setActive (s : St K) (i : Nat) : St K := if s.flagged i then s else { s with q1 := s.q1 ++ [i] }

/-- The node that `next_active` takes out of one of the queues, and the rest of it (lines 138-147). -/
def popActive (par : Nat → Par) : List Nat → Option (Nat × List Nat)
  | [] => none
  | i :: l => if par i ≠ .free then some (i, l) else popActive par l

/-- `next_active` (lines 125-149). -/
def nextActive (s : St K) : Option Nat × St K :=
  match popActive s.par s.q0 with
  | some (i, l) => (some i, { s with q0 := l })
  | none =>
    match popActive s.par s.q1 with
    | some (i, l) => (some i, { s with q0 := l, q1 := [] })
    | none => (none, { s with q0 := [], q1 := [] })

variable [AddCommGroup K] [LinearOrder K]

/-- One iteration of the loop of lines 99-106. -/
def newStep (s : St K) (i : Nat) : St K :=
  let s := { s with sink := upd s.sink i (decide (s.tr i < 0)) }
  if s.tr i = 0 then { s with par := upd s.par i .free } else setActive s i

/-- `GraphCut::new` (lines 68-108). -/
def new (source sink : List K) : Graph × St K :=
  let n := source.length
  let pairs := source.zip sink
  let flow := pairs.foldl (fun f p => f + if p.1 < p.2 then p.1 else p.2) 0
  let tr := pairs.map fun p => p.1 - p.2
  let s : St K := { rcap := fun _ => 0, tr := fun i => tr.getD i 0, flow, sink := fun _ => false, par := fun _ => .term, ts := fun _ => 0,
                    dist := fun _ => 1, time := 0, q0 := [], q1 := [], cur := none }
  ({ nNodes := n, nArcs := 0, head := fun _ => 0, sister := fun _ => 0, adj := fun _ => [] }, (List.range n).foldl newStep s)

/-- `add_edge` (lines 171-180). -/
def addEdge (g : Graph × St K) (i j : Nat) (cap revCap : K) : Graph × St K :=
  let (G, s) := g
  let arc := G.nArcs
  let sis := arc + 1
  let adj := upd G.adj i (arc :: G.adj i)
  ({ G with
      nArcs := G.nArcs + 2
      head := upd (upd G.head arc j) sis i
      sister := upd (upd G.sister arc sis) sis arc
      adj := upd adj j (sis :: adj j) },
   { s with rcap := upd (upd s.rcap arc cap) sis revCap })

/-- The capacity that connects a node to its parent through the arc `a`: in the sink tree (`b`) that of `a`, in the source tree that of its sister. -/
def into (G : Graph) (s : St K) (b : Bool) (a : Nat) : K := if b then s.rcap a else s.rcap (G.sister a)

/-- The capacity in the direction in which the tree grows: in the source tree that of `a`, in the sink tree that of its sister. -/
def outc (G : Graph) (s : St K) (b : Bool) (a : Nat) : K := if b then s.rcap (G.sister a) else s.rcap a

/-- Checking the origin of `j` (lines 196-216 and 275-295): the distance, or `none` if the node hangs on an orphan. -/
def origin (G : Graph) : Nat → St K → Nat → Nat → Option (Option Nat × St K)
  | 0, _, _, _ => none
  | fuel + 1, s, j, d =>
    if s.ts j = s.time then some (some (d + s.dist j), s)
    else
      match s.par j with
      | .term => some (some (d + 1), { s with ts := upd s.ts j s.time, dist := upd s.dist j 1 })
      | .orphan => some (none, s)
      | .arc a => origin G fuel s (G.head a) (d + 1)
      | .free => none

/-- Setting the marks along the path (lines 222-232 and 301-312). -/
def mark (G : Graph) : Nat → St K → Nat → Nat → Option (St K)
  | 0, _, _, _ => none
  | fuel + 1, s, j, d =>
    if s.ts j = s.time then some s
    else
      match s.par j with
      | .arc a => mark G fuel { s with ts := upd s.ts j s.time, dist := upd s.dist j d } (G.head a) (d - 1)
      | _ => none

/-- `if d < d_min { a0_min = a0; d_min = d; }` (lines 218-221 and 297-300). -/
def better (best : Option (Nat × Nat)) (a d : Nat) : Option (Nat × Nat) :=
  match best with
  | none => some (a, d)
  | some (a', d') => if d < d' then some (a, d) else some (a', d')

/-- The search for a new parent (lines 183-235 and 261-315). -/
def scanParent (G : Graph) (fuel : Nat) (b : Bool) : List Nat → St K → Option (Nat × Nat) → Option (St K × Option (Nat × Nat))
  | [], s, best => some (s, best)
  | a :: l, s, best =>
    if into G s b a = 0 then scanParent G fuel b l s best
    else if s.sink (G.head a) ≠ b ∨ s.par (G.head a) = .free then scanParent G fuel b l s best
    else
      match origin G fuel s (G.head a) 0 with
      | none => none
      | some (none, s) => scanParent G fuel b l s best
      | some (some d, s) =>
        match mark G fuel s (G.head a) d with
        | none => none
        | some s => scanParent G fuel b l s (better best a d)

/-- `if ... { self.set_active(j); }` (lines 248-250 and 328-330). -/
def activateIf (s : St K) (c : Prop) [Decidable c] (j : Nat) : St K := if c then setActive s j else s

/-- Making the children of a node without parent orphans (lines 242-256 and 322-336); `q` is the list of orphans. -/
def dropChildren (G : Graph) (b : Bool) (i : Nat) : List Nat → St K → List Nat → St K × List Nat
  | [], s, q => (s, q)
  | a0 :: l, s, q =>
    let j := G.head a0
    let a := s.par j
    if s.sink j = b ∧ a ≠ .free then
      let s := activateIf s (into G s b a0 ≠ 0) j
      match a with
      | .arc a => if G.head a = i then dropChildren G b i l { s with par := upd s.par j .orphan } (q ++ [j]) else dropChildren G b i l s q
      | _ => dropChildren G b i l s q
    else dropChildren G b i l s q

/-- `process_source_orphan` and `process_sink_orphan` (lines 182-258 and 260-338). -/
def processOrphan (G : Graph) (fuel : Nat) (s : St K) (i : Nat) (q : List Nat) : Option (St K × List Nat) :=
  let b := s.sink i
  match scanParent G fuel b (G.adj i) s none with
  | none => none
  | some (s, some (a, d)) => some ({ s with par := upd s.par i (.arc a), ts := upd s.ts i s.time, dist := upd s.dist i (d + 1) }, q)
  | some (s, none) => some (dropChildren G b i (G.adj i) { s with par := upd s.par i .free } q)

/-- The inner loop over the orphans (lines 498-509). -/
def adoptQueue (G : Graph) (fuel : Nat) : Nat → St K → List Nat → Option (St K)
  | _, s, [] => some s
  | 0, _, _ :: _ => none
  | n + 1, s, i :: q =>
    match processOrphan G fuel s i q with
    | none => none
    | some (s, q) => adoptQueue G fuel n s q

/-- The outer loop (lines 493-512): each orphan of the list is processed with all its descendants. -/
def adopt (G : Graph) (fuel : Nat) : St K → List Nat → Option (St K)
  | s, [] => some s
  | s, i :: l =>
    match adoptQueue G fuel fuel s [i] with
    | none => none
    | some s => adopt G fuel s l

/-- The bottleneck along the path to the root (lines 345-355 and 362-372). -/
def bottle (G : Graph) (s : St K) (b : Bool) : Nat → Nat → K → Option (K × Nat)
  | 0, _, _ => none
  | fuel + 1, i, m =>
    match s.par i with
    | .term => some (m, i)
    | .arc a => bottle G s b fuel (G.head a) (if into G s b a < m then into G s b a else m)
    | _ => none

/-- Moves `m` from the arc `y` to its sister. -/
def pushArc (G : Graph) (s : St K) (y : Nat) (m : K) : St K :=
  let r := upd s.rcap (G.sister y) (s.rcap (G.sister y) + m)
  { s with rcap := upd r y (r y - m) }

/-- `set_orphan_front` (lines 152-156) if the capacity `c` is used up. -/
def orphanIf (s : St K) (c : K) (i : Nat) (q : List Nat) : St K × List Nat := if c = 0 then ({ s with par := upd s.par i .orphan }, i :: q) else (s, q)

/-- Sending the flow along the path to the root (lines 383-397 and 406-418); returns also the root and the orphans. -/
def push (G : Graph) (b : Bool) (m : K) : Nat → St K → Nat → List Nat → Option (St K × Nat × List Nat)
  | 0, _, _, _ => none
  | fuel + 1, s, i, q =>
    match s.par i with
    | .term => some (s, i, q)
    | .arc a =>
      let y := if b then a else G.sister a
      let s := pushArc G s y m
      let (s, q) := orphanIf s (s.rcap y) i q
      push G b m fuel s (G.head a) q
    | _ => none

/-- The last part of `augment` (lines 404-424): the flow in the sink tree. -/
def augmentSink (G : Graph) (fuel : Nat) (m : K) (mid : Nat) (s : St K) (q : List Nat) : Option (St K × List Nat) :=
  match push G true m fuel s (G.head mid) q with
  | none => none
  | some (s, i, q) =>
    let s := { s with tr := upd s.tr i (s.tr i + m) }
    let (s, q) := orphanIf s (s.tr i) i q
    some ({ s with flow := s.flow + m }, q)

/-- `augment` (lines 340-424); returns the orphans. -/
def augment (G : Graph) (fuel : Nat) (s : St K) (mid : Nat) : Option (St K × List Nat) :=
  match bottle G s false fuel (G.head (G.sister mid)) (s.rcap mid) with
  | none => none
  | some (m, i) =>
    let m := if s.tr i < m then s.tr i else m
    match bottle G s true fuel (G.head mid) m with
    | none => none
    | some (m, i) =>
      let m := if -s.tr i < m then -s.tr i else m
      let s := pushArc G s mid m
      match push G false m fuel s (G.head (G.sister mid)) [] with
      | none => none
      | some (s, i, q) =>
        let s := { s with tr := upd s.tr i (s.tr i - m) }
        let (s, q) := orphanIf s (s.tr i) i q
        augmentSink G fuel m mid s q

/-- Growing the tree from the active node `i` of the tree `b` (lines 442-487): the arc at which the trees meet, from the source tree to the sink tree. -/
def grow (G : Graph) (b : Bool) (i : Nat) : List Nat → St K → St K × Option Nat
  | [], s => (s, none)
  | a :: l, s =>
    if outc G s b a ≠ 0 then
      let j := G.head a
      if s.par j = .free then
        grow G b i l (setActive { s with sink := upd s.sink j b, par := upd s.par j (.arc (G.sister a)), ts := upd s.ts j (s.ts i),
                                         dist := upd s.dist j (s.dist i + 1) } j)
      else if s.sink j ≠ b then (s, some (if b then G.sister a else a))
      else if s.ts j ≤ s.ts i ∧ s.dist i < s.dist j then
        grow G b i l { s with par := upd s.par j (.arc (G.sister a)), ts := upd s.ts j (s.ts i), dist := upd s.dist j (s.dist i + 1) }
      else grow G b i l s
    else grow G b i l s

/-- The choice of the next node (lines 429-441): the current one again, if it is still in a tree. -/
def choose (s : St K) : Option Nat × St K :=
  match s.cur with
  | some i => if s.par i ≠ .free then (some i, { s with cur := none }) else nextActive { s with cur := none }
  | none => nextActive s

/-- One iteration of `max_flow` for the node `i` (lines 442-515). -/
def step (G : Graph) (fuel : Nat) (s : St K) (i : Nat) : Option (St K) :=
  let (s, a) := grow G (s.sink i) i (G.adj i) s
  let s := { s with time := s.time + 1 }
  match a with
  | none => some s
  | some a =>
    match augment G fuel { s with cur := some i } a with
    | none => none
    | some (s, q) => adopt G fuel s q

/-- `max_flow` (lines 426-518). -/
def maxFlow (G : Graph) (fuel : Nat) : Nat → St K → Option (St K)
  | 0, _ => none
  | n + 1, s =>
    match choose s with
    | (none, s) => some s
    | (some i, s) =>
      match step G fuel s i with
      | none => none
      | some s => maxFlow G fuel n s

/-- `new` followed by `add_edge` for all edges. -/
def build (source sink : List K) (edges : List (Nat × Nat × K × K)) : Graph × St K :=
  edges.foldl (fun g e => addEdge g e.1 e.2.1 e.2.2.1 e.2.2.2) (new source sink)

end Verif.Cut
