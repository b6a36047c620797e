import Mathlib.Algebra.Order.Group.Defs
/-!
# Model of `src/graphcut/push_relabel_fifo.rs` and of `ArcBuilder` in `src/graphcut/mod.rs`

The capacity type `T` is an ordered commutative group: arithmetic is exact (`f64` rounding and integer overflow are not modelled).
The array of `Vertex { label, excess }` is split into two lists. The counters `n_pushes`, `n_relabels` and `n_global_relabels` are
left out: nothing reads them. `none` as the result of a function is a panic, or a loop whose fuel ran out.
-/
namespace Verif.Flow

variable {T : Type} [AddCommGroup T] [LinearOrder T]

/-- `Arc` (`push_relabel_fifo.rs` lines 15-21). -/
structure Arc (T : Type) where
  dist : Nat
  reverse : Nat
  cap : T
deriving DecidableEq, Repr

/-- `Vec<Vec<Arc<T>>>`. -/
abbrev Net (T : Type) := List (List (Arc T))

/-- `PushRelabelFifo` (lines 39-52). -/
structure PR (T : Type) where
  net : Net T
  label : List Nat
  excess : List T
  queue : List Nat
  source : Nat
  sink : Nat
  progress : Nat
  notReached : Nat
  threshold : Nat
deriving DecidableEq, Repr

/-- `residual_network[v][i]`. -/
def arcAt (net : Net T) (v i : Nat) : Option (Arc T) := net[v]?.bind (·[i]?)

/-- `residual_network[v][i].capacity += delta`. -/
def addCap (net : Net T) (v i : Nat) (delta : T) : Option (Net T) := do
  let row ← net[v]?
  let a ← row[i]?
  pure (net.set v (row.set i ⟨a.dist, a.reverse, a.cap + delta⟩))

/-- `a[i] = x`. -/
def put {α : Type} (a : List α) (i : Nat) (x : α) : Option (List α) := if i < a.length then some (a.set i x) else none

/-- `vertices[v].excess += delta`. -/
def addExcess (ex : List T) (v : Nat) (delta : T) : Option (List T) := do put ex v ((← ex[v]?) + delta)

/-- The body of the loop of `init` (lines 59-68); setting the capacity to `0` is written as subtracting it. -/
def initArc (g : PR T) (i : Nat) : Option (PR T) := do
  let a ← arcAt g.net g.source i
  if 0 < a.cap then
    let ex ← put g.excess a.dist a.cap
    let net ← addCap g.net a.dist a.reverse a.cap
    let net ← addCap net g.source i (-a.cap)
    pure { g with net := net, excess := ex }
  else pure g

/-- `init` (lines 58-71); `ALPHA = 6`. -/
def init (g : PR T) : Option (PR T) := do
  let row ← g.net[g.source]?
  let g ← (List.range row.length).foldlM initArc g
  pure { g with threshold := (g.net.map List.length).sum / 2 + g.net.length * 6 }

/-- State of the breadth-first search of `global_relabel`: labels, `dist_queue`, `queue`. -/
structure Bfs where
  label : List Nat
  dq : List (Nat × Nat)
  queue : List Nat
deriving DecidableEq, Repr

/-- The body of the `for` loop of `global_relabel` (lines 86-97) for an arc of `v`, which has distance `d`. -/
def bfsArc (net : Net T) (excess : List T) (n d : Nat) (s : Bfs) (a : Arc T) : Option Bfs := do
  let r ← arcAt net a.dist a.reverse
  if 0 < r.cap then
    if (← s.label[a.dist]?) = n then
      let label ← put s.label a.dist (d + 1)
      let e ← excess[a.dist]?
      pure ⟨label, s.dq ++ [(a.dist, d + 1)], if 0 < e then s.queue ++ [a.dist] else s.queue⟩
    else pure s
  else pure s

/-- The `while` loop of `global_relabel` (lines 84-98). -/
def bfsLoop (net : Net T) (excess : List T) (n : Nat) : Nat → Bfs → Option Bfs
  | 0, _ => none
  | fuel + 1, s =>
    match s.dq with
    | [] => some s
    | (v, d) :: dq => do
      let row ← net[v]?
      let s ← row.foldlM (bfsArc net excess n d) ⟨s.label, dq, s.queue⟩
      bfsLoop net excess n fuel s

/-- `global_relabel` (lines 73-99). The queue holds every vertex at most once, so `n + 1` rounds are enough. -/
def globalRelabel (g : PR T) : Option (PR T) := do
  let label ← put (g.label.map fun _ => g.notReached) g.sink 0
  let s ← bfsLoop g.net g.excess g.notReached (g.label.length + 1) ⟨label, [(g.sink, 0)], []⟩
  pure { g with label := s.label, queue := s.queue }

/-- The test of `push` (line 115). -/
def admissible (label : List Nat) (a : Arc T) (target : Nat) : Option Bool :=
  if 0 < a.cap then do pure (decide ((← label[a.dist]?) = target)) else pure false

/-- The loop of `push` (lines 113-136) from arc `i` on; `k` arcs are left. -/
def pushLoop (v target : Nat) : Nat → Nat → PR T → Option (PR T × Bool)
  | 0, _, g => some (g, false)
  | k + 1, i, g => do
    let a ← arcAt g.net v i
    if (← admissible g.label a target) then
      let ev ← g.excess[v]?
      let delta := if a.cap < ev then a.cap else ev
      let ed ← g.excess[a.dist]?
      let queue := if ed = 0 ∧ a.dist ≠ g.sink then g.queue ++ [a.dist] else g.queue
      let ex ← addExcess g.excess v (-delta)
      let ex ← addExcess ex a.dist delta
      let net ← addCap g.net v i (-delta)
      let net ← addCap net a.dist a.reverse delta
      let g := { g with net := net, excess := ex, queue := queue }
      if (← ex[v]?) = 0 then pure (g, true) else pushLoop v target k (i + 1) g
    else pushLoop v target k (i + 1) g

/-- `push` (lines 111-138). `label - 1` with `label = 0` is an overflow. -/
def push (g : PR T) (v label : Nat) : Option (PR T × Bool) := do
  let row ← g.net[v]?
  match label with
  | 0 => none
  | l + 1 => pushLoop v l row.length 0 g

/-- `calc_new_label` (lines 148-156). -/
def newLabel (g : PR T) (v : Nat) : Option Nat := do
  let row ← g.net[v]?
  let m ← row.foldlM (fun m a => do
    if 0 < a.cap then pure (min m (← g.label[a.dist]?)) else pure m) (g.notReached - 1)
  pure (m + 1)

/-- `relabel` (lines 140-146); `BETA = 12`. -/
def relabel (g : PR T) (v : Nat) : Option (PR T × Nat) := do
  let l ← newLabel g v
  let label ← put g.label v l
  pure ({ g with label := label, progress := g.progress + 12 }, l)

/-- The loop of `discharge` (lines 103-108). -/
def dischargeLoop (v : Nat) : Nat → Nat → PR T → Option (PR T)
  | 0, _, _ => none
  | fuel + 1, label, g =>
    if label < g.notReached then do
      let (g, done) ← push g v label
      if done then pure g
      else
        let (g, l) ← relabel g v
        dischargeLoop v fuel l g
    else some g

/-- `discharge` (lines 101-109). Labels grow in every round, so `n + 1` rounds are enough. -/
def discharge (g : PR T) (v : Nat) : Option (PR T) := do
  let label ← g.label[v]?
  dischargeLoop v (g.notReached + 1) label g

/-- The main loop (lines 222-229). -/
def mainLoop : Nat → PR T → Option (PR T)
  | 0, _ => none
  | fuel + 1, g =>
    match g.queue with
    | [] => some g
    | v :: queue => do
      let g ← discharge { g with queue := queue } v
      if g.threshold * 2 ≤ g.progress then
        mainLoop fuel (← globalRelabel { g with progress := 0 })
      else mainLoop fuel g

/-- `find_max_flow` (lines 220-230); `fuel` bounds the number of rounds of the main loop. -/
def findMaxFlow (fuel : Nat) (g : PR T) : Option (PR T) := do mainLoop fuel (← globalRelabel g)

/-- `is_sink` (lines 232-235). -/
def isSink (g : PR T) (i : Nat) : Option Bool := do pure (decide ((← g.label[i]?) ≠ g.notReached))

/-! ### Construction (lines 162-214) -/

/-- The list `edges` and, for every node, the pairs in `edge_map`. -/
structure Edges (T : Type) where
  edges : List (Nat × T)
  map : List (List (Nat × Nat))
deriving DecidableEq, Repr

/-- `edges[i].1 += c`. -/
def addEdge (edges : List (Nat × T)) (i : Nat) (c : T) : Option (List (Nat × T)) := do
  let e ← edges[i]?
  pure (edges.set i (e.1, e.2 + c))

/-- The body of the loop over the input arcs (lines 172-184). -/
def mergeArc (s : Edges T) (arc : Nat × Nat × T) : Option (Edges T) := do
  let (src, to, c) := arc
  match (← s.map[src]?).lookup to with
  | some id => pure { s with edges := ← addEdge s.edges id c }
  | none =>
    match (← s.map[to]?).lookup src with
    | some id => pure { s with edges := ← addEdge s.edges (id + 1) c }
    | none => pure ⟨s.edges ++ [(to, c), (src, 0)], s.map.modify src ((to, s.edges.length) :: ·)⟩

/-- The loop over the chunks (lines 187-194). -/
def buildNet : Net T → List (Nat × T) → Option (Net T)
  | net, ea :: eb :: edges => do
    let eaIdx ← net[eb.1]?.map List.length
    let ebIdx ← net[ea.1]?.map List.length
    let net := net.modify eb.1 (· ++ [⟨ea.1, ebIdx, ea.2⟩])
    let net := net.modify ea.1 (· ++ [⟨eb.1, eaIdx, eb.2⟩])
    buildNet net edges
  | net, _ => some net

/-- The residual network before `init` (lines 169-194). -/
def network (arcs : List (Nat × Nat × T)) (n : Nat) : Option (Net T) := do
  let s ← arcs.foldlM mergeArc ⟨[], List.replicate n []⟩
  buildNet (List.replicate n []) s.edges

/-- `PushRelabelFifo::from` (lines 162-214); with `n_nodes = 0` the index of the sink overflows. -/
def fromArcs (arcs : List (Nat × Nat × T)) (n : Nat) : Option (PR T) := do
  let net ← network arcs n
  if n = 0 then none
  else init ⟨net, List.replicate n 0, List.replicate n 0, [], 0, n - 1, 0, n, 0⟩

/-! ### `ArcBuilder` (`mod.rs` lines 519-550) -/

/-- `ArcBuilder::new` (lines 524-535). -/
def builderNew (source sink : List T) : List (Nat × Nat × T) :=
  (source.zipIdx.map fun p => (0, p.2 + 1, p.1)) ++ (sink.zipIdx.map fun p => (p.2 + 1, source.length + 1, p.1))

/-- `ArcBuilder::add_arc` (lines 537-549). -/
def addArc (arcs : List (Nat × Nat × T)) (src to : Nat) (c : T) (rev : Bool) : List (Nat × Nat × T) :=
  let arcs := arcs ++ [(src + 1, to + 1, c)]
  if rev then arcs ++ [(to + 1, src + 1, c)] else arcs

end Verif.Flow
