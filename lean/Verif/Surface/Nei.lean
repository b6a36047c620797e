import Verif.Surface.Basic
/-!
# The edges and the neighbours of a vertex (`src/mesh/element/vertex.rs`)
-/
namespace Verif.Surface

/-- `VNeiState::is_halfedge_canonical` (lines 122-129; `use_implicit_twin` is false). -/
def canonical (m : Mesh) (he : Nat) : Option Bool := do
  let e ← get m.heEdge he
  let h ← get m.eHe e
  pure (decide (he = h))

/-- `VNeiState::next` (lines 131-152): the state and `first_he`. -/
def neiStep (m : Mesh) (s : Nat × Bool × Nat) : Option (Nat × Bool × Nat) := do
  let n ← get (if s.2.1 then m.vIn else m.vOut) s.1
  if n = s.2.2 then
    let q ← if s.2.1 then get m.heNext n else hePrev m n
    pure (q, !s.2.1, q)
  else pure (n, s.2.1, s.2.2)

/-- The loop of `VNeiIterImpl::new` (lines 166-168): the state at which the iteration starts. -/
def neiStart (m : Mesh) : Nat → Nat × Bool × Nat → Option (Nat × Bool)
  | 0, _ => none
  | fuel + 1, s => do
    if ← canonical m s.1 then pure (s.1, s.2.1) else neiStart m fuel (← neiStep m s)

/-- All states of the iteration, up to the return to the start (`is_end`, lines 210-212 and 249-251). -/
def neiLoop (m : Mesh) (start : Nat × Bool) : Nat → Nat × Bool × Nat → Option (List (Nat × Bool))
  | 0, _ => none
  | fuel + 1, s => do
    let s' ← neiStep m s
    if (s'.1, s'.2.1) = start then pure [(s.1, s.2.1)] else pure ((s.1, s.2.1) :: (← neiLoop m start fuel s'))

/-- The items for which `valid` holds (`iter_next`, `element/mod.rs` lines 48-60). -/
def keepCanonical (m : Mesh) : List (Nat × Bool) → Option (List (Nat × Bool))
  | [] => some []
  | s :: rest => do
    let c ← canonical m s.1
    let r ← keepCanonical m rest
    pure (if c then s :: r else r)

/-- The states at which `VEIter` and `VVIter` return an item. -/
def neiItems (m : Mesh) (v : Nat) : Option (List (Nat × Bool)) := do
  let h ← get m.vHe v
  let start ← neiStart m (2 * m.nH + 3) (h, false, h)
  keepCanonical m (← neiLoop m start (2 * m.nH + 3) (start.1, start.2, start.1))

/-- `vertex(v).edges()` (lines 34-38, 224-261). -/
def vertexEdges (m : Mesh) (v : Nat) : Option (List Nat) := do (← neiItems m v).mapM fun s => get m.heEdge s.1

/-- `vertex(v).vertices()` (lines 28-32, 181-222). -/
def vertexVertices (m : Mesh) (v : Nat) : Option (List Nat) := do
  (← neiItems m v).mapM fun s => if s.2 then get m.heVertex s.1 else tip m s.1

/-- The ring that is walked. -/
def neiRing (m : Mesh) (inc : Bool) : Ids := if inc then m.vIn else m.vOut

/-- Where the walk goes on after the ring. -/
def neiTurn (m : Mesh) (inc : Bool) (n : Nat) : Option Nat := if inc then get m.heNext n else hePrev m n

theorem neiStep_turn {m : Mesh} {x f q : Nat} {inc : Bool} (h : get (neiRing m inc) x = some f) (ht : neiTurn m inc f = some q) :
    neiStep m (x, inc, f) = some (q, !inc, q) := by
  rw [neiStep]
  refine (bind_of (show get (if inc then m.vIn else m.vOut) x = some f from h)).trans ?_
  simp only [if_true]
  unfold neiTurn at ht
  cases inc
  · simp only [Bool.false_eq_true, if_false] at ht ⊢; rw [ht]; rfl
  · simp only [if_true] at ht ⊢; rw [ht]; rfl

theorem neiStep_on {m : Mesh} {x n f : Nat} {inc : Bool} (h : get (neiRing m inc) x = some n) (hn : n ≠ f) :
    neiStep m (x, inc, f) = some (n, inc, f) := by
  rw [neiStep]
  refine (bind_of (show get (if inc then m.vIn else m.vOut) x = some n from h)).trans ?_
  simp only [if_neg hn]; rfl

/-- The walk along a ring. -/
theorem neiLoop_ring {m : Mesh} {start : Nat × Bool} {inc : Bool} {f q : Nat} (ht : neiTurn m inc f = some q) : ∀ (l : List Nat) (x fuel : Nat),
    Chain (neiRing m inc) x l f → f ∉ l → (∀ y ∈ l, (y, inc) ≠ start) →
    neiLoop m start (l.length + 1 + fuel) (x, inc, f) = if (q, !inc) = start then some ((x :: l).map (·, inc)) else
      (neiLoop m start fuel (q, !inc, q)).map ((x :: l).map (·, inc) ++ ·) := by
  intro l
  induction l with
  | nil =>
    intro x fuel hc _ _
    have hc : get (neiRing m inc) x = some f := hc
    rw [List.length_nil, Nat.zero_add, Nat.add_comm, neiLoop]
    refine (bind_of (neiStep_turn hc ht)).trans ?_
    simp only
    split_ifs
    · rfl
    · cases neiLoop m start fuel (q, !inc, q) <;> rfl
  | cons y l ih =>
    intro x fuel hc hf hs
    obtain ⟨h1, h2⟩ := hc
    rw [List.length_cons, show l.length + 1 + 1 + fuel = (l.length + 1 + fuel) + 1 by omega, neiLoop]
    refine (bind_of (neiStep_on h1 (fun e => hf (by simp [e])))).trans ?_
    simp only
    rw [if_neg (hs y (by simp)), ih y fuel h2 (fun h => hf (by simp [h])) (fun z hz => hs z (by simp [hz]))]
    split_ifs
    · rfl
    · cases neiLoop m start fuel (q, !inc, q) <;> rfl

/-- The search along a ring. -/
theorem neiStart_ring {m : Mesh} {inc : Bool} {f q : Nat} (ht : neiTurn m inc f = some q) : ∀ (l : List Nat) (x fuel : Nat),
    Chain (neiRing m inc) x l f → f ∉ l → (∀ y ∈ x :: l, ∃ b, canonical m y = some b) →
    (∃ y ∈ x :: l, canonical m y = some true ∧ neiStart m (l.length + 1 + fuel) (x, inc, f) = some (y, inc)) ∨
    ((∀ y ∈ x :: l, canonical m y = some false) ∧ neiStart m (l.length + 1 + fuel) (x, inc, f) = neiStart m fuel (q, !inc, q)) := by
  intro l
  induction l with
  | nil =>
    intro x fuel hc _ hb
    have hc : get (neiRing m inc) x = some f := hc
    obtain ⟨b, hb⟩ := hb x (by simp)
    rw [List.length_nil, Nat.zero_add, Nat.add_comm, neiStart]
    cases b
    · refine Or.inr ⟨by simpa using hb, ?_⟩
      refine (bind_of hb).trans ?_
      simp only [Bool.false_eq_true, if_false]
      exact bind_of (neiStep_turn hc ht)
    · exact Or.inl ⟨x, by simp, hb, (bind_of hb).trans (by simp)⟩
  | cons y l ih =>
    intro x fuel hc hf hb
    obtain ⟨h1, h2⟩ := hc
    obtain ⟨b, hbx⟩ := hb x (by simp)
    rw [List.length_cons, show l.length + 1 + 1 + fuel = (l.length + 1 + fuel) + 1 by omega, neiStart]
    cases b
    · have step : neiStart m (l.length + 1 + fuel + 1) (x, inc, f) = neiStart m (l.length + 1 + fuel) (y, inc, f) := by
        rw [neiStart]
        refine (bind_of hbx).trans ?_
        simp only [Bool.false_eq_true, if_false]
        exact bind_of (neiStep_on h1 (fun e => hf (by simp [e])))
      rw [neiStart] at step
      rw [step]
      rcases ih y fuel h2 (fun h => hf (by simp [h])) (fun z hz => hb z (by simp [hz])) with ⟨z, z1, z2, z3⟩ | ⟨z1, z2⟩
      · exact Or.inl ⟨z, by simp [z1], z2, z3⟩
      · exact Or.inr ⟨fun w hw => (List.mem_cons.1 hw).elim (fun e => e ▸ hbx) (z1 w), z2⟩
    · exact Or.inl ⟨x, by simp, hbx, (bind_of hbx).trans (by simp)⟩

theorem keepCanonical_spec {m : Mesh} : ∀ {l : List (Nat × Bool)}, (∀ s ∈ l, ∃ b, canonical m s.1 = some b) →
    keepCanonical m l = some (l.filter fun s => canonical m s.1 = some true) := by
  intro l
  induction l with
  | nil => intro _; rfl
  | cons s l ih =>
    intro h
    obtain ⟨b, hb⟩ := h s (by simp)
    rw [keepCanonical]
    refine (bind_of hb).trans ?_
    refine (bind_of (ih fun s hs => h s (by simp [hs]))).trans ?_
    cases b
    · rw [List.filter_cons_of_neg (by simp [hb])]; rfl
    · rw [List.filter_cons_of_pos (by simp [hb])]; rfl

theorem Valid.canonical {m : Mesh} (v : Valid m) {x e : Nat} (hx : get m.heEdge x = some e) :
    ∃ h, get m.eHe e = some h ∧ get m.heEdge h = some e ∧ canonical m x = some (decide (x = h)) := by
  have := get_lt hx
  rw [v.sEdge] at this
  obtain ⟨e', e1, e2⟩ := v.hasE x this
  rw [hx] at e2; cases e2
  obtain ⟨h, h1, h2⟩ := v.ehe e e1
  refine ⟨h, h1, h2, ?_⟩
  rw [Surface.canonical]
  refine (bind_of hx).trans ?_
  exact (bind_of h1).trans rfl

/-- At the vertex `u`, on the side `inc`. -/
def At (m : Mesh) (u : Nat) (inc : Bool) (x : Nat) : Prop := (if inc then tip m x else get m.heVertex x) = some u

/-- The walk along both rings. -/
theorem Valid.walk {m : Mesh} (v : Valid m) {u x : Nat} {inc : Bool} (hx : At m u inc x) :
    ∃ t q t', Chain (neiRing m inc) x t x ∧ (x :: t).Nodup ∧ (∀ y, y ∈ x :: t ↔ At m u inc y) ∧ neiTurn m inc x = some q ∧
      Chain (neiRing m !inc) q t' q ∧ (q :: t').Nodup ∧ (∀ y, y ∈ q :: t' ↔ At m u (!inc) y) ∧ neiTurn m (!inc) q = some x ∧
      t.length < m.nH ∧ t'.length < m.nH := by
  have rings : ∀ i y, At m u i y → Ring (neiRing m i) y (At m u i) := by
    intro i y hy
    cases i
    · exact v.outs y u hy
    · exact v.ins y u hy
  have lt : ∀ i y, At m u i y → y < m.nH := by
    intro i y hy
    cases i
    · have := get_lt (show get m.heVertex y = some u from hy); rwa [v.sVertex] at this
    · obtain ⟨n, n1, -⟩ := tip_some.1 (show Surface.tip m y = some u from hy)
      have := get_lt n1; rwa [v.sNext] at this
  have turn : ∃ q, neiTurn m inc x = some q ∧ neiTurn m (!inc) q = some x ∧ At m u (!inc) q := by
    have hlt := lt inc x hx
    cases inc
    · obtain ⟨p, p1, p2, p3, p4⟩ := v.prev hlt
      exact ⟨p, p1, p3, tip_some.2 ⟨x, p3, hx⟩⟩
    · obtain ⟨n, n1, n2⟩ := tip_some.1 (show Surface.tip m x = some u from hx)
      have := get_lt n2
      rw [v.sVertex] at this
      obtain ⟨p, p1, p2, p3, p4⟩ := v.prev this
      have := v.next_inj p3 n1
      subst this
      exact ⟨n, n1, p1, n2⟩
  obtain ⟨q, q1, q2, q3⟩ := turn
  obtain ⟨t, t1, t2, t3⟩ := rings inc x hx
  obtain ⟨t', r1, r2, r3⟩ := rings (!inc) q q3
  refine ⟨t, q, t', t1, t2, t3, q1, r1, r2, r3, q2, ?_, ?_⟩
  · have := length_le_of_nodup t2 fun y hy => lt inc y ((t3 y).1 hy)
    simp only [List.length_cons] at this; omega
  · have := length_le_of_nodup r2 fun y hy => lt (!inc) y ((r3 y).1 hy)
    simp only [List.length_cons] at this; omega

theorem At.edge {m : Mesh} (v : Valid m) {u x : Nat} {inc : Bool} (hx : At m u inc x) : ∃ e, get m.heEdge x = some e := by
  have : x < m.nH := by
    cases inc
    · have := get_lt (show get m.heVertex x = some u from hx); rwa [v.sVertex] at this
    · obtain ⟨n, n1, -⟩ := tip_some.1 (show Surface.tip m x = some u from hx)
      have := get_lt n1; rwa [v.sNext] at this
  obtain ⟨e, -, he⟩ := v.hasE x this
  exact ⟨e, he⟩

/-- The states that are returned: the canonical halfedges at the vertex. -/
theorem Valid.neiItems {m : Mesh} (v : Valid m) {u h : Nat} (hu : get m.vHe u = some h) :
    ∃ l, neiItems m u = some l ∧ l.Nodup ∧ ∀ s, s ∈ l ↔ At m u s.2 s.1 ∧ Surface.canonical m s.1 = some true := by
  have hh : At m u false h := v.vhe u h hu
  have can : ∀ {inc y}, At m u inc y → ∃ b, Surface.canonical m y = some b := fun hy => by
    obtain ⟨e, he⟩ := At.edge v hy
    obtain ⟨h', -, -, h3⟩ := v.canonical he
    exact ⟨_, h3⟩
  -- the start
  have st : ∃ inc y, At m u inc y ∧ Surface.canonical m y = some true ∧ neiStart m (2 * m.nH + 3) (h, false, h) = some (y, inc) := by
    obtain ⟨t, q, t', w1, w2, w3, w4, w5, w6, w7, w8, w9, w10⟩ := v.walk hh
    obtain ⟨k, hk⟩ : ∃ k, 2 * m.nH + 3 = t.length + 1 + (t'.length + 1 + k) := ⟨2 * m.nH + 3 - (t.length + 1 + (t'.length + 1)), by omega⟩
    rw [hk]
    rcases neiStart_ring w4 t h (t'.length + 1 + k) w1 (List.nodup_cons.1 w2).1 (fun y hy => can ((w3 y).1 hy)) with ⟨y, y1, y2, y3⟩ | ⟨z1, z2⟩
    · exact ⟨false, y, (w3 y).1 y1, y2, y3⟩
    · rw [z2]
      rcases neiStart_ring w8 t' q k w5 (List.nodup_cons.1 w6).1 (fun y hy => can ((w7 y).1 hy)) with ⟨y, y1, y2, y3⟩ | ⟨x1, x2⟩
      · exact ⟨true, y, (w7 y).1 y1, y2, y3⟩
      · exfalso
        obtain ⟨e, he⟩ := At.edge v hh
        obtain ⟨c, c1, c2, c3⟩ := v.canonical he
        obtain ⟨c', d1, d2, d3⟩ := v.canonical c2
        rw [c1] at d1; cases d1
        rw [decide_eq_true rfl] at d3
        rcases v.ends h c e he c2 with ⟨a1, a2⟩ | ⟨a1, a2⟩
        · have := z1 c ((w3 c).2 (a1.trans hh)); rw [d3] at this; cases this
        · have := x1 c ((w7 c).2 (a2.trans hh)); rw [d3] at this; cases this
  obtain ⟨inc, s, s1, s2, s3⟩ := st
  obtain ⟨t, q, t', w1, w2, w3, w4, w5, w6, w7, w8, w9, w10⟩ := v.walk s1
  obtain ⟨k, hk⟩ : ∃ k, 2 * m.nH + 3 = t.length + 1 + (t'.length + 1 + k) := ⟨2 * m.nH + 3 - (t.length + 1 + (t'.length + 1)), by omega⟩
  have loop : neiLoop m (s, inc) (2 * m.nH + 3) (s, inc, s) = some ((s :: t).map (·, inc) ++ (q :: t').map (·, !inc)) := by
    rw [hk, neiLoop_ring w4 t s _ w1 (List.nodup_cons.1 w2).1 (fun y hy hc => by
      have : y = s := congrArg Prod.fst hc
      exact (List.nodup_cons.1 w2).1 (this ▸ hy)), if_neg (fun hc => by
        have : (!inc) = inc := congrArg Prod.snd hc
        cases inc <;> cases this),
      neiLoop_ring w8 t' q _ w5 (List.nodup_cons.1 w6).1 (fun y _ hc => by
        have : (!inc) = inc := congrArg Prod.snd hc
        cases inc <;> cases this), if_pos (by simp)]
    rfl
  have all : ∀ z : Nat × Bool, z ∈ (s :: t).map (·, inc) ++ (q :: t').map (·, !inc) ↔ At m u z.2 z.1 := by
    rintro ⟨y, i⟩
    rw [List.mem_append, List.mem_map, List.mem_map]
    constructor
    · rintro (⟨z, z1, z2⟩ | ⟨z, z1, z2⟩)
      · cases z2; exact (w3 y).1 z1
      · cases z2; exact (w7 y).1 z1
    · intro hy
      by_cases hi : i = inc
      · subst hi; exact Or.inl ⟨y, (w3 y).2 hy, rfl⟩
      · have : i = !inc := by cases i <;> cases inc <;> simp_all
        subst this
        exact Or.inr ⟨y, (w7 y).2 hy, rfl⟩
  refine ⟨((s :: t).map (·, inc) ++ (q :: t').map (·, !inc)).filter fun z => Surface.canonical m z.1 = some true, ?_, ?_, fun z => ?_⟩
  · rw [Surface.neiItems]
    refine (bind_of hu).trans ?_
    refine (bind_of s3).trans ?_
    refine (bind_of loop).trans ?_
    exact keepCanonical_spec fun z hz => can ((all z).1 hz)
  · refine List.Nodup.filter _ (List.nodup_append.2 ⟨?_, ?_, ?_⟩)
    · exact w2.map fun a b hab => congrArg Prod.fst hab
    · exact w6.map fun a b hab => congrArg Prod.fst hab
    · intro a ha b hb hab
      obtain ⟨z, -, rfl⟩ := List.mem_map.1 ha
      obtain ⟨z', -, rfl⟩ := List.mem_map.1 hb
      have : inc = !inc := congrArg Prod.snd hab
      cases inc <;> cases this
  · rw [List.mem_filter, all, decide_eq_true_iff]

theorem mapM_total {α β : Type} {f : α → Option β} : ∀ {l : List α}, (∀ x ∈ l, ∃ y, f x = some y) →
    ∃ ys, l.mapM f = some ys ∧ ys.length = l.length ∧ ∀ i (hi : i < l.length) (hi' : i < ys.length), f l[i] = some ys[i] := by
  intro l
  induction l with
  | nil => intro _; exact ⟨[], rfl, rfl, fun i hi => by simp at hi⟩
  | cons x l ih =>
    intro h
    obtain ⟨y, hy⟩ := h x (by simp)
    obtain ⟨ys, h1, h2, h3⟩ := ih fun z hz => h z (by simp [hz])
    refine ⟨y :: ys, ?_, by simp [h2], fun i hi hi' => ?_⟩
    · rw [List.mapM_cons]
      refine (bind_of hy).trans ?_
      exact (bind_of h1).trans rfl
    · cases i with
      | zero => simpa using hy
      | succ i => simpa using h3 i (by simpa using hi) (by simpa using hi')

/-- `vertex.edges()` and `vertex.vertices()`. -/
theorem Valid.nei {m : Mesh} (v : Valid m) {u h : Nat} (hu : get m.vHe u = some h) (hloop : ∀ x, get m.heVertex x = some u → Surface.tip m x ≠ some u) :
    ∃ es ws, vertexEdges m u = some es ∧ vertexVertices m u = some ws ∧ es.Nodup ∧
      (∀ e, e ∈ es ↔ ∃ x, get m.heEdge x = some e ∧ (get m.heVertex x = some u ∨ Surface.tip m x = some u)) ∧ ws.length = es.length ∧
      ∀ i (hi : i < es.length) (hi' : i < ws.length), ∃ x, get m.heEdge x = some es[i] ∧
        ((get m.heVertex x = some u ∧ Surface.tip m x = some ws[i]) ∨ (get m.heVertex x = some ws[i] ∧ Surface.tip m x = some u)) := by
  obtain ⟨l, l1, l2, l3⟩ := v.neiItems hu
  obtain ⟨es, e1, e2, e3⟩ := mapM_total (l := l) (f := fun s => get m.heEdge s.1) (fun s hs => At.edge v ((l3 s).1 hs).1)
  have far : ∀ s ∈ l, ∃ w, (if s.2 then get m.heVertex s.1 else Surface.tip m s.1) = some w ∧
      ((get m.heVertex s.1 = some u ∧ Surface.tip m s.1 = some w) ∨ (get m.heVertex s.1 = some w ∧ Surface.tip m s.1 = some u)) := by
    rintro ⟨x, inc⟩ hs
    have hx := ((l3 _).1 hs).1
    cases inc
    · have hx : get m.heVertex x = some u := hx
      have := get_lt hx; rw [v.sVertex] at this
      obtain ⟨w, hw, -⟩ := v.tip this
      exact ⟨w, hw, Or.inl ⟨hx, hw⟩⟩
    · have hx : Surface.tip m x = some u := hx
      obtain ⟨n, n1, -⟩ := tip_some.1 hx
      have := get_lt n1; rw [v.sNext] at this
      obtain ⟨w, -, hw⟩ := v.hasV x this
      exact ⟨w, hw, Or.inr ⟨hw, hx⟩⟩
  obtain ⟨ws, w1, w2, w3⟩ := mapM_total (l := l) (f := fun s => if s.2 then get m.heVertex s.1 else Surface.tip m s.1) (fun s hs => (far s hs).imp fun _ h => h.1)
  refine ⟨es, ws, ?_, ?_, ?_, fun e => ?_, by rw [w2, e2], fun i hi hi' => ?_⟩
  · rw [vertexEdges]; exact (bind_of l1).trans e1
  · rw [vertexVertices]; exact (bind_of l1).trans w1
  · rw [List.nodup_iff_injective_getElem]
    rintro ⟨i, hi⟩ ⟨j, hj⟩ hij
    simp only at hij
    have hil : i < l.length := by omega
    have hjl : j < l.length := by omega
    have a1 := e3 i hil hi
    have a2 := e3 j hjl hj
    obtain ⟨p1, p2⟩ := (l3 l[i]).1 (List.getElem_mem hil)
    obtain ⟨q1, q2⟩ := (l3 l[j]).1 (List.getElem_mem hjl)
    rw [← hij] at a2
    obtain ⟨c, c1, -, c3⟩ := v.canonical a1
    obtain ⟨d, d1, -, d3⟩ := v.canonical a2
    rw [c1] at d1; cases d1
    rw [p2] at c3
    rw [q2] at d3
    have f1 : l[i].1 = c := by simpa using c3.symm
    have f2 : l[j].1 = c := by simpa using d3.symm
    have f3 : l[i] = l[j] := by
      refine Prod.ext (f1.trans f2.symm) ?_
      rw [f1] at p1; rw [f2] at q1
      cases hb : l[i].2 <;> cases hb' : l[j].2
      · rfl
      · rw [hb] at p1; rw [hb'] at q1; exact absurd q1 (hloop c p1)
      · rw [hb] at p1; rw [hb'] at q1; exact absurd p1 (hloop c q1)
      · rfl
    simp only [Fin.mk.injEq]
    exact (List.Nodup.getElem_inj_iff l2).1 f3
  · constructor
    · intro he
      obtain ⟨i, hi, rfl⟩ := List.getElem_of_mem he
      have hil : i < l.length := by omega
      obtain ⟨p1, -⟩ := (l3 l[i]).1 (List.getElem_mem hil)
      refine ⟨l[i].1, e3 i hil hi, ?_⟩
      cases hb : l[i].2
      · rw [hb] at p1; exact Or.inl p1
      · rw [hb] at p1; exact Or.inr p1
    · rintro ⟨x, hx, hxu⟩
      obtain ⟨c, c1, c2, -⟩ := v.canonical hx
      obtain ⟨c', d1, d2, d3⟩ := v.canonical c2
      rw [c1] at d1; cases d1
      rw [decide_eq_true rfl] at d3
      have hcu : ∃ inc, At m u inc c := by
        rcases v.ends x c e hx c2 with ⟨a1, a2⟩ | ⟨a1, a2⟩ <;> rcases hxu with h | h
        · exact ⟨false, a1.trans h⟩
        · exact ⟨true, a2.trans h⟩
        · exact ⟨true, a2.trans h⟩
        · exact ⟨false, a1.trans h⟩
      obtain ⟨inc, hinc⟩ := hcu
      obtain ⟨i, hi, hi2⟩ := List.getElem_of_mem ((l3 (c, inc)).2 ⟨hinc, d3⟩)
      have := e3 i hi (by omega)
      rw [hi2] at this
      simp only [c2] at this
      rw [Option.some.inj this]
      exact List.getElem_mem _
  · have hil : i < l.length := by omega
    obtain ⟨w, a1, a2⟩ := far l[i] (List.getElem_mem hil)
    have a3 := w3 i hil hi'
    rw [a1] at a3
    rw [← Option.some.inj a3]
    exact ⟨l[i].1, e3 i hil hi, a2⟩

end Verif.Surface
