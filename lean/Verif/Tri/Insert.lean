import Verif.Tri.Mesh
/-!
# Insertion of segments into a triangulation (`src/triangle/triangle.rs` lines 868-1208)

Loops and recursions run on fuel; running out of fuel is `none`, like a panic. The theorems are about runs that return.
-/
namespace Verif.Tri

/-- The predicates on vertices: the sign of `counterclockwise` and of `incircle` (lines 326-352). -/
structure Preds where
  ccw : Nat → Nat → Nat → Int
  inc : Nat → Nat → Nat → Nat → Int

/-- The result of `find_direction` (lines 868-872). -/
inductive Dir | within | left | right
deriving DecidableEq

/-- `while left_flag` (lines 900-907): the half edge, `left_ccw` and `right_ccw`. -/
def turnLeft (P : Preds) (m : Mesh) (start search : Nat) : Nat → HE → Int → Int → Bool → Option (HE × Int × Int)
  | 0, _, _, _, _ => none
  | k + 1, e, lc, rc, flag =>
    if flag then do
      let e' ← m.nei e.prev
      let l ← apex m e'
      let lc' := P.ccw search start l
      turnLeft P m start search k e' lc' lc (decide (lc' > 0))
    else some (e, lc, rc)

/-- `while right_flag` (lines 909-916). -/
def turnRight (P : Preds) (m : Mesh) (start search : Nat) : Nat → HE → Int → Int → Bool → Option (HE × Int × Int)
  | 0, _, _, _, _ => none
  | k + 1, e, lc, rc, flag =>
    if flag then do
      let s ← m.nei e
      let e' := s.next
      let r ← dest m e'
      let rc' := P.ccw start search r
      turnRight P m start search k e' rc rc' (decide (rc' > 0))
    else some (e, lc, rc)

/-- The two flags after lines 883-898: turn left, turn right. -/
def flags (g : Nat → Bool) (m : Mesh) (e : HE) (lf rf : Bool) : Option (Bool × Bool) :=
  if lf && rf then do
    let c ← m.nei e.prev
    if g c.tri then some (false, true) else some (true, false)
  else some (lf, rf)

/-- The direction (lines 917-923). -/
def dirOf (lc rc : Int) : Dir := if lc = 0 then .left else if rc = 0 then .right else .within

/-- `find_direction` (lines 874-924): the half edge leaving the start vertex whose triangle contains the direction to `search`. `N` bounds the loops. -/
def findDirection (P : Preds) (g : Nat → Bool) (N : Nat) (m : Mesh) (e : HE) (search : Nat) : Option (HE × Dir) := do
  let start ← org m e
  let right ← dest m e
  let left ← apex m e
  let lc := P.ccw search start left
  let rc := P.ccw start search right
  let (lf, rf) ← flags g m e (decide (lc > 0)) (decide (rc > 0))
  let (e1, lc1, rc1) ← turnLeft P m start search N e lc rc lf
  let (e2, lc2, rc2) ← turnRight P m start search N e1 lc1 rc1 rf
  return (e2, dirOf lc2 rc2)

/-- `scout_segment` (lines 951-986). The result is the mesh, the half edge, and whether the end was reached. -/
def scout (P : Preds) (g : Nat → Bool) (N : Nat) : Nat → Mesh → HE → Nat → Nat → Option (Mesh × HE × Bool)
  | 0, _, _, _, _ => none
  | k + 1, m, e, end2, mk => do
    let (e, dir) ← findDirection P g N m e end2
    let right ← dest m e
    let left ← apex m e
    if left = end2 then some (setMark2 m e.prev (twin mk), e.prev, true)
    else if right = end2 then some (setMark2 m e mk, e, true)
    else match dir with
      | .within => some (m, e, false)
      | .left => scout P g N k (setMark2 m e.prev (twin mk)) e.prev end2 mk
      | .right => scout P g N k (setMark2 m e mk) e.next end2 mk

/-- The test for a reflex vertex (lines 1074-1085). -/
def reflex (P : Preds) (side : Bool) (nv lv rv fv : Nat) : Int := if side then P.ccw nv lv fv else P.ccw fv rv nv

/-- `delaunay_fixup` (lines 1050-1105). -/
def fixup (P : Preds) (g : Nat → Bool) : Nat → Mesh → VMap → HE → Bool → Option (Mesh × VMap × HE)
  | 0, _, _, _, _ => none
  | k + 1, m, f, h, side => do
    let near := h.next
    let far ← m.nei near
    if g far.tri then some (m, f, h)
    else if m.mark near ≠ none then some (m, f, h)
    else do
      let nv ← apex m near
      let lv ← org m near
      let rv ← dest m near
      let fv ← apex m far
      if reflex P side nv lv rv fv ≤ 0 then some (m, f, h)
      else if P.ccw rv lv fv > 0 ∧ P.inc lv fv rv nv ≤ 0 then some (m, f, h)
      else do
        let (m1, f1) ← flip m f near
        let (m2, f2, h2) ← fixup P g k m1 f1 h.prev side
        let (m3, f3, _) ← fixup P g k m2 f2 far side
        return (m3, f3, h2)

/-- The flip used by `constrained_edge`. -/
abbrev Flip := Mesh → VMap → HE → Option (Mesh × VMap)

/-- `flip`, stopping when the two triangles have the same apex or the edge is marked. It is only used to say that neither happened during a run. -/
def flipG : Flip := fun m f e => do
  let top ← m.nei e
  if apex m top = apex m e ∨ m.mark e ≠ none then none else flip m f e

/-- The loop of `constrained_edge` (lines 1123-1158). The last result is `collision`. -/
def ceLoop (fl : Flip) (P : Preds) (g : Nat → Bool) (N ep1 ep2 : Nat) : Nat → Mesh → VMap → HE → Option (Mesh × VMap × HE × Bool)
  | 0, _, _, _ => none
  | k + 1, m, f, e => do
    let far ← org m e
    if far = ep2 ∨ P.ccw ep1 ep2 far = 0 then do
      let s ← m.nei e
      let (m1, f1, e1) ← fixup P g N m f e false
      let (m2, f2, _) ← fixup P g N m1 f1 s.next true
      return (m2, f2, e1, decide (far ≠ ep2))
    else if P.ccw ep1 ep2 far > 0 then do
      let s ← m.nei e
      let (m1, f1, _) ← fixup P g N m f s.next true
      let (m2, f2) ← fl m1 f1 e.prev
      ceLoop fl P g N ep1 ep2 k m2 f2 e.prev
    else do
      let (m1, f1, e1) ← fixup P g N m f e false
      let s ← m1.nei e1
      let (m2, f2) ← fl m1 f1 s.next
      ceLoop fl P g N ep1 ep2 k m2 f2 s.next

/-- `constrained_edge` (lines 1107-1173). -/
def constrainedEdge (fl : Flip) (P : Preds) (g : Nat → Bool) (N : Nat) : Nat → Mesh → VMap → HE → Nat → Nat → Option (Mesh × VMap)
  | 0, _, _, _, _, _ => none
  | k + 1, m, f, start, ep2, mk => do
    let ep1 ← org m start
    let (m1, f1) ← fl m f start.next
    let (m2, f2, e, collision) ← ceLoop fl P g N ep1 ep2 N m1 f1 start.next
    if collision then do
      let (m3, e3, found) ← scout P g N N m2 e ep2 mk
      if found then some (m3, f2) else constrainedEdge fl P g N k m3 f2 e3 ep2 mk
    else do
      let v ← dest m2 e
      return (setMark2 m2 e (if v = ep2 then mk else twin mk), f2)

/-- `insert_segment` (lines 1175-1199). -/
def insertSegment (fl : Flip) (P : Preds) (g : Nat → Bool) (N : Nat) (m : Mesh) (f : VMap) (a b mk : Nat) : Option (Mesh × VMap) := do
  let e1 ← f a
  let (m1, e1, found) ← scout P g N N m e1 b mk
  if found then some (m1, f)
  else do
    let a' ← org m1 e1
    let e2 ← f b
    let (m2, e2, found) ← scout P g N N m1 e2 a' (twin mk)
    if found then some (m2, f)
    else do
      let b' ← org m2 e2
      constrainedEdge fl P g N N m2 f e1 b' mk

/-- The loop of `form_skeleton` (lines 1201-1208): segment number `i` gets the mark `2 i`. -/
def skeletonFrom (fl : Flip) (P : Preds) (g : Nat → Bool) (N : Nat) : Mesh → VMap → List (Nat × Nat) → Nat → Option (Mesh × VMap)
  | m, f, [], _ => some (m, f)
  | m, f, (a, b) :: l, i =>
    if a ≠ b then do
      let (m1, f1) ← insertSegment fl P g N m f a b (2 * i)
      skeletonFrom fl P g N m1 f1 l (i + 1)
    else skeletonFrom fl P g N m f l (i + 1)

/-! ### Turning around a vertex -/

theorem Ok.onext {m : Mesh} (ok : Ok m) {e e' : HE} (h : m.nei e.prev = some e') : org m e' = org m e ∧ dest m e' = apex m e ∧ e'.tri < m.n := by
  obtain ⟨h1, h2⟩ := ok.swap _ _ h
  unfold org dest at *
  rw [prev_prev] at h2
  rw [prev_next] at h1
  exact ⟨h2.symm, h1.symm, ok.range' h⟩

theorem Ok.oprev {m : Mesh} (ok : Ok m) {e s : HE} (h : m.nei e = some s) : org m s.next = org m e ∧ apex m s.next = dest m e ∧ s.next.tri < m.n := by
  obtain ⟨h1, h2⟩ := ok.swap _ _ h
  unfold org dest apex at *
  rw [next_next]
  exact ⟨h1.symm, h2.symm, (ok.range' h : s.tri < m.n)⟩

/-- The sign of the test kept for a vertex: it is zero only on the line. -/
def OnLine (P : Preds) (a b : Nat) (v : Option Nat) (c : Int) : Prop := c = 0 → ∃ w, v = some w ∧ (P.ccw a b w = 0 ∨ P.ccw b a w = 0)

theorem turnLeft_spec {P : Preds} {m : Mesh} (ok : Ok m) {a b : Nat} : ∀ {k : Nat} {e e' : HE} {lc rc lc' rc' : Int} {fl : Bool},
    turnLeft P m a b k e lc rc fl = some (e', lc', rc') → e.tri < m.n → OnLine P a b (apex m e) lc → OnLine P a b (dest m e) rc →
    e'.tri < m.n ∧ org m e' = org m e ∧ OnLine P a b (apex m e') lc' ∧ OnLine P a b (dest m e') rc'
  | 0, _, _, _, _, _, _, _, h, _, _, _ => by simp [turnLeft] at h
  | k + 1, e, e', lc, rc, lc', rc', fl, h, hr, hl, hd => by
    unfold turnLeft at h
    split at h
    · simp only [Option.bind_eq_bind, Option.bind_eq_some_iff] at h
      obtain ⟨e1, h1, l, h2, h⟩ := h
      obtain ⟨o1, o2, o3⟩ := ok.onext h1
      obtain ⟨q1, q2, q3, q4⟩ := turnLeft_spec ok h o3 (fun hz => ⟨l, h2, .inr hz⟩) (by rw [o2]; exact hl)
      exact ⟨q1, q2.trans o1, q3, q4⟩
    · cases h; exact ⟨hr, rfl, hl, hd⟩

theorem turnRight_spec {P : Preds} {m : Mesh} (ok : Ok m) {a b : Nat} : ∀ {k : Nat} {e e' : HE} {lc rc lc' rc' : Int} {fl : Bool},
    turnRight P m a b k e lc rc fl = some (e', lc', rc') → e.tri < m.n → OnLine P a b (apex m e) lc → OnLine P a b (dest m e) rc →
    e'.tri < m.n ∧ org m e' = org m e ∧ OnLine P a b (apex m e') lc' ∧ OnLine P a b (dest m e') rc'
  | 0, _, _, _, _, _, _, _, h, _, _, _ => by simp [turnRight] at h
  | k + 1, e, e', lc, rc, lc', rc', fl, h, hr, hl, hd => by
    unfold turnRight at h
    split at h
    · simp only [Option.bind_eq_bind, Option.bind_eq_some_iff] at h
      obtain ⟨s, h1, l, h2, h⟩ := h
      obtain ⟨o1, o2, o3⟩ := ok.oprev h1
      obtain ⟨q1, q2, q3, q4⟩ := turnRight_spec ok h o3 (by rw [o2]; exact hd) (fun hz => ⟨l, h2, .inl hz⟩)
      exact ⟨q1, q2.trans o1, q3, q4⟩
    · cases h; exact ⟨hr, rfl, hl, hd⟩

/-- `find_direction` stays at the start vertex, and reports a collinear vertex only if the vertex it names lies on the line. -/
theorem findDirection_spec {P : Preds} {g : Nat → Bool} {N : Nat} {m : Mesh} (ok : Ok m) {e e' : HE} {a b : Nat} {d : Dir} (hr : e.tri < m.n) (ha : org m e = some a)
    (h : findDirection P g N m e b = some (e', d)) :
    e'.tri < m.n ∧ org m e' = some a ∧ (d = .left → OnLine P a b (apex m e') 0) ∧ (d = .right → OnLine P a b (dest m e') 0) := by
  unfold findDirection at h
  rw [ha] at h
  simp only [Option.bind_eq_bind, Option.bind_some, Option.bind_eq_some_iff] at h
  obtain ⟨r, h1, l, h2, ⟨lf, rf⟩, _, ⟨e1, lc1, rc1⟩, h4, ⟨e2, lc2, rc2⟩, h5, h⟩ := h
  simp only at h4 h5 h
  cases h
  obtain ⟨q1, q2, q3, q4⟩ := turnLeft_spec ok h4 hr (fun hz => ⟨l, h2, .inr hz⟩) (fun hz => ⟨r, h1, .inl hz⟩)
  obtain ⟨p1, p2, p3, p4⟩ := turnRight_spec ok h5 q1 q3 q4
  refine ⟨p1, by rw [p2, q2, ha], fun hd _ => p3 ?_, fun hd _ => p4 ?_⟩
  · unfold dirOf at hd
    split at hd
    · assumption
    · split at hd <;> cases hd
  · unfold dirOf at hd
    split at hd
    · cases hd
    · split at hd
      · assumption
      · cases hd

/-! ### Marks -/

/-- The mesh without its marks is the same. -/
structure Same (m m' : Mesh) : Prop where
  n : m'.n = m.n
  vert : m'.vert = m.vert
  nei : m'.nei = m.nei

theorem Same.refl (m : Mesh) : Same m m := ⟨rfl, rfl, rfl⟩
theorem Same.trans {a b c : Mesh} (h1 : Same a b) (h2 : Same b c) : Same a c := ⟨h2.n.trans h1.n, h2.vert.trans h1.vert, h2.nei.trans h1.nei⟩
theorem Same.org {a b : Mesh} (h : Same a b) (e : HE) : org b e = org a e := by unfold Verif.Tri.org; rw [h.vert]
theorem Same.dest {a b : Mesh} (h : Same a b) (e : HE) : dest b e = dest a e := by unfold Verif.Tri.dest; rw [h.vert]
theorem Same.ok {a b : Mesh} (h : Same a b) (ok : Ok a) : Ok b :=
  ⟨by rw [h.n, h.nei]; exact ok.total, by rw [h.n, h.nei]; exact ok.range, by rw [h.nei]; exact ok.symm,
   fun e e' he => by rw [h.org, h.dest, h.org, h.dest]; exact ok.swap e e' (by rw [← h.nei]; exact he), by rw [h.n, h.vert]; exact ok.distinct⟩
theorem Same.vok {a b : Mesh} {f : VMap} (h : Same a b) (vok : VOk a f) : VOk b f := fun v e he => by rw [h.n, h.org]; exact vok v e he

theorem setMark2_same (m : Mesh) (e : HE) (k : Nat) : Same m (setMark2 m e k) := by
  unfold setMark2 setMark1
  cases m.nei e <;> exact ⟨rfl, rfl, rfl⟩

theorem setMark2_mark {m : Mesh} (ok : Ok m) {e s : HE} (k : Nat) (h : m.nei e = some s) (x : HE) :
    (setMark2 m e k).mark x = if x = s then some (twin k) else if x = e then some k else m.mark x := by
  unfold setMark2 setMark1
  rw [h]; rfl

theorem setMark2_twins {m : Mesh} (ok : Ok m) {e : HE} (k : Nat) (hr : e.tri < m.n) (tw : Twins m) : Twins (setMark2 m e k) := by
  obtain ⟨s, hs⟩ := ok.total e hr
  intro x y hx
  rw [(setMark2_same m e k).nei] at hx
  rw [setMark2_mark ok k hs, setMark2_mark ok k hs]
  have hse : s ≠ e := fun h => ok.tri_ne hs (congrArg HE.tri h)
  by_cases h1 : x = e
  · subst h1
    rw [hs] at hx; cases hx
    simp [hse.symm]
  by_cases h2 : x = s
  · subst h2
    rw [ok.symm _ _ hs] at hx; cases hx
    simp [hse.symm, twin_twin]
  have h3 : y ≠ s := by rintro rfl; exact h1 (ok.inj hx hs)
  have h4 : y ≠ e := by rintro rfl; exact h2 (ok.inj hx (ok.symm _ _ hs))
  simp [h1, h2, h3, h4]
  exact tw x y hx

/-- The vertices `a` and `b` are joined by a marked edge. -/
def Marked (m : Mesh) (a b : Nat) : Prop := ∃ e, e.tri < m.n ∧ org m e = some a ∧ dest m e = some b ∧ m.mark e ≠ none

/-- Marked edges stay. -/
def Keeps (m m' : Mesh) : Prop := ∀ a b, Marked m a b → Marked m' a b

theorem Keeps.refl (m : Mesh) : Keeps m m := fun _ _ h => h
theorem Keeps.trans {a b c : Mesh} (h1 : Keeps a b) (h2 : Keeps b c) : Keeps a c := fun x y h => h2 x y (h1 x y h)

theorem setMark2_keeps {m : Mesh} (ok : Ok m) {e : HE} (k : Nat) (hr : e.tri < m.n) : Keeps m (setMark2 m e k) := by
  obtain ⟨s, hs⟩ := ok.total e hr
  rintro a b ⟨x, h1, h2, h3, h4⟩
  have sm := setMark2_same m e k
  refine ⟨x, by rw [sm.n]; exact h1, by rw [sm.org]; exact h2, by rw [sm.dest]; exact h3, ?_⟩
  rw [setMark2_mark ok k hs]
  split
  · simp
  · split
    · simp
    · exact h4

/-- A mark on both sides of an edge. -/
def MarkedAs (m : Mesh) (a b k : Nat) : Prop := ∃ e e', m.nei e = some e' ∧ org m e = some a ∧ dest m e = some b ∧ m.mark e = some k ∧ m.mark e' = some (twin k)

theorem setMark2_as {m : Mesh} (ok : Ok m) {e : HE} (k : Nat) {a b : Nat} (hr : e.tri < m.n) (h1 : org m e = some a) (h2 : dest m e = some b) :
    MarkedAs (setMark2 m e k) a b k := by
  obtain ⟨s, hs⟩ := ok.total e hr
  have sm := setMark2_same m e k
  have hse : s ≠ e := fun h => ok.tri_ne hs (congrArg HE.tri h)
  refine ⟨e, s, by rw [sm.nei]; exact hs, by rw [sm.org]; exact h1, by rw [sm.dest]; exact h2, ?_, ?_⟩
  · rw [setMark2_mark ok k hs]; simp [hse.symm]
  · rw [setMark2_mark ok k hs]; simp

theorem MarkedAs.symm {m : Mesh} (ok : Ok m) {a b k : Nat} (h : MarkedAs m a b (twin k)) : MarkedAs m b a k := by
  obtain ⟨e, e', h1, h2, h3, h4, h5⟩ := h
  obtain ⟨s1, s2⟩ := ok.swap _ _ h1
  exact ⟨e', e, ok.symm _ _ h1, by rw [← s2, h3], by rw [← s1, h2], by rw [h5, twin_twin], h4⟩

theorem MarkedAs.marked {m : Mesh} (ok : Ok m) {a b k : Nat} (h : MarkedAs m a b k) : Marked m a b := by
  obtain ⟨e, e', h1, h2, h3, h4, h5⟩ := h
  exact ⟨e, ok.range _ _ h1, h2, h3, by rw [h4]; simp⟩

/-- A chain of marked edges between two vertices. -/
inductive Chain (m : Mesh) : Nat → Nat → Prop
  | refl (a : Nat) : Chain m a a
  | step {a b c : Nat} : (Marked m a b ∨ Marked m b a) → Chain m b c → Chain m a c

theorem Chain.mono {m m' : Mesh} (k : Keeps m m') {a b : Nat} (h : Chain m a b) : Chain m' a b := by
  induction h with
  | refl a => exact .refl a
  | step h1 _ ih => exact .step (h1.imp (k _ _) (k _ _)) ih

theorem Chain.trans {m : Mesh} {a b c : Nat} (h1 : Chain m a b) (h2 : Chain m b c) : Chain m a c := by
  induction h1 with
  | refl a => exact h2
  | step h _ ih => exact .step h (ih h2)

theorem Chain.symm {m : Mesh} {a b : Nat} (h : Chain m a b) : Chain m b a := by
  induction h with
  | refl a => exact .refl a
  | step h _ ih => exact ih.trans (.step h.symm (.refl _))

/-! ### `scout_segment` -/

/-- What a scout from `a` towards `b` does to a mesh. -/
structure Scouted (m m' : Mesh) (e' : HE) (a b : Nat) (found : Bool) : Prop where
  same : Same m m'
  twins : Twins m → Twins m'
  keeps : Keeps m m'
  tri : e'.tri < m.n
  reached : found = true → Chain m' a b
  stopped : found = false → ∃ c, org m' e' = some c ∧ Chain m' a c

theorem scout_spec {P : Preds} {g : Nat → Bool} {N : Nat} : ∀ {k : Nat} {m m' : Mesh} {e e' : HE} {a b mk : Nat} {found : Bool}, Ok m → e.tri < m.n → org m e = some a →
    scout P g N k m e b mk = some (m', e', found) → Scouted m m' e' a b found
  | 0, _, _, _, _, _, _, _, _, _, _, _, h => by simp [scout] at h
  | k + 1, m, m', e, e', a, b, mk, found, ok, hr, ha, h => by
    unfold scout at h
    simp only [Option.bind_eq_bind, Option.bind_eq_some_iff] at h
    obtain ⟨⟨e1, d⟩, h1, r, h2, l, h3, h⟩ := h
    obtain ⟨q1, q2, q3, q4⟩ := findDirection_spec ok hr ha h1
    simp only at h2 h3 h
    have o1 : org m e1.prev = some l := by unfold org; rw [prev_next]; exact h3
    have o2 : dest m e1.prev = some a := by unfold dest; rw [prev_prev]; exact q2
    have step : ∀ {x y : HE} {mk' c : Nat}, x.tri < m.n → y.tri < m.n → (Marked (setMark2 m x mk') a c ∨ Marked (setMark2 m x mk') c a) → org m y = some c →
        scout P g N k (setMark2 m x mk') y b mk = some (m', e', found) → Scouted m m' e' a b found := by
      intro x y mk' c hx hy hm hc hs
      have sm := setMark2_same m x mk'
      have kp := setMark2_keeps ok mk' hx
      obtain ⟨p1, p2, p3, p4, p5, p6⟩ := scout_spec (sm.ok ok) (by rw [sm.n]; exact hy) (by rw [sm.org]; exact hc) hs
      refine ⟨sm.trans p1, fun tw => p2 (setMark2_twins ok mk' hx tw), kp.trans p3, by rw [← sm.n]; exact p4, fun hf => ?_, fun hf => ?_⟩
      · exact .step (hm.imp (p3 _ _) (p3 _ _)) (p5 hf)
      · obtain ⟨c', r1, r2⟩ := p6 hf
        exact ⟨c', r1, .step (hm.imp (p3 _ _) (p3 _ _)) r2⟩
    split at h
    · rename_i hl; subst hl
      cases h
      have sm := setMark2_same m e1.prev (twin mk)
      refine ⟨sm, fun tw => setMark2_twins ok _ q1 tw, setMark2_keeps ok _ q1, q1, fun _ => ?_, by simp⟩
      exact .step (.inr ((setMark2_as ok _ (show e1.prev.tri < m.n from q1) o1 o2).marked (sm.ok ok))) (.refl _)
    · split at h
      · rename_i hrr; subst hrr
        cases h
        have sm := setMark2_same m e' mk
        refine ⟨sm, fun tw => setMark2_twins ok _ q1 tw, setMark2_keeps ok _ q1, q1, fun _ => ?_, by simp⟩
        exact .step (.inl ((setMark2_as ok _ q1 q2 h2).marked (sm.ok ok))) (.refl _)
      · cases d with
        | within =>
          cases h
          exact ⟨Same.refl _, id, Keeps.refl _, q1, by simp, fun _ => ⟨a, q2, .refl _⟩⟩
        | left =>
          exact step (x := e1.prev) (y := e1.prev) q1 q1 (.inr ((setMark2_as ok _ (show e1.prev.tri < m.n from q1) o1 o2).marked ((setMark2_same _ _ _).ok ok))) o1 h
        | right =>
          refine step q1 (y := e1.next) q1 (.inl ((setMark2_as ok _ q1 q2 h2).marked ((setMark2_same _ _ _).ok ok))) ?_ h
          unfold org; rw [next_next]; exact h2

/-- With no other vertex on the line, a scout either marks the edge from `a` to `b` or changes nothing. -/
theorem scout_line {P : Preds} {g : Nat → Bool} {N k : Nat} {m m' : Mesh} {e e' : HE} {a b mk : Nat} {found : Bool} (ok : Ok m) (hr : e.tri < m.n) (ha : org m e = some a)
    (line : ∀ v, P.ccw a b v = 0 ∨ P.ccw b a v = 0 → v = a ∨ v = b) (h : scout P g N k m e b mk = some (m', e', found)) :
    (found = true → MarkedAs m' a b mk) ∧ (found = false → m' = m ∧ org m e' = some a) := by
  cases k with
  | zero => simp [scout] at h
  | succ k =>
  unfold scout at h
  simp only [Option.bind_eq_bind, Option.bind_eq_some_iff] at h
  obtain ⟨⟨e1, d⟩, h1, r, h2, l, h3, h⟩ := h
  obtain ⟨q1, q2, q3, q4⟩ := findDirection_spec ok hr ha h1
  simp only at h2 h3 h
  have o1 : org m e1.prev = some l := by unfold org; rw [prev_next]; exact h3
  have o2 : dest m e1.prev = some a := by unfold dest; rw [prev_prev]; exact q2
  have d1 := ok.distinct e1 q1
  have d2 := ok.distinct e1.next q1
  rw [next_next] at d2
  split at h
  · rename_i hl; subst hl
    cases h
    have sm := setMark2_same m e1.prev (twin mk)
    exact ⟨fun _ => (setMark2_as ok _ (show e1.prev.tri < m.n from q1) o1 o2).symm (sm.ok ok), by simp⟩
  · split at h
    · rename_i hrr; subst hrr
      cases h
      exact ⟨fun _ => setMark2_as ok _ q1 q2 h2, by simp⟩
    · rename_i hl hrr
      cases d with
      | within => cases h; exact ⟨by simp, fun _ => ⟨rfl, q2⟩⟩
      | left =>
        obtain ⟨w, w1, w2⟩ := q3 rfl rfl
        rw [h3] at w1; cases w1
        rcases line _ w2 with rfl | rfl
        · exact absurd (by rw [← q2] at h3; exact h3) d1
        · exact absurd rfl hl
      | right =>
        obtain ⟨w, w1, w2⟩ := q4 rfl rfl
        rw [h2] at w1; cases w1
        rcases line _ w2 with rfl | rfl
        · exact absurd (by rw [← q2] at h2; exact h2.symm) d2
        · exact absurd rfl hrr

/-! ### `delaunay_fixup` -/

theorem Flipped.keeps {m m' : Mesh} {e top : HE} (ok : Ok m) (he : m.nei e = some top) (h : Flipped m m' e top) (h1 : m.mark e = none) (h2 : m.mark top = none) :
    Keeps m m' := by
  rintro a b ⟨x, x1, x2, x3, x4⟩
  have c1 : x ≠ e := by rintro rfl; exact x4 h1
  have c2 : x ≠ top := by rintro rfl; exact x4 h2
  obtain ⟨e1, e2⟩ := h.ends x c1 c2
  refine ⟨turn e top x, ?_, by rw [e1, x2], by rw [e2, x3], by rw [h.mark]; exact x4⟩
  rw [h.n, turn_tri (ok.range _ _ he) (ok.range' he)]; exact x1

/-- The vertex `p` is a corner of the triangle of `x`. -/
def Corner (m : Mesh) (p : Option Nat) (x : HE) : Prop := m.vert x = p ∨ m.vert x.next = p ∨ m.vert x.prev = p

/-- The triangles other than `t` around the vertex `p` stay as they are, with their marks. -/
def Frame (p : Option Nat) (t : Nat) (m m' : Mesh) : Prop :=
  ∀ x : HE, x.tri ≠ t → x.tri < m.n → Corner m p x → m'.vert x = m.vert x ∧ m'.mark x = m.mark x

theorem Corner.next {m : Mesh} {p : Option Nat} {x : HE} (h : Corner m p x) : Corner m p x.next := by
  unfold Corner at *
  rw [next_next, next_prev]
  rcases h with h | h | h <;> simp [h]

theorem Corner.prev {m : Mesh} {p : Option Nat} {x : HE} (h : Corner m p x) : Corner m p x.prev := by
  unfold Corner at *
  rw [prev_prev, prev_next]
  rcases h with h | h | h <;> simp [h]

theorem Frame.corner {p : Option Nat} {t : Nat} {m m' : Mesh} (h : Frame p t m m') {x : HE} (h1 : x.tri ≠ t) (h2 : x.tri < m.n) (h3 : Corner m p x) : Corner m' p x := by
  unfold Corner
  rw [(h x h1 h2 h3).1, (h x.next h1 h2 h3.next).1, (h x.prev h1 h2 h3.prev).1]
  exact h3

theorem Frame.org {p : Option Nat} {t : Nat} {m m' : Mesh} (h : Frame p t m m') {x : HE} (h1 : x.tri ≠ t) (h2 : x.tri < m.n) (h3 : Corner m p x) : Verif.Tri.org m' x = Verif.Tri.org m x :=
  (h x.next h1 h2 h3.next).1

theorem Frame.dest {p : Option Nat} {t : Nat} {m m' : Mesh} (h : Frame p t m m') {x : HE} (h1 : x.tri ≠ t) (h2 : x.tri < m.n) (h3 : Corner m p x) : Verif.Tri.dest m' x = Verif.Tri.dest m x :=
  (h x.prev h1 h2 h3.prev).1

/-- The invariants of the mesh and the vertex map. -/
structure Good (m : Mesh) (f : VMap) : Prop where
  ok : Ok m
  twins : Twins m
  vok : VOk m f

/-- What `delaunay_fixup` at the half edge `h` does; `h'` is the half edge afterwards. -/
structure Fixed (m m' : Mesh) (f' : VMap) (h h' : HE) : Prop where
  good : Good m' f'
  n : m'.n = m.n
  tri : h'.tri = h.tri
  org : org m' h' = org m h
  dest : dest m' h' = dest m h
  keeps : Keeps m m'
  frame : Frame (Verif.Tri.org m h) h.tri m m'

theorem fixup_spec {P : Preds} {g : Nat → Bool} (hP : ∀ a b, P.ccw a b a ≤ 0) : ∀ {k : Nat} {m m' : Mesh} {f f' : VMap} {h h' : HE} {side : Bool}, Good m f → h.tri < m.n →
    fixup P g k m f h side = some (m', f', h') → Fixed m m' f' h h'
  | 0, _, _, _, _, _, _, _, _, _, hh => by simp [fixup] at hh
  | k + 1, m, m', f, f', h, h', side, gd, hr, hh => by
    have triv : some (m, f, h) = some (m', f', h') → Fixed m m' f' h h' := by
      intro e; cases e
      exact ⟨gd, rfl, rfl, rfl, rfl, Keeps.refl _, fun x _ _ _ => ⟨rfl, rfl⟩⟩
    unfold fixup at hh
    simp only [Option.bind_eq_bind, Option.bind_eq_some_iff] at hh
    obtain ⟨far, h1, hh⟩ := hh
    split at hh
    · exact triv hh
    split at hh
    · exact triv hh
    rename_i hg hm
    have hm : m.mark h.next = none := by by_contra hc; exact hm hc
    simp only [Option.bind_eq_some_iff] at hh
    obtain ⟨nv, a1, lv, a2, rv, a3, fv, a4, hh⟩ := hh
    split at hh
    · exact triv hh
    rename_i hc
    split at hh
    · exact triv hh
    simp only [Option.bind_eq_some_iff] at hh
    obtain ⟨⟨m1, f1⟩, r1, ⟨m2, f2, h2⟩, r2, ⟨m3, f3, h3⟩, r3, hh⟩ := hh
    cases hh
    simp only at r2 r3
    have hne : apex m far ≠ apex m h.next := by
      rw [a1, a4]
      intro e
      have e := Option.some.inj e
      subst e
      apply hc
      unfold reflex
      split
      · exact hP _ _
      · exact hP _ _
    have ok := gd.ok
    have hte := ok.tri_ne h1
    have fl := flip_spec ok h1 hne r1
    have hm2 : m.mark far = none := by rw [gd.twins _ _ h1, hm]; rfl
    have g1 : Good m1 f1 := ⟨fl.ok ok h1 hne, fl.twins hte gd.twins, flip_vok ok h1 hne gd.vok r1⟩
    have k1 := fl.keeps ok h1 hm hm2
    have hfr := ok.range' h1
    -- the flip moves `h` to `h.prev`
    have tu : turn h.next far h = h.prev := by
      have := turn_out (e := h.next) (top := far) (x := h)
      have tq : ∀ a b : HE, a.tri ≠ b.tri → a ≠ b := fun a b h1 h2 => h1 (congrArg HE.tri h2)
      have e1 : h ≠ far.prev := tq _ _ (Ne.symm hte)
      have e2 : h ≠ far.next := tq _ _ (Ne.symm hte)
      simp [turn, e1, e2, next_prev, next_next]
    have hx1 : h ≠ h.next := (next_ne h).symm
    have hx2 : h ≠ far := fun e => hte (by rw [← e]; rfl)
    obtain ⟨e1, e2⟩ := fl.ends h hx1 hx2
    rw [tu] at e1 e2
    have dg := fl.diag
    have ap1 : apex m h.next = org m h := rfl
    -- the flip leaves the other triangles around the vertex alone
    have d0 := ok.distinct h.next hr
    have d1 := ok.distinct h.next.next hr
    have d2 := ok.distinct h.next.prev hr
    rw [next_next h.next] at d1
    rw [prev_next] at d2
    obtain ⟨s1, s2⟩ := ok.swap _ _ h1
    unfold Verif.Tri.org Verif.Tri.dest at s1 s2
    have fr1 : Frame (org m h) h.tri m m1 := by
      intro x x1 x2 x3
      have x4 : x.tri ≠ far.tri := by
        intro hh
        have all : ∀ y : HE, y.tri = far.tri → m.vert y ≠ org m h := by
          intro y hy
          rcases same_tri hy with rfl | rfl | rfl
          · exact hne
          · rw [← s2]; exact d2
          · rw [← s1]; exact d0.symm
        rcases x3 with x3 | x3 | x3
        · exact all x hh x3
        · exact all x.next hh x3
        · exact all x.prev hh x3
      refine ⟨fl.rest x x1 x4, ?_⟩
      have := fl.mark x
      rwa [turn_out (e := h.next) x1 x4] at this
    obtain ⟨g2, n2, t2, o2, de2, k2, fr2⟩ := fixup_spec hP g1 (show h.prev.tri < m1.n by rw [fl.n]; exact hr) r2
    have cf : Corner m1 (org m h) far := .inr (.inl dg.2.2.1)
    have tf : far.tri ≠ h.prev.tri := hte
    rw [e1] at fr2
    have of2 : org m2 far = org m h := by
      rw [fr2.org tf (by rw [fl.n]; exact hfr) cf]; exact dg.2.2.1
    obtain ⟨g3, n3, t3, o3, de3, k3, fr3⟩ := fixup_spec hP g2 (show far.tri < m2.n by rw [n2, fl.n]; exact hfr) r3
    rw [of2] at fr3
    have th : h2.tri ≠ far.tri := by rw [t2]; exact hte.symm
    have hc2 : Corner m2 (org m h) h2 := .inr (.inl (by rw [← e1, ← o2]; rfl))
    have hr2 : h2.tri < m2.n := by rw [t2, n2, fl.n]; exact hr
    refine ⟨g3, by rw [n3, n2, fl.n], by rw [t2]; rfl, ?_, ?_, (k1.trans k2).trans k3, ?_⟩
    · rw [fr3.org th hr2 hc2, o2, e1]
    · rw [fr3.dest th hr2 hc2, de2, e2]
    · intro x x1 x2 x3
      have i1 := fr1 x x1 x2 x3
      have c1 := fr1.corner x1 x2 x3
      have x2' : x.tri < m1.n := by rw [fl.n]; exact x2
      have i2 := fr2 x x1 x2' c1
      have c2 := fr2.corner (t := h.prev.tri) x1 x2' c1
      by_cases x4 : x.tri = far.tri
      · exfalso
        have all : ∀ y : HE, y.tri = far.tri → m.vert y ≠ org m h := by
          intro y hy
          rcases same_tri hy with rfl | rfl | rfl
          · exact hne
          · rw [← s2]; exact d2
          · rw [← s1]; exact d0.symm
        rcases x3 with x3 | x3 | x3
        · exact all x x4 x3
        · exact all x.next x4 x3
        · exact all x.prev x4 x3
      · have i3 := fr3 x x4 (by rw [n2]; exact x2') c2
        exact ⟨by rw [i3.1, i2.1, i1.1], by rw [i3.2, i2.2, i1.2]⟩

/-! ### `constrained_edge`, `insert_segment`, `form_skeleton` -/

theorem flipG_eq {m : Mesh} {f : VMap} {e : HE} {r : Mesh × VMap} (h : flipG m f e = some r) :
    ∃ top, m.nei e = some top ∧ apex m top ≠ apex m e ∧ m.mark e = none ∧ flip m f e = some r := by
  unfold flipG at h
  simp only [Option.bind_eq_bind, Option.bind_eq_some_iff] at h
  obtain ⟨top, h1, h⟩ := h
  split at h
  · cases h
  · rename_i hc
    push Not at hc
    exact ⟨top, h1, hc.1, hc.2, h⟩

/-- A guarded flip of an edge: afterwards the half edge runs from the far apex to the near apex. -/
theorem flipG_spec {m m' : Mesh} {f f' : VMap} {e : HE} (gd : Good m f) (h : flipG m f e = some (m', f')) :
    Good m' f' ∧ m'.n = m.n ∧ e.tri < m.n ∧ Keeps m m' ∧ dest m' e = apex m e ∧ org m' e ≠ apex m e := by
  obtain ⟨top, h1, h2, h3, h4⟩ := flipG_eq h
  have ok := gd.ok
  have fl := flip_spec ok h1 h2 h4
  have hm2 : m.mark top = none := by rw [gd.twins _ _ h1, h3]; rfl
  exact ⟨⟨fl.ok ok h1 h2, fl.twins (ok.tri_ne h1) gd.twins, flip_vok ok h1 h2 gd.vok h4⟩, fl.n, ok.range _ _ h1, fl.keeps ok h1 h3 hm2, fl.diag.2.1,
    by rw [fl.diag.1]; exact h2⟩

/-- The state of `constrained_edge`: the half edge ends in the first endpoint. -/
structure Cut (m m' : Mesh) (f' : VMap) (e' : HE) (ep1 : Nat) : Prop where
  good : Good m' f'
  n : m'.n = m.n
  tri : e'.tri < m'.n
  keeps : Keeps m m'
  dest : dest m' e' = some ep1
  org : org m' e' ≠ some ep1

theorem ceLoop_spec {P : Preds} {g : Nat → Bool} (hP : ∀ a b, P.ccw a b a ≤ 0) {N ep1 ep2 : Nat} : ∀ {k : Nat} {m m' : Mesh} {f f' : VMap} {e e' : HE} {col : Bool},
    Good m f → e.tri < m.n → dest m e = some ep1 → org m e ≠ some ep1 → ceLoop flipG P g N ep1 ep2 k m f e = some (m', f', e', col) →
    Cut m m' f' e' ep1 ∧ ∃ far, org m' e' = some far ∧ (far = ep2 ∨ P.ccw ep1 ep2 far = 0) ∧ (col = true ↔ far ≠ ep2)
  | 0, _, _, _, _, _, _, _, _, _, _, _, h => by simp [ceLoop] at h
  | k + 1, m, m', f, f', e, e', col, gd, hr, hd, ho, h => by
    unfold ceLoop at h
    simp only [Option.bind_eq_bind, Option.bind_eq_some_iff] at h
    obtain ⟨far, h1, h⟩ := h
    split at h
    · rename_i hfar
      simp only [Option.bind_eq_some_iff] at h
      obtain ⟨s, h2, ⟨m1, f1, e1⟩, h3, ⟨m2, f2, e2⟩, h4, h⟩ := h
      cases h
      simp only at h4
      obtain ⟨g1, n1, t1, o1, d1, k1, fr1⟩ := fixup_spec hP gd hr h3
      have hs := gd.ok.tri_ne h2
      obtain ⟨p1, p2, p3⟩ := gd.ok.oprev h2
      have cs : Corner m (org m e) s.next := .inr (.inl p1)
      have os : org m1 s.next = org m e := by rw [fr1.org (x := s.next) hs p3 cs]; exact p1
      obtain ⟨g2, n2, t2, o2, d2, k2, fr2⟩ := fixup_spec hP g1 (show s.next.tri < m1.n by rw [n1]; exact p3) h4
      rw [os] at fr2
      have te : e1.tri ≠ s.next.tri := by rw [t1]; exact hs.symm
      have re : e1.tri < m1.n := by rw [t1, n1]; exact hr
      have ce : Corner m1 (org m e) e1 := .inr (.inl o1)
      have oe : org m2 e1 = org m e := by rw [fr2.org te re ce, o1]
      have de : dest m2 e1 = dest m e := by rw [fr2.dest te re ce, d1]
      exact ⟨⟨g2, by rw [n2, n1], by rw [n2]; exact re, k1.trans k2, by rw [de, hd], by rw [oe]; exact ho⟩, far, by rw [oe, h1], hfar, by simp⟩
    split at h
    · simp only [Option.bind_eq_some_iff] at h
      obtain ⟨s, h2, ⟨m1, f1, e1⟩, h3, ⟨m2, f2⟩, h4, h⟩ := h
      simp only at h4 h
      have hs := gd.ok.tri_ne h2
      obtain ⟨p1, p2, p3⟩ := gd.ok.oprev h2
      obtain ⟨g1, n1, t1, o1, d1, k1, fr1⟩ := fixup_spec hP gd p3 h3
      rw [p1] at fr1
      have ce : Corner m (org m e) e.prev := .inr (.inr (by rw [prev_prev]; rfl))
      have te : e.prev.tri ≠ s.next.tri := hs.symm
      have ap : apex m1 e.prev = some ep1 := by
        unfold apex
        rw [(fr1 e.prev te hr ce).1]; exact hd
      obtain ⟨q1, q2, q3, q4, q5, q6⟩ := flipG_spec g1 h4
      obtain ⟨⟨r1, r2, r3, r4, r5, r6⟩, far', r7⟩ := ceLoop_spec hP q1 (by rw [q2]; exact q3) (by rw [q5, ap]) (by rw [← ap]; exact q6) h
      exact ⟨⟨r1, by rw [r2, q2, n1], r3, (k1.trans q4).trans r4, r5, r6⟩, far', r7⟩
    · simp only [Option.bind_eq_some_iff] at h
      obtain ⟨⟨m1, f1, e1⟩, h3, s, h2, ⟨m2, f2⟩, h4, h⟩ := h
      simp only at h4 h2 h
      obtain ⟨g1, n1, t1, o1, d1, k1, fr1⟩ := fixup_spec hP gd hr h3
      obtain ⟨p1, p2, p3⟩ := g1.ok.oprev h2
      have ap : apex m1 s.next = some ep1 := by rw [p2, d1, hd]
      obtain ⟨q1, q2, q3, q4, q5, q6⟩ := flipG_spec g1 h4
      obtain ⟨⟨r1, r2, r3, r4, r5, r6⟩, far', r7⟩ := ceLoop_spec hP q1 (by rw [q2]; exact q3) (by rw [q5, ap]) (by rw [← ap]; exact q6) h
      exact ⟨⟨r1, by rw [r2, q2, n1], r3, (k1.trans q4).trans r4, r5, r6⟩, far', r7⟩

/-- What stays true through an insertion. -/
structure Inserted (m m' : Mesh) (f' : VMap) : Prop where
  good : Good m' f'
  n : m'.n = m.n
  keeps : Keeps m m'

theorem constrained_spec {P : Preds} {g : Nat → Bool} (hP : ∀ a b, P.ccw a b a ≤ 0) {N : Nat} : ∀ {k : Nat} {m m' : Mesh} {f f' : VMap} {e : HE} {ep1 ep2 mk : Nat},
    Good m f → org m e = some ep1 → constrainedEdge flipG P g N k m f e ep2 mk = some (m', f') →
    Inserted m m' f' ∧ ((∀ v, P.ccw ep1 ep2 v = 0 → v = ep1 ∨ v = ep2) → ep1 ≠ ep2 → MarkedAs m' ep1 ep2 mk)
  | 0, _, _, _, _, _, _, _, _, _, _, h => by simp [constrainedEdge] at h
  | k + 1, m, m', f, f', e, ep1, ep2, mk, gd, he, h => by
    unfold constrainedEdge at h
    rw [he] at h
    simp only [Option.bind_eq_bind, Option.bind_some, Option.bind_eq_some_iff] at h
    obtain ⟨⟨m1, f1⟩, h1, ⟨m2, f2, e2, col⟩, h2, h⟩ := h
    simp only at h2 h
    obtain ⟨q1, q2, q3, q4, q5, q6⟩ := flipG_spec gd h1
    have ap : apex m e.next = some ep1 := he
    rw [ap] at q5 q6
    obtain ⟨⟨r1, r2, r3, r4, r5, r6⟩, far, r7, r8, r9⟩ := ceLoop_spec hP q1 (by rw [q2]; exact q3) q5 q6 h2
    split at h
    · rename_i hcol
      simp only [Option.bind_eq_some_iff] at h
      obtain ⟨⟨m3, e3, found⟩, h3, h⟩ := h
      obtain ⟨s1, s2, s3, s4, s5, s6⟩ := scout_spec r1.ok r3 r7 h3
      have g3 : Good m3 f2 := ⟨s1.ok r1.ok, s2 r1.twins, s1.vok r1.vok⟩
      have ab : (∀ v, P.ccw ep1 ep2 v = 0 → v = ep1 ∨ v = ep2) → ep1 ≠ ep2 → False := by
        intro line _
        have hf := r9.1 hcol
        rcases r8 with r8 | r8
        · exact hf r8
        · rcases line _ r8 with rfl | rfl
          · exact r6 r7
          · exact hf rfl
      simp only at h
      split at h
      · cases h
        exact ⟨⟨g3, by rw [s1.n, r2, q2], (q4.trans r4).trans s3⟩, fun line hne => (ab line hne).elim⟩
      · rename_i hfd
        obtain ⟨c, c1, _⟩ := s6 (by simpa using hfd)
        obtain ⟨⟨t1, t2, t3⟩, _⟩ := constrained_spec hP g3 c1 h
        exact ⟨⟨t1, by rw [t2, s1.n, r2, q2], ((q4.trans r4).trans s3).trans t3⟩, fun line hne => (ab line hne).elim⟩
    · rename_i hcol
      rw [r5] at h
      simp only [Option.bind_some] at h
      cases h
      have sm := setMark2_same m2 e2 (if ep1 = ep2 then mk else twin mk)
      refine ⟨⟨⟨sm.ok r1.ok, setMark2_twins r1.ok _ r3 r1.twins, sm.vok r1.vok⟩, by rw [sm.n, r2, q2], (q4.trans r4).trans (setMark2_keeps r1.ok _ r3)⟩, fun line hne => ?_⟩
      have hf : far = ep2 := by
        by_contra hc
        exact hcol (r9.2 hc)
      subst hf
      rw [if_neg hne] at sm ⊢
      exact (setMark2_as r1.ok (twin mk) r3 r7 r5).symm (sm.ok r1.ok)

theorem insert_spec {P : Preds} {g : Nat → Bool} (hP : ∀ a b, P.ccw a b a ≤ 0) {N : Nat} {m m' : Mesh} {f f' : VMap} {a b mk : Nat} (gd : Good m f)
    (h : insertSegment flipG P g N m f a b mk = some (m', f')) :
    Inserted m m' f' ∧ ((∀ v, P.ccw a b v = 0 ∨ P.ccw b a v = 0 → v = a ∨ v = b) → a ≠ b → MarkedAs m' a b mk) := by
  unfold insertSegment at h
  simp only [Option.bind_eq_bind, Option.bind_eq_some_iff] at h
  obtain ⟨e1, h1, ⟨m1, e1', fd1⟩, h2, h⟩ := h
  obtain ⟨v1, v2⟩ := gd.vok _ _ h1
  obtain ⟨s1, s2, s3, s4, s5, s6⟩ := scout_spec gd.ok v1 v2 h2
  have g1 : Good m1 f := ⟨s1.ok gd.ok, s2 gd.twins, s1.vok gd.vok⟩
  have l1 := fun line => scout_line gd.ok v1 v2 line h2
  simp only at h
  split at h
  · cases h
    exact ⟨⟨g1, s1.n, s3⟩, fun line _ => (l1 line).1 ‹_›⟩
  rename_i hf1
  have hf1 : fd1 = false := by simpa using hf1
  simp only [Option.bind_eq_some_iff] at h
  obtain ⟨a', h3, e2, h4, ⟨m2, e2', fd2⟩, h5, h⟩ := h
  obtain ⟨w1, w2⟩ := g1.vok _ _ h4
  obtain ⟨t1, t2, t3, t4, t5, t6⟩ := scout_spec g1.ok w1 w2 h5
  have g2 : Good m2 f := ⟨t1.ok g1.ok, t2 g1.twins, t1.vok g1.vok⟩
  have ha' : (∀ v, P.ccw a b v = 0 ∨ P.ccw b a v = 0 → v = a ∨ v = b) → a' = a := by
    intro line
    obtain ⟨rfl, q⟩ := (l1 line).2 hf1
    rw [h3] at q; exact Option.some.inj q
  have l2 : (∀ v, P.ccw a b v = 0 ∨ P.ccw b a v = 0 → v = a ∨ v = b) → (fd2 = true → MarkedAs m2 b a (twin mk)) ∧ (fd2 = false → m2 = m1 ∧ org m1 e2' = some b) := by
    intro line
    have := ha' line
    subst this
    exact scout_line g1.ok w1 w2 (fun v hv => (line v hv.symm).symm) h5
  simp only at h
  split at h
  · rename_i hf2
    cases h
    exact ⟨⟨g2, by rw [t1.n, s1.n], s3.trans t3⟩, fun line _ => ((l2 line).1 hf2).symm g2.ok⟩
  rename_i hf2
  have hf2 : fd2 = false := by simpa using hf2
  simp only [Option.bind_eq_some_iff] at h
  obtain ⟨b', h6, h⟩ := h
  have h3' : org m2 e1' = some a' := by rw [t1.org]; exact h3
  obtain ⟨⟨u1, u2, u3⟩, u4⟩ := constrained_spec hP g2 h3' h
  refine ⟨⟨u1, by rw [u2, t1.n, s1.n], (s3.trans t3).trans u3⟩, fun line hne => ?_⟩
  have hb' : b' = b := by
    obtain ⟨rfl, q⟩ := (l2 line).2 hf2
    rw [h6] at q; exact Option.some.inj q
  have := ha' line
  subst this hb'
  exact u4 (fun v hv => line v (.inl hv)) hne

/-! ### The guard changes nothing in a run that passes it -/

theorem flip_of_G {m : Mesh} {f : VMap} {e : HE} {r : Mesh × VMap} (h : flipG m f e = some r) : flip m f e = some r := by
  obtain ⟨_, _, _, _, h⟩ := flipG_eq h; exact h

theorem ceLoop_of_G {P : Preds} {g : Nat → Bool} {N ep1 ep2 : Nat} : ∀ {k : Nat} {m : Mesh} {f : VMap} {e : HE} {r}, ceLoop flipG P g N ep1 ep2 k m f e = some r →
    ceLoop flip P g N ep1 ep2 k m f e = some r
  | 0, _, _, _, _, h => by simp [ceLoop] at h
  | k + 1, m, f, e, r, h => by
    unfold ceLoop at h ⊢
    simp only [Option.bind_eq_bind, Option.bind_eq_some_iff] at h ⊢
    obtain ⟨far, h1, h⟩ := h
    refine ⟨far, h1, ?_⟩
    split at h
    · rw [if_pos ‹_›]; exact h
    rw [if_neg ‹_›]
    split at h
    · rw [if_pos ‹_›]
      simp only [Option.bind_eq_some_iff] at h ⊢
      obtain ⟨s, h2, y, h3, x, h4, h⟩ := h
      exact ⟨s, h2, y, h3, x, flip_of_G h4, ceLoop_of_G h⟩
    · rw [if_neg ‹_›]
      simp only [Option.bind_eq_some_iff] at h ⊢
      obtain ⟨s, h2, y, h3, x, h4, h⟩ := h
      exact ⟨s, h2, y, h3, x, flip_of_G h4, ceLoop_of_G h⟩

theorem constrained_of_G {P : Preds} {g : Nat → Bool} {N : Nat} : ∀ {k : Nat} {m : Mesh} {f : VMap} {e : HE} {ep2 mk : Nat} {r}, constrainedEdge flipG P g N k m f e ep2 mk = some r →
    constrainedEdge flip P g N k m f e ep2 mk = some r
  | 0, _, _, _, _, _, _, h => by simp [constrainedEdge] at h
  | k + 1, m, f, e, ep2, mk, r, h => by
    unfold constrainedEdge at h ⊢
    simp only [Option.bind_eq_bind, Option.bind_eq_some_iff] at h ⊢
    obtain ⟨ep1, h1, x, h2, y, h3, h⟩ := h
    refine ⟨ep1, h1, x, flip_of_G h2, y, ceLoop_of_G h3, ?_⟩
    split at h
    · rw [if_pos ‹_›]
      simp only [Option.bind_eq_some_iff] at h ⊢
      obtain ⟨z, h4, h⟩ := h
      refine ⟨z, h4, ?_⟩
      split at h
      · rw [if_pos ‹_›]; exact h
      · rw [if_neg ‹_›]; exact constrained_of_G h
    · rw [if_neg ‹_›]; exact h

theorem insert_of_G {P : Preds} {g : Nat → Bool} {N : Nat} {m : Mesh} {f : VMap} {a b mk : Nat} {r} (h : insertSegment flipG P g N m f a b mk = some r) :
    insertSegment flip P g N m f a b mk = some r := by
  unfold insertSegment at h ⊢
  simp only [Option.bind_eq_bind, Option.bind_eq_some_iff] at h ⊢
  obtain ⟨e1, h1, x, h2, h⟩ := h
  refine ⟨e1, h1, x, h2, ?_⟩
  split at h
  · rw [if_pos ‹_›]; exact h
  rw [if_neg ‹_›]
  simp only [Option.bind_eq_some_iff] at h ⊢
  obtain ⟨a', h3, e2, h4, y, h5, h⟩ := h
  refine ⟨a', h3, e2, h4, y, h5, ?_⟩
  split at h
  · rw [if_pos ‹_›]; exact h
  rw [if_neg ‹_›]
  simp only [Option.bind_eq_some_iff] at h ⊢
  obtain ⟨b', h6, h⟩ := h
  exact ⟨b', h6, constrained_of_G h⟩

theorem skeleton_of_G {P : Preds} {g : Nat → Bool} {N : Nat} : ∀ {segs : List (Nat × Nat)} {m : Mesh} {f : VMap} {i : Nat} {r}, skeletonFrom flipG P g N m f segs i = some r →
    skeletonFrom flip P g N m f segs i = some r
  | [], _, _, _, _, h => h
  | (a, b) :: l, m, f, i, r, h => by
    unfold skeletonFrom at h ⊢
    split at h
    · rw [if_pos ‹_›]
      simp only [Option.bind_eq_bind, Option.bind_eq_some_iff] at h ⊢
      obtain ⟨x, h1, h⟩ := h
      exact ⟨x, insert_of_G h1, skeleton_of_G h⟩
    · rw [if_neg ‹_›]; exact skeleton_of_G h

/-- C68, one segment. On a consistent mesh with twin marks and a right vertex map, `insert_segment` keeps all that and keeps the marked edges; if no other vertex
lies on the line through the ends of the segment, it leaves an edge from one end to the other with the given mark, and the twin mark on the other side. The run
must not flip a marked edge (crossing segments) or an edge with equal apexes; `P.ccw a b a ≤ 0` holds for the exact predicate. What is missing: a segment with
further vertices on it; see `c68_refuted`. -/
theorem c68_insert_partial (P : Preds) (hP : ∀ a b, P.ccw a b a ≤ 0) (g : Nat → Bool) (N : Nat) (m m' : Mesh) (f f' : VMap) (a b mk : Nat) (gd : Good m f)
    (h : insertSegment flipG P g N m f a b mk = some (m', f')) :
    insertSegment flip P g N m f a b mk = some (m', f') ∧ Good m' f' ∧ m'.n = m.n ∧ Keeps m m' ∧
    ((∀ v, P.ccw a b v = 0 ∨ P.ccw b a v = 0 → v = a ∨ v = b) → a ≠ b → MarkedAs m' a b mk) := by
  obtain ⟨⟨h1, h2, h3⟩, h4⟩ := insert_spec hP gd h
  exact ⟨insert_of_G h, h1, h2, h3, h4⟩

/-- C68, all segments: at the end of `form_skeleton` all segments without further vertices on their lines are marked edges of a consistent mesh. -/
theorem c68_skeleton_partial (P : Preds) (hP : ∀ a b, P.ccw a b a ≤ 0) (g : Nat → Bool) (N : Nat) (m m' : Mesh) (f f' : VMap) (segs : List (Nat × Nat)) (i : Nat)
    (gd : Good m f) (h : skeletonFrom flipG P g N m f segs i = some (m', f')) :
    skeletonFrom flip P g N m f segs i = some (m', f') ∧ Good m' f' ∧ m'.n = m.n ∧ Keeps m m' ∧
    ∀ a b, (a, b) ∈ segs → a ≠ b → (∀ v, P.ccw a b v = 0 ∨ P.ccw b a v = 0 → v = a ∨ v = b) → Marked m' a b := by
  refine ⟨skeleton_of_G h, ?_⟩
  induction segs generalizing m f i with
  | nil => cases h; exact ⟨gd, rfl, Keeps.refl _, by simp⟩
  | cons s l ih =>
    obtain ⟨c, d⟩ := s
    unfold skeletonFrom at h
    split at h
    · simp only [Option.bind_eq_bind, Option.bind_eq_some_iff] at h
      obtain ⟨⟨m1, f1⟩, h1, h⟩ := h
      obtain ⟨⟨g1, n1, k1⟩, mk1⟩ := insert_spec hP gd h1
      obtain ⟨g2, n2, k2, q⟩ := ih m1 f1 (i + 1) g1 h
      refine ⟨g2, by rw [n2, n1], k1.trans k2, fun a b hm hne line => ?_⟩
      rcases List.mem_cons.1 hm with e | e
      · cases e
        exact k2 _ _ ((mk1 line hne).marked g1.ok)
      · exact q a b e hne line
    · rename_i hcd
      have hcd : c = d := by simpa using hcd
      obtain ⟨g2, n2, k2, q⟩ := ih m f (i + 1) gd h
      refine ⟨g2, n2, k2, fun a b hm hne line => ?_⟩
      rcases List.mem_cons.1 hm with e | e
      · cases e; exact absurd hcd hne
      · exact q a b e hne line

/-- C68, which mark. When `form_skeleton` has inserted segment number `i + l.length`, the edge from `a` to `b` has twice this number as mark and the other side the odd number after it. So the parity of a mark
tells on which side of the segment a triangle lies, which is what the flood fill uses. A later segment on the same edge may overwrite the mark, so this is said of the last one; `l` is any part of the input.
What is missing: as in `c68_skeleton_partial`. -/
theorem c68_last_partial (P : Preds) (hP : ∀ a b, P.ccw a b a ≤ 0) (g : Nat → Bool) (N : Nat) (m m' : Mesh) (f f' : VMap) (l : List (Nat × Nat)) (a b i : Nat)
    (gd : Good m f) (h : skeletonFrom flipG P g N m f (l ++ [(a, b)]) i = some (m', f')) (hne : a ≠ b) (line : ∀ v, P.ccw a b v = 0 ∨ P.ccw b a v = 0 → v = a ∨ v = b) :
    ∃ e e', m'.nei e = some e' ∧ org m' e = some a ∧ dest m' e = some b ∧ m'.mark e = some (2 * (i + l.length)) ∧ m'.mark e' = some (2 * (i + l.length) + 1) := by
  induction l generalizing m f i with
  | nil =>
    simp only [List.nil_append, skeletonFrom, if_pos hne, Option.bind_eq_bind, Option.bind_eq_some_iff] at h
    obtain ⟨⟨m1, f1⟩, h1, h⟩ := h
    cases h
    obtain ⟨e, e', q1, q2, q3, q4, q5⟩ := (insert_spec hP gd h1).2 line hne
    refine ⟨e, e', q1, q2, q3, q4, ?_⟩
    rw [q5, twin, if_pos (Nat.mul_mod_right 2 i)]
    rfl
  | cons s l ih =>
    obtain ⟨c, d⟩ := s
    rw [List.cons_append] at h
    unfold skeletonFrom at h
    rw [List.length_cons, show i + (l.length + 1) = i + 1 + l.length by omega]
    split at h
    · simp only [Option.bind_eq_bind, Option.bind_eq_some_iff] at h
      obtain ⟨⟨m1, f1⟩, h1, h⟩ := h
      exact ih m1 f1 (i + 1) (insert_spec hP gd h1).1.1 h
    · exact ih m f (i + 1) gd h

/-- C68, scouting. `scout_segment` only changes marks; if it returns true, the two vertices are joined by a chain of marked edges. -/
theorem c68_scout (P : Preds) (g : Nat → Bool) (N k : Nat) (m m' : Mesh) (e e' : HE) (a b mk : Nat) (found : Bool) (ok : Ok m) (he : e.tri < m.n) (ha : org m e = some a)
    (h : scout P g N k m e b mk = some (m', e', found)) :
    Same m m' ∧ (Twins m → Twins m') ∧ Keeps m m' ∧ (found = true → Chain m' a b) ∧ (found = false → ∃ c, org m' e' = some c ∧ Chain m' a c) := by
  obtain ⟨h1, h2, h3, _, h5, h6⟩ := scout_spec ok he ha h
  exact ⟨h1, h2, h3, h5, h6⟩

end Verif.Tri
