import Verif.Tri.Insert
import Mathlib.Logic.Relation
/-!
# Dropping the outside: the flood fill of `triangulate` (`src/triangle/triangle.rs` lines 42-75)
-/
namespace Verif.Tri

/-- The variables of one flood: `visited`, the part of `queue` from `idx` on, the part before `idx`, and `flag` (`none` for 2, `some true` for 1, `some false` for
0). -/
structure Flood where
  visited : Nat → Bool
  pending : List Nat
  region : List Nat
  flag : Option Bool

/-- The body of the inner loop (lines 54-67). -/
def floodEdge (m : Mesh) (g : Nat → Bool) (s : Flood) (e : HE) : Option Flood :=
  match m.mark e with
  | some k => some { s with flag := some (s.flag.getD (decide (k % 2 = 0))) }
  | none => do
    let h ← m.nei e
    if s.visited h.tri || g h.tri then some s
    else some { s with visited := fun t => if t = h.tri then true else s.visited t, pending := s.pending ++ [h.tri] }

/-- Lines 52-69: one triangle of the queue. -/
def floodTri (m : Mesh) (g : Nat → Bool) (s : Flood) (t : Nat) : Option Flood := do
  let s0 ← floodEdge m g s ⟨t, 0⟩
  let s1 ← floodEdge m g s0 ⟨t, 1⟩
  floodEdge m g s1 ⟨t, 2⟩

/-- Lines 51-70: the queue. -/
def floodLoop (m : Mesh) (g : Nat → Bool) : Nat → Flood → Option Flood
  | 0, _ => none
  | k + 1, s =>
    match s.pending with
    | [] => some s
    | t :: rest => do
      let s' ← floodTri m g { s with pending := rest, region := s.region ++ [t] } t
      floodLoop m g k s'

/-- The body of the outer loop (lines 43-75): `visited` and `ghost`. -/
def floodStep (m : Mesh) (N : Nat) (s : (Nat → Bool) × (Nat → Bool)) (i : Nat) : Option ((Nat → Bool) × (Nat → Bool)) :=
  if s.1 i || s.2 i then some s
  else do
    let r ← floodLoop m s.2 N ⟨fun t => if t = i then true else s.1 t, [i], [], none⟩
    return (r.visited, if r.flag = some false then fun t => s.2 t || r.region.contains t else s.2)

/-- The outer loop. -/
def flood (m : Mesh) (N : Nat) (g : Nat → Bool) : Option ((Nat → Bool) × (Nat → Bool)) := (List.range m.n).foldlM (floodStep m N) (fun _ => false, g)

/-! ### Specification -/

/-- Two triangles that are not ghosts share an unmarked edge. -/
def Adj (m : Mesh) (g : Nat → Bool) (t t' : Nat) : Prop :=
  g t = false ∧ g t' = false ∧ ∃ e e' : HE, e.tri = t ∧ m.nei e = some e' ∧ e'.tri = t' ∧ m.mark e = none

/-- The triangles of a region: connected without crossing marked edges. -/
def Region (m : Mesh) (g : Nat → Bool) : Nat → Nat → Prop := Relation.ReflTransGen (Adj m g)

theorem Adj.symm {m : Mesh} {g : Nat → Bool} (ok : Ok m) (tw : Twins m) {t t' : Nat} (h : Adj m g t t') : Adj m g t' t := by
  obtain ⟨h1, h2, e, e', h3, h4, h5, h6⟩ := h
  exact ⟨h2, h1, e', e, h5, ok.symm _ _ h4, h3, by rw [tw _ _ h4, h6]; rfl⟩

theorem Region.symm {m : Mesh} {g : Nat → Bool} (ok : Ok m) (tw : Twins m) {t t' : Nat} (h : Region m g t t') : Region m g t' t := by
  induction h with
  | refl => exact .refl
  | tail _ h ih => exact Relation.ReflTransGen.head (h.symm ok tw) ih

theorem Region.lt {m : Mesh} {g : Nat → Bool} (ok : Ok m) {t t' : Nat} (h : Region m g t t') (ht : t < m.n) : t' < m.n := by
  induction h with
  | refl => exact ht
  | tail _ h _ =>
    obtain ⟨_, _, e, e', _, h1, rfl, _⟩ := h
    exact ok.range' h1

/-! ### One flood -/

/-- The invariant of a flood from `i`: `g` is the ghost list during the flood, `g0` the one at the beginning of all floods, `vis0` what was visited before, and
`todo` are the half edges of the region that are not processed yet. -/
structure FInv (m : Mesh) (g0 g vis0 : Nat → Bool) (i : Nat) (todo : HE → Prop) (s : Flood) : Prop where
  vis : ∀ t, s.visited t = true ↔ vis0 t = true ∨ t ∈ s.region ∨ t ∈ s.pending
  reach : ∀ t, t ∈ s.region ∨ t ∈ s.pending → Region m g0 i t ∧ g0 t = false
  fnone : s.flag = none → ∀ e : HE, e.tri ∈ s.region → ¬ todo e → m.mark e = none
  fsome : ∀ b, s.flag = some b → ∃ (e : HE) (k : Nat), e.tri ∈ s.region ∧ m.mark e = some k ∧ b = decide (k % 2 = 0)
  closed : ∀ e h : HE, e.tri ∈ s.region → ¬ todo e → m.mark e = none → m.nei e = some h → s.visited h.tri = true ∨ g h.tri = true
  start : i ∈ s.region ∨ i ∈ s.pending

theorem floodEdge_inv {m : Mesh} {g0 g vis0 : Nat → Bool} (hg : ∀ t, g0 t = true → g t = true) {i : Nat} {todo : HE → Prop} {s s' : Flood} {e : HE}
    (inv : FInv m g0 g vis0 i todo s) (he : e.tri ∈ s.region) (h : floodEdge m g s e = some s') :
    FInv m g0 g vis0 i (fun x => todo x ∧ x ≠ e) s' ∧ s'.region = s.region := by
  have nt : ∀ x : HE, ¬ (todo x ∧ x ≠ e) → ¬ todo x ∨ x = e := fun x hx => by
    by_cases c : x = e
    · exact .inr c
    · exact .inl fun ht => hx ⟨ht, c⟩
  unfold floodEdge at h
  cases hm : m.mark e with
  | some k =>
    rw [hm] at h
    cases h
    refine ⟨⟨inv.vis, inv.reach, by simp, fun b hb => ?_, fun x y x1 x2 x3 x4 => ?_, inv.start⟩, rfl⟩
    · simp only [Option.some.injEq] at hb
      cases hf : s.flag with
      | none => rw [hf] at hb; exact ⟨e, k, he, hm, by rw [← hb]; rfl⟩
      | some c => rw [hf] at hb; simp at hb; subst hb; exact inv.fsome _ hf
    · rcases nt x x2 with q | rfl
      · exact inv.closed x y x1 q x3 x4
      · rw [hm] at x3; cases x3
  | none =>
    rw [hm] at h
    simp only [Option.bind_eq_bind, Option.bind_eq_some_iff] at h
    obtain ⟨y, hy, h⟩ := h
    split at h
    · rename_i hc
      cases h
      refine ⟨⟨inv.vis, inv.reach, fun hf x x1 x2 => ?_, inv.fsome, fun x z x1 x2 x3 x4 => ?_, inv.start⟩, rfl⟩
      · rcases nt x x2 with q | rfl
        · exact inv.fnone hf x x1 q
        · exact hm
      · rcases nt x x2 with q | rfl
        · exact inv.closed x z x1 q x3 x4
        · rw [hy] at x4; cases x4
          simpa using hc
    · rename_i hc
      cases h
      simp only [Bool.or_eq_true, not_or, Bool.not_eq_true] at hc
      have hy0 : g0 y.tri = false := by
        cases hh : g0 y.tri with
        | false => rfl
        | true => rw [hg _ hh] at hc; exact absurd hc.2 (by simp)
      refine ⟨⟨fun t => ?_, fun t ht => ?_, fun hf x x1 x2 => ?_, inv.fsome, fun x z x1 x2 x3 x4 => ?_, inv.start.imp id fun q => List.mem_append_left _ q⟩, rfl⟩
      · simp only [List.mem_append, List.mem_singleton]
        by_cases c : t = y.tri
        · simp [c]
        · simp only [c, if_false, or_false]; exact inv.vis t
      · simp only [List.mem_append, List.mem_singleton, ← or_assoc] at ht
        rcases ht with ht | rfl
        · exact inv.reach t ht
        · obtain ⟨r1, r2⟩ := inv.reach e.tri (.inl he)
          exact ⟨r1.tail ⟨r2, hy0, e, y, rfl, hy, rfl, hm⟩, hy0⟩
      · rcases nt x x2 with q | rfl
        · exact inv.fnone hf x x1 q
        · exact hm
      · simp only
        rcases nt x x2 with q | rfl
        · rcases inv.closed x z x1 q x3 x4 with q | q
          · left; split
            · rfl
            · exact q
          · exact .inr q
        · rw [hy] at x4; cases x4
          simp

theorem FInv.weaken {m : Mesh} {g0 g vis0 : Nat → Bool} {i : Nat} {todo todo' : HE → Prop} {s : Flood} (h : FInv m g0 g vis0 i todo s) (hh : ∀ e, todo e → todo' e) :
    FInv m g0 g vis0 i todo' s :=
  ⟨h.vis, h.reach, fun a e b c => h.fnone a e b fun d => c (hh _ d), h.fsome, fun a b c d => h.closed a b c fun e => d (hh _ e), h.start⟩

theorem floodTri_inv {m : Mesh} {g0 g vis0 : Nat → Bool} (hg : ∀ t, g0 t = true → g t = true) {i t : Nat} {s s' : Flood}
    (inv : FInv m g0 g vis0 i (fun x => x.tri = t) s) (he : t ∈ s.region) (h : floodTri m g s t = some s') :
    FInv m g0 g vis0 i (fun _ => False) s' ∧ s'.region = s.region := by
  unfold floodTri at h
  simp only [Option.bind_eq_bind, Option.bind_eq_some_iff] at h
  obtain ⟨s0, h0, s1, h1, h2⟩ := h
  obtain ⟨i0, r0⟩ := floodEdge_inv hg inv he h0
  obtain ⟨i1, r1⟩ := floodEdge_inv hg i0 (by rw [r0]; exact he) h1
  obtain ⟨i2, r2⟩ := floodEdge_inv hg i1 (by rw [r1, r0]; exact he) h2
  refine ⟨i2.weaken ?_, by rw [r2, r1, r0]⟩
  rintro ⟨a, j⟩ ⟨⟨⟨q0, q1⟩, q2⟩, q3⟩
  simp only at q0
  subst q0
  have hj : j = 0 ∨ j = 1 ∨ j = 2 := by clear * -; revert j; decide
  rcases hj with rfl | rfl | rfl
  exacts [q1 rfl, q2 rfl, q3 rfl]

theorem floodLoop_inv {m : Mesh} {g0 g vis0 : Nat → Bool} (hg : ∀ t, g0 t = true → g t = true) {i : Nat} : ∀ {k : Nat} {s s' : Flood},
    FInv m g0 g vis0 i (fun _ => False) s → floodLoop m g k s = some s' → FInv m g0 g vis0 i (fun _ => False) s' ∧ s'.pending = []
  | 0, _, _, _, h => by simp [floodLoop] at h
  | k + 1, s, s', inv, h => by
    unfold floodLoop at h
    cases hp : s.pending with
    | nil =>
      rw [hp] at h; cases h
      exact ⟨inv, hp⟩
    | cons t rest =>
      rw [hp] at h
      simp only [Option.bind_eq_bind, Option.bind_eq_some_iff] at h
      obtain ⟨s1, h1, h2⟩ := h
      have i1 : FInv m g0 g vis0 i (fun x => x.tri = t) { s with pending := rest, region := s.region ++ [t] } := by
        refine ⟨fun u => ?_, fun u hu => ?_, fun hf e h1 h2 => ?_, fun b hb => ?_, fun e h h1 h2 h3 h4 => ?_, ?_⟩
        · rw [inv.vis u, hp]
          simp only [List.mem_cons, List.mem_append, List.not_mem_nil, or_false]; tauto
        · apply inv.reach u
          rw [hp]
          simp only [List.mem_cons, List.mem_append, List.not_mem_nil, or_false] at hu ⊢; tauto
        · simp only [List.mem_append, List.mem_singleton, h2, or_false] at h1
          exact inv.fnone hf e h1 id
        · obtain ⟨e, k, q1, q2⟩ := inv.fsome b hb
          exact ⟨e, k, by simp [q1], q2⟩
        · simp only [List.mem_append, List.mem_singleton, h2, or_false] at h1
          exact inv.closed e h h1 id h3 h4
        · have := inv.start
          rw [hp] at this
          simp only [List.mem_cons, List.mem_append, List.not_mem_nil, or_false] at this ⊢; tauto
      obtain ⟨i2, r2⟩ := floodTri_inv hg i1 (by simp) h1
      exact floodLoop_inv hg i2 h2

/-! ### All floods -/

/-- The invariant between two floods. -/
structure OInv (m : Mesh) (g0 : Nat → Bool) (s : (Nat → Bool) × (Nat → Bool)) : Prop where
  vis : ∀ t, s.1 t = true → g0 t = false ∧ t < m.n
  closed : ∀ t t', s.1 t = true → Adj m g0 t t' → s.1 t' = true
  ghost : ∀ t, g0 t = true → s.2 t = true
  other : ∀ t, s.2 t = true → g0 t = true ∨ s.1 t = true
  same : ∀ t t', s.1 t = true → Adj m g0 t t' → s.2 t = s.2 t'
  fate : ∀ t, s.1 t = true → (s.2 t = true ∧ ∃ (e : HE) (k : Nat), Region m g0 t e.tri ∧ m.mark e = some k ∧ k % 2 = 1) ∨
    (s.2 t = false ∧ ((∀ e : HE, Region m g0 t e.tri → m.mark e = none) ∨ ∃ (e : HE) (k : Nat), Region m g0 t e.tri ∧ m.mark e = some k ∧ k % 2 = 0))

theorem OInv.region {m : Mesh} {g0 : Nat → Bool} {s : (Nat → Bool) × (Nat → Bool)} (inv : OInv m g0 s) {t t' : Nat} (h : Region m g0 t t') (ht : s.1 t = true) :
    s.1 t' = true ∧ s.2 t = s.2 t' := by
  induction h with
  | refl => exact ⟨ht, rfl⟩
  | tail _ h ih => exact ⟨inv.closed _ _ ih.1 h, ih.2.trans (inv.same _ _ ih.1 h)⟩

theorem floodStep_inv {m : Mesh} (ok : Ok m) (tw : Twins m) {g0 : Nat → Bool} {N i : Nat} (hi : i < m.n) {s s' : (Nat → Bool) × (Nat → Bool)} (inv : OInv m g0 s)
    (h : floodStep m N s i = some s') : OInv m g0 s' ∧ (∀ t, s.1 t = true → s'.1 t = true) ∧ (g0 i = false → s'.1 i = true) := by
  unfold floodStep at h
  split at h
  · rename_i hc
    cases h
    refine ⟨inv, fun t ht => ht, fun hi0 => ?_⟩
    simp only [Bool.or_eq_true] at hc
    rcases hc with hc | hc
    · exact hc
    · rcases inv.other i hc with q | q
      · rw [hi0] at q; cases q
      · exact q
  rename_i hc
  simp only [Bool.or_eq_true, not_or, Bool.not_eq_true] at hc
  simp only [Option.bind_eq_bind, Option.bind_eq_some_iff] at h
  obtain ⟨r, h1, h2⟩ := h
  cases h2
  have hi0 : g0 i = false := by
    cases hh : g0 i with
    | false => rfl
    | true => rw [inv.ghost _ hh] at hc; exact absurd hc.2 (by simp)
  have start : FInv m g0 s.2 s.1 i (fun _ => False) ⟨fun t => if t = i then true else s.1 t, [i], [], none⟩ := by
    refine ⟨fun t => ?_, fun t ht => ?_, fun _ e he => ?_, fun b hb => ?_, fun e h he => ?_, ?_⟩
    · by_cases c : t = i <;> simp [c]
    · simp at ht; subst ht; exact ⟨.refl, hi0⟩
    · simp at he
    · simp at hb
    · simp at he
    · simp
  obtain ⟨fi, fp⟩ := floodLoop_inv inv.ghost start h1
  have vis : ∀ t, r.visited t = true ↔ s.1 t = true ∨ t ∈ r.region := fun t => by rw [fi.vis t, fp]; simp
  have reach : ∀ t ∈ r.region, Region m g0 i t ∧ g0 t = false := fun t ht => fi.reach t (.inl ht)
  have istart : i ∈ r.region := by have := fi.start; rw [fp] at this; simpa using this
  -- the region is not visited before
  have fresh : ∀ t ∈ r.region, s.1 t = false := by
    intro t ht
    by_contra hv
    have := (inv.region ((reach t ht).1.symm ok tw) (by simpa using hv)).1
    rw [hc.1] at this; cases this
  have clos : ∀ t t', t ∈ r.region → Adj m g0 t t' → t' ∈ r.region := by
    rintro t t' ht ⟨h1, h2, e, e', rfl, h4, rfl, h6⟩
    have key : r.visited e'.tri = true → e'.tri ∈ r.region := by
      intro q
      rcases (vis _).1 q with q | q
      · exfalso
        have := inv.closed _ _ q (Adj.symm ok tw ⟨h1, h2, e, e', rfl, h4, rfl, h6⟩)
        rw [fresh _ ht] at this; cases this
      · exact q
    rcases fi.closed e e' ht id h6 h4 with q | q
    · exact key q
    · rcases inv.other _ q with q | q
      · rw [h2] at q; cases q
      · exact key ((vis _).2 (.inl q))
  have whole : ∀ t, t ∈ r.region → ∀ u, Region m g0 t u ↔ u ∈ r.region := by
    intro t ht u
    constructor
    · intro h
      induction h with
      | refl => exact ht
      | tail _ h ih => exact clos _ _ ih h
    · intro hu
      exact Relation.ReflTransGen.trans ((reach t ht).1.symm ok tw) (reach u hu).1
  have ghostR : ∀ t ∈ r.region, s.2 t = false := by
    intro t ht
    by_contra hv
    rcases inv.other t (by simpa using hv) with q | q
    · rw [(reach t ht).2] at q; cases q
    · rw [fresh t ht] at q; cases q
  have hg' : ∀ t, (if r.flag = some false then fun t => s.2 t || r.region.contains t else s.2) t = if r.flag = some false then s.2 t || r.region.contains t else s.2 t := by
    intro t; split <;> rfl
  have gin : ∀ t ∈ r.region, (if r.flag = some false then fun t => s.2 t || r.region.contains t else s.2) t = decide (r.flag = some false) := by
    intro t ht
    rw [hg' t]
    by_cases c : r.flag = some false
    · simp [c, ht]
    · simp [c, ghostR t ht]
  have gout : ∀ t, t ∉ r.region → (if r.flag = some false then fun t => s.2 t || r.region.contains t else s.2) t = s.2 t := by
    intro t ht
    rw [hg' t]
    by_cases c : r.flag = some false <;> simp [c, ht]
  have nin : ∀ t, s.1 t = true → t ∉ r.region := fun t ht hr => by rw [fresh t hr] at ht; cases ht
  refine ⟨⟨fun t ht => ?_, fun t t' ht ha => ?_, fun t ht => ?_, fun t ht => ?_, fun t t' ht ha => ?_, fun t ht => ?_⟩, fun t ht => (vis t).2 (.inl ht), fun _ => (vis i).2 (.inr istart)⟩
  · rcases (vis t).1 ht with q | q
    · exact inv.vis t q
    · exact ⟨(reach t q).2, (reach t q).1.lt ok hi⟩
  · rcases (vis t).1 ht with q | q
    · exact (vis t').2 (.inl (inv.closed t t' q ha))
    · exact (vis t').2 (.inr (clos t t' q ha))
  · simp only
    rw [gout t (fun hr => by rw [(reach t hr).2] at ht; cases ht)]; exact inv.ghost t ht
  · by_cases c : t ∈ r.region
    · exact .inr ((vis t).2 (.inr c))
    · simp only at ht
      rw [gout t c] at ht
      rcases inv.other t ht with q | q
      · exact .inl q
      · exact .inr ((vis t).2 (.inl q))
  · rcases (vis t).1 ht with q | q
    · simp only
      rw [gout t (nin t q), gout t' (nin t' (inv.closed t t' q ha))]
      exact inv.same t t' q ha
    · simp only
      rw [gin t q, gin t' (clos t t' q ha)]
  · rcases (vis t).1 ht with q | q
    · simp only
      rw [gout t (nin t q)]; exact inv.fate t q
    · simp only
      rw [gin t q]
      cases hf : r.flag with
      | none =>
        right
        exact ⟨by simp, .inl fun e he => fi.fnone hf e ((whole t q _).1 he) id⟩
      | some b =>
        obtain ⟨e, k, e1, e2, e3⟩ := fi.fsome b hf
        have re := (whole t q e.tri).2 e1
        cases b with
        | false =>
          left
          have e4 : ¬ k % 2 = 0 := by simpa using e3.symm
          exact ⟨by simp, e, k, re, e2, by omega⟩
        | true => right; exact ⟨by simp, .inr ⟨e, k, re, e2, by simpa using e3.symm⟩⟩

/-- C69. The flood fill only adds ghosts; it keeps or drops the triangles of a region together; a region without odd marks is kept; a region with marks that are
all odd is dropped. -/
theorem c69_flood (m : Mesh) (ok : Ok m) (tw : Twins m) (N : Nat) (g vis g' : Nat → Bool) (h : flood m N g = some (vis, g')) :
    (∀ t, g t = true → g' t = true) ∧ (∀ t, m.n ≤ t → g' t = g t) ∧
    (∀ t t', t < m.n → g t = false → Region m g t t' → g' t = g' t') ∧
    (∀ t, t < m.n → g t = false → (∀ (e : HE) (k : Nat), Region m g t e.tri → m.mark e = some k → k % 2 = 0) → g' t = false) ∧
    (∀ t, t < m.n → g t = false → (∃ e : HE, Region m g t e.tri ∧ m.mark e ≠ none) → (∀ (e : HE) (k : Nat), Region m g t e.tri → m.mark e = some k → k % 2 = 1) → g' t = true) := by
  have key : ∀ (l : List Nat) (s s' : (Nat → Bool) × (Nat → Bool)), (∀ i ∈ l, i < m.n) → OInv m g s → l.foldlM (floodStep m N) s = some s' →
      OInv m g s' ∧ (∀ t, s.1 t = true → s'.1 t = true) ∧ ∀ i ∈ l, g i = false → s'.1 i = true := by
    intro l
    induction l with
    | nil => intro s s' _ inv hs; cases hs; exact ⟨inv, fun _ => id, by simp⟩
    | cons i l ih =>
      intro s s' hl inv hs
      rw [List.foldlM_cons] at hs
      obtain ⟨s1, h1, h2⟩ := Option.bind_eq_some_iff.1 hs
      obtain ⟨i1, m1, v1⟩ := floodStep_inv ok tw (hl i (by simp)) inv h1
      obtain ⟨i2, m2, v2⟩ := ih s1 s' (fun j hj => hl j (by simp [hj])) i1 h2
      refine ⟨i2, fun t ht => m2 t (m1 t ht), fun j hj hg => ?_⟩
      rcases List.mem_cons.1 hj with rfl | hj
      · exact m2 _ (v1 hg)
      · exact v2 j hj hg
  have i0 : OInv m g (fun _ => false, g) := ⟨by simp, by simp, fun _ => id, fun t ht => .inl ht, by simp, by simp⟩
  obtain ⟨inv, _, all⟩ := key _ _ _ (fun i hi => List.mem_range.1 hi) i0 h
  have vall : ∀ t, t < m.n → g t = false → vis t = true := fun t h1 h2 => all t (List.mem_range.2 h1) h2
  have vin : ∀ t, vis t = true → t < m.n := fun t ht => (inv.vis t ht).2
  refine ⟨inv.ghost, fun t ht => ?_, fun t t' h1 h2 h3 => (inv.region h3 (vall t h1 h2)).2, fun t h1 h2 h3 => ?_, fun t h1 h2 h3 h4 => ?_⟩
  · cases hh : g t with
    | true => exact inv.ghost t hh
    | false =>
      by_contra hc
      rcases inv.other t (by simpa using hc) with q | q
      · rw [hh] at q; cases q
      · have := vin t q; omega
  · rcases inv.fate t (vall t h1 h2) with ⟨q, e, k, q1, q2, q3⟩ | ⟨q, _⟩
    · have := h3 e k q1 q2; omega
    · exact q
  · obtain ⟨e0, p1, p2⟩ := h3
    rcases inv.fate t (vall t h1 h2) with ⟨q, _⟩ | ⟨q, q1 | ⟨e, k, q1, q2, q3⟩⟩
    · exact q
    · exact absurd (q1 e0 p1) p2
    · have := h4 e k q1 q2; omega

end Verif.Tri
