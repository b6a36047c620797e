import Verif.Tri.HullsBase
import Mathlib.Data.Finset.Card
import Mathlib.Data.Finset.Prod
import Mathlib.Data.Fintype.Card
/-!
# C113: `mark_ghost` and `make_vertex_map` (`src/triangle/triangle.rs` lines 825-866)
-/
namespace Verif.Tri

/-- One step around the ghost vertex (lines 830-831). -/
def Spin (m : Mesh) (e e' : HE) : Prop := m.nei e.next = some e'

/-- `e'` is reached from `e` after `k` steps. -/
inductive Reach (m : Mesh) (e : HE) : Nat → HE → Prop
  | zero : Reach m e 0 e
  | succ {k : Nat} {a b : HE} : Reach m e k a → Spin m a b → Reach m e (k + 1) b

theorem Spin.inj {m : Mesh} (ok : Ok m) {a b c : HE} (h1 : Spin m a c) (h2 : Spin m b c) : a = b := by
  have e1 := ok.symm _ _ h1
  have e2 := ok.symm _ _ h2
  rw [e1, Option.some.injEq] at e2
  rw [← next_prev a, e2, next_prev]

theorem Reach.tri {m : Mesh} (ok : Ok m) {e e' : HE} {k : Nat} (h : Reach m e k e') (he : e.tri < m.n) : e'.tri < m.n := by
  cases h with
  | zero => exact he
  | succ _ h => exact ok.tri h

theorem Reach.exists {m : Mesh} (ok : Ok m) {e : HE} (he : e.tri < m.n) : ∀ k, ∃ e', Reach m e k e'
  | 0 => ⟨e, .zero⟩
  | k + 1 => by
    obtain ⟨a, h⟩ := Reach.exists ok he k
    obtain ⟨b, hb⟩ := ok.total a.next (h.tri ok he)
    exact ⟨b, .succ h hb⟩

theorem Reach.unique {m : Mesh} {e : HE} : ∀ {k : Nat} {a b : HE}, Reach m e k a → Reach m e k b → a = b
  | 0, _, _, .zero, .zero => rfl
  | k + 1, _, _, .succ h1 s1, .succ h2 s2 => by
    have := h1.unique h2
    subst this
    unfold Spin at s1 s2
    rw [s1] at s2
    exact Option.some.inj s2

/-- Two equal half edges on the way give a return to the start. -/
theorem Reach.back {m : Mesh} (ok : Ok m) {e : HE} : ∀ {i j : Nat} {a : HE}, i ≤ j → Reach m e i a → Reach m e j a → Reach m e (j - i) e
  | 0, _, _, _, .zero, h => h
  | i + 1, 0, a, hij, _, _ => by omega
  | i + 1, j + 1, a, hij, .succ h1 s1, .succ h2 s2 => by
    have := Spin.inj ok s1 s2
    subst this
    rw [show j + 1 - (i + 1) = j - i by omega]
    exact Reach.back ok (by omega) h1 h2

/-- The walk returns to the start after at most `3 n` steps. -/
theorem Reach.returns {m : Mesh} (ok : Ok m) {e : HE} (he : e.tri < m.n) : ∃ p, 0 < p ∧ p ≤ 3 * m.n ∧ Reach m e p e := by
  choose f hf using Reach.exists ok he
  have hm : ∀ k ∈ Finset.range (3 * m.n + 1), ((f k).tri, (f k).ori) ∈ (Finset.range m.n) ×ˢ (Finset.univ : Finset (Fin 3)) := fun k _ => by
    simp only [Finset.mem_product, Finset.mem_range, Finset.mem_univ, and_true]
    exact (hf k).tri ok he
  obtain ⟨i, hi, j, hj, hne, heq⟩ := Finset.exists_ne_map_eq_of_card_lt_of_maps_to (by rw [Finset.card_product, Finset.card_range, Finset.card_range, Finset.card_univ, Fintype.card_fin]; omega) hm
  have hij : f i = f j := by
    rw [Prod.mk.injEq] at heq
    cases hfi : f i; cases hfj : f j
    rw [hfi, hfj] at heq
    simp only at heq
    rw [heq.1, heq.2]
  rw [Finset.mem_range] at hi hj
  rcases Nat.lt_or_gt_of_ne hne with h | h
  · exact ⟨j - i, by omega, by omega, Reach.back ok (by omega) (hf i) (hij ▸ hf j)⟩
  · exact ⟨i - j, by omega, by omega, Reach.back ok (by omega) (hf j) (hij ▸ hf i)⟩

theorem Reach.add {m : Mesh} {e : HE} {i : Nat} {a : HE} (h : Reach m e i a) : ∀ {j : Nat} {b : HE}, Reach m a j b → Reach m e (i + j) b
  | 0, _, .zero => h
  | _ + 1, _, .succ h1 s1 => .succ (h.add h1) s1

theorem Reach.split {m : Mesh} {e : HE} {i : Nat} : ∀ {j : Nat} {b : HE}, Reach m e (i + j) b → ∃ a, Reach m e i a ∧ Reach m a j b
  | 0, b, h => ⟨b, h, .zero⟩
  | j + 1, b, h => by
    have h' : Reach m e (i + j + 1) b := h
    cases h' with
    | succ h1 s1 =>
      obtain ⟨a, x, y⟩ := Reach.split h1
      exact ⟨a, x, .succ y s1⟩

theorem Reach.ghost {m : Mesh} (ok : Ok m) {e : HE} (h : dest m e = none) : ∀ {k : Nat} {a : HE}, Reach m e k a → dest m a = none
  | 0, _, .zero => h
  | _ + 1, _, .succ h1 s1 => by
    have := (ok.swap _ _ s1).1
    rw [← this]
    show m.vert _ = none
    rw [next_next]
    exact h1.ghost ok h

theorem markGhost_spec {m : Mesh} {start : HE} : ∀ (q : Nat) {k : Nat} {e : HE} {g : Nat → Bool}, Reach m e (q + 1) start → (∀ j, 0 < j → j ≤ q → ¬ Reach m e j start) → q < k →
    ∃ g', markGhost m start k e g = some g' ∧ ∀ t, g' t = true ↔ g t = true ∨ ∃ j a, j ≤ q ∧ Reach m e j a ∧ a.tri = t
  | q, 0, _, _, _, _, h => by omega
  | 0, k + 1, e, g, hr, _, _ => by
    cases hr with
    | succ h0 s =>
      cases h0
      refine ⟨fun t => if t = e.tri then true else g t, ?_, fun t => ?_⟩
      · unfold Spin at s
        simp only [markGhost, s, Option.bind_eq_bind, Option.bind_some, if_pos]
      · constructor
        · intro h
          by_cases c : t = e.tri
          · exact Or.inr ⟨0, e, Nat.le_refl _, .zero, c.symm⟩
          · simp only [if_neg c] at h; exact Or.inl h
        · rintro (h | ⟨j, a, hj, ha, rfl⟩)
          · simp only [h, ite_self]
          · obtain rfl : j = 0 := by omega
            cases ha
            exact if_pos rfl
  | q + 1, k + 1, e, g, hr, hmin, hk => by
    rw [show q + 1 + 1 = 1 + (q + 1) by omega] at hr
    obtain ⟨e', h1, h2⟩ := hr.split
    have s : Spin m e e' := by
      cases h1 with
      | succ h0 s => cases h0; exact s
    have hne : e' ≠ start := fun x => hmin 1 (by omega) (by omega) (x ▸ h1)
    obtain ⟨g', e1, e2⟩ := markGhost_spec q (k := k) (g := fun t => if t = e.tri then true else g t) h2 (fun j j0 jq hj => hmin (1 + j) (by omega) (by omega) (h1.add hj)) (by omega)
    refine ⟨g', ?_, fun t => (e2 t).trans ⟨?_, ?_⟩⟩
    · unfold Spin at s
      simp only [markGhost, s, Option.bind_eq_bind, Option.bind_some]
      rw [if_neg hne]
      exact e1
    · rintro (h | ⟨j, a, hj, ha, ht⟩)
      · by_cases c : t = e.tri
        · exact Or.inr ⟨0, e, Nat.zero_le _, .zero, c.symm⟩
        · simp only [if_neg c] at h; exact Or.inl h
      · exact Or.inr ⟨1 + j, a, by omega, h1.add ha, ht⟩
    · rintro (h | ⟨j, a, hj, ha, rfl⟩)
      · exact Or.inl (by simp only [h, ite_self])
      · cases j with
        | zero => cases ha; exact Or.inl (if_pos rfl)
        | succ j =>
          rw [Nat.add_comm] at ha
          obtain ⟨b, x, y⟩ := ha.split
          rw [h1.unique x]
          exact Or.inr ⟨j, a, by omega, y, rfl⟩

/-- **C113, `mark_ghost`.** In a closed mesh the walk around the ghost vertex returns to its start, and exactly the triangles that it meets are marked; all of them have the ghost vertex as a corner. -/
theorem c113_ghost {m : Mesh} (ok : Ok m) {start : HE} (hs : start.tri < m.n) (hd : dest m start = none) {N : Nat} (hN : 3 * m.n ≤ N) :
    ∃ g, markGhost m start N start (fun _ => false) = some g ∧ (∀ t, g t = true ↔ ∃ k a, Reach m start k a ∧ a.tri = t) ∧ ∀ t, g t = true → t < m.n ∧ ∃ e : HE, e.tri = t ∧ m.vert e = none := by
  classical
  have hex : ∃ p, 0 < p ∧ Reach m start p start := by
    obtain ⟨p, h1, -, h2⟩ := Reach.returns ok hs
    exact ⟨p, h1, h2⟩
  have hp := Nat.find_spec hex
  have hmin : ∀ j, j < Nat.find hex → ¬ (0 < j ∧ Reach m start j start) := fun j hj => Nat.find_min hex hj
  have hle : Nat.find hex ≤ 3 * m.n := by
    obtain ⟨p, h1, h2, h3⟩ := Reach.returns ok hs
    exact (Nat.find_min' hex ⟨h1, h3⟩).trans h2
  generalize Nat.find hex = p at hp hmin hle
  obtain ⟨p0, hr⟩ := hp
  obtain ⟨q, rfl⟩ : ∃ q, p = q + 1 := ⟨p - 1, by omega⟩
  obtain ⟨g, e1, e2⟩ := markGhost_spec q (k := N) (g := fun _ => false) hr (fun j j0 jq hj => hmin j (by omega) ⟨j0, hj⟩) (by omega)
  have e3 : ∀ t, g t = true ↔ ∃ k a, Reach m start k a ∧ a.tri = t := by
    intro t
    rw [e2 t]
    constructor
    · rintro (h | ⟨j, a, -, ha, ht⟩)
      · cases h
      · exact ⟨j, a, ha, ht⟩
    · rintro ⟨k, a, ha, ht⟩
      refine Or.inr ?_
      induction k using Nat.strong_induction_on with
      | _ k ih =>
        by_cases c : k ≤ q
        · exact ⟨k, a, c, ha, ht⟩
        · rw [show k = (q + 1) + (k - (q + 1)) by omega] at ha
          obtain ⟨b, x, y⟩ := ha.split
          rw [← hr.unique x] at y
          exact ih (k - (q + 1)) (by omega) y
  refine ⟨g, e1, e3, fun t ht => ?_⟩
  obtain ⟨k, a, ha, rfl⟩ := (e3 t).1 ht
  exact ⟨ha.tri ok hs, a.prev, rfl, ha.ghost ok hd⟩

/-- The ghost vertex has one fan of triangles: all half edges to it are met on one walk. -/
def OneFan (m : Mesh) (start : HE) : Prop := ∀ e : HE, e.tri < m.n → dest m e = none → ∃ k, Reach m start k e

/-- If the ghost vertex has one fan then exactly the triangles with a ghost corner are marked. -/
theorem c113_ghost_all {m : Mesh} (ok : Ok m) {start : HE} (hs : start.tri < m.n) (hd : dest m start = none) (hf : OneFan m start) {N : Nat} (hN : 3 * m.n ≤ N) :
    ∃ g, markGhost m start N start (fun _ => false) = some g ∧ ∀ t, g t = true ↔ t < m.n ∧ ∃ e : HE, e.tri = t ∧ m.vert e = none := by
  obtain ⟨g, h1, h2, h3⟩ := c113_ghost ok hs hd hN
  refine ⟨g, h1, fun t => ⟨h3 t, ?_⟩⟩
  rintro ⟨ht, e, rfl, he⟩
  obtain ⟨k, hk⟩ := hf e.next ht (by unfold dest; rw [next_prev]; exact he)
  exact (h2 _).2 ⟨k, _, hk, rfl⟩

/-! ### The vertex map -/

/-- What the vertex map says after some corners have been seen. -/
structure VInv (m : Mesh) (g : Nat → Bool) (seen : List HE) (f : VMap) : Prop where
  vok : VOk m f
  real : ∀ v e, f v = some e → g e.tri = false
  all : ∀ v, f v ≠ none ↔ ∃ e ∈ seen, m.vert e = some v

theorem vmapStep_inv {m : Mesh} (ok : Ok m) {g : Nat → Bool} {seen : List HE} {f : VMap} (h : VInv m g seen f) {e : HE} (he : e.tri < m.n) (hg : g e.tri = false) {v : Nat} (hv : m.vert e = some v) :
    ∃ f', vmapStep m g f e = some f' ∧ VInv m g (seen ++ [e]) f' := by
  unfold vmapStep
  by_cases c : f v ≠ none
  · refine ⟨f, by simp [hv, c], h.vok, h.real, fun w => ?_⟩
    rw [h.all w]
    constructor
    · rintro ⟨x, hx, hw⟩
      exact ⟨x, List.mem_append_left _ hx, hw⟩
    · rintro ⟨x, hx, hw⟩
      rcases List.mem_append.1 hx with hx | hx
      · exact ⟨x, hx, hw⟩
      · rw [List.mem_singleton] at hx
        rw [hx, hv, Option.some.injEq] at hw
        rw [← hw]
        exact (h.all v).1 c
  · obtain ⟨n, hn⟩ := ok.total e.next he
    have ho : org m n = some v := by
      rw [← (ok.swap _ _ hn).2]
      show m.vert _ = _
      rw [next_prev]
      exact hv
    refine ⟨updv f v (if g n.tri then e.prev else n), by simp only [hv, hn, Option.bind_eq_bind, Option.bind_some]; rw [if_neg c]; rfl, ?_, ?_, ?_⟩
    · intro w x hx
      unfold updv at hx
      split at hx
      · rename_i hw
        subst hw
        rw [← Option.some.inj hx]
        split
        · exact ⟨he, by unfold org; rw [prev_next]; exact hv⟩
        · exact ⟨ok.tri hn, ho⟩
      · exact h.vok w x hx
    · intro w x hx
      unfold updv at hx
      split at hx
      · rw [← Option.some.inj hx]
        split
        · exact hg
        · rename_i hw; simpa using hw
      · exact h.real w x hx
    · intro w
      unfold updv
      constructor
      · intro hx
        by_cases hw : w = v
        · exact ⟨e, by simp, by rw [hw]; exact hv⟩
        · rw [if_neg hw] at hx
          obtain ⟨x, h1, h2⟩ := (h.all w).1 hx
          exact ⟨x, List.mem_append_left _ h1, h2⟩
      · rintro ⟨x, hx, hw⟩
        by_cases hv' : w = v
        · rw [if_pos hv']; exact fun x => by cases x
        · rw [if_neg hv']
          rcases List.mem_append.1 hx with hx | hx
          · exact (h.all w).2 ⟨x, hx, hw⟩
          · rw [List.mem_singleton] at hx
            rw [hx, hv, Option.some.injEq] at hw
            exact absurd hw.symm hv'

theorem vmap_fold {m : Mesh} (ok : Ok m) {g : Nat → Bool} : ∀ (l seen : List HE) (f : VMap), VInv m g seen f → (∀ e ∈ l, e.tri < m.n ∧ g e.tri = false ∧ ∃ v, m.vert e = some v) →
    ∃ f', l.foldlM (vmapStep m g) f = some f' ∧ VInv m g (seen ++ l) f'
  | [], seen, f, h, _ => ⟨f, rfl, by rw [List.append_nil]; exact h⟩
  | e :: l, seen, f, h, hl => by
    obtain ⟨a1, a2, v, a3⟩ := hl e (by simp)
    obtain ⟨f1, b1, b2⟩ := vmapStep_inv ok h a1 a2 a3
    obtain ⟨f2, c1, c2⟩ := vmap_fold ok l (seen ++ [e]) f1 b2 fun x hx => hl x (List.mem_cons_of_mem _ hx)
    refine ⟨f2, by rw [List.foldlM_cons, b1]; exact c1, ?_⟩
    rw [List.append_assoc] at c2
    exact c2

theorem mem_corners {n : Nat} {e : HE} : e ∈ corners n ↔ e.tri < n := by
  unfold corners
  simp only [List.mem_flatMap, List.mem_range, List.mem_cons, List.not_mem_nil, or_false]
  constructor
  · rintro ⟨t, ht, rfl | rfl | rfl⟩ <;> exact ht
  · intro h
    obtain ⟨t, j⟩ := e
    exact ⟨t, h, by rcases ori3 j with rfl | rfl | rfl <;> simp⟩

/-- **C113, `make_vertex_map`.** If the triangles with a ghost corner are marked then the map gives for exactly the corners of the other triangles a half edge that leaves the vertex and lies in a triangle that
is not marked. -/
theorem c113_vmap {m : Mesh} (ok : Ok m) {g : Nat → Bool} (hg : ∀ e : HE, e.tri < m.n → m.vert e = none → g e.tri = true) :
    ∃ f, makeVMap m g = some f ∧ VOk m f ∧ (∀ v e, f v = some e → g e.tri = false) ∧ ∀ v, f v ≠ none ↔ ∃ e : HE, e.tri < m.n ∧ g e.tri = false ∧ m.vert e = some v := by
  have hl : ∀ e, e ∈ (corners m.n).filter (fun e => !g e.tri) ↔ e.tri < m.n ∧ g e.tri = false := fun e => by
    rw [List.mem_filter, mem_corners, Bool.not_eq_true']
  obtain ⟨f, h1, h2⟩ := vmap_fold ok ((corners m.n).filter fun e => !g e.tri) [] (fun _ => none) ⟨fun _ _ h => (by cases h), fun _ _ h => (by cases h), fun v => ⟨fun h => absurd rfl h, fun ⟨_, h, _⟩ => (by cases h)⟩⟩
    fun e he => by
      obtain ⟨a1, a2⟩ := (hl e).1 he
      refine ⟨a1, a2, ?_⟩
      cases hv : m.vert e with
      | none => rw [hg e a1 hv] at a2; cases a2
      | some v => exact ⟨v, rfl⟩
  refine ⟨f, h1, h2.vok, h2.real, fun v => (h2.all v).trans ⟨?_, ?_⟩⟩
  · rintro ⟨e, he, hv⟩
    obtain ⟨a1, a2⟩ := (hl e).1 (by simpa using he)
    exact ⟨e, a1, a2, hv⟩
  · rintro ⟨e, a1, a2, hv⟩
    exact ⟨e, by simpa using (hl e).2 ⟨a1, a2⟩, hv⟩
end Verif.Tri
