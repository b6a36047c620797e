import Verif.Tri.Hulls
/-!
# C111: the base cases of `div_conq_recurse` and the recursion (`src/triangle/triangle.rs` lines 682-823)
-/
namespace Verif.Tri

/-- A mesh with new triangles that are glued among themselves. -/
theorem ok_extend {m m' : Mesh} (ok : Ok m) (le : m.n ≤ m'.n) (hn : ∀ e : HE, e.tri < m.n → m'.nei e = m.nei e) (hv : ∀ e : HE, e.tri < m.n → m'.vert e = m.vert e)
    (out : ∀ e : HE, m'.n ≤ e.tri → m'.nei e = none)
    (h : ∀ e : HE, m.n ≤ e.tri → e.tri < m'.n → ∃ e', m'.nei e = some e' ∧ m.n ≤ e'.tri ∧ m'.nei e' = some e ∧ m'.vert e.next = m'.vert e'.prev ∧ m'.vert e.prev = m'.vert e'.next)
    (hd : ∀ e : HE, m.n ≤ e.tri → e.tri < m'.n → m'.vert e ≠ m'.vert e.next) : Ok m' ∧ Within (fun t => m.n ≤ t) m m' := by
  have key : ∀ e : HE, e.tri < m'.n → ∃ e', m'.nei e = some e' ∧ (m.n ≤ e.tri ↔ m.n ≤ e'.tri) ∧ m'.nei e' = some e ∧ m'.vert e.next = m'.vert e'.prev ∧ m'.vert e.prev = m'.vert e'.next := by
    intro e he
    by_cases c : m.n ≤ e.tri
    · obtain ⟨e', h1, h2, h3⟩ := h e c he
      exact ⟨e', h1, by tauto, h3⟩
    · have c : e.tri < m.n := by omega
      obtain ⟨e', h1⟩ := ok.total e c
      have c' := ok.tri h1
      obtain ⟨h2, h3⟩ := ok.swap _ _ h1
      exact ⟨e', by rw [hn e c]; exact h1, by omega, by rw [hn e' c']; exact ok.symm _ _ h1, by rw [hv e.next c, hv e'.prev c']; exact h2, by rw [hv e.prev c, hv e'.next c']; exact h3⟩
  have rg : ∀ e e', m'.nei e = some e' → e.tri < m'.n := fun e e' x => by
    by_contra c
    rw [out e (by omega)] at x
    cases x
  have key2 : ∀ e e', m'.nei e = some e' → (m.n ≤ e.tri ↔ m.n ≤ e'.tri) ∧ m'.nei e' = some e ∧ m'.vert e.next = m'.vert e'.prev ∧ m'.vert e.prev = m'.vert e'.next := fun e e' x => by
    obtain ⟨e'', h1, h2⟩ := key e (rg _ _ x)
    rw [x, Option.some.injEq] at h1
    subst h1
    exact h2
  refine ⟨⟨fun e he => ?_, rg, fun e e' x => (key2 e e' x).2.1, fun e e' x => (key2 e e' x).2.2, fun e he => ?_⟩, ⟨fun e e' x => (key2 e e' x).1, fun e x => hn e (by omega), fun e x => hv e (by omega)⟩⟩
  · obtain ⟨e', h1, -⟩ := key e he
    exact ⟨e', h1⟩
  · by_cases c : m.n ≤ e.tri
    · exact hd e c he
    · rw [hv e (by omega), hv e.next (by show e.tri < m.n; omega)]
      exact ok.distinct e (by omega)

/-- A new part of a mesh with the points `ps`: it has `2 * ps.length - 2` triangles, its corners are the points and the ghost vertex, and the handles lie in it. -/
structure Part (m m' : Mesh) (ps : List Nat) (fl fr : HE) : Prop where
  ok : Ok m'
  n : m'.n + 2 = m.n + 2 * ps.length
  within : Within (fun t => m.n ≤ t) m m'
  corners : ∀ v, IsCorner m' (fun t => m.n ≤ t) v ↔ v = none ∨ ∃ p ∈ ps, v = some p
  left : m.n ≤ fl.tri ∧ fl.tri < m'.n
  right : m.n ≤ fr.tri ∧ fr.tri < m'.n

theorem ori3 (j : Fin 3) : j = 0 ∨ j = 1 ∨ j = 2 := by revert j; decide

/-- The half edges of `k` new triangles, one by one. -/
theorem new_tri {m : Mesh} {e : HE} {k : Nat} (h1 : m.n ≤ e.tri) (h2 : e.tri < m.n + k) : ∃ i, i < k ∧ (e = ⟨m.n + i, 0⟩ ∨ e = ⟨m.n + i, 1⟩ ∨ e = ⟨m.n + i, 2⟩) := by
  obtain ⟨t, j⟩ := e
  simp only at h1 h2
  refine ⟨t - m.n, by omega, ?_⟩
  rw [show m.n + (t - m.n) = t by omega]
  rcases ori3 j with rfl | rfl | rfl <;> simp

theorem nei_none {m : Mesh} (ok : Ok m) {e : HE} (h : m.n ≤ e.tri) : m.nei e = none := by
  cases hx : m.nei e with
  | none => rfl
  | some e' => have := ok.range _ _ hx; omega

theorem base2_part {m : Mesh} (ok : Ok m) {a b : Nat} (h : a ≠ b) : Part m (base2 m a b).1 [a, b] (base2 m a b).2.1 (base2 m a b).2.2 ∧
    dest (base2 m a b).1 (base2 m a b).2.1 = none ∧ org (base2 m a b).1 (base2 m a b).2.2 = none := by
  have hn : (base2 m a b).1.n = m.n + 2 := rfl
  obtain ⟨E, W⟩ := ok_extend (m' := (base2 m a b).1) ok (by omega)
    (fun e he => by
      have g0 : e.tri ≠ m.n := by omega
      have g1 : e.tri ≠ m.n + 1 := by omega
      have k0 : ∀ j, e ≠ ⟨m.n, j⟩ := fun j x => g0 (by rw [x])
      have k1 : ∀ j, e ≠ ⟨m.n + 1, j⟩ := fun j x => g1 (by rw [x])
      simp [base2, makeTri, setDest, setOrg, setApex, bond, upd, HE.next, HE.prev, Nat.add_assoc, g0, k0, g1, k1])
    (fun e he => by
      have g0 : e.tri ≠ m.n := by omega
      have g1 : e.tri ≠ m.n + 1 := by omega
      have k0 : ∀ j, e ≠ ⟨m.n, j⟩ := fun j x => g0 (by rw [x])
      have k1 : ∀ j, e ≠ ⟨m.n + 1, j⟩ := fun j x => g1 (by rw [x])
      simp [base2, makeTri, setDest, setOrg, setApex, bond, upd, HE.next, HE.prev, Nat.add_assoc, g0, k0, g1, k1])
    (fun e he => by
      rw [hn] at he
      have g0 : e.tri ≠ m.n := by omega
      have g1 : e.tri ≠ m.n + 1 := by omega
      have k0 : ∀ j, e ≠ ⟨m.n, j⟩ := fun j x => g0 (by rw [x])
      have k1 : ∀ j, e ≠ ⟨m.n + 1, j⟩ := fun j x => g1 (by rw [x])
      have z := nei_none ok (e := e) (by omega)
      simp [base2, makeTri, setDest, setOrg, setApex, bond, upd, HE.next, HE.prev, Nat.add_assoc, g0, k0, g1, k1, z])
    (fun e h1 h2 => by
      rw [hn] at h2
      obtain ⟨i, hi, he⟩ := new_tri h1 h2
      rcases (by omega : i = 0 ∨ i = 1) with rfl | rfl <;> rcases he with rfl | rfl | rfl <;> simp [base2, makeTri, setDest, setOrg, setApex, bond, upd, HE.next, HE.prev, Nat.add_assoc])
    (fun e h1 h2 => by
      rw [hn] at h2
      obtain ⟨i, hi, he⟩ := new_tri h1 h2
      rcases (by omega : i = 0 ∨ i = 1) with rfl | rfl <;> rcases he with rfl | rfl | rfl <;> simp [base2, makeTri, setDest, setOrg, setApex, bond, upd, HE.next, HE.prev, Nat.add_assoc, h, h.symm])
  refine ⟨⟨E, by rw [hn]; simp only [List.length_cons, List.length_nil], W, fun v => ⟨?_, ?_⟩, ?_, ?_⟩, ?_, ?_⟩
  · rintro ⟨e, h1, h2, rfl⟩
    rw [hn] at h1
    obtain ⟨i, hi, he⟩ := new_tri h2 h1
    rcases (by omega : i = 0 ∨ i = 1) with rfl | rfl <;> rcases he with rfl | rfl | rfl <;> simp [base2, makeTri, setDest, setOrg, setApex, bond, upd, HE.next, HE.prev, Nat.add_assoc]
  · rintro (rfl | ⟨p, hp, rfl⟩)
    · exact ⟨⟨m.n, 0⟩, by rw [hn]; simp, by simp, by simp [base2, makeTri, setDest, setOrg, setApex, bond, upd, HE.next, HE.prev, Nat.add_assoc]⟩
    · simp only [List.mem_cons, List.not_mem_nil, or_false] at hp
      rcases hp with rfl | rfl
      · exact ⟨⟨m.n, 1⟩, by rw [hn]; simp, by simp, by simp [base2, makeTri, setDest, setOrg, setApex, bond, upd, HE.next, HE.prev, Nat.add_assoc]⟩
      · exact ⟨⟨m.n, 2⟩, by rw [hn]; simp, by simp, by simp [base2, makeTri, setDest, setOrg, setApex, bond, upd, HE.next, HE.prev, Nat.add_assoc]⟩
  all_goals simp [base2, makeTri, setDest, setOrg, setApex, bond, upd, HE.next, HE.prev, Nat.add_assoc, dest, org]

theorem base3flat_part {m : Mesh} (ok : Ok m) {a b c : Nat} (h : a ≠ b) (h' : b ≠ c) : Part m (base3flat m a b c).1 [a, b, c] (base3flat m a b c).2.1 (base3flat m a b c).2.2 ∧
    dest (base3flat m a b c).1 (base3flat m a b c).2.1 = none ∧ org (base3flat m a b c).1 (base3flat m a b c).2.2 = none := by
  have hn : (base3flat m a b c).1.n = m.n + 4 := rfl
  obtain ⟨E, W⟩ := ok_extend (m' := (base3flat m a b c).1) ok (by omega)
    (fun e he => by
      have g0 : e.tri ≠ m.n := by omega
      have g1 : e.tri ≠ m.n + 1 := by omega
      have g2 : e.tri ≠ m.n + 2 := by omega
      have g3 : e.tri ≠ m.n + 3 := by omega
      have k0 : ∀ j, e ≠ ⟨m.n, j⟩ := fun j x => g0 (by rw [x])
      have k1 : ∀ j, e ≠ ⟨m.n + 1, j⟩ := fun j x => g1 (by rw [x])
      have k2 : ∀ j, e ≠ ⟨m.n + 2, j⟩ := fun j x => g2 (by rw [x])
      have k3 : ∀ j, e ≠ ⟨m.n + 3, j⟩ := fun j x => g3 (by rw [x])
      simp [base3flat, makeTri, setDest, setOrg, setApex, bond, upd, HE.next, HE.prev, Nat.add_assoc, g0, k0, g1, k1, g2, k2, g3, k3])
    (fun e he => by
      have g0 : e.tri ≠ m.n := by omega
      have g1 : e.tri ≠ m.n + 1 := by omega
      have g2 : e.tri ≠ m.n + 2 := by omega
      have g3 : e.tri ≠ m.n + 3 := by omega
      have k0 : ∀ j, e ≠ ⟨m.n, j⟩ := fun j x => g0 (by rw [x])
      have k1 : ∀ j, e ≠ ⟨m.n + 1, j⟩ := fun j x => g1 (by rw [x])
      have k2 : ∀ j, e ≠ ⟨m.n + 2, j⟩ := fun j x => g2 (by rw [x])
      have k3 : ∀ j, e ≠ ⟨m.n + 3, j⟩ := fun j x => g3 (by rw [x])
      simp [base3flat, makeTri, setDest, setOrg, setApex, bond, upd, HE.next, HE.prev, Nat.add_assoc, g0, k0, g1, k1, g2, k2, g3, k3])
    (fun e he => by
      rw [hn] at he
      have g0 : e.tri ≠ m.n := by omega
      have g1 : e.tri ≠ m.n + 1 := by omega
      have g2 : e.tri ≠ m.n + 2 := by omega
      have g3 : e.tri ≠ m.n + 3 := by omega
      have k0 : ∀ j, e ≠ ⟨m.n, j⟩ := fun j x => g0 (by rw [x])
      have k1 : ∀ j, e ≠ ⟨m.n + 1, j⟩ := fun j x => g1 (by rw [x])
      have k2 : ∀ j, e ≠ ⟨m.n + 2, j⟩ := fun j x => g2 (by rw [x])
      have k3 : ∀ j, e ≠ ⟨m.n + 3, j⟩ := fun j x => g3 (by rw [x])
      have z := nei_none ok (e := e) (by omega)
      simp [base3flat, makeTri, setDest, setOrg, setApex, bond, upd, HE.next, HE.prev, Nat.add_assoc, g0, k0, g1, k1, g2, k2, g3, k3, z])
    (fun e h1 h2 => by
      rw [hn] at h2
      obtain ⟨i, hi, he⟩ := new_tri h1 h2
      rcases (by omega : i = 0 ∨ i = 1 ∨ i = 2 ∨ i = 3) with rfl | rfl | rfl | rfl <;> rcases he with rfl | rfl | rfl <;> simp [base3flat, makeTri, setDest, setOrg, setApex, bond, upd, HE.next, HE.prev, Nat.add_assoc])
    (fun e h1 h2 => by
      rw [hn] at h2
      obtain ⟨i, hi, he⟩ := new_tri h1 h2
      rcases (by omega : i = 0 ∨ i = 1 ∨ i = 2 ∨ i = 3) with rfl | rfl | rfl | rfl <;> rcases he with rfl | rfl | rfl <;> simp [base3flat, makeTri, setDest, setOrg, setApex, bond, upd, HE.next, HE.prev, Nat.add_assoc, h, h.symm, h', h'.symm])
  refine ⟨⟨E, by rw [hn]; simp only [List.length_cons, List.length_nil], W, fun v => ⟨?_, ?_⟩, ?_, ?_⟩, ?_, ?_⟩
  · rintro ⟨e, h1, h2, rfl⟩
    rw [hn] at h1
    obtain ⟨i, hi, he⟩ := new_tri h2 h1
    rcases (by omega : i = 0 ∨ i = 1 ∨ i = 2 ∨ i = 3) with rfl | rfl | rfl | rfl <;> rcases he with rfl | rfl | rfl <;> simp [base3flat, makeTri, setDest, setOrg, setApex, bond, upd, HE.next, HE.prev, Nat.add_assoc]
  · rintro (rfl | ⟨p, hp, rfl⟩)
    · exact ⟨⟨m.n, 0⟩, by rw [hn]; simp, by simp, by simp [base3flat, makeTri, setDest, setOrg, setApex, bond, upd, HE.next, HE.prev, Nat.add_assoc]⟩
    · simp only [List.mem_cons, List.not_mem_nil, or_false] at hp
      rcases hp with rfl | rfl | rfl
      · exact ⟨⟨m.n, 1⟩, by rw [hn]; simp, by simp, by simp [base3flat, makeTri, setDest, setOrg, setApex, bond, upd, HE.next, HE.prev, Nat.add_assoc]⟩
      · exact ⟨⟨m.n, 2⟩, by rw [hn]; simp, by simp, by simp [base3flat, makeTri, setDest, setOrg, setApex, bond, upd, HE.next, HE.prev, Nat.add_assoc]⟩
      · exact ⟨⟨m.n + 2, 1⟩, by rw [hn]; simp, by simp, by simp [base3flat, makeTri, setDest, setOrg, setApex, bond, upd, HE.next, HE.prev, Nat.add_assoc]⟩
  all_goals simp [base3flat, makeTri, setDest, setOrg, setApex, bond, upd, HE.next, HE.prev, Nat.add_assoc, dest, org]

theorem base3pos_part {m : Mesh} (ok : Ok m) {a b c : Nat} (h : a ≠ b) (h' : b ≠ c) (h'' : a ≠ c) : Part m (base3 m a b c true).1 [a, b, c] (base3 m a b c true).2.1 (base3 m a b c true).2.2 ∧
    dest (base3 m a b c true).1 (base3 m a b c true).2.1 = none ∧ org (base3 m a b c true).1 (base3 m a b c true).2.2 = none := by
  have hn : (base3 m a b c true).1.n = m.n + 4 := rfl
  obtain ⟨E, W⟩ := ok_extend (m' := (base3 m a b c true).1) ok (by omega)
    (fun e he => by
      have g0 : e.tri ≠ m.n := by omega
      have g1 : e.tri ≠ m.n + 1 := by omega
      have g2 : e.tri ≠ m.n + 2 := by omega
      have g3 : e.tri ≠ m.n + 3 := by omega
      have k0 : ∀ j, e ≠ ⟨m.n, j⟩ := fun j x => g0 (by rw [x])
      have k1 : ∀ j, e ≠ ⟨m.n + 1, j⟩ := fun j x => g1 (by rw [x])
      have k2 : ∀ j, e ≠ ⟨m.n + 2, j⟩ := fun j x => g2 (by rw [x])
      have k3 : ∀ j, e ≠ ⟨m.n + 3, j⟩ := fun j x => g3 (by rw [x])
      simp [base3, makeTri, setDest, setOrg, setApex, bond, upd, HE.next, HE.prev, Nat.add_assoc, g0, k0, g1, k1, g2, k2, g3, k3])
    (fun e he => by
      have g0 : e.tri ≠ m.n := by omega
      have g1 : e.tri ≠ m.n + 1 := by omega
      have g2 : e.tri ≠ m.n + 2 := by omega
      have g3 : e.tri ≠ m.n + 3 := by omega
      have k0 : ∀ j, e ≠ ⟨m.n, j⟩ := fun j x => g0 (by rw [x])
      have k1 : ∀ j, e ≠ ⟨m.n + 1, j⟩ := fun j x => g1 (by rw [x])
      have k2 : ∀ j, e ≠ ⟨m.n + 2, j⟩ := fun j x => g2 (by rw [x])
      have k3 : ∀ j, e ≠ ⟨m.n + 3, j⟩ := fun j x => g3 (by rw [x])
      simp [base3, makeTri, setDest, setOrg, setApex, bond, upd, HE.next, HE.prev, Nat.add_assoc, g0, k0, g1, k1, g2, k2, g3, k3])
    (fun e he => by
      rw [hn] at he
      have g0 : e.tri ≠ m.n := by omega
      have g1 : e.tri ≠ m.n + 1 := by omega
      have g2 : e.tri ≠ m.n + 2 := by omega
      have g3 : e.tri ≠ m.n + 3 := by omega
      have k0 : ∀ j, e ≠ ⟨m.n, j⟩ := fun j x => g0 (by rw [x])
      have k1 : ∀ j, e ≠ ⟨m.n + 1, j⟩ := fun j x => g1 (by rw [x])
      have k2 : ∀ j, e ≠ ⟨m.n + 2, j⟩ := fun j x => g2 (by rw [x])
      have k3 : ∀ j, e ≠ ⟨m.n + 3, j⟩ := fun j x => g3 (by rw [x])
      have z := nei_none ok (e := e) (by omega)
      simp [base3, makeTri, setDest, setOrg, setApex, bond, upd, HE.next, HE.prev, Nat.add_assoc, g0, k0, g1, k1, g2, k2, g3, k3, z])
    (fun e h1 h2 => by
      rw [hn] at h2
      obtain ⟨i, hi, he⟩ := new_tri h1 h2
      rcases (by omega : i = 0 ∨ i = 1 ∨ i = 2 ∨ i = 3) with rfl | rfl | rfl | rfl <;> rcases he with rfl | rfl | rfl <;> simp [base3, makeTri, setDest, setOrg, setApex, bond, upd, HE.next, HE.prev, Nat.add_assoc])
    (fun e h1 h2 => by
      rw [hn] at h2
      obtain ⟨i, hi, he⟩ := new_tri h1 h2
      rcases (by omega : i = 0 ∨ i = 1 ∨ i = 2 ∨ i = 3) with rfl | rfl | rfl | rfl <;> rcases he with rfl | rfl | rfl <;> simp [base3, makeTri, setDest, setOrg, setApex, bond, upd, HE.next, HE.prev, Nat.add_assoc, h, h.symm, h', h'.symm, h'', h''.symm])
  refine ⟨⟨E, by rw [hn]; simp only [List.length_cons, List.length_nil], W, fun v => ⟨?_, ?_⟩, ?_, ?_⟩, ?_, ?_⟩
  · rintro ⟨e, h1, h2, rfl⟩
    rw [hn] at h1
    obtain ⟨i, hi, he⟩ := new_tri h2 h1
    rcases (by omega : i = 0 ∨ i = 1 ∨ i = 2 ∨ i = 3) with rfl | rfl | rfl | rfl <;> rcases he with rfl | rfl | rfl <;> simp [base3, makeTri, setDest, setOrg, setApex, bond, upd, HE.next, HE.prev, Nat.add_assoc]
  · rintro (rfl | ⟨p, hp, rfl⟩)
    · exact ⟨⟨m.n + 1, 0⟩, by rw [hn]; simp, by simp, by simp [base3, makeTri, setDest, setOrg, setApex, bond, upd, HE.next, HE.prev, Nat.add_assoc]⟩
    · simp only [List.mem_cons, List.not_mem_nil, or_false] at hp
      rcases hp with rfl | rfl | rfl
      · exact ⟨⟨m.n, 1⟩, by rw [hn]; simp, by simp, by simp [base3, makeTri, setDest, setOrg, setApex, bond, upd, HE.next, HE.prev, Nat.add_assoc]⟩
      · exact ⟨⟨m.n, 2⟩, by rw [hn]; simp, by simp, by simp [base3, makeTri, setDest, setOrg, setApex, bond, upd, HE.next, HE.prev, Nat.add_assoc]⟩
      · exact ⟨⟨m.n, 0⟩, by rw [hn]; simp, by simp, by simp [base3, makeTri, setDest, setOrg, setApex, bond, upd, HE.next, HE.prev, Nat.add_assoc]⟩
  all_goals simp [base3, makeTri, setDest, setOrg, setApex, bond, upd, HE.next, HE.prev, Nat.add_assoc, dest, org]

theorem base3neg_part {m : Mesh} (ok : Ok m) {a b c : Nat} (h : a ≠ b) (h' : b ≠ c) (h'' : a ≠ c) : Part m (base3 m a b c false).1 [a, b, c] (base3 m a b c false).2.1 (base3 m a b c false).2.2 ∧
    dest (base3 m a b c false).1 (base3 m a b c false).2.1 = none ∧ org (base3 m a b c false).1 (base3 m a b c false).2.2 = none := by
  have hn : (base3 m a b c false).1.n = m.n + 4 := rfl
  obtain ⟨E, W⟩ := ok_extend (m' := (base3 m a b c false).1) ok (by omega)
    (fun e he => by
      have g0 : e.tri ≠ m.n := by omega
      have g1 : e.tri ≠ m.n + 1 := by omega
      have g2 : e.tri ≠ m.n + 2 := by omega
      have g3 : e.tri ≠ m.n + 3 := by omega
      have k0 : ∀ j, e ≠ ⟨m.n, j⟩ := fun j x => g0 (by rw [x])
      have k1 : ∀ j, e ≠ ⟨m.n + 1, j⟩ := fun j x => g1 (by rw [x])
      have k2 : ∀ j, e ≠ ⟨m.n + 2, j⟩ := fun j x => g2 (by rw [x])
      have k3 : ∀ j, e ≠ ⟨m.n + 3, j⟩ := fun j x => g3 (by rw [x])
      simp [base3, makeTri, setDest, setOrg, setApex, bond, upd, HE.next, HE.prev, Nat.add_assoc, g0, k0, g1, k1, g2, k2, g3, k3])
    (fun e he => by
      have g0 : e.tri ≠ m.n := by omega
      have g1 : e.tri ≠ m.n + 1 := by omega
      have g2 : e.tri ≠ m.n + 2 := by omega
      have g3 : e.tri ≠ m.n + 3 := by omega
      have k0 : ∀ j, e ≠ ⟨m.n, j⟩ := fun j x => g0 (by rw [x])
      have k1 : ∀ j, e ≠ ⟨m.n + 1, j⟩ := fun j x => g1 (by rw [x])
      have k2 : ∀ j, e ≠ ⟨m.n + 2, j⟩ := fun j x => g2 (by rw [x])
      have k3 : ∀ j, e ≠ ⟨m.n + 3, j⟩ := fun j x => g3 (by rw [x])
      simp [base3, makeTri, setDest, setOrg, setApex, bond, upd, HE.next, HE.prev, Nat.add_assoc, g0, k0, g1, k1, g2, k2, g3, k3])
    (fun e he => by
      rw [hn] at he
      have g0 : e.tri ≠ m.n := by omega
      have g1 : e.tri ≠ m.n + 1 := by omega
      have g2 : e.tri ≠ m.n + 2 := by omega
      have g3 : e.tri ≠ m.n + 3 := by omega
      have k0 : ∀ j, e ≠ ⟨m.n, j⟩ := fun j x => g0 (by rw [x])
      have k1 : ∀ j, e ≠ ⟨m.n + 1, j⟩ := fun j x => g1 (by rw [x])
      have k2 : ∀ j, e ≠ ⟨m.n + 2, j⟩ := fun j x => g2 (by rw [x])
      have k3 : ∀ j, e ≠ ⟨m.n + 3, j⟩ := fun j x => g3 (by rw [x])
      have z := nei_none ok (e := e) (by omega)
      simp [base3, makeTri, setDest, setOrg, setApex, bond, upd, HE.next, HE.prev, Nat.add_assoc, g0, k0, g1, k1, g2, k2, g3, k3, z])
    (fun e h1 h2 => by
      rw [hn] at h2
      obtain ⟨i, hi, he⟩ := new_tri h1 h2
      rcases (by omega : i = 0 ∨ i = 1 ∨ i = 2 ∨ i = 3) with rfl | rfl | rfl | rfl <;> rcases he with rfl | rfl | rfl <;> simp [base3, makeTri, setDest, setOrg, setApex, bond, upd, HE.next, HE.prev, Nat.add_assoc])
    (fun e h1 h2 => by
      rw [hn] at h2
      obtain ⟨i, hi, he⟩ := new_tri h1 h2
      rcases (by omega : i = 0 ∨ i = 1 ∨ i = 2 ∨ i = 3) with rfl | rfl | rfl | rfl <;> rcases he with rfl | rfl | rfl <;> simp [base3, makeTri, setDest, setOrg, setApex, bond, upd, HE.next, HE.prev, Nat.add_assoc, h, h.symm, h', h'.symm, h'', h''.symm])
  refine ⟨⟨E, by rw [hn]; simp only [List.length_cons, List.length_nil], W, fun v => ⟨?_, ?_⟩, ?_, ?_⟩, ?_, ?_⟩
  · rintro ⟨e, h1, h2, rfl⟩
    rw [hn] at h1
    obtain ⟨i, hi, he⟩ := new_tri h2 h1
    rcases (by omega : i = 0 ∨ i = 1 ∨ i = 2 ∨ i = 3) with rfl | rfl | rfl | rfl <;> rcases he with rfl | rfl | rfl <;> simp [base3, makeTri, setDest, setOrg, setApex, bond, upd, HE.next, HE.prev, Nat.add_assoc]
  · rintro (rfl | ⟨p, hp, rfl⟩)
    · exact ⟨⟨m.n + 1, 0⟩, by rw [hn]; simp, by simp, by simp [base3, makeTri, setDest, setOrg, setApex, bond, upd, HE.next, HE.prev, Nat.add_assoc]⟩
    · simp only [List.mem_cons, List.not_mem_nil, or_false] at hp
      rcases hp with rfl | rfl | rfl
      · exact ⟨⟨m.n, 1⟩, by rw [hn]; simp, by simp, by simp [base3, makeTri, setDest, setOrg, setApex, bond, upd, HE.next, HE.prev, Nat.add_assoc]⟩
      · exact ⟨⟨m.n, 0⟩, by rw [hn]; simp, by simp, by simp [base3, makeTri, setDest, setOrg, setApex, bond, upd, HE.next, HE.prev, Nat.add_assoc]⟩
      · exact ⟨⟨m.n, 2⟩, by rw [hn]; simp, by simp, by simp [base3, makeTri, setDest, setOrg, setApex, bond, upd, HE.next, HE.prev, Nat.add_assoc]⟩
  all_goals simp [base3, makeTri, setDest, setOrg, setApex, bond, upd, HE.next, HE.prev, Nat.add_assoc, dest, org]

/-- **C111, the handles of the base cases.** `far_left` leaves the first point and `far_right` arrives at the last one. -/
theorem c111_handles (m : Mesh) (a b c : Nat) (pos : Bool) :
    (org (base2 m a b).1 (base2 m a b).2.1 = some a ∧ dest (base2 m a b).1 (base2 m a b).2.2 = some b) ∧
    (org (base3flat m a b c).1 (base3flat m a b c).2.1 = some a ∧ dest (base3flat m a b c).1 (base3flat m a b c).2.2 = some c) ∧
    org (base3 m a b c pos).1 (base3 m a b c pos).2.1 = some a ∧ dest (base3 m a b c pos).1 (base3 m a b c pos).2.2 = some c := by
  refine ⟨⟨?_, ?_⟩, ⟨?_, ?_⟩, ?_, ?_⟩
  iterate 2 simp [base2, makeTri, setDest, setOrg, setApex, bond, upd, HE.next, HE.prev, Nat.add_assoc, dest, org]
  iterate 2 simp [base3flat, makeTri, setDest, setOrg, setApex, bond, upd, HE.next, HE.prev, Nat.add_assoc, dest, org]
  all_goals cases pos <;> simp [base3, makeTri, setDest, setOrg, setApex, bond, upd, HE.next, HE.prev, Nat.add_assoc, dest, org]

end Verif.Tri
