import Verif.Tet.Locate
/-!
# C61: the seeds of the cavity
-/
namespace Verif.Tet
open InSphere (Pt orient3d)

variable {m : Mesh} {live : Nat → Prop}

theorem edge_unique : ∀ v w, orgPivot v = orgPivot w → destPivot v = destPivot w → v = w := by decide +kernel
theorem not_self_glued : ∀ v w, orgPivot w = destPivot v → destPivot w = orgPivot v → apexPivot w ≠ apexPivot v := by
  decide +kernel

/-- In a tetrahedron with distinct corners, a handle is determined by its directed edge. -/
theorem handle_unique (hc : Consistent m live) {s t : TriFace} (hl : live t.tet) (htet : s.tet = t.tet)
    (ho : m.org s = m.org t) (hd : m.dest s = m.dest t) : s = t := by
  obtain ⟨x, hx, hinj⟩ := hc.corners _ hl
  obtain ⟨s1, s2⟩ := s
  obtain ⟨t1, t2⟩ := t
  simp only at htet hx
  subst htet
  simp only [Mesh.org, Mesh.dest, hx, Option.map_some, Option.some.injEq] at ho hd
  rw [edge_unique _ _ (hinj ho) (hinj hd)]

/-- The ring loop collects the iterates of the rotation up to the first return. -/
theorem ringLoop_eq (hc : Consistent m live) {s : TriFace} (hl : live s.tet) (n : Nat)
    (hn : (spin m)^[n + 1] s = s) (hmin : ∀ k, 0 < k → k < n + 1 → (spin m)^[k] s ≠ s) :
    ∀ j, j ≤ n → ∀ fuel, n - j < fuel →
      m.ringLoop s.tet fuel ((spin m)^[j] s) = some ((List.range' j (n + 1 - j)).map fun k => ((spin m)^[k] s).tet) := by
  intro j hj
  induction hk : n - j generalizing j with
  | zero =>
    intro fuel hf
    obtain ⟨f, rfl⟩ : ∃ f, fuel = f + 1 := ⟨fuel - 1, by omega⟩
    have : j = n := by omega
    subst this
    have hs := (spin_spec hc (spin_iter hc hl j).1).2.1
    have e : spin m ((spin m)^[j] s) = s :=
      (Function.iterate_succ_apply' (spin m) j s).symm.trans hn
    rw [e] at hs
    simp [Mesh.ringLoop, hs, show j + 1 - j = 1 by omega]
  | succ d ih =>
    intro fuel hf
    obtain ⟨f, rfl⟩ : ∃ f, fuel = f + 1 := ⟨fuel - 1, by omega⟩
    have hs := (spin_spec hc (spin_iter hc hl j).1).2.1
    rw [← Function.iterate_succ_apply' (spin m)] at hs
    have hne : ((spin m)^[j + 1] s).tet ≠ s.tet := by
      intro e
      obtain ⟨-, h1, h2⟩ := spin_iter hc hl (j + 1)
      exact hmin (j + 1) (by omega) (by omega) (handle_unique hc hl e h1 h2)
    rw [Mesh.ringLoop, hs]
    simp only [Option.bind_eq_bind, Option.bind_some, hne, if_false]
    rw [ih (j + 1) (by omega) (by omega) f (by omega)]
    rw [show n + 1 - j = (n + 1 - (j + 1)) + 1 by omega, List.range'_succ]
    simp

/-- The first return of the rotation about an edge. -/
theorem first_return (hc : Consistent m live) {s : TriFace} (hl : live s.tet) :
    ∃ n, (spin m)^[n + 1] s = s ∧ ∀ k, 0 < k → k < n + 1 → (spin m)^[k] s ≠ s := by
  classical
  have h := spin_period hc hl
  refine ⟨Nat.find h, Nat.find_spec h, ?_⟩
  intro k h0 h1 e
  obtain ⟨j, rfl⟩ : ∃ j, k = j + 1 := ⟨k - 1, by omega⟩
  exact Nat.find_min h (by omega) e

/-- C61, edge case. Rotating about the edge of any live handle of a consistent mesh comes back to the first tetrahedron; the
tetrahedra collected are pairwise different, live, contain the edge, and are all of the ring: each is followed in the ring by
another one of the list. As many rounds as there are tetrahedra are enough. -/
theorem c61_ring (hc : Consistent m live) {s : TriFace} (hl : live s.tet) :
    ∃ N ≤ m.tets.length, ∀ fuel, N ≤ fuel → ∃ R, m.ringLoop s.tet fuel s = some R ∧ s.tet ∈ R ∧ R.Nodup ∧ (∀ t ∈ R, live t) ∧
      (∀ t ∈ R, ∃ h : TriFace, h.tet = t ∧ m.org h = m.org s ∧ m.dest h = m.dest s) ∧
      (∀ h h' : TriFace, h.tet ∈ R → m.org h = m.org s → m.dest h = m.dest s → m.fnext h = some h' → h'.tet ∈ R) := by
  obtain ⟨n, hn, hmin⟩ := first_return hc hl
  have hnd : ((List.range' 0 (n + 1 - 0)).map fun k => ((spin m)^[k] s).tet).Nodup := by
    rw [List.nodup_map_iff_inj_on (List.nodup_range' ..)]
    have key : ∀ i j, i < j → j < n + 1 → ((spin m)^[i] s).tet ≠ ((spin m)^[j] s).tet := by
      intro i j hij hj e
      obtain ⟨l1, a1, b1⟩ := spin_iter hc hl i
      obtain ⟨l2, a2, b2⟩ := spin_iter hc hl j
      have := handle_unique hc l2 e (a1.trans a2.symm) (b1.trans b2.symm)
      have h2 : (spin m)^[i] s = (spin m)^[i] ((spin m)^[j - i] s) := by
        rw [← Function.iterate_add_apply, this]; congr 1; omega
      exact hmin (j - i) (by omega) (by omega)
        (iterate_cancel hc i hl (spin_iter hc hl _).1 h2).symm
    intro i hi j hj e
    simp only [List.mem_range'_1] at hi hj
    rcases lt_trichotomy i j with h | h | h
    · exact absurd e (key i j h (by omega))
    · exact h
    · exact absurd e.symm (key j i h (by omega))
  have hlen : n + 1 ≤ m.tets.length := by
    have hsub : ((List.range' 0 (n + 1 - 0)).map fun k => ((spin m)^[k] s).tet) ⊆ List.range m.tets.length := by
      intro t ht
      obtain ⟨k, -, rfl⟩ := List.mem_map.1 ht
      obtain ⟨x, hx, -⟩ := hc.corners _ (spin_iter hc hl k).1
      exact List.mem_range.2 (List.getElem?_eq_some_iff.1 hx).1
    have := (hnd.subperm hsub).length_le
    simpa using this
  refine ⟨n + 1, hlen, fun fuel hf => ⟨_, ringLoop_eq hc hl n hn hmin 0 (by omega) fuel (by omega), ?_, hnd, ?_, ?_, ?_⟩⟩
  · exact List.mem_map.2 ⟨0, by simp, rfl⟩
  · intro t ht
    obtain ⟨k, -, rfl⟩ := List.mem_map.1 ht
    exact (spin_iter hc hl k).1
  · intro t ht
    obtain ⟨k, -, rfl⟩ := List.mem_map.1 ht
    exact ⟨_, rfl, (spin_iter hc hl k).2⟩
  · intro h h' hh ho hd hnext
    obtain ⟨k, hk, e⟩ := List.mem_map.1 hh
    obtain ⟨l1, a1, b1⟩ := spin_iter hc hl k
    have : (spin m)^[k] s = h := (handle_unique hc l1 e.symm (ho.trans a1.symm) (hd.trans b1.symm)).symm
    subst this
    rw [(spin_spec hc l1).2.1, ← Function.iterate_succ_apply' (spin m)] at hnext
    cases hnext
    simp only [List.mem_range'_1] at hk
    by_cases hkn : k = n
    · subst hkn
      rw [hn]; exact List.mem_map.2 ⟨0, by simp, rfl⟩
    · exact List.mem_map.2 ⟨k + 1, by simp; omega, rfl⟩

/-- C61. Whatever point location answers, choosing the seeds of the cavity does not panic; the seeds are pairwise different
live tetrahedra, beginning with the located one, and there are none only when the point coincides with a vertex. -/
theorem c61_seeds (hc : Consistent m live) (loc : Loc) {s : TriFace} (hl : live s.tet) :
    ∃ N ≤ m.tets.length, ∀ fuel, N ≤ fuel → ∃ r, m.seeds fuel loc s = some r ∧ (r = none ↔ loc = .onVertex) ∧
      ∀ R, r = some R → s.tet ∈ R ∧ R.Nodup ∧ ∀ t ∈ R, live t := by
  cases loc with
  | outside => exact ⟨0, by omega, fun _ _ => ⟨_, rfl, by simp, by rintro R h; cases h; simp [hl]⟩⟩
  | inTet => exact ⟨0, by omega, fun _ _ => ⟨_, rfl, by simp, by rintro R h; cases h; simp [hl]⟩⟩
  | onVertex => exact ⟨0, by omega, fun _ _ => ⟨_, rfl, by simp, by simp⟩⟩
  | onEdge =>
    obtain ⟨N, hN, h⟩ := c61_ring hc hl
    refine ⟨N, hN, fun fuel hf => ?_⟩
    obtain ⟨R, e, h1, h2, h3, -⟩ := h fuel hf
    exact ⟨some R, by simp [Mesh.seeds, e], by simp, by rintro R' h; cases h; exact ⟨h1, h2, h3⟩⟩
  | onFace =>
    refine ⟨0, by omega, fun _ _ => ?_⟩
    obtain ⟨h, hhl, g⟩ := hc.mate hl
    obtain ⟨y, hy, hinj⟩ := hc.corners _ hl
    have hf := g.fwd
    simp only [Mesh.fsym, Option.bind_eq_bind, Option.bind_eq_some_iff, Option.pure_def, Option.some.injEq] at hf
    obtain ⟨x, hx, nf, hnf, hh⟩ := hf
    have hnt : nf.tet = h.tet := by rw [← hh]
    refine ⟨some [s.tet, nf.tet], by simp [Mesh.seeds, hx, hnf], by simp, ?_⟩
    rintro R hR
    cases hR
    refine ⟨by simp, ?_, ?_⟩
    · simp only [List.nodup_cons, List.mem_singleton, List.not_mem_nil, not_false_eq_true, List.nodup_nil, and_true]
      intro e
      rw [hnt] at e
      have h1 := g.org
      have h2 := g.dest
      have h3 := g.apex
      simp only [Mesh.org, Mesh.dest, Mesh.apex, ← e, hy, Option.map_some, Option.some.injEq] at h1 h2 h3
      exact not_self_glued s.ver h.ver (hinj h1) (hinj h2) (hinj h3)
    · intro t ht
      simp only [List.mem_cons, List.not_mem_nil, or_false] at ht
      rcases ht with rfl | rfl
      · exact hl
      · rw [hnt]; exact hhl

end Verif.Tet
