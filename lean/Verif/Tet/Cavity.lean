import Verif.Tet.Incident
import Verif.Tet.InsertModel
/-! # The cavity search of `insert_vertex_bw` (lines 905-949) -/
namespace Verif.Tet
namespace Mesh

/-- A tetrahedron without its search flags. -/
def core (x : Tet) : Tet := { x with infected := false, marked := false }

/-- Equal up to search flags. -/
structure SameCore (m0 m : Mesh) : Prop where
  n : m.nPoints = m0.nPoints
  p : m.p2t = m0.p2t
  tets : ∀ j : Nat, (m.tets[j]?).map core = (m0.tets[j]?).map core

theorem SameCore.refl (m : Mesh) : SameCore m m := ⟨rfl, rfl, fun _ => rfl⟩

theorem SameCore.trans {a b c : Mesh} (h : SameCore a b) (h' : SameCore b c) : SameCore a c :=
  ⟨h'.n.trans h.n, h'.p.trans h.p, fun j => (h'.tets j).trans (h.tets j)⟩

theorem core_eq {x y : Tet} (h : core x = core y) : x.data = y.data ∧ x.nei = y.nei ∧ x.dead = y.dead := by
  cases x; cases y; simp_all [core]

theorem SameCore.get {m0 m : Mesh} (h : SameCore m0 m) {j : Nat} {x : Tet} (hx : m0.tets[j]? = some x) :
    ∃ y, m.tets[j]? = some y ∧ y.data = x.data ∧ y.nei = x.nei ∧ y.dead = x.dead := by
  have := h.tets j
  rw [hx, Option.map_some, Option.map_eq_some_iff] at this
  obtain ⟨y, hy, e⟩ := this
  exact ⟨y, hy, core_eq e⟩

theorem SameCore.slot {m0 m : Mesh} (h : SameCore m0 m) (j : Nat) (f : Fin 4) : m.slot j f = m0.slot j f := by
  have := h.tets j
  unfold Mesh.slot
  cases h1 : m.tets[j]? <;> cases h2 : m0.tets[j]? <;> simp_all
  rw [(core_eq this).2.1]

theorem SameCore.data {m0 m : Mesh} (h : SameCore m0 m) (j : Nat) :
    (m.tets[j]?).map (·.data) = (m0.tets[j]?).map (·.data) := by
  have := h.tets j
  cases h1 : m.tets[j]? <;> cases h2 : m0.tets[j]? <;> simp_all
  exact (core_eq this).1

theorem SameCore.length {m0 m : Mesh} (h : SameCore m0 m) : m.tets.length = m0.tets.length := by
  apply Nat.le_antisymm
  · by_contra hc
    have h1 := h.tets m0.tets.length
    rw [List.getElem?_eq_getElem (by omega), List.getElem?_eq_none (le_refl _)] at h1
    simp at h1
  · by_contra hc
    have h1 := h.tets m.tets.length
    rw [List.getElem?_eq_none (le_refl _), List.getElem?_eq_getElem (by omega)] at h1
    simp at h1

theorem modify_sameCore {m m' : Mesh} {i : Nat} {g : Tet → Tet} (hg : ∀ x, core (g x) = core x)
    (h : m.modify i g = some m') : SameCore m m' := by
  obtain ⟨a, b, -, -⟩ := modify_frame h
  refine ⟨a, b, fun j => ?_⟩
  rw [modify_get h]
  split
  · cases m.tets[j]? <;> simp [hg]
  · rfl

variable {m0 : Mesh} {live : Nat → Prop}

/-- The state invariant of the cavity search. -/
structure CavInv (m0 : Mesh) (live : Nat → Prop) (test : Nat → Bool) (seed : List Nat) (s : Cavity) : Prop where
  same : SameCore m0 s.mesh
  nodup : s.old.Nodup
  alive : ∀ c ∈ s.old, live c
  inf : ∀ j x, live j → s.mesh.tets[j]? = some x → (x.infected = true ↔ j ∈ s.old)
  mark : ∀ j x, live j → s.mesh.tets[j]? = some x → x.marked = true →
    j ∈ s.old ∨ ∃ b ∈ s.bdry, ∃ h, m0.slot b.1 b.2 = some h ∧ h.tet = j
  bnodup : s.bdry.Nodup
  bout : ∀ b ∈ s.bdry, b.1 ∈ s.old ∧ ∃ h, m0.slot b.1 b.2 = some h ∧ h.tet ∉ s.old ∧
    ∃ x, s.mesh.tets[h.tet]? = some x ∧ x.marked = true
  reach : ∀ c ∈ s.old, CavityReach m0 test seed c
  rej : ∀ j x, live j → s.mesh.tets[j]? = some x → x.marked = true → j ∉ s.old → test j = false

theorem cavityFaces_spec (hc : Consistent m0 live) (test : Nat → Bool) {seed : List Nat} {c : Nat} :
    ∀ (fs : List (Fin 4)) (s : Cavity), fs.Nodup → CavInv m0 live test seed s → c ∈ s.old →
    (∀ b ∈ s.bdry, b.1 = c → b.2 ∉ fs) →
    ∃ s', cavityFaces test c fs s = some s' ∧ CavInv m0 live test seed s' ∧ s.old <+: s'.old ∧ (∀ b ∈ s.bdry, b ∈ s'.bdry) ∧
      (∀ b ∈ s'.bdry, b ∈ s.bdry ∨ (b.1 = c ∧ b.2 ∈ fs)) ∧
      (∀ f ∈ fs, ∀ h, m0.slot c f = some h → h.tet ∈ s'.old ∨ (c, f) ∈ s'.bdry) := by
  intro fs
  induction fs with
  | nil => intro s _ hi _ _; exact ⟨s, rfl, hi, List.prefix_refl _, fun b h => h, fun b h => .inl h, by simp⟩
  | cons f fs ih =>
    intro s hnd hi hcs hfr
    have hlc := hi.alive c hcs
    obtain ⟨x0, hx0, -⟩ := hc.corners c hlc
    obtain ⟨h, y0, hnei, hl, hy0, -⟩ := neighbour hc hlc hx0 f
    obtain ⟨x, hx, -, hxn, -⟩ := hi.same.get hx0
    obtain ⟨y, hy, -, -, -⟩ := hi.same.get hy0
    have hslot : m0.slot c f = some h := by simp [slot, hx0, hnei]
    have hinf := hi.inf _ _ hl hy
    have hlen : h.tet < s.mesh.tets.length := (List.getElem?_eq_some_iff.1 hy).1
    rw [List.nodup_cons] at hnd
    unfold cavityFaces
    simp only [hx, hxn, hnei, Option.bind_eq_bind, Option.bind_some, infected, markTested, hy, Option.map_some]
    by_cases h1 : y.infected = true
    · rw [if_pos h1]
      obtain ⟨s', e, a, b, c', d, g⟩ := ih s hnd.2 hi hcs (fun b hb hbc hbf => hfr b hb hbc (by simp [hbf]))
      refine ⟨s', e, a, b, c', fun b' hb' => (d b' hb').imp_right fun ⟨p, q⟩ => ⟨p, by simp [q]⟩, fun f' hf' h' hh' => ?_⟩
      rcases List.mem_cons.1 hf' with rfl | hf'
      · rw [hslot] at hh'; cases hh'
        exact .inl (b.subset (hinf.1 h1))
      · exact g f' hf' h' hh'
    · rw [if_neg h1]
      have hno : h.tet ∉ s.old := fun hcon => h1 (hinf.2 hcon)
      by_cases h2 : (!y.marked && test h.tet) = true
      · rw [if_pos h2]
        have hym : y.marked = false := by simp at h2; exact h2.1
        have e1 : s.mesh.markTest h.tet = some _ := modify_some hlen
        have e2 : ({ s.mesh with tets := s.mesh.tets.modify h.tet fun x => { x with marked := true } } : Mesh).infect h.tet
            = some _ := modify_some (by simpa using hlen)
        simp only [e1, e2, Option.bind_some]
        have hsc := (modify_sameCore (fun x => by rfl) e1).trans (modify_sameCore (fun x => by rfl) e2)
        have hgetN : ∀ j : Nat, j ≠ h.tet → ((s.mesh.tets.modify h.tet fun x => { x with marked := true }).modify h.tet
            fun x => { x with infected := true })[j]? = s.mesh.tets[j]? := by
          intro j hj
          simp [List.getElem?_modify, Ne.symm hj]
        have hgetE : ((s.mesh.tets.modify h.tet fun x => { x with marked := true }).modify h.tet
            fun x => { x with infected := true })[h.tet]? = some { y with infected := true, marked := true } := by
          simp [List.getElem?_modify, hy]
        have hi' : CavInv m0 live test seed
            { mesh := { s.mesh with
                tets := (s.mesh.tets.modify h.tet fun x => { x with marked := true }).modify h.tet
                  fun x => { x with infected := true } }, old := s.old ++ [h.tet], bdry := s.bdry } := by
          refine ⟨hi.same.trans hsc, ?_, ?_, ?_, ?_, hi.bnodup, ?_, ?_, ?_⟩
          · rw [List.nodup_append]
            refine ⟨hi.nodup, by simp, ?_⟩
            intro a ha b hb; simp at hb; subst hb; rintro rfl; exact hno ha
          · intro c' hc'
            rcases List.mem_append.1 hc' with hc' | hc'
            · exact hi.alive c' hc'
            · simp at hc'; subst hc'; exact hl
          · intro j z hj hz
            by_cases hjh : j = h.tet
            · subst hjh; simp only [hgetE, Option.some.injEq] at hz; subst hz; simp
            · simp only [hgetN j hjh] at hz
              rw [hi.inf j z hj hz]; simp [hjh]
          · intro j z hj hz hzm
            by_cases hjh : j = h.tet
            · left; simp [hjh]
            · simp only [hgetN j hjh] at hz
              rcases hi.mark j z hj hz hzm with h' | h'
              · left; simp [h']
              · exact .inr h'
          · intro b hb
            obtain ⟨p, h', hs', ho', x', hx', hm'⟩ := hi.bout b hb
            have hne : h'.tet ≠ h.tet := by
              intro hcon
              rw [hcon, hy] at hx'; cases hx'
              rw [hym] at hm'; cases hm'
            exact ⟨by simp [p], h', hs', by simp [ho', hne], x', by simp only [hgetN _ hne]; exact hx', hm'⟩
          · intro c' hc'
            rcases List.mem_append.1 hc' with hc' | hc'
            · exact hi.reach c' hc'
            · simp at hc'; subst hc'
              exact .grow (hi.reach c hcs) hx0 hnei (by simp at h2; exact h2.2)
          · intro j z hj hz hzm hzo
            have hjh : j ≠ h.tet := by rintro rfl; exact hzo (by simp)
            simp only [hgetN j hjh] at hz
            exact hi.rej j z hj hz hzm fun hh => hzo (by simp [hh])
        obtain ⟨s', e, a, b, c', d, g⟩ := ih _ hnd.2 hi' (by simp [hcs]) (fun b hb hbc hbf => hfr b hb hbc (by simp [hbf]))
        refine ⟨s', e, a, (List.prefix_append _ _).trans b, c',
          fun b' hb' => (d b' hb').imp_right fun ⟨p, q⟩ => ⟨p, by simp [q]⟩, fun f' hf' h' hh' => ?_⟩
        rcases List.mem_cons.1 hf' with rfl | hf'
        · rw [hslot] at hh'; cases hh'
          exact .inl (b.subset (by simp))
        · exact g f' hf' h' hh'
      · rw [if_neg h2]
        have e1 : s.mesh.markTest h.tet = some _ := modify_some hlen
        simp only [e1, Option.bind_some]
        have hsc := modify_sameCore (fun x => by rfl) e1
        have hgetN : ∀ j : Nat, j ≠ h.tet →
            (s.mesh.tets.modify h.tet fun x => { x with marked := true })[j]? = s.mesh.tets[j]? := by
          intro j hj
          simp [List.getElem?_modify, Ne.symm hj]
        have hgetE : (s.mesh.tets.modify h.tet fun x => { x with marked := true })[h.tet]? =
            some { y with marked := true } := by
          simp [List.getElem?_modify, hy]
        have hi' : CavInv m0 live test seed
            { mesh := { s.mesh with tets := s.mesh.tets.modify h.tet fun x => { x with marked := true } },
              old := s.old, bdry := s.bdry ++ [(c, f)] } := by
          refine ⟨hi.same.trans hsc, hi.nodup, hi.alive, ?_, ?_, ?_, ?_, hi.reach, ?_⟩
          · intro j z hj hz
            by_cases hjh : j = h.tet
            · subst hjh; simp only [hgetE, Option.some.injEq] at hz; subst hz; exact hinf
            · simp only [hgetN j hjh] at hz; exact hi.inf j z hj hz
          · intro j z hj hz hzm
            by_cases hjh : j = h.tet
            · right; exact ⟨(c, f), by simp, h, hslot, hjh.symm⟩
            · simp only [hgetN j hjh] at hz
              rcases hi.mark j z hj hz hzm with h' | ⟨b, hb, h'⟩
              · exact .inl h'
              · exact .inr ⟨b, by simp [hb], h'⟩
          · rw [List.nodup_append]
            refine ⟨hi.bnodup, by simp, ?_⟩
            intro a ha b hb; simp at hb; subst hb; rintro rfl
            exact hfr _ ha rfl (by simp)
          · intro b hb
            rcases List.mem_append.1 hb with hb | hb
            · obtain ⟨p, h', hs', ho', x', hx', hm'⟩ := hi.bout b hb
              refine ⟨p, h', hs', ho', ?_⟩
              by_cases hjh : h'.tet = h.tet
              · exact ⟨{ y with marked := true }, by rw [hjh]; exact hgetE, rfl⟩
              · exact ⟨x', by simp only [hgetN _ hjh]; exact hx', hm'⟩
            · simp at hb; subst hb
              exact ⟨hcs, h, hslot, hno, _, hgetE, rfl⟩
          · intro j z hj hz hzm hzo
            by_cases hjh : j = h.tet
            · subst hjh
              by_cases hym : y.marked = true
              · exact hi.rej _ y hj hy hym hzo
              · simpa [hym] using h2
            · simp only [hgetN j hjh] at hz
              exact hi.rej j z hj hz hzm hzo
        obtain ⟨s', e, a, b, c', d, g⟩ := ih _ hnd.2 hi' hcs (fun b hb hbc hbf => by
          rcases List.mem_append.1 hb with hb | hb
          · exact hfr b hb hbc (by simp [hbf])
          · simp at hb; subst hb; exact hnd.1 hbf)
        refine ⟨s', e, a, b, fun b' hb' => c' b' (by simp [hb']), fun b' hb' => ?_, fun f' hf' h' hh' => ?_⟩
        · rcases d b' hb' with h' | ⟨p, q⟩
          · rcases List.mem_append.1 h' with h' | h'
            · exact .inl h'
            · simp at h'; subst h'; exact .inr ⟨rfl, by simp⟩
          · exact .inr ⟨p, by simp [q]⟩
        · rcases List.mem_cons.1 hf' with rfl | hf'
          · exact .inr (c' _ (by simp))
          · exact g f' hf' h' hh'

theorem cavityLoop_spec (hc : Consistent m0 live) (test : Nat → Bool) {seed : List Nat} :
    ∀ (fuel idx : Nat) (s : Cavity), m0.tets.length < fuel + idx → idx ≤ s.old.length → CavInv m0 live test seed s →
    (∀ b ∈ s.bdry, b.1 ∈ s.old.take idx) →
    (∀ c ∈ s.old.take idx, ∀ f h, m0.slot c f = some h → h.tet ∈ s.old ∨ (c, f) ∈ s.bdry) →
    ∃ s', cavityLoop test fuel idx s = some s' ∧ CavInv m0 live test seed s' ∧ s.old <+: s'.old ∧
      (∀ c f, (c, f) ∈ s'.bdry ↔ c ∈ s'.old ∧ ∃ h, m0.slot c f = some h ∧ h.tet ∉ s'.old) := by
  intro fuel
  induction fuel with
  | zero =>
    intro idx s hf hidx hi _ _
    exfalso
    have hlen : s.old.length ≤ m0.tets.length := by
      have hsub : s.old ⊆ List.range m0.tets.length := by
        intro u hu
        obtain ⟨x, hx, -⟩ := hc.corners u (hi.alive u hu)
        exact List.mem_range.2 (List.getElem?_eq_some_iff.1 hx).1
      simpa using (hi.nodup.subperm hsub).length_le
    omega
  | succ fuel ih =>
    intro idx s hf hidx hi hb hcl
    unfold cavityLoop
    by_cases hlt : idx < s.old.length
    · rw [if_pos hlt]
      have hmem : s.old[idx] ∈ s.old := List.getElem_mem _
      have hnot : s.old[idx] ∉ s.old.take idx := by
        intro hcon
        obtain ⟨k, hk, e⟩ := List.getElem_of_mem hcon
        rw [List.getElem_take] at e
        have := (List.Nodup.getElem_inj_iff hi.nodup).1 e
        simp at hk; omega
      obtain ⟨s1, e1, hi1, hpre, hb1, hb2, hclo⟩ := cavityFaces_spec hc test (c := s.old[idx]) [0, 1, 2, 3] s (by decide) hi hmem
        (fun b hbm hbc => absurd (hbc ▸ hb b hbm) hnot)
      have htake : s1.old.take (idx + 1) = s.old.take idx ++ [s.old[idx]] := by
        obtain ⟨t, ht⟩ := hpre
        rw [← ht, List.take_append_of_le_length (by omega), List.take_succ_eq_append_getElem hlt]
      obtain ⟨s', e', a, b, c⟩ := ih (idx + 1) s1 (by omega) (by have := hpre.length_le; omega) hi1
        (fun b hbm => by
          rw [htake, List.mem_append]
          rcases hb2 b hbm with h | ⟨h, -⟩
          · exact .inl (hb b h)
          · exact .inr (by simp [h]))
        (fun c hcm f h hs => by
          rw [htake, List.mem_append] at hcm
          rcases hcm with hcm | hcm
          · rcases hcl c hcm f h hs with h' | h'
            · exact .inl (hpre.subset h')
            · exact .inr (hb1 _ h')
          · simp only [List.mem_singleton] at hcm
            subst hcm
            exact hclo f (by fin_cases f <;> simp) h hs)
      exact ⟨s', by simp [List.getElem?_eq_getElem hlt, e1, e'], a, hpre.trans b, c⟩
    · rw [if_neg hlt]
      rw [List.take_of_length_le (by omega)] at hcl
      refine ⟨s, rfl, hi, List.prefix_refl _, fun c f => ⟨fun h => ?_, fun ⟨h1, h, h2, h3⟩ => ?_⟩⟩
      · obtain ⟨p, h, q, r, -⟩ := hi.bout _ h
        exact ⟨p, h, q, r⟩
      · rcases hcl c h1 f h h2 with h' | h'
        · exact absurd h' h3
        · exact h'

theorem infectAll_spec : ∀ (seed : List Nat) (m : Mesh), (∀ u ∈ seed, u < m.tets.length) →
    ∃ m', infectAll seed m = some m' ∧ SameCore m m' ∧
      ∀ j : Nat, m'.tets[j]? = (m.tets[j]?).map fun x => if j ∈ seed then { x with infected := true } else x := by
  intro r
  induction r with
  | nil => intro m _; exact ⟨m, rfl, .refl m, fun j => by simp⟩
  | cons t r ih =>
    intro m hr
    have h1 : m.infect t = some _ := modify_some (hr t (by simp))
    obtain ⟨m', e, a, c⟩ := ih { m with tets := m.tets.modify t fun x => { x with infected := true } }
      (fun u hu => by simpa using hr u (by simp [hu]))
    refine ⟨m', by simp [infectAll, h1, e], (modify_sameCore (fun x => by rfl) h1).trans a, fun j => ?_⟩
    rw [c]
    simp only [List.getElem?_modify]
    cases m.tets[j]? with
    | none => simp
    | some x =>
      by_cases htj : t = j
      · subst htj; by_cases hj : t ∈ r <;> simp [hj]
      · by_cases hj : j ∈ r <;> simp [hj, htj, Ne.symm htj]

/-- The whole cavity search from clean flags. -/
theorem cavity_spec (hc : Consistent m0 live)
    (hclean : ∀ j x, live j → m0.tets[j]? = some x → x.infected = false ∧ x.marked = false)
    (test : Nat → Bool) (seed : List Nat) (hsn : seed.Nodup) (hsl : ∀ c ∈ seed, live c) (fuel : Nat)
    (hf : m0.tets.length < fuel) :
    ∃ m1 s, infectAll seed m0 = some m1 ∧ cavityLoop test fuel 0 { mesh := m1, old := seed, bdry := [] } = some s ∧
      CavInv m0 live test seed s ∧ (∀ c, c ∈ s.old ↔ CavityReach m0 test seed c) ∧
      (∀ c f, (c, f) ∈ s.bdry ↔ c ∈ s.old ∧ ∃ h, m0.slot c f = some h ∧ h.tet ∉ s.old) := by
  obtain ⟨m1, e1, hs1, hg⟩ := infectAll_spec seed m0 (fun u hu => by
    obtain ⟨x, hx, -⟩ := hc.corners u (hsl u hu)
    exact (List.getElem?_eq_some_iff.1 hx).1)
  have hi : CavInv m0 live test seed { mesh := m1, old := seed, bdry := [] } := by
    refine ⟨hs1, hsn, hsl, ?_, ?_, by simp, by simp, fun c h => .seed h, ?_⟩
    · intro j x hj hx
      simp only [hg, Option.map_eq_some_iff] at hx
      obtain ⟨x0, hx0, rfl⟩ := hx
      have := (hclean j x0 hj hx0).1
      by_cases h : j ∈ seed <;> simp [h, this]
    · intro j x hj hx hm
      simp only [hg, Option.map_eq_some_iff] at hx
      obtain ⟨x0, hx0, rfl⟩ := hx
      have := (hclean j x0 hj hx0).2
      by_cases h : j ∈ seed <;> simp_all
    · intro j x hj hx hm
      simp only [hg, Option.map_eq_some_iff] at hx
      obtain ⟨x0, hx0, rfl⟩ := hx
      have := (hclean j x0 hj hx0).2
      by_cases h : j ∈ seed <;> simp_all
  obtain ⟨s, e2, a, b, c⟩ := cavityLoop_spec hc test fuel 0 _ (by simpa using hf) (by simp) hi (by simp) (by simp)
  refine ⟨m1, s, e1, e2, a, fun u => ⟨a.reach u, fun hu => ?_⟩, c⟩
  induction hu with
  | seed h => exact b.subset h
  | @grow u x f h _ hx hn ht ih =>
    by_contra hcon
    have hm : (u, f) ∈ s.bdry := (c u f).2 ⟨ih, h, by simp [slot, hx, hn], hcon⟩
    obtain ⟨-, h', hs', -, z, hz, hzm⟩ := a.bout _ hm
    have : h' = h := by simp [slot, hx, hn] at hs'; exact hs'.symm
    subst this
    obtain ⟨h2, y, e3, e4, -⟩ := neighbour hc (a.alive u ih) hx f
    rw [hn] at e3; cases e3
    have := a.rej _ z e4 hz hzm hcon
    rw [ht] at this; cases this

end Mesh
end Verif.Tet
