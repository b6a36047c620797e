import Verif.Bsp.Model
import Mathlib.Algebra.BigOperators.Ring.Finset
/-!
# `split_edge` and `split_face` keep the cells closed
-/
namespace Verif.Bsp

theorem mem_all {m : PMesh} {h : HE} : h ∈ m.all ↔ ∃ c ∈ m.faces, h ∈ hes c := by simp [PMesh.all]

theorem HE.rev_rev (h : HE) : h.rev.rev = h := rfl

theorem all_lt {cl : List (Nat × Option Nat)} {m : PMesh} (g : MGood cl m) {h : HE} (hh : h ∈ m.all) : h.tail < m.nV ∧ h.edge < m.nE ∧ h.tip < m.nV := by
  obtain ⟨c, hc, hh⟩ := mem_all.1 hh
  obtain ⟨x, hx, e⟩ := hes_tip hh
  have h1 := g.lt c hc _ (hes_tail hh)
  exact ⟨h1.1, h1.2, e ▸ (g.lt c hc x hx).1⟩

/-- The half-edges on an edge, when one of them is known. -/
theorem ends_on {cl : List (Nat × Option Nat)} {m : PMesh} (g : MGood cl m) {h k : HE} (hh : h ∈ m.all) (hk : k ∈ m.all) (e : h.edge = k.edge) :
    (k.tail = h.tail ∧ k.tip = h.tip) ∨ (k.tail = h.tip ∧ k.tip = h.tail) := by
  rcases g.ends h hh k hk e with rfl | rfl
  · exact Or.inl ⟨rfl, rfl⟩
  · exact Or.inr ⟨rfl, rfl⟩

theorem term_map {cl : List (Nat × Option Nat)} {fs : List Cycle} (f : Cycle → Cycle) (k e u i : Nat) :
    term cl (fs.map f) k e u i = match cl[i]?, fs[i]? with
      | some p, some c => sg p k * bd (hes (f c)) e u
      | _, _ => 0 := by
  unfold term
  rw [List.getElem?_map]
  cases cl[i]? with
  | none => rfl
  | some p => cases fs[i]? <;> rfl

/-- `split_edge` keeps the cells closed. -/
theorem splitEdge_good {cl : List (Nat × Option Nat)} {m : PMesh} (g : MGood cl m) (keep : Bool) {e : Nat} (he : ∃ h ∈ m.all, h.edge = e) :
    ∃ a, m.splitEdge keep e = some { nV := m.nV + 1, nE := m.nE + 1, faces := m.faces.map fun c => c.flatMap (cutCorner e a m.nV m.nE) } ∧
      (∃ h ∈ m.all, h.edge = e ∧ h.tail = a) ∧
      MGood cl { nV := m.nV + 1, nE := m.nE + 1, faces := m.faces.map fun c => c.flatMap (cutCorner e a m.nV m.nE) } := by
  obtain ⟨h0, hf⟩ : ∃ h0, m.all.find? (fun h => h.edge = e) = some h0 := by
    rw [← Option.isSome_iff_exists, List.find?_isSome]
    obtain ⟨h, h1, h2⟩ := he
    exact ⟨h, h1, by simpa using h2⟩
  have he0 : h0.edge = e := by simpa using List.find?_some hf
  have hm0 : h0 ∈ m.all := List.mem_of_find?_eq_some hf
  obtain ⟨h1, hm1, he1, ha⟩ : ∃ h1 ∈ m.all, h1.edge = e ∧ h1.tail = (if keep then h0.tail else h0.tip) := by
    cases keep
    · exact ⟨h0.rev, g.sides _ hm0, he0, rfl⟩
    · exact ⟨h0, hm0, he0, rfl⟩
  refine ⟨h1.tail, by unfold PMesh.splitEdge; rw [hf, ha]; rfl, ⟨h1, hm1, he1, rfl⟩, ?_⟩
  generalize hga : h1.tail = a at *
  generalize hgb : h1.tip = b
  have hab : a ≠ b := by rw [← hga, ← hgb]; exact g.proper _ hm1
  obtain ⟨lt1, lt2, lt3⟩ := all_lt g hm1
  rw [hga] at lt1; rw [hgb] at lt3; rw [he1] at lt2
  have hon : ∀ h ∈ m.all, h.edge = e → (h.tail = a ∧ h.tip = b) ∨ (h.tail = b ∧ h.tip = a) := by
    intro h hh hee
    have := ends_on g hm1 hh (he1.trans hee.symm)
    rwa [hga, hgb] at this
  have hall : ∀ h, h ∈ PMesh.all { nV := m.nV + 1, nE := m.nE + 1, faces := m.faces.map fun c => c.flatMap (cutCorner e a m.nV m.nE) } ↔
      ∃ k ∈ m.all, h ∈ cutHE e a m.nV m.nE k := by
    intro h
    simp only [mem_all, List.mem_map, exists_exists_and_eq_and, hes_cut, List.mem_flatMap]
    constructor
    · rintro ⟨c, hc, k, hk, x⟩; exact ⟨k, ⟨c, hc, hk⟩, x⟩
    · rintro ⟨k, ⟨c, hc, hk⟩, x⟩; exact ⟨c, hc, k, hk, x⟩
  -- the new half-edges
  have hcut : ∀ h, (∃ k ∈ m.all, h ∈ cutHE e a m.nV m.nE k) → (h ∈ m.all ∧ h.edge ≠ e) ∨ h = ⟨a, e, m.nV⟩ ∨ h = ⟨m.nV, m.nE, b⟩ ∨ h = ⟨b, m.nE, m.nV⟩ ∨ h = ⟨m.nV, e, a⟩ := by
    rintro h ⟨k, hk, hh⟩
    unfold cutHE at hh
    by_cases hke : k.edge = e
    · rw [if_pos hke] at hh
      rcases hon k hk hke with ⟨t1, t2⟩ | ⟨t1, t2⟩
      · rw [if_pos t1, t1, t2] at hh
        simp only [List.mem_cons, List.not_mem_nil, or_false] at hh
        rcases hh with rfl | rfl <;> simp
      · rw [if_neg (by rw [t1]; exact hab.symm), t1, t2] at hh
        simp only [List.mem_cons, List.not_mem_nil, or_false] at hh
        rcases hh with rfl | rfl <;> simp
    · rw [if_neg hke, List.mem_singleton] at hh
      subst hh; exact Or.inl ⟨hk, hke⟩
  have hr1 : h1.rev ∈ m.all := g.sides _ hm1
  have hcut' : ∀ h, ((h ∈ m.all ∧ h.edge ≠ e) ∨ h = ⟨a, e, m.nV⟩ ∨ h = ⟨m.nV, m.nE, b⟩ ∨ h = ⟨b, m.nE, m.nV⟩ ∨ h = ⟨m.nV, e, a⟩) → ∃ k ∈ m.all, h ∈ cutHE e a m.nV m.nE k := by
    have c1 : cutHE e a m.nV m.nE h1 = [⟨a, e, m.nV⟩, ⟨m.nV, m.nE, b⟩] := by
      unfold cutHE; rw [if_pos he1, if_pos hga, hga, hgb]
    have c2 : cutHE e a m.nV m.nE h1.rev = [⟨b, m.nE, m.nV⟩, ⟨m.nV, e, a⟩] := by
      unfold cutHE
      have : h1.rev.tail = b := hgb
      have t2 : h1.rev.tip = a := hga
      rw [if_pos (show h1.rev.edge = e from he1), if_neg (by rw [this]; exact hab.symm), this, t2]
    rintro h (⟨h2, h3⟩ | rfl | rfl | rfl | rfl)
    · exact ⟨h, h2, by unfold cutHE; rw [if_neg h3]; simp⟩
    · exact ⟨h1, hm1, by rw [c1]; simp⟩
    · exact ⟨h1, hm1, by rw [c1]; simp⟩
    · exact ⟨h1.rev, hr1, by rw [c2]; simp⟩
    · exact ⟨h1.rev, hr1, by rw [c2]; simp⟩
  have hcl : ∀ h ∈ m.all, h.edge ≠ m.nE := fun h hh => (all_lt g hh).2.1.ne
  refine ⟨by simpa using g.len, ?_, ?_, ?_, ?_, ?_⟩
  · intro c hc x hx
    obtain ⟨c0, hc0, rfl⟩ := List.mem_map.1 hc
    obtain ⟨y, hy, hx⟩ := List.mem_flatMap.1 hx
    have hl := g.lt c0 hc0 y hy
    show x.1 < m.nV + 1 ∧ x.2 < m.nE + 1
    unfold cutCorner at hx
    split at hx
    · split at hx <;> simp only [List.mem_cons, List.not_mem_nil, or_false] at hx <;> rcases hx with rfl | rfl <;> simp <;> omega
    · simp only [List.mem_cons, List.not_mem_nil, or_false] at hx
      subst hx; omega
  · intro h hh k hk hhk
    have hh := hcut h ((hall h).1 hh)
    have hk := hcut k ((hall k).1 hk)
    rcases hh with ⟨hh, hne⟩ | rfl | rfl | rfl | rfl <;> rcases hk with ⟨hk, hne'⟩ | rfl | rfl | rfl | rfl <;> (try simp [HE.rev]) <;>
      first
        | exact g.ends h hh k hk hhk
        | exact absurd hhk hne
        | exact absurd hhk.symm hne'
        | exact absurd hhk (hcl _ hh)
        | exact absurd hhk.symm (hcl _ hk)
        | (exfalso; simp only at hhk; omega)
  · intro h hh
    have hh := hcut h ((hall h).1 hh)
    rw [hall]
    apply hcut'
    rcases hh with ⟨hh, hne⟩ | rfl | rfl | rfl | rfl
    · exact Or.inl ⟨g.sides _ hh, hne⟩
    all_goals simp [HE.rev]
  · intro h hh
    have hh := hcut h ((hall h).1 hh)
    rcases hh with ⟨hh, hne⟩ | rfl | rfl | rfl | rfl
    · exact g.proper _ hh
    all_goals (simp only; omega)
  · intro k e' u
    have hterm : ∀ i, term cl (m.faces.map fun c => c.flatMap (cutCorner e a m.nV m.nE)) k e' u i =
        if e' = e then ((if a = u then 1 else 0) - (if m.nV = u then 1 else 0)) * term cl m.faces k e a i
        else if e' = m.nE then ((if m.nV = u then 1 else 0) - (if b = u then 1 else 0)) * term cl m.faces k e a i
        else term cl m.faces k e' u i := by
      intro i
      rw [term_map]
      unfold term
      cases hp : cl[i]? with
      | none => simp
      | some p =>
        cases hc : m.faces[i]? with
        | none => simp
        | some c =>
          have hcm := List.mem_of_getElem? hc
          simp only
          rw [hes_cut, bd_cut hab (by omega) (fun h hh => hon h (mem_all.2 ⟨c, hcm, hh⟩)) (fun h hh => hcl h (mem_all.2 ⟨c, hcm, hh⟩))]
          split
          · ring
          · split
            · ring
            · rfl
    simp only [List.length_map]
    rw [Finset.sum_congr rfl fun i _ => hterm i]
    by_cases h1 : e' = e
    · simp only [h1, if_true]
      rw [← Finset.mul_sum, g.closed k e a, mul_zero]
    · by_cases h2 : e' = m.nE
      · have hne : m.nE ≠ e := by omega
        simp only [h2, hne, if_true, if_false]
        rw [← Finset.mul_sum, g.closed k e a, mul_zero]
      · simp only [h1, h2, if_false]
        exact g.closed k e' u

/-- `split_face` keeps the cells closed. -/
theorem splitFace_good {cl : List (Nat × Option Nat)} {m : PMesh} (g : MGood cl m) {f va vb : Nat} {P : Nat × Option Nat} {p q r : Cycle} {x y : Nat × Nat}
    (hc : m.faces[f]? = some (p ++ x :: (q ++ y :: r))) (hcl : cl[f]? = some P) (hxy : x.1 ≠ y.1)
    (hcut : cutCycle va vb m.nE (p ++ x :: (q ++ y :: r)) = some ((y.1, m.nE) :: x :: q, (x.1, m.nE) :: y :: (r ++ p))) :
    m.splitFace f va vb = some { m with nE := m.nE + 1, faces := m.faces.set f ((y.1, m.nE) :: x :: q) ++ [(x.1, m.nE) :: y :: (r ++ p)] } ∧
    (∀ h, h ∈ PMesh.all { m with nE := m.nE + 1, faces := m.faces.set f ((y.1, m.nE) :: x :: q) ++ [(x.1, m.nE) :: y :: (r ++ p)] } ↔
      h ∈ m.all ∨ h = ⟨x.1, m.nE, y.1⟩ ∨ h = ⟨y.1, m.nE, x.1⟩) ∧
    MGood (cl ++ [P]) { m with nE := m.nE + 1, faces := m.faces.set f ((y.1, m.nE) :: x :: q) ++ [(x.1, m.nE) :: y :: (r ++ p)] } := by
  have hcm := List.mem_of_getElem? hc
  have hfl : f < m.faces.length := (List.getElem?_eq_some_iff.1 hc).1
  have hall : ∀ h, h ∈ PMesh.all { m with nE := m.nE + 1, faces := m.faces.set f ((y.1, m.nE) :: x :: q) ++ [(x.1, m.nE) :: y :: (r ++ p)] } ↔
      h ∈ m.all ∨ h = ⟨x.1, m.nE, y.1⟩ ∨ h = ⟨y.1, m.nE, x.1⟩ := by
    intro h
    have hw : h ∈ hes (p ++ x :: (q ++ y :: r)) ↔ h ∈ path (x :: q) y.1 ∨ h ∈ path (y :: (r ++ p)) x.1 :=
      (hes_whole p q r x y).mem_iff.trans List.mem_append
    simp only [mem_all, List.mem_append, List.mem_singleton]
    constructor
    · rintro ⟨c, hc1 | rfl, hh⟩
      · rcases List.mem_or_eq_of_mem_set hc1 with hc1 | rfl
        · exact Or.inl ⟨c, hc1, hh⟩
        · rw [hes_cutOld, List.mem_cons] at hh
          rcases hh with rfl | hh
          · simp
          · exact Or.inl ⟨_, hcm, hw.2 (Or.inl hh)⟩
      · rw [hes_cutOld, List.mem_cons] at hh
        rcases hh with rfl | hh
        · simp
        · exact Or.inl ⟨_, hcm, hw.2 (Or.inr hh)⟩
    · have hset : ((y.1, m.nE) :: x :: q) ∈ m.faces.set f ((y.1, m.nE) :: x :: q) := List.mem_set hfl _
      rintro (⟨c, hc1, hh⟩ | rfl | rfl)
      · obtain ⟨i, hi⟩ := List.mem_iff_getElem?.1 hc1
        by_cases hif : f = i
        · subst hif
          rw [hc] at hi; cases hi
          rcases hw.1 hh with hh | hh
          · exact ⟨_, Or.inl hset, by rw [hes_cutOld]; exact List.mem_cons_of_mem _ hh⟩
          · exact ⟨_, Or.inr rfl, by rw [hes_cutOld]; exact List.mem_cons_of_mem _ hh⟩
        · refine ⟨c, Or.inl (List.mem_iff_getElem?.2 ⟨i, ?_⟩), hh⟩
          rw [List.getElem?_set_ne hif]; exact hi
      · exact ⟨_, Or.inr rfl, by rw [hes_cutOld]; simp⟩
      · exact ⟨_, Or.inl hset, by rw [hes_cutOld]; simp⟩
  refine ⟨by unfold PMesh.splitFace; rw [hc]; simp only [Option.bind_eq_bind, Option.bind_some]; rw [hcut]; rfl, hall, ?_⟩
  have hel : ∀ h ∈ m.all, h.edge ≠ m.nE := fun h hh => (all_lt g hh).2.1.ne
  refine ⟨by simp [g.len], ?_, ?_, ?_, ?_, ?_⟩
  · have hl := g.lt _ hcm
    have hx := hl x (by simp)
    have hy := hl y (by simp)
    intro c hc' z hz
    show z.1 < m.nV ∧ z.2 < m.nE + 1
    rcases List.mem_append.1 hc' with hc' | hc'
    · rcases List.mem_or_eq_of_mem_set hc' with hc' | rfl
      · have := g.lt c hc' z hz; omega
      · simp only [List.mem_cons] at hz
        rcases hz with rfl | rfl | hz
        · exact ⟨hy.1, by simp⟩
        · omega
        · have := hl z (by simp [hz]); omega
    · rw [List.mem_singleton] at hc'
      subst hc'
      simp only [List.mem_cons, List.mem_append] at hz
      rcases hz with rfl | rfl | hz | hz
      · exact ⟨hx.1, by simp⟩
      · omega
      · have := hl z (by simp [hz]); omega
      · have := hl z (by simp [hz]); omega
  · intro h hh k hk hhk
    rcases (hall h).1 hh with hh | rfl | rfl <;> rcases (hall k).1 hk with hk | rfl | rfl <;> (try simp [HE.rev]) <;>
      first
        | exact g.ends h hh k hk hhk
        | exact absurd hhk (hel _ hh)
        | exact absurd hhk.symm (hel _ hk)
  · intro h hh
    rw [hall]
    rcases (hall h).1 hh with hh | rfl | rfl
    · exact Or.inl (g.sides _ hh)
    · simp [HE.rev]
    · simp [HE.rev]
  · intro h hh
    rcases (hall h).1 hh with hh | rfl | rfl
    · exact g.proper _ hh
    · exact hxy
    · exact hxy.symm
  · intro k e u
    have hlen := g.len
    simp only [List.length_append, List.length_set, List.length_singleton]
    rw [Finset.sum_range_succ]
    have hlast : term (cl ++ [P]) (m.faces.set f ((y.1, m.nE) :: x :: q) ++ [(x.1, m.nE) :: y :: (r ++ p)]) k e u m.faces.length =
        sg P k * bd (hes ((x.1, m.nE) :: y :: (r ++ p))) e u := by
      unfold term
      rw [List.getElem?_append_right (by omega), List.getElem?_append_right (by simp)]
      simp [hlen]
    have hterm : ∀ i ∈ Finset.range m.faces.length, term (cl ++ [P]) (m.faces.set f ((y.1, m.nE) :: x :: q) ++ [(x.1, m.nE) :: y :: (r ++ p)]) k e u i =
        term cl m.faces k e u i + if i = f then - (sg P k * bd (hes ((x.1, m.nE) :: y :: (r ++ p))) e u) else 0 := by
      intro i hi
      have hi := Finset.mem_range.1 hi
      unfold term
      rw [List.getElem?_append_left (by omega), List.getElem?_append_left (by simpa using hi)]
      by_cases hif : i = f
      · subst hif
        rw [hcl, hc, List.getElem?_set_self hi, if_pos rfl]
        simp only
        rw [← bd_cutFace p q r x y m.nE e u]; ring
      · rw [if_neg hif, List.getElem?_set_ne (fun h => hif h.symm), add_zero]
    rw [hlast, Finset.sum_congr rfl hterm, Finset.sum_add_distrib, g.closed k e u, Finset.sum_ite_eq' (Finset.range m.faces.length) f, if_pos (Finset.mem_range.2 hfl)]
    ring

end Verif.Bsp
