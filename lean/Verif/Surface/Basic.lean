import Verif.Surface.Lemmas
/-!
# Valid meshes: neighbours, iterators, previous and twin halfedges; adding a face
-/
namespace Verif.Surface

/-! ### Rings of a whole array -/

theorem Rings.congr {a b : Ids} {key key' : Nat → Option Nat} (r : Rings a key) (hk : ∀ j, key' j = key j)
    (hb : ∀ j k, key j = some k → get b j = get a j) : Rings b key' := by
  intro h k hh
  rw [hk] at hh
  exact ((r h k hh).congr fun y hy => hb y k hy).iff fun y => by rw [hk]

/-- A new class is written. -/
theorem Rings.newClass {a b : Ids} {key key' : Nat → Option Nat} {l : List Nat} {k0 : Nat} (r : Rings a key) (hl : ∀ x ∈ l, key x = none)
    (hb : ∀ j k, key j = some k → get b j = get a j) (hr : ∀ h ∈ l, Ring b h (· ∈ l))
    (hk : ∀ j, key' j = if j ∈ l then some k0 else key j) (h0 : ∀ j, key j ≠ some k0) : Rings b key' := by
  intro h k hh
  rw [hk] at hh
  split_ifs at hh with hm
  · cases hh
    refine (hr h hm).iff fun y => ?_
    rw [hk]
    by_cases hy : y ∈ l
    · simp [hy]
    · simp only [hy, if_false, false_iff]; exact h0 y
  · refine ((r h k hh).congr fun y hy => hb y k hy).iff fun y => ?_
    rw [hk]
    by_cases hy : y ∈ l
    · rw [if_pos hy, hl y hy]
      simp only [reduceCtorEq, Option.some.injEq, false_iff]
      rintro rfl
      exact h0 h hh
    · rw [if_neg hy]

/-! ### Neighbours -/

theorem Valid.next {m : Mesh} (v : Valid m) {h : Nat} (hh : h < m.nH) :
    ∃ n, get m.heNext h = some n ∧ n < m.nH ∧ get m.heFace n = get m.heFace h := by
  obtain ⟨f, -, hf⟩ := v.hasF h hh
  obtain ⟨n, h1, h2⟩ := (v.faces h f hf).get hf
  exact ⟨n, h1, by have := get_lt h2; rwa [v.sFace] at this, by rw [h2, hf]⟩

theorem Valid.tip {m : Mesh} (v : Valid m) {h : Nat} (hh : h < m.nH) : ∃ t, tip m h = some t ∧ t < m.nV := by
  obtain ⟨n, h1, h2, -⟩ := v.next hh
  obtain ⟨t, h3, h4⟩ := v.hasV n h2
  exact ⟨t, by simp [Surface.tip, h1, h4], h3⟩

theorem tip_some {m : Mesh} {h t : Nat} : tip m h = some t ↔ ∃ n, get m.heNext h = some n ∧ get m.heVertex n = some t := by
  unfold tip
  cases get m.heNext h <;> simp

theorem prevLoop_eq {m : Mesh} {s x : Nat} {l : List Nat} (h : Chain m.heNext x l s) (hs : s ∉ l) {fuel : Nat} (hf : l.length < fuel) :
    prevLoop m s fuel x = some ((x :: l).getLast (by simp)) := by
  induction l generalizing x fuel with
  | nil =>
    obtain ⟨f, rfl⟩ : ∃ f, fuel = f + 1 := ⟨fuel - 1, by simp at hf; omega⟩
    have h : get m.heNext x = some s := h
    simp [prevLoop, h]
  | cons w l ih =>
    obtain ⟨f, rfl⟩ : ∃ f, fuel = f + 1 := ⟨fuel - 1, by simp at hf; omega⟩
    have h1 : get m.heNext x = some w := h.1
    have h2 : w ≠ s := fun e => hs (by rw [← e]; exact List.mem_cons_self)
    simp only [List.length_cons] at hf
    simp [prevLoop, h1, h2, ih h.2 (fun hm => hs (List.mem_cons_of_mem _ hm)) (fuel := f) (by omega)]

/-- `he_prev` on a ring. -/
theorem hePrev_ring {m : Mesh} {h : Nat} {P : Nat → Prop} (r : Ring m.heNext h P) :
    ∃ p, hePrev m h = some p ∧ P p ∧ get m.heNext p = some h := by
  obtain ⟨t, hc, hn, hm⟩ := r
  refine ⟨_, prevLoop_eq hc (List.nodup_cons.1 hn).1 ?_, (hm _).1 (List.getLast_mem (by simp)), chain_last_get hc⟩
  have := length_le_of_nodup hn (chain_lt hc)
  simp only [List.length_cons] at this
  omega

theorem Valid.prev {m : Mesh} (v : Valid m) {h : Nat} (hh : h < m.nH) :
    ∃ p, hePrev m h = some p ∧ p < m.nH ∧ get m.heNext p = some h ∧ get m.heFace p = get m.heFace h := by
  obtain ⟨f, -, hf⟩ := v.hasF h hh
  obtain ⟨p, h1, h2, h3⟩ := hePrev_ring (v.faces h f hf)
  exact ⟨p, h1, by have := get_lt h2; rwa [v.sFace] at this, h3, by rw [h2, hf]⟩

/-- The next halfedge determines the halfedge. -/
theorem Valid.next_inj {m : Mesh} (v : Valid m) {x y n : Nat} (hx : get m.heNext x = some n) (hy : get m.heNext y = some n) : x = y := by
  have lx : x < m.nH := by have := get_lt hx; rwa [v.sNext] at this
  have ly : y < m.nH := by have := get_lt hy; rwa [v.sNext] at this
  obtain ⟨n1, h1, -, f1⟩ := v.next lx
  obtain ⟨n2, h2, -, f2⟩ := v.next ly
  rw [hx] at h1; cases h1
  rw [hy] at h2; cases h2
  obtain ⟨f, -, hf⟩ := v.hasF x lx
  exact (v.faces x f hf).inj hf (by rw [← f2, f1, hf]) (by rw [hx, hy])

/-- `incoming_halfedges`, also in the states between the changes. -/
theorem incoming_spec {m : Mesh} {v h : Nat} {P : Nat → Prop} (hv : get m.vHe v = some h) (hh : get m.heVertex h = some v) (r : Ring m.heNext h P)
    (ri : Rings m.vIn (tip m)) : ∃ l, incoming m v = some l ∧ l.Nodup ∧ l ≠ [] ∧ ∀ x, x ∈ l ↔ tip m x = some v := by
  obtain ⟨p, h1, -, h2⟩ := hePrev_ring r
  have h3 : tip m p = some v := tip_some.2 ⟨h, h2, hh⟩
  obtain ⟨t, h4, -, h5, h6⟩ := (ri p v h3).iter
  exact ⟨p :: t, by simp [incoming, hv, h1, h4], h5, by simp, h6⟩

theorem Valid.incoming {m : Mesh} (v : Valid m) {u h : Nat} (hu : get m.heVertex h = some u) :
    ∃ l, incoming m u = some l ∧ l.Nodup ∧ l ≠ [] ∧ ∀ x, x ∈ l ↔ Surface.tip m x = some u := by
  obtain ⟨h', h1⟩ := v.vhe' h u hu
  have h2 := v.vhe u h' h1
  have h3 := get_lt h2
  rw [v.sVertex] at h3
  obtain ⟨f, -, hf⟩ := v.hasF h' h3
  exact incoming_spec h1 h2 (v.faces h' f hf) v.ins

theorem Valid.outgoing {m : Mesh} (v : Valid m) {u h : Nat} (hu : get m.heVertex h = some u) :
    ∃ l, outgoing m u = some l ∧ l.Nodup ∧ l ≠ [] ∧ ∀ x, x ∈ l ↔ get m.heVertex x = some u := by
  obtain ⟨h', h1⟩ := v.vhe' h u hu
  obtain ⟨t, h4, -, h5, h6⟩ := (v.outs h' u (v.vhe u h' h1)).iter
  exact ⟨h' :: t, by simp [Surface.outgoing, h1, h4], h5, by simp, h6⟩

theorem Valid.edgeHalfedges {m : Mesh} (v : Valid m) {e : Nat} (he : e < m.nE) :
    ∃ h t, edgeHalfedges m e = some (h :: t) ∧ get m.eHe e = some h ∧ Chain m.sib h t h ∧ (h :: t).Nodup ∧ ∀ x, x ∈ h :: t ↔ get m.heEdge x = some e := by
  obtain ⟨h, h1, h2⟩ := v.ehe e he
  obtain ⟨t, h4, h3, h5, h6⟩ := (v.edges h e h2).iter
  exact ⟨h, t, by simp [Surface.edgeHalfedges, h1, h4], h1, h3, h5, h6⟩

theorem Valid.faceHalfedges {m : Mesh} (v : Valid m) {f : Nat} (hf : f < m.nF) :
    ∃ h t, faceHalfedges m f = some (h :: t) ∧ get m.fHe f = some h ∧ Chain m.heNext h t h ∧ (h :: t).Nodup ∧
      ∀ x, x ∈ h :: t ↔ get m.heFace x = some f := by
  obtain ⟨h, h1, h2⟩ := v.fhe f hf
  obtain ⟨t, h4, h3, h5, h6⟩ := (v.faces h f h2).iter
  exact ⟨h, t, by simp [Surface.faceHalfedges, h1, h4], h1, h3, h5, h6⟩

theorem mapM_congr {l : List Nat} {f g : Nat → Option Nat} (h : ∀ x ∈ l, f x = g x) : l.mapM f = l.mapM g := by
  induction l with
  | nil => rfl
  | cons x l ih => rw [List.mapM_cons, List.mapM_cons, h x (by simp), ih fun y hy => h y (List.mem_cons_of_mem _ hy)]

/-- A face that the change does not touch is the same afterwards. -/
theorem face_same {m m' : Mesh} (v : Valid m) {f : Nat} (hf : f < m.nF) (h1 : get m'.fHe f = get m.fHe f)
    (h2 : ∀ x, get m.heFace x = some f → get m'.heNext x = get m.heNext x) (h3 : ∀ x, get m.heFace x = some f → get m'.heVertex x = get m.heVertex x) :
    faceHalfedges m' f = faceHalfedges m f ∧ faceVertices m' f = faceVertices m f := by
  obtain ⟨h, t, e1, e2, e3, e4, e5⟩ := v.faceHalfedges hf
  have e : faceHalfedges m' f = faceHalfedges m f := by
    have := ringIter_eq (chain_congr e3 fun y hy => h2 y ((e5 y).1 hy)) e4
    rw [e1]
    simp [Surface.faceHalfedges, h1, e2, this]
  refine ⟨e, ?_⟩
  simp only [faceVertices, e, e1, Option.bind_eq_bind, Option.bind_some]
  exact mapM_congr fun x hx => h3 x ((e5 x).1 hx)

/-! ### Twin -/

/-- `he_twin`: the halfedge itself, or a halfedge of the same edge with another tail. -/
theorem twinLoop_spec {m : Mesh} {s x : Nat} {l : List Nat} (h : Chain m.sib x l s) (hs : s ∉ l) {fuel : Nat} (hf : l.length < fuel) {u : Nat}
    (hx : get m.heVertex x = some u) (hv : ∀ y ∈ l, ∃ w, get m.heVertex y = some w) :
    ∃ t, twinLoop m s fuel x = some t ∧ (t = s ∧ (∀ y ∈ l, get m.heVertex y = some u) ∨ t ∈ l ∧ get m.heVertex t ≠ some u) := by
  induction l generalizing x fuel with
  | nil =>
    obtain ⟨f, rfl⟩ : ∃ f, fuel = f + 1 := ⟨fuel - 1, by simp at hf; omega⟩
    have h : get m.sib x = some s := h
    exact ⟨s, by simp [twinLoop, h], Or.inl ⟨rfl, by simp⟩⟩
  | cons w l ih =>
    obtain ⟨f, rfl⟩ : ∃ f, fuel = f + 1 := ⟨fuel - 1, by simp at hf; omega⟩
    have h1 : get m.sib x = some w := h.1
    have h2 : w ≠ s := fun e => hs (by rw [← e]; exact List.mem_cons_self)
    obtain ⟨u', hu'⟩ := hv w (by simp)
    simp only [List.length_cons] at hf
    by_cases hc : u = u'
    · subst hc
      obtain ⟨t, h3, h4⟩ := ih h.2 (fun hm => hs (List.mem_cons_of_mem _ hm)) (fuel := f) (by omega) hu' (fun y hy => hv y (List.mem_cons_of_mem _ hy))
      refine ⟨t, ?_, ?_⟩
      · simp [twinLoop, h1, h2, hx, hu', h3]
      · rcases h4 with ⟨h4, h5⟩ | ⟨h4, h5⟩
        · refine Or.inl ⟨h4, fun y hy => ?_⟩
          rcases List.mem_cons.1 hy with rfl | hy
          · exact hu'
          · exact h5 y hy
        · exact Or.inr ⟨List.mem_cons_of_mem _ h4, h5⟩
    · refine ⟨w, by simp [twinLoop, h1, h2, hx, hu', hc], Or.inr ⟨by simp, ?_⟩⟩
      rw [hu']; simp only [ne_eq, Option.some.injEq]; exact fun e => hc e.symm

theorem Valid.twin {m : Mesh} (v : Valid m) {h : Nat} (hh : h < m.nH) :
    ∃ t, heTwin m h = some t ∧ get m.heEdge t = get m.heEdge h ∧
      (t = h ∧ (∀ y, get m.heEdge y = get m.heEdge h → get m.heVertex y = get m.heVertex h) ∨ t ≠ h ∧ get m.heVertex t ≠ get m.heVertex h) := by
  obtain ⟨e, -, he⟩ := v.hasE h hh
  obtain ⟨u, -, hu⟩ := v.hasV h hh
  obtain ⟨l, hc, hn, hm⟩ := v.edges h e he
  have hn' := List.nodup_cons.1 hn
  have hlen : l.length < m.sib.length + 1 := by
    have := length_le_of_nodup hn (chain_lt hc)
    simp only [List.length_cons] at this
    omega
  obtain ⟨t, h1, h2⟩ := twinLoop_spec (m := m) hc hn'.1 hlen hu (fun y hy => by
    have := get_lt ((hm y).1 (List.mem_cons_of_mem _ hy))
    rw [v.sEdge] at this
    obtain ⟨w, -, hw⟩ := v.hasV y this
    exact ⟨w, hw⟩)
  refine ⟨t, h1, ?_, ?_⟩
  · rcases h2 with ⟨rfl, -⟩ | ⟨h2, -⟩
    · rfl
    · rw [he]; exact (hm t).1 (List.mem_cons_of_mem _ h2)
  · rcases h2 with ⟨h2, h3⟩ | ⟨h2, h3⟩
    · refine Or.inl ⟨h2, fun y hy => ?_⟩
      rw [he] at hy
      rcases List.mem_cons.1 ((hm y).2 hy) with rfl | hy
      · rfl
      · rw [h3 y hy, hu]
    · refine Or.inr ⟨?_, by rw [hu]; exact h3⟩
      rintro rfl
      exact hn'.1 h2

end Verif.Surface
