import Verif.Cut.Augment
/-!
# Looking for new parents
-/
namespace Verif.Cut

variable {K : Type} [AddCommGroup K] [LinearOrder K]

/-- The path from a node stamped in this round leads to the terminal over nodes stamped in this round. -/
def MarkOk (G : Graph) (s : St K) : Prop := ∀ j, s.ts j = s.time → s.par j ≠ .orphan ∧ ∀ a, s.par j = .arc a → s.ts (G.head a) = s.time

/-- Only the stamps and the distances change, and those of the nodes stamped in this round do not. -/
structure StampFrame (s s' : St K) : Prop where
  eq : s' = { s with ts := s'.ts, dist := s'.dist }
  keep : ∀ j, s.ts j = s.time → s'.ts j = s.time ∧ s'.dist j = s.dist j

omit [AddCommGroup K] [LinearOrder K] in
theorem StampFrame.refl (s : St K) : StampFrame s s := ⟨rfl, fun _ h => ⟨h, rfl⟩⟩

omit [AddCommGroup K] [LinearOrder K] in
theorem StampFrame.trans {s t u : St K} (h : StampFrame s t) (k : StampFrame t u) : StampFrame s u := by
  have ht : t.time = s.time := by rw [h.eq]
  refine ⟨?_, fun j hj => ?_⟩
  · rw [k.eq, h.eq]
  · have h1 := h.keep j hj
    have h2 := k.keep j (h1.1.trans ht.symm)
    exact ⟨h2.1.trans ht, h2.2.trans h1.2⟩

/-- The path of parents from `j` to the first node stamped in this round, whose distance is `e` smaller by the length of the path. -/
def MPath (G : Graph) (s : St K) : Nat → List Nat → Nat → Prop
  | j, [], e => s.ts j = s.time ∧ s.dist j = e
  | j, x :: l, e => x = j ∧ s.ts j ≠ s.time ∧ ∃ a e', s.par j = .arc a ∧ e = e' + 1 ∧ MPath G s (G.head a) l e'

omit [AddCommGroup K] [LinearOrder K] in
theorem MPath.mem {G : Graph} {s : St K} : ∀ {l : List Nat} {j e : Nat}, MPath G s j l e → ∀ x ∈ l, s.ts x ≠ s.time ∧ ∃ a, s.par x = .arc a
  | [], _, _, _, x, hx => by simp at hx
  | y :: l, j, e, ⟨h1, h2, a, e', h3, _, h5⟩, x, hx => by
    rcases List.mem_cons.1 hx with rfl | hx
    · subst h1; exact ⟨h2, a, h3⟩
    · exact h5.mem x hx

omit [AddCommGroup K] [LinearOrder K] in
theorem MPath.congr {G : Graph} {s s' : St K} (hp : s'.par = s.par) (ht : s'.time = s.time) : ∀ {l : List Nat} {j e : Nat}, MPath G s j l e →
    (∀ x, s.ts x = s.time → s'.ts x = s.ts x ∧ s'.dist x = s.dist x) → (∀ x ∈ l, s'.ts x = s.ts x) → MPath G s' j l e
  | [], _, _, ⟨h1, h2⟩, k, _ => ⟨by rw [(k _ h1).1, ht]; exact h1, by rw [(k _ h1).2]; exact h2⟩
  | _ :: _, _, _, ⟨h1, h2, a, e', h3, h4, h5⟩, k, k' =>
    ⟨h1, by rw [ht, ← h1, k' _ (by simp), h1]; exact h2, a, e', by rw [hp]; exact h3, h4, h5.congr hp ht k (fun x hx => k' x (by simp [hx]))⟩

theorem MPath.nodup {G : Graph} {s : St K} (h : TreeOk G s) : ∀ {l : List Nat} {j e : Nat}, MPath G s j l e →
    (∀ x ∈ l, x = j ∨ s.ts j < s.ts x ∨ (s.ts j = s.ts x ∧ s.dist x < s.dist j)) ∧ l.Nodup
  | [], _, _, _ => by simp
  | x :: l, j, e, ⟨h1, _, a, e', h3, _, h5⟩ => by
    subst h1
    obtain ⟨k1, k2⟩ := h5.nodup h
    have hr := h.rank _ _ h3
    have below : ∀ z ∈ l, s.ts x < s.ts z ∨ (s.ts x = s.ts z ∧ s.dist z < s.dist x) := by
      intro z hz
      rcases k1 z hz with rfl | k
      · exact hr
      · omega
    refine ⟨?_, ?_⟩
    · intro z hz
      rcases List.mem_cons.1 hz with rfl | hz
      · exact Or.inl rfl
      · exact Or.inr (below z hz)
    · refine List.nodup_cons.2 ⟨fun k => ?_, k2⟩
      have := below x k
      omega

/-- Stamping the root. -/
theorem stamp_root {G : Graph} {s : St K} (h : TreeOk G s) (hm : MarkOk G s) {j : Nat} (hj : s.ts j ≠ s.time) (hp : s.par j = .term) :
    TreeOk G { s with ts := upd s.ts j s.time, dist := upd s.dist j 1 } ∧ MarkOk G { s with ts := upd s.ts j s.time, dist := upd s.dist j 1 } ∧
      StampFrame s { s with ts := upd s.ts j s.time, dist := upd s.dist j 1 } := by
  refine ⟨⟨h.lt, h.tail, h.up, h.side, ?_, ?_, ?_, ?_⟩, ?_, ⟨rfl, ?_⟩⟩
  · intro c a hc
    have hcj : c ≠ j := by rintro rfl; rw [hp] at hc; cases hc
    simp only []
    rw [upd_ne _ _ hcj, upd_ne _ _ hcj]
    by_cases e : G.head a = j
    · rw [e, upd_same, upd_same]
      left
      rcases Nat.lt_or_eq_of_le (h.tsle c) with k | k
      · exact k
      · exact absurd (e ▸ (hm c k).2 a hc) hj
    · rw [upd_ne _ _ e, upd_ne _ _ e]
      exact h.rank c a hc
  · intro c hc
    obtain ⟨k1, k2, k3⟩ := h.root c hc
    refine ⟨k1, k2, ?_⟩
    simp only [upd]
    split
    · rfl
    · exact k3
  · intro c hc
    simp only [upd]
    split
    · exact le_refl _
    · exact h.dpos c hc
  · intro c
    simp only [upd]
    split
    · exact le_refl _
    · exact h.tsle c
  · intro c hc
    simp only [upd] at hc
    split at hc
    · next e =>
      subst e
      simp only []
      rw [hp]
      exact ⟨by simp, fun a k => by cases k⟩
    · obtain ⟨k1, k2⟩ := hm c hc
      refine ⟨k1, fun a ha => ?_⟩
      simp only [upd]
      split
      · rfl
      · exact k2 a ha
  · intro c hc
    have : c ≠ j := by rintro rfl; exact hj hc
    simp only []
    rw [upd_ne _ _ this, upd_ne _ _ this]
    exact ⟨hc, rfl⟩

theorem origin_spec {G : Graph} : ∀ {f : Nat} {s : St K} {j d0 : Nat} {o : Option Nat} {s' : St K}, TreeOk G s → MarkOk G s → origin G f s j d0 = some (o, s') →
    TreeOk G s' ∧ MarkOk G s' ∧ StampFrame s s' ∧ (∀ x, s'.ts x ≠ s.ts x → s.par x = .term) ∧ ∀ d, o = some d → ∃ l e, MPath G s' j l e ∧ d = d0 + e
  | 0, _, _, _, _, _, _, _, h => by simp [origin] at h
  | f + 1, s, j, d0, o, s', hT, hM, h => by
    unfold origin at h
    split at h
    · next k =>
      simp only [Option.some.injEq, Prod.mk.injEq] at h
      obtain ⟨rfl, rfl⟩ := h
      refine ⟨hT, hM, StampFrame.refl _, fun x hx => absurd rfl hx, ?_⟩
      intro d hd
      injection hd with hd
      exact ⟨[], s.dist j, ⟨k, rfl⟩, hd.symm⟩
    · next k =>
      split at h
      · next hp =>
        simp only [Option.some.injEq, Prod.mk.injEq] at h
        obtain ⟨rfl, rfl⟩ := h
        obtain ⟨h1, h2, h3⟩ := stamp_root hT hM k hp
        refine ⟨h1, h2, h3, ?_, ?_⟩
        · intro x hx
          by_cases e : x = j
          · rw [e]; exact hp
          · exact absurd (upd_ne _ _ e) hx
        · intro d hd
          injection hd with hd
          exact ⟨[], 1, ⟨upd_same _ _ _, upd_same _ _ _⟩, hd.symm⟩
      · simp only [Option.some.injEq, Prod.mk.injEq] at h
        obtain ⟨rfl, rfl⟩ := h
        exact ⟨hT, hM, StampFrame.refl _, fun x hx => absurd rfl hx, fun d hd => by cases hd⟩
      · next a hp =>
        obtain ⟨h1, h2, h3, h4, h5⟩ := origin_spec hT hM h
        refine ⟨h1, h2, h3, h4, ?_⟩
        intro d hd
        obtain ⟨l, e, h6, h7⟩ := h5 d hd
        refine ⟨j :: l, e + 1, ⟨rfl, ?_, a, e, ?_, rfl, h6⟩, by omega⟩
        · have : s'.ts j = s.ts j := by
            by_contra k'
            have := h4 j k'
            rw [hp] at this
            cases this
          rw [this, h3.eq]
          exact k
        · rw [h3.eq]; exact hp
      · exact absurd h (by simp)

theorem mark_eq {G : Graph} : ∀ {f : Nat} {s : St K} {j e : Nat} {l : List Nat} {s' : St K}, MPath G s j l e → l.Nodup → mark G f s j e = some s' →
    s' = { s with ts := s'.ts, dist := s'.dist } ∧ (∀ x, x ∉ l → s'.ts x = s.ts x ∧ s'.dist x = s.dist x) ∧
    (∀ x ∈ l, s'.ts x = s.time ∧ ∀ a, s.par x = .arc a → s'.ts (G.head a) = s.time ∧ s'.dist x = s'.dist (G.head a) + 1) ∧ s'.ts j = s.time ∧ s'.dist j = e
  | 0, _, _, _, _, _, _, _, h => by simp [mark] at h
  | f + 1, s, j, e, [], s', ⟨h1, h2⟩, _, h => by
    simp only [mark, if_pos h1, Option.some.injEq] at h
    subst h
    exact ⟨rfl, fun x _ => ⟨rfl, rfl⟩, by simp, h1, h2⟩
  | f + 1, s, j, e, x :: l, s', ⟨h1, h2, a, e', h3, h4, h5⟩, hn, h => by
    subst h1
    rw [List.nodup_cons] at hn
    simp only [mark, if_neg h2, h3] at h
    have he : e - 1 = e' := by omega
    rw [he] at h
    have P : MPath G { s with ts := upd s.ts x s.time, dist := upd s.dist x e } (G.head a) l e' := by
      refine h5.congr (s := s) (s' := { s with ts := upd s.ts x s.time, dist := upd s.dist x e }) rfl rfl ?_ ?_
      · intro z hz
        have : z ≠ x := by rintro rfl; exact h2 hz
        exact ⟨upd_ne _ _ this, upd_ne _ _ this⟩
      · intro z hz
        have : z ≠ x := by rintro rfl; exact hn.1 hz
        exact upd_ne _ _ this
    obtain ⟨k1, k2, k3, k4, k5⟩ := mark_eq P hn.2 h
    have kx := k2 x hn.1
    simp only [upd_same] at kx
    refine ⟨by rw [k1], ?_, ?_, kx.1, kx.2⟩
    · intro z hz
      rw [List.mem_cons, not_or] at hz
      have := k2 z hz.2
      simp only [] at this
      rw [upd_ne _ _ hz.1, upd_ne _ _ hz.1] at this
      exact this
    · intro z hz
      rcases List.mem_cons.1 hz with rfl | hz
      · refine ⟨kx.1, fun c hc => ?_⟩
        rw [h3] at hc
        injection hc with hc
        subst hc
        exact ⟨k4, by rw [kx.2, k5]; exact h4⟩
      · exact k3 z hz

theorem mark_spec {G : Graph} {f : Nat} {s : St K} {j e : Nat} {l : List Nat} {s' : St K} (hT : TreeOk G s) (hM : MarkOk G s) (hP : MPath G s j l e)
    (h : mark G f s j e = some s') : TreeOk G s' ∧ MarkOk G s' ∧ StampFrame s s' ∧ s'.ts j = s.time ∧ s'.dist j = e := by
  obtain ⟨k1, k2, k3, k4, k5⟩ := mark_eq hP (hP.nodup hT).2 h
  have hmem := hP.mem
  have epar : s'.par = s.par := by rw [k1]
  have etime : s'.time = s.time := by rw [k1]
  have etr : s'.tr = s.tr := by rw [k1]
  have esink : s'.sink = s.sink := by rw [k1]
  refine ⟨⟨?_, ?_, ?_, ?_, ?_, ?_, ?_, ?_⟩, ?_, ⟨k1, ?_⟩, k4, k5⟩
  · rw [epar]; exact hT.lt
  · rw [epar]; exact hT.tail
  · rw [epar]; exact hT.up
  · rw [epar, esink]; exact hT.side
  · intro c a hc
    rw [epar] at hc
    by_cases hl : c ∈ l
    · obtain ⟨m1, m2⟩ := k3 c hl
      obtain ⟨m3, m4⟩ := m2 a hc
      right
      omega
    · obtain ⟨m1, m2⟩ := k2 c hl
      by_cases hl' : G.head a ∈ l
      · left
        rw [m1, (k3 _ hl').1]
        rcases Nat.lt_or_eq_of_le (hT.tsle c) with k | k
        · exact k
        · exact absurd ((hM c k).2 a hc) (hmem _ hl').1
      · rw [m1, m2, (k2 _ hl').1, (k2 _ hl').2]
        exact hT.rank c a hc
  · intro c hc
    rw [etr] at hc
    obtain ⟨m1, m2, m3⟩ := hT.root c hc
    have : c ∉ l := by
      intro hl
      obtain ⟨a, ha⟩ := (hmem c hl).2
      rw [m1] at ha
      cases ha
    rw [epar, esink, (k2 c this).2]
    refine ⟨m1, ?_, m3⟩
    rw [m2]
    exact decide_eq_decide.2 (by rw [etr])
  · intro c hc
    rw [epar] at hc
    by_cases hl : c ∈ l
    · obtain ⟨a, ha⟩ := (hmem c hl).2
      rw [((k3 c hl).2 a ha).2]
      omega
    · rw [(k2 c hl).2]; exact hT.dpos c hc
  · intro c
    rw [etime]
    by_cases hl : c ∈ l
    · rw [(k3 c hl).1]
    · rw [(k2 c hl).1]; exact hT.tsle c
  · intro c hc
    rw [etime] at hc ⊢
    rw [epar]
    by_cases hl : c ∈ l
    · obtain ⟨a, ha⟩ := (hmem c hl).2
      refine ⟨by rw [ha]; simp, fun b hb => ((k3 c hl).2 b hb).1⟩
    · rw [(k2 c hl).1] at hc
      obtain ⟨m1, m2⟩ := hM c hc
      refine ⟨m1, fun a ha => ?_⟩
      by_cases hl' : G.head a ∈ l
      · exact (k3 _ hl').1
      · rw [(k2 _ hl').1]; exact m2 a ha
  · intro c hc
    have : c ∉ l := fun hl => (hmem c hl).1 hc
    rw [(k2 c this).1, (k2 c this).2]
    exact ⟨hc, rfl⟩

/-- What is known of the best parent so far. -/
def BestOk (G : Graph) (i : Nat) (b : Bool) (s : St K) (best : Option (Nat × Nat)) : Prop := ∀ a d, best = some (a, d) →
  a ∈ G.adj i ∧ into G s b a ≠ 0 ∧ s.ts (G.head a) = s.time ∧ s.dist (G.head a) = d ∧ s.sink (G.head a) = b ∧ s.par (G.head a) ≠ .free

omit [LinearOrder K] in
theorem BestOk.frame {G : Graph} {i : Nat} {b : Bool} {s s' : St K} {best : Option (Nat × Nat)} (h : BestOk G i b s best) (k : StampFrame s s') : BestOk G i b s' best := by
  intro a d e
  obtain ⟨h1, h0, h2, h3, h4, h5⟩ := h a d e
  have ht : s'.time = s.time := by rw [k.eq]
  have hk := k.keep _ h2
  refine ⟨h1, by unfold into at h0 ⊢; rw [k.eq]; exact h0, by rw [ht]; exact hk.1, hk.2.trans h3, ?_, ?_⟩
  · rw [k.eq]; exact h4
  · rw [k.eq]; exact h5

theorem scanParent_spec {G : Graph} {fuel i : Nat} {b : Bool} : ∀ {l : List Nat} {s : St K} {best : Option (Nat × Nat)} {s' : St K} {best' : Option (Nat × Nat)},
    TreeOk G s → MarkOk G s → BestOk G i b s best → (∀ a ∈ l, a ∈ G.adj i) → scanParent G fuel b l s best = some (s', best') →
    TreeOk G s' ∧ MarkOk G s' ∧ StampFrame s s' ∧ BestOk G i b s' best'
  | [], s, best, s', best', hT, hM, hB, _, h => by
    simp only [scanParent, Option.some.injEq, Prod.mk.injEq] at h
    obtain ⟨rfl, rfl⟩ := h
    exact ⟨hT, hM, StampFrame.refl _, hB⟩
  | a :: l, s, best, s', best', hT, hM, hB, hl, h => by
    have ha := hl a (by simp)
    have hl' : ∀ a ∈ l, a ∈ G.adj i := fun a k => hl a (by simp [k])
    unfold scanParent at h
    split at h
    · exact scanParent_spec hT hM hB hl' h
    next hcap =>
    split at h
    · exact scanParent_spec hT hM hB hl' h
    next k =>
    simp only [not_or, ne_eq, not_not] at k
    split at h
    · exact absurd h (by simp)
    · next s1 ho =>
      obtain ⟨o1, o2, o3, _, _⟩ := origin_spec hT hM ho
      obtain ⟨r1, r2, r3, r4⟩ := scanParent_spec o1 o2 (hB.frame o3) hl' h
      exact ⟨r1, r2, o3.trans r3, r4⟩
    · next d s1 ho =>
      obtain ⟨o1, o2, o3, _, o5⟩ := origin_spec hT hM ho
      obtain ⟨p, e, o6, o7⟩ := o5 d rfl
      rw [Nat.zero_add] at o7
      subst o7
      split at h
      · exact absurd h (by simp)
      next s2 hm =>
      obtain ⟨m1, m2, m3, m4, m5⟩ := mark_spec o1 o2 o6 hm
      have F := o3.trans m3
      have B2 : BestOk G i b s2 (better best a d) := by
        have old := hB.frame F
        have new : BestOk G i b s2 (some (a, d)) := by
          intro a' d' e
          simp only [Option.some.injEq, Prod.mk.injEq] at e
          obtain ⟨rfl, rfl⟩ := e
          have t : s2.time = s1.time := by rw [m3.eq]
          refine ⟨ha, by unfold into at hcap ⊢; rw [F.eq]; exact hcap, m4.trans t.symm, m5, ?_, ?_⟩
          · rw [F.eq]; exact k.1
          · rw [F.eq]; exact k.2
        unfold better
        split
        · exact new
        · split
          · exact new
          · exact old
      obtain ⟨r1, r2, r3, r4⟩ := scanParent_spec m1 m2 B2 hl' h
      exact ⟨r1, r2, F.trans r3, r4⟩

/-- What `dropChildren` does. -/
structure DropSpec (G : Graph) (b : Bool) (i : Nat) (l : List Nat) (rest : List Nat) (s s' : St K) (q' : List Nat) : Prop where
  eq : s' = { s with par := s'.par, q1 := s'.q1 }
  par : ∀ x, s'.par x = s.par x ∨ (s'.par x = .orphan ∧ ∃ a, s.par x = .arc a ∧ G.head a = i)
  gone : ∀ a0 ∈ l, s.sink (G.head a0) = b → ∀ a, s'.par (G.head a0) = .arc a → G.head a ≠ i
  mono : ∀ x, s.flagged x → s'.flagged x
  act : ∀ a0 ∈ l, s.sink (G.head a0) = b → s'.par (G.head a0) ≠ .free → into G s b a0 ≠ 0 → s'.flagged (G.head a0)
  orph : Orph s' (q' ++ rest)

omit [LinearOrder K] in
theorem into_par (G : Graph) (s : St K) (b : Bool) (a : Nat) (p : Nat → Par) (q : List Nat) : into G { s with par := p, q1 := q } b a = into G s b a := by cases b <;> rfl

theorem dropChildren_spec {G : Graph} {b : Bool} {i : Nat} {rest : List Nat} : ∀ (l : List Nat) (s : St K) (q : List Nat), Orph s (q ++ rest) →
    DropSpec G b i l rest s (dropChildren G b i l s q).1 (dropChildren G b i l s q).2
  | [], s, q, h => ⟨rfl, fun _ => Or.inl rfl, by simp, fun _ k => k, by simp, h⟩
  | a0 :: l, s, q, h => by
    -- one step followed by the rest of the list
    have comb : ∀ (t : St K) (p : List Nat), t = { s with par := t.par, q1 := t.q1 } → (∀ x, t.par x = s.par x ∨ (t.par x = .orphan ∧ ∃ a, s.par x = .arc a ∧ G.head a = i)) →
        (s.sink (G.head a0) = b → ∀ a, t.par (G.head a0) = .arc a → G.head a ≠ i) → (∀ x, s.flagged x → t.flagged x) →
        (s.sink (G.head a0) = b → t.par (G.head a0) ≠ .free → into G s b a0 ≠ 0 → t.flagged (G.head a0)) → Orph t (p ++ rest) →
        DropSpec G b i (a0 :: l) rest s (dropChildren G b i l t p).1 (dropChildren G b i l t p).2 := by
      intro t p e1 e2 e3 e4 e5 e6
      obtain ⟨d1, d2, d3, d4, d5, d6⟩ := dropChildren_spec l t p e6
      have esink : t.sink = s.sink := by rw [e1]
      have einto : ∀ c, into G t b c = into G s b c := fun c => by rw [e1]; exact into_par _ _ _ _ _ _
      refine ⟨?_, ?_, ?_, fun x hx => d4 x (e4 x hx), ?_, d6⟩
      · rw [d1, e1]
      · intro x
        rcases d2 x with k | ⟨k, a, k1, k2⟩
        · rcases e2 x with k' | ⟨k', a, k1, k2⟩
          · exact Or.inl (k.trans k')
          · exact Or.inr ⟨k.trans k', a, k1, k2⟩
        · rcases e2 x with k' | ⟨k', _⟩
          · exact Or.inr ⟨k, a, k' ▸ k1, k2⟩
          · rw [k'] at k1; cases k1
      · intro c hc hs a ha
        rcases List.mem_cons.1 hc with rfl | hc
        · rcases d2 (G.head c) with k | ⟨k, _⟩
          · exact e3 hs a (k ▸ ha)
          · rw [k] at ha; cases ha
        · exact d3 c hc (by rw [esink]; exact hs) a ha
      · intro c hc hs hp hi
        rcases List.mem_cons.1 hc with rfl | hc
        · refine d4 _ (e5 hs ?_ hi)
          rcases d2 (G.head c) with k | ⟨_, a, k, _⟩
          · rw [← k]; exact hp
          · rw [k]; simp
        · exact d5 c hc (by rw [esink]; exact hs) hp (by rw [einto]; exact hi)
    unfold dropChildren
    simp only []
    split
    · next k =>
      have A : ∃ qq, activateIf s (into G s b a0 ≠ 0) (G.head a0) = { s with q1 := qq } ∧ (∀ x, s.flagged x → St.flagged { s with q1 := qq } x) ∧
          (into G s b a0 ≠ 0 → St.flagged { s with q1 := qq } (G.head a0)) := by
        unfold activateIf
        split
        · obtain ⟨qq, e⟩ := setActive_eq s (G.head a0)
          refine ⟨qq, e, fun x hx => ?_, fun _ => ?_⟩
          · rw [← e]; exact setActive_mono hx
          · rw [← e]; exact setActive_flagged _ _
        · next k' => exact ⟨s.q1, rfl, fun _ h => h, fun k => absurd k k'⟩
      obtain ⟨qq, e, f1, f2⟩ := A
      rw [e]
      split
      · next a ha =>
        split
        · next hi =>
          refine comb _ _ rfl ?_ ?_ f1 (fun _ _ k => f2 k) ?_
          · intro x
            simp only [upd]
            split
            · next ex => rw [ex]; exact Or.inr ⟨rfl, a, ha, hi⟩
            · exact Or.inl rfl
          · intro _ c hc
            simp only [upd_same] at hc
            cases hc
          · have hno : s.par (G.head a0) ≠ .orphan := by rw [ha]; simp
            have hnot : G.head a0 ∉ q ++ rest := fun k => hno ((h.2 _).2 k)
            rw [List.mem_append, not_or] at hnot
            refine ⟨?_, fun x => ?_⟩
            · rw [List.append_assoc, List.singleton_append]
              refine List.nodup_middle.2 (List.nodup_cons.2 ⟨?_, h.1⟩)
              rw [List.mem_append, not_or]; exact hnot
            · simp only [upd]
              split
              · next ex => simp [ex]
              · next ex =>
                rw [h.2 x]
                simp [ex]
        · next hi =>
          refine comb _ _ rfl (fun _ => Or.inl rfl) ?_ f1 (fun _ _ k => f2 k) ⟨h.1, h.2⟩
          intro _ c hc
          have hc : s.par (G.head a0) = .arc c := hc
          rw [ha] at hc
          injection hc with hc
          rw [← hc]; exact hi
      · next ha =>
        refine comb _ _ rfl (fun _ => Or.inl rfl) ?_ f1 (fun _ _ k => f2 k) ⟨h.1, h.2⟩
        intro _ c hc
        exact absurd hc (ha c)
    · next k =>
      refine comb _ _ rfl (fun _ => Or.inl rfl) ?_ (fun _ h => h) ?_ h
      · intro hs c hc _
        exact k ⟨hs, by rw [hc]; simp⟩
      · intro hs hp _
        exact absurd ⟨hs, hp⟩ k

variable [IsOrderedAddMonoid K]

/-- The state while new parents are looked for: `L` holds the orphans. -/
structure OrphInv (G : Graph) (c0 t0 : Nat → K) (f0 : K) (s : St K) (L : List Nat) : Prop where
  tree : TreeOk G s
  pass : Pass G s s.flagged
  flow : FlowOk G c0 t0 f0 s (fun _ => 0) 0
  orph : Orph s L
  marks : MarkOk G s
  live : Live G s

omit [IsOrderedAddMonoid K] in
theorem processOrphan_spec {G : Graph} (hG : GOk G) {c0 t0 : Nat → K} {f0 : K} {fuel : Nat} {s : St K} {i : Nat} {q rest : List Nat} {s' : St K} {q' : List Nat}
    (h : OrphInv G c0 t0 f0 s (i :: q ++ rest)) (hp : processOrphan G fuel s i q = some (s', q')) : OrphInv G c0 t0 f0 s' (q' ++ rest) ∧ s'.cur = s.cur := by
  unfold processOrphan at hp
  simp only [] at hp
  have hi : s.par i = .orphan := (h.orph.2 i).2 (by simp)
  have hnd : i ∉ q ++ rest ∧ (q ++ rest).Nodup := by
    have := h.orph.1
    rw [List.cons_append, List.nodup_cons] at this
    exact this
  split at hp
  · exact absurd hp (by simp)
  · -- a parent was found
    next s1 a d hs =>
    obtain ⟨T, M, F, B⟩ := scanParent_spec h.tree h.marks (fun a d k => by simp at k) (fun _ k => k) hs
    obtain ⟨b1, b0, b2, b3, b4, b5⟩ := B a d rfl
    simp only [Option.some.injEq, Prod.mk.injEq] at hp
    obtain ⟨rfl, rfl⟩ := hp
    have epar : s1.par = s.par := by rw [F.eq]
    have esink : s1.sink = s.sink := by rw [F.eq]
    have etr : s1.tr = s.tr := by rw [F.eq]
    have er : s1.rcap = s.rcap := by rw [F.eq]
    have hi1 : s1.par i = .orphan := by rw [epar]; exact hi
    have tsi : s1.ts i ≠ s1.time := fun k => (M i k).1 hi1
    have hne : G.head a ≠ i := by rintro e; rw [e] at b2; exact tsi b2
    obtain ⟨alt, atl⟩ := hG.adj_mem i a b1
    refine ⟨⟨⟨?_, ?_, ?_, ?_, ?_, ?_, ?_, ?_⟩, ?_, ?_, ?_, ?_, ⟨?_, ?_⟩⟩, by simp only []; rw [F.eq]⟩
    · intro c e hc
      simp only [upd] at hc
      split at hc
      · injection hc with hc; rw [← hc]; exact alt
      · exact T.lt c e hc
    · intro c e hc
      simp only [upd] at hc
      split at hc
      · next k => injection hc with hc; rw [← hc, k]; exact atl
      · exact T.tail c e hc
    · intro c e hc
      simp only [upd] at hc ⊢
      split
      · simp
      · next k' =>
        split at hc
        · injection hc with hc; rw [← hc]; exact b5
        · exact T.up c e hc
    · intro c e hc
      simp only [upd] at hc
      split at hc
      · next k => injection hc with hc; rw [← hc, k]; simp only []; rw [b4, esink]
      · exact T.side c e hc
    · intro c e hc
      simp only [upd] at hc
      split at hc
      · next k =>
        injection hc with hc
        subst hc
        subst k
        simp only []
        rw [upd_same, upd_same, upd_ne _ _ hne, upd_ne _ _ hne, b3]
        right
        exact ⟨b2.symm, Nat.lt_succ_self _⟩
      · next k =>
        simp only []
        rw [upd_ne _ _ k, upd_ne _ _ k]
        by_cases k' : G.head e = i
        · rw [k', upd_same]
          left
          rcases Nat.lt_or_eq_of_le (T.tsle c) with z | z
          · exact z
          · exact absurd (k' ▸ (M c z).2 e hc) tsi
        · rw [upd_ne _ _ k', upd_ne _ _ k']
          exact T.rank c e hc
    · intro c hc
      obtain ⟨k1, k2, k3⟩ := T.root c hc
      have : c ≠ i := by rintro rfl; rw [hi1] at k1; cases k1
      simp only []
      rw [upd_ne _ _ this, upd_ne _ _ this]
      exact ⟨k1, k2, k3⟩
    · intro c hc
      simp only [upd] at hc ⊢
      split
      · omega
      · next k => rw [if_neg k] at hc; exact T.dpos c hc
    · intro c
      simp only [upd]
      split
      · exact le_refl _
      · exact T.tsle c
    · have e : ∀ j, upd s1.par i (.arc a) j ≠ .free ↔ s.par j ≠ .free := by
        intro j
        simp only [upd]
        split
        · next k => rw [k, hi]; simp
        · rw [epar]
      intro c hc h1 h2 h3
      simp only [] at h1 h3 ⊢
      rw [e] at h1 ⊢
      rw [esink] at h3 ⊢
      refine h.pass c hc h1 (fun k => h2 ?_) ?_
      · simp only [St.flagged] at k ⊢
        rw [F.eq]; exact k
      · intro k
        apply h3
        rw [← k]
        unfold outc
        simp only []
        rw [er]
    · refine h.flow.congr ⟨er, etr, ?_⟩
      simp only []
      rw [F.eq]
    · refine ⟨hnd.2, fun j => ?_⟩
      simp only [upd]
      split
      · next k => rw [k]; simp only [reduceCtorEq, false_iff]; exact hnd.1
      · next k =>
        rw [epar, h.orph.2 j, List.cons_append, List.mem_cons]
        simp [k]
    · intro c hc
      simp only [upd] at hc ⊢
      split
      · refine ⟨by simp, fun e he => ?_⟩
        injection he with he
        rw [← he, if_neg hne]
        exact b2
      · next k =>
        rw [if_neg k] at hc
        refine ⟨(M c hc).1, fun e he => ?_⟩
        split
        · rfl
        · exact (M c hc).2 e he
    · intro c e hc
      simp only [upd] at hc
      split at hc
      · next k =>
        injection hc with hc
        rw [← hc, k]
        unfold into at b0 ⊢
        simp only []
        rw [esink]; exact b0
      · have := h.live.arc c e (by rw [← epar]; exact hc)
        unfold into at this ⊢
        simp only []
        rw [esink, er]; exact this
    · intro c hc hp'
      simp only [upd] at hp'
      split at hp'
      · cases hp'
      · simp only []
        rw [etr]
        exact h.live.term c hc (by rw [← epar]; exact hp')
  · -- no parent: the node leaves the tree
    next s1 hs =>
    obtain ⟨T, M, F, -⟩ := scanParent_spec h.tree h.marks (fun a d k => by simp at k) (fun _ k => k) hs
    have epar : s1.par = s.par := by rw [F.eq]
    have esink : s1.sink = s.sink := by rw [F.eq]
    have etr : s1.tr = s.tr := by rw [F.eq]
    have er : s1.rcap = s.rcap := by rw [F.eq]
    have hi1 : s1.par i = .orphan := by rw [epar]; exact hi
    have tsi : s1.ts i ≠ s1.time := fun k => (M i k).1 hi1
    have O : Orph { s1 with par := upd s1.par i .free } (q ++ rest) := by
      refine ⟨hnd.2, fun j => ?_⟩
      simp only [upd]
      split
      · next k => rw [k]; simp only [reduceCtorEq, false_iff]; exact hnd.1
      · next k =>
        rw [epar, h.orph.2 j, List.cons_append, List.mem_cons]
        simp [k]
    have D := dropChildren_spec (G := G) (b := s.sink i) (i := i) (G.adj i) _ q O
    simp only [Option.some.injEq] at hp
    rw [hp] at D
    simp only [] at D
    obtain ⟨d1, d2, d3, d4, d5, d6⟩ := D
    have d2' : ∀ x, s'.par x = upd s1.par i .free x ∨ (s'.par x = .orphan ∧ ∃ a, s1.par x = .arc a ∧ G.head a = i) := by
      intro x
      rcases d2 x with k | ⟨k, a, k1, k2⟩
      · exact Or.inl k
      · refine Or.inr ⟨k, a, ?_, k2⟩
        simp only [upd] at k1
        split at k1
        · cases k1
        · exact k1
    have old : ∀ {x a}, s'.par x = .arc a → s1.par x = .arc a := by
      intro x a hx
      rcases d2' x with k | ⟨k, _⟩
      · rw [hx] at k
        simp only [upd] at k
        split at k
        · cases k
        · exact k.symm
      · rw [hx] at k; cases k
    have nf : ∀ {x}, s'.par x ≠ .free → s1.par x ≠ .free ∧ x ≠ i := by
      intro x hx
      rcases d2' x with k | ⟨k, a, k1, k2⟩
      · rw [k] at hx
        simp only [upd] at hx
        split at hx
        · exact absurd rfl hx
        · next e => exact ⟨hx, e⟩
      · refine ⟨by rw [k1]; simp, ?_⟩
        rintro rfl
        rw [hi1] at k1
        cases k1
    have fn : ∀ {x}, s1.par x ≠ .free → x ≠ i → s'.par x ≠ .free := by
      intro x hx e
      rcases d2' x with k | ⟨k, _⟩
      · rw [k, upd_ne _ _ e]; exact hx
      · rw [k]; simp
    have e1 : s'.ts = s1.ts ∧ s'.dist = s1.dist ∧ s'.time = s1.time ∧ s'.sink = s1.sink ∧ s'.tr = s1.tr ∧ s'.rcap = s1.rcap ∧ s'.flow = s1.flow ∧ s'.cur = s1.cur := by
      rw [d1]; exact ⟨rfl, rfl, rfl, rfl, rfl, rfl, rfl, rfl⟩
    obtain ⟨z1, z2, z3, z4, z5, z6, z7, z8⟩ := e1
    refine ⟨⟨⟨?_, ?_, ?_, ?_, ?_, ?_, ?_, ?_⟩, ?_, ?_, d6, ?_, ⟨?_, ?_⟩⟩, by rw [z8, F.eq]⟩
    · exact fun c a hc => T.lt c a (old hc)
    · exact fun c a hc => T.tail c a (old hc)
    · intro c a hc
      have hc1 := old hc
      refine fn (T.up c a hc1) ?_
      intro e
      have hlt := T.lt c a hc1
      have htl := T.tail c a hc1
      have hm : G.sister a ∈ G.adj i := by
        have := hG.mem_adj (G.sister a) (hG.sis_lt a hlt)
        rw [hG.sis_sis a hlt, e] at this
        exact this
      have hh : G.head (G.sister a) = c := htl
      refine d3 _ hm ?_ a (by rw [hh]; exact hc) e
      simp only []
      rw [hh, ← T.side c a hc1, e, esink]
    · intro c a hc; rw [z4]; exact T.side c a (old hc)
    · intro c a hc; rw [z1, z2]; exact T.rank c a (old hc)
    · intro c hc
      rw [z5] at hc
      obtain ⟨k1, k2, k3⟩ := T.root c hc
      refine ⟨?_, ?_, by rw [z2]; exact k3⟩
      · have : c ≠ i := by rintro rfl; rw [hi1] at k1; cases k1
        rcases d2' c with k | ⟨_, a, k, _⟩
        · rw [k, upd_ne _ _ this]; exact k1
        · rw [k1] at k; cases k
      · rw [z4, k2]
        exact decide_eq_decide.2 (by rw [z5])
    · intro c hc; rw [z2]; exact T.dpos c (nf hc).1
    · intro c; rw [z1, z3]; exact T.tsle c
    · intro c hc h1 h2 h3
      obtain ⟨h1', h1''⟩ := nf h1
      have hfl : ¬ s.flagged (G.tail c) := by
        intro k
        refine h2 (d4 _ ?_)
        simp only [St.flagged] at k ⊢
        rw [F.eq]; exact k
      have ho : outc G s' (s'.sink (G.tail c)) c = outc G s (s.sink (G.tail c)) c := by
        rw [z4, esink]; unfold outc; rw [z6, er]
      rw [ho] at h3
      obtain ⟨p1, p2⟩ := h.pass c hc (by rw [← epar]; exact h1') hfl h3
      refine ⟨fn (by rw [epar]; exact p1) ?_, by rw [z4, esink]; exact p2⟩
      intro e
      -- the node is active again
      have hm : G.sister c ∈ G.adj i := by
        have := hG.mem_adj (G.sister c) (hG.sis_lt c hc)
        rw [hG.sis_sis c hc, e] at this
        exact this
      rw [e] at p2
      refine h2 (d5 _ hm ?_ h1 ?_)
      · simp only []; rw [esink]; exact p2.symm
      · intro k
        apply h3
        rw [← k, ← p2]
        unfold outc into
        simp only []
        rw [er, hG.sis_sis c hc]
    · exact h.flow.congr ⟨z6.trans er, z5.trans etr, by rw [z7, F.eq]⟩
    · intro c hc
      rw [z1, z3] at hc
      refine ⟨?_, fun a ha => ?_⟩
      · rcases d2' c with k | ⟨_, a, k1, k2⟩
        · rw [k]
          simp only [upd]
          split
          · simp
          · exact (M c hc).1
        · exact absurd (k2 ▸ (M c hc).2 a k1) tsi
      · rw [z1, z3]; exact (M c hc).2 a (old ha)
    · intro c a hc
      have := h.live.arc c a (by rw [← epar]; exact old hc)
      unfold into at this ⊢
      rw [z4, z6, esink, er]; exact this
    · intro c hc hp'
      rw [z5, etr]
      apply h.live.term c hc
      rcases d2' c with k | ⟨k, _⟩
      · rw [hp'] at k
        simp only [upd] at k
        split at k
        · cases k
        · rw [← epar]; exact k.symm
      · rw [hp'] at k; cases k

omit [IsOrderedAddMonoid K] in
theorem adoptQueue_spec {G : Graph} (hG : GOk G) {c0 t0 : Nat → K} {f0 : K} {fuel : Nat} {rest : List Nat} : ∀ {n : Nat} {s : St K} {q : List Nat} {s' : St K},
    OrphInv G c0 t0 f0 s (q ++ rest) → adoptQueue G fuel n s q = some s' → OrphInv G c0 t0 f0 s' rest ∧ s'.cur = s.cur
  | _, s, [], s', h, k => by
    unfold adoptQueue at k
    simp only [Option.some.injEq] at k
    subst k
    exact ⟨h, rfl⟩
  | 0, _, _ :: _, _, _, k => by simp [adoptQueue] at k
  | n + 1, s, i :: q, s', h, k => by
    simp only [adoptQueue] at k
    split at k
    · exact absurd k (by simp)
    · next s1 q1 hp =>
      obtain ⟨h1, h2⟩ := processOrphan_spec hG h hp
      obtain ⟨h3, h4⟩ := adoptQueue_spec hG h1 k
      exact ⟨h3, h4.trans h2⟩

omit [IsOrderedAddMonoid K] in
theorem adopt_spec {G : Graph} (hG : GOk G) {c0 t0 : Nat → K} {f0 : K} {fuel : Nat} : ∀ {q : List Nat} {s s' : St K},
    OrphInv G c0 t0 f0 s q → adopt G fuel s q = some s' → OrphInv G c0 t0 f0 s' [] ∧ s'.cur = s.cur
  | [], s, s', h, k => by
    simp only [adopt, Option.some.injEq] at k
    subst k
    exact ⟨h, rfl⟩
  | i :: q, s, s', h, k => by
    simp only [adopt] at k
    split at k
    · exact absurd k (by simp)
    · next s1 hp =>
      obtain ⟨h1, h2⟩ := adoptQueue_spec (q := [i]) hG h hp
      obtain ⟨h3, h4⟩ := adopt_spec hG h1 k
      exact ⟨h3, h4.trans h2⟩

end Verif.Cut
