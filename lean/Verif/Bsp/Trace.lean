import Verif.Bsp.Outline
/-!
# Tracing closed curves
-/
namespace Verif.Bsp

/-- What is known about the choice of the next half-edge: there is a bijection `P` that leads from each half-edge to one that leaves its end; if exactly one half-edge that leaves the
end has not been visited it is taken, otherwise `P` decides. -/
structure Paired (hs : List HE) (next : List HE → HE → Option HE) (P : HE → HE) : Prop where
  nodup : hs.Nodup
  mem : ∀ h ∈ hs, P h ∈ hs ∧ (P h).tail = h.tip
  inj : ∀ h ∈ hs, ∀ k ∈ hs, P h = P k → h = k
  next : ∀ vis, ∀ h ∈ hs, (∃ k, (outsAt hs h.tip).filter (fun k => k ∉ vis) = [k] ∧ next vis h = some k) ∨
    ((∀ k, (outsAt hs h.tip).filter (fun k => k ∉ vis) ≠ [k]) ∧ next vis h = some (P h))

/-- All half-edges that leave the vertex have been visited. -/
def AllVis (hs vis : List HE) (v : Nat) : Prop := ∀ y ∈ hs, y.tail = v → y ∈ vis

/-- Between two curves. -/
structure Rest (hs : List HE) (P : HE → HE) (vis : List HE) : Prop where
  sub : ∀ x ∈ vis, x ∈ hs
  nodup : vis.Nodup
  bal : ∀ v, vis.countP (fun x => x.tail = v) = vis.countP (fun x => x.tip = v)
  pair : ∀ v, AllVis hs vis v ∨ ∀ x ∈ hs, x.tip = v → (x ∈ vis ↔ P x ∈ vis)

/-- On a curve that began with `s` and has come to `h`. -/
structure Walk (hs : List HE) (P : HE → HE) (s h : HE) (vis : List HE) : Prop where
  sub : ∀ x ∈ vis, x ∈ hs
  nodup : vis.Nodup
  last : h ∈ vis
  bal : ∀ v, vis.countP (fun x => x.tail = v) + (if h.tip = v then 1 else 0) = vis.countP (fun x => x.tip = v) + (if s.tail = v then 1 else 0)
  pair : ∀ v, AllVis hs vis v ∨ ((∀ x ∈ hs, x.tip = v → x ≠ h → x ∈ vis → P x ∈ vis) ∧ ∀ x ∈ hs, x.tip = v → P x ∈ vis → P x = s ∨ (x ∈ vis ∧ x ≠ h))

theorem Rest.start {hs : List HE} {P : HE → HE} {vis : List HE} (h : Rest hs P vis) {s : HE} (hs1 : s ∈ hs) (hs2 : s ∉ vis) : Walk hs P s s (s :: vis) := by
  refine ⟨?_, List.nodup_cons.2 ⟨hs2, h.nodup⟩, by simp, fun v => ?_, fun v => ?_⟩
  · intro x hx
    rcases List.mem_cons.1 hx with rfl | hx
    · exact hs1
    · exact h.sub x hx
  · rw [List.countP_cons, List.countP_cons, h.bal v]
    simp only [decide_eq_true_eq]
    omega
  · rcases h.pair v with ha | hp
    · exact Or.inl fun y hy hv => List.mem_cons_of_mem _ (ha y hy hv)
    · refine Or.inr ⟨fun x hx hv hne hx' => ?_, fun x hx hv hx' => ?_⟩
      · rcases List.mem_cons.1 hx' with e | hx'
        · exact absurd e hne
        · exact List.mem_cons_of_mem _ ((hp x hx hv).1 hx')
      · rcases List.mem_cons.1 hx' with e | hx'
        · exact Or.inl e
        · have := (hp x hx hv).2 hx'
          exact Or.inr ⟨List.mem_cons_of_mem _ this, fun e => hs2 (e ▸ this)⟩

theorem Walk.step {hs : List HE} {next : List HE → HE → Option HE} {P : HE → HE} (hp : Paired hs next P) {s h k : HE} {vis : List HE} (w : Walk hs P s h vis) (hk : next vis h = some k) (hkv : k ∉ vis) :
    Walk hs P s k (k :: vis) ∧ k.tail = h.tip := by
  have hh := w.sub h w.last
  have hkm : k ∈ hs ∧ k.tail = h.tip := by
    rcases hp.next vis h hh with ⟨k', e, e'⟩ | ⟨-, e'⟩
    · rw [hk] at e'; cases e'
      have := List.mem_of_mem_filter (e ▸ List.mem_singleton_self k : k ∈ _)
      exact ⟨List.mem_of_mem_filter this, by simpa using List.of_mem_filter this⟩
    · rw [hk] at e'; cases e'
      exact hp.mem h hh
  refine ⟨⟨?_, List.nodup_cons.2 ⟨hkv, w.nodup⟩, by simp, fun v => ?_, fun v => ?_⟩, hkm.2⟩
  · intro x hx
    rcases List.mem_cons.1 hx with rfl | hx
    · exact hkm.1
    · exact w.sub x hx
  · have := w.bal v
    rw [List.countP_cons, List.countP_cons]
    simp only [decide_eq_true_eq, hkm.2]
    omega
  · by_cases hv : v = h.tip
    · subst hv
      rcases hp.next vis h hh with ⟨k', e, e'⟩ | ⟨-, e'⟩
      · rw [hk] at e'; cases e'
        refine Or.inl fun y hy hyv => ?_
        by_cases hyv' : y ∈ vis
        · exact List.mem_cons_of_mem _ hyv'
        · have : y ∈ (outsAt hs h.tip).filter fun k => k ∉ vis := List.mem_filter.2 ⟨List.mem_filter.2 ⟨hy, by simpa using hyv⟩, by simpa using hyv'⟩
          rw [e] at this
          rw [List.mem_singleton.1 this]; simp
      · rw [hk] at e'
        have ek : k = P h := Option.some.inj e'
        rcases w.pair h.tip with ha | ⟨p1, p2⟩
        · exact absurd (ha k hkm.1 hkm.2) hkv
        · refine Or.inr ⟨fun x hx hxv hne hx' => ?_, fun x hx hxv hx' => ?_⟩
          · rcases List.mem_cons.1 hx' with e | hx'
            · exact absurd e hne
            · by_cases hxh : x = h
              · rw [hxh, ← ek]; simp
              · exact List.mem_cons_of_mem _ (p1 x hx hxv hxh hx')
          · rcases List.mem_cons.1 hx' with e | hx'
            · have : x = h := hp.inj x hx h hh (e.trans ek)
              exact Or.inr ⟨List.mem_cons_of_mem _ (this ▸ w.last), fun e2 => hkv (e2 ▸ this ▸ w.last)⟩
            · rcases p2 x hx hxv hx' with e | ⟨e, -⟩
              · exact Or.inl e
              · exact Or.inr ⟨List.mem_cons_of_mem _ e, fun e2 => hkv (e2 ▸ e)⟩
    · rcases w.pair v with ha | ⟨p1, p2⟩
      · exact Or.inl fun y hy hyv => List.mem_cons_of_mem _ (ha y hy hyv)
      · refine Or.inr ⟨fun x hx hxv hne hx' => ?_, fun x hx hxv hx' => ?_⟩
        · rcases List.mem_cons.1 hx' with e | hx'
          · exact absurd e hne
          · exact List.mem_cons_of_mem _ (p1 x hx hxv (fun e => hv (by rw [← hxv, e])) hx')
        · rcases List.mem_cons.1 hx' with e | hx'
          · exact absurd (by rw [← hxv, ← (hp.mem x hx).2, e, hkm.2] : v = h.tip) hv
          · rcases p2 x hx hxv hx' with e | ⟨e, -⟩
            · exact Or.inl e
            · exact Or.inr ⟨List.mem_cons_of_mem _ e, fun e2 => hkv (e2 ▸ e)⟩

/-- As many half-edges arrive at a vertex as leave it. -/
theorem Paired.count {hs : List HE} {next : List HE → HE → Option HE} {P : HE → HE} (hp : Paired hs next P) (v : Nat) : hs.countP (fun x => x.tip = v) ≤ hs.countP (fun x => x.tail = v) := by
  rw [List.countP_eq_length_filter, List.countP_eq_length_filter]
  have h1 : ((hs.filter fun x => x.tip = v).map P).Nodup := by
    refine (List.nodup_map_iff_inj_on (hp.nodup.filter _)).2 fun x hx y hy e => ?_
    exact hp.inj x (List.mem_of_mem_filter hx) y (List.mem_of_mem_filter hy) e
  have h2 : ((hs.filter fun x => x.tip = v).map P) ⊆ hs.filter fun x => x.tail = v := by
    intro y hy
    obtain ⟨x, hx, rfl⟩ := List.mem_map.1 hy
    have hm := hp.mem x (List.mem_of_mem_filter hx)
    exact List.mem_filter.2 ⟨hm.1, by rw [hm.2]; exact (List.mem_filter.1 hx).2⟩
  have := (h1.subperm h2).length_le
  rwa [List.length_map] at this

theorem Walk.stop {hs : List HE} {next : List HE → HE → Option HE} {P : HE → HE} (hp : Paired hs next P) {s h k : HE} {vis : List HE} (w : Walk hs P s h vis) (hk : next vis h = some k) (hkv : k ∈ vis) :
    Rest hs P vis ∧ h.tip = s.tail := by
  have hh := w.sub h w.last
  have hkP : k = P h := by
    rcases hp.next vis h hh with ⟨k', e, e'⟩ | ⟨-, e'⟩
    · rw [hk] at e'; cases e'
      have := List.of_mem_filter (e ▸ List.mem_singleton_self k : k ∈ _)
      simp [hkv] at this
    · rw [hk] at e'; exact Option.some.inj e'
  have htip : h.tip = s.tail := by
    rcases w.pair h.tip with ha | ⟨-, p2⟩
    · by_contra hne
      have b := w.bal h.tip
      rw [if_pos rfl, if_neg (Ne.symm hne)] at b
      have c1 : hs.countP (fun x => x.tail = h.tip) ≤ vis.countP (fun x => x.tail = h.tip) := by
        rw [List.countP_eq_length_filter, List.countP_eq_length_filter]
        refine ((hp.nodup.filter _).subperm ?_).length_le
        intro y hy
        exact List.mem_filter.2 ⟨ha y (List.mem_of_mem_filter hy) (by simpa using (List.mem_filter.1 hy).2), (List.mem_filter.1 hy).2⟩
      have c2 : vis.countP (fun x => x.tip = h.tip) ≤ hs.countP (fun x => x.tip = h.tip) := (w.nodup.subperm w.sub).countP_le _
      have c3 := hp.count h.tip
      omega
    · rcases p2 h hh rfl (hkP ▸ hkv) with e | ⟨-, e⟩
      · rw [← e, (hp.mem h hh).2]
      · exact absurd rfl e
  refine ⟨⟨w.sub, w.nodup, fun v => ?_, fun v => ?_⟩, htip⟩
  · have := w.bal v
    rw [htip] at this
    omega
  · rcases w.pair v with ha | ⟨p1, p2⟩
    · exact Or.inl ha
    · by_cases hall : AllVis hs vis v
      · exact Or.inl hall
      refine Or.inr fun x hx hxv => ⟨fun hx' => ?_, fun hx' => ?_⟩
      · by_cases hxh : x = h
        · rw [hxh, ← hkP]; exact hkv
        · exact p1 x hx hxv hxh hx'
      · rcases p2 x hx hxv hx' with e | ⟨e, -⟩
        · have hv : v = h.tip := by rw [← hxv, ← (hp.mem x hx).2, e, htip]
          rcases p2 h hh hv.symm (hkP ▸ hkv) with e2 | ⟨-, e2⟩
          · rw [hp.inj x hx h hh (e.trans e2.symm)]; exact w.last
          · exact absurd rfl e2
        · exact e

/-- One curve. -/
theorem trace_spec {hs : List HE} {next : List HE → HE → Option HE} {P : HE → HE} (hp : Paired hs next P) {s : HE} : ∀ (fuel : Nat) (vis out : List HE) (h : HE),
    Walk hs P s h vis → hs.length < fuel + vis.length → out.head? = some s → out.getLast? = some h → out.IsChain (fun h k => h.tip = k.tail) →
    ∃ new out', trace next fuel vis out = some (new ++ vis, out') ∧ out' = out ++ new.reverse ∧ Closed out' ∧ Rest hs P (new ++ vis)
  | 0, vis, out, h, w, hf, _, _, _ => by
    have := (w.nodup.subperm w.sub).length_le
    omega
  | fuel + 1, vis, out, h, w, hf, h1, h2, h3 => by
    have hh := w.sub h w.last
    obtain ⟨k, hk⟩ : ∃ k, next vis h = some k := by
      rcases hp.next vis h hh with ⟨k', e, e'⟩ | ⟨-, e'⟩
      · exact ⟨_, e'⟩
      · exact ⟨_, e'⟩
    rw [trace, h2]
    simp only [Option.bind_eq_bind, Option.bind_some, hk]
    by_cases hkv : k ∈ vis
    · rw [if_pos hkv]
      obtain ⟨hr, ht⟩ := w.stop hp hk hkv
      refine ⟨[], out, rfl, by simp, ⟨?_, h3, ?_⟩, hr⟩
      · intro e; rw [e] at h1; cases h1
      · rw [h1, h2]; exact congrArg some ht
    · rw [if_neg hkv]
      obtain ⟨w', ht⟩ := w.step hp hk hkv
      obtain ⟨new, out', e1, e2, e3, e4⟩ := trace_spec hp fuel (k :: vis) (out ++ [k]) k w' (by simp; omega) (by rw [List.head?_append, h1]; rfl) (by simp) (by
        refine List.isChain_append.2 ⟨h3, by simp, ?_⟩
        intro x hx y hy
        rw [h2] at hx
        simp at hx hy
        rw [← hx, ← hy, ht])
      refine ⟨new ++ [k], out', ?_, ?_, e3, ?_⟩
      · rw [e1]; simp
      · rw [e2]; simp
      · simpa using e4

/-- All curves. -/
theorem tracePaths_spec {hs : List HE} {next : List HE → HE → Option HE} {P : HE → HE} (hp : Paired hs next P) {fuel : Nat} (hf : hs.length < fuel) : ∀ (l vis : List HE),
    Rest hs P vis → (∀ x ∈ l, x ∈ hs) → ∃ r, tracePaths next fuel l vis = some r ∧ (∀ o ∈ r, Closed o) ∧ (r.flatten ++ vis).Nodup ∧ (∀ x ∈ r.flatten, x ∈ hs) ∧
      ∀ x ∈ l, x ∈ r.flatten ++ vis
  | [], vis, hr, _ => ⟨[], rfl, by simp, by simpa using hr.nodup, by simp, by simp⟩
  | h :: l, vis, hr, hl => by
    rw [tracePaths]
    by_cases hv : h ∈ vis
    · rw [if_pos hv]
      obtain ⟨r, e1, e2, e3, e4, e5⟩ := tracePaths_spec hp hf l vis hr fun x hx => hl x (by simp [hx])
      refine ⟨r, e1, e2, e3, e4, fun x hx => ?_⟩
      rcases List.mem_cons.1 hx with rfl | hx
      · simp [hv]
      · exact e5 x hx
    · rw [if_neg hv]
      have hm := hl h (by simp)
      obtain ⟨new, out', t1, t2, t3, t4⟩ := trace_spec hp fuel (h :: vis) [h] h (hr.start hm hv) (by simp; omega) rfl rfl (by simp)
      obtain ⟨r, e1, e2, e3, e4, e5⟩ := tracePaths_spec hp hf l (new ++ h :: vis) t4 fun x hx => hl x (by simp [hx])
      have hperm : (out' ++ r.flatten ++ vis).Perm (r.flatten ++ (new ++ h :: vis)) := by
        rw [t2]
        refine List.Perm.trans (List.perm_append_comm.append_right vis) ?_
        rw [List.append_assoc]
        refine List.Perm.append_left _ ?_
        rw [show ([h] ++ new.reverse ++ vis) = h :: (new.reverse ++ vis) from rfl]
        exact (List.perm_middle (a := h) (l₁ := new.reverse) (l₂ := vis)).symm.trans ((List.reverse_perm new).append_right _)
      refine ⟨out' :: r, ?_, ?_, ?_, ?_, ?_⟩
      · rw [t1]
        simp only [Option.bind_eq_bind, Option.bind_some]
        rw [e1]; rfl
      · intro o ho
        rcases List.mem_cons.1 ho with rfl | ho
        · exact t3
        · exact e2 o ho
      · rw [List.flatten_cons]; exact hperm.nodup_iff.2 e3
      · intro x hx
        rw [List.flatten_cons] at hx
        rcases List.mem_append.1 hx with hx | hx
        · rw [t2] at hx
          exact t4.sub x (by simp at hx ⊢; tauto)
        · exact e4 x hx
      · intro x hx
        rw [List.flatten_cons, hperm.mem_iff]
        rcases List.mem_cons.1 hx with rfl | hx
        · simp
        · exact e5 x hx

/-- Every half-edge lies on exactly one curve, and the curves are closed. -/
theorem tracePaths_all {hs : List HE} {next : List HE → HE → Option HE} {P : HE → HE} (hp : Paired hs next P) {fuel : Nat} (hf : hs.length < fuel) :
    ∃ r, tracePaths next fuel hs [] = some r ∧ (∀ o ∈ r, Closed o) ∧ r.flatten.Perm hs := by
  obtain ⟨r, e1, e2, e3, e4, e5⟩ := tracePaths_spec hp hf hs [] ⟨by simp, by simp, by simp, fun v => Or.inr fun x _ _ => by simp⟩ fun x hx => hx
  rw [List.append_nil] at e3 e5
  exact ⟨r, e1, e2, (List.perm_ext_iff_of_nodup e3 hp.nodup).2 fun x => ⟨e4 x, e5 x⟩⟩

end Verif.Bsp
