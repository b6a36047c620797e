import Verif.Bsp.Turn
/-!
# C79: the outlines of a set of faces
-/
namespace Verif.Bsp

/-! ### The half-edges of the outline -/

/-- A half-edge counts `1` in the direction of `canon` and `-1` in the other one. -/
def dir (c h : HE) : Int := (if h = c then 1 else 0) - if h = c.rev then 1 else 0

theorem dir_rev (c h : HE) : dir c h.rev = - dir c h := by
  have h1 : h.rev = c ↔ h = c.rev := ⟨fun e => by rw [← e]; rfl, fun e => by rw [e]; rfl⟩
  have h2 : h.rev = c.rev ↔ h = c := ⟨fun e => by have := congrArg HE.rev e; exact this, fun e => by rw [e]⟩
  unfold dir
  simp only [h1, h2]
  ring

theorem dir_sum (c : HE) (l : List HE) : (l.map (dir c)).sum = (l.count c : Int) - l.count c.rev := by
  induction l with
  | nil => rfl
  | cons h l ih =>
    rw [List.map_cons, List.sum_cons, ih, List.count_cons, List.count_cons, dir]
    by_cases h1 : h = c <;> by_cases h2 : h = c.rev <;> simp [h1, h2] <;> ring

theorem edgeSum_eq {canon : Nat → HE} {p : Int × Cycle} (hs : p.1 ≠ 0) (hc : ∀ e, (canon e).edge = e) (h1 : ∀ h ∈ hes p.2, h = canon h.edge ∨ h = (canon h.edge).rev) (h2 : ∀ h ∈ hes p.2, h.tail ≠ h.tip) (e : Nat) :
    edgeSum canon e p = ((oriented p).map (dir (canon e))).sum := by
  have key : ∀ h ∈ hes p.2, (if h.edge = e then (if (decide (h.tail = (canon e).tail)) ^^ decide (p.1 > 0) then (-1 : Int) else 1) else 0) = if p.1 > 0 then dir (canon e) h else - dir (canon e) h := by
    intro h hh
    by_cases he : h.edge = e
    · subst he
      rw [if_pos rfl]
      have hne := h2 h hh
      rcases h1 h hh with e1 | e1
      · have d : dir (canon h.edge) h = 1 := by
          unfold dir
          rw [if_pos e1, if_neg, sub_zero]
          intro e2
          have : h = h.rev := by rw [← e1] at e2; exact e2
          exact hne (congrArg HE.tail this)
        rw [d]
        have : h.tail = (canon h.edge).tail := by rw [← e1]
        by_cases hp : p.1 > 0 <;> simp [hp, this]
      · have d : dir (canon h.edge) h = -1 := by
          unfold dir
          rw [if_pos e1, if_neg, zero_sub]
          intro e2
          have e3 : h = h.rev := e1.trans (congrArg HE.rev e2.symm)
          exact hne (congrArg HE.tail e3)
        rw [d]
        have : h.tail ≠ (canon h.edge).tail := by
          intro e2
          have : h.tip = (canon h.edge).tail := congrArg HE.tip e1
          exact hne (e2.trans this.symm)
        by_cases hp : p.1 > 0 <;> simp [hp, this]
    · rw [if_neg he]
      have d : dir (canon e) h = 0 := by
        unfold dir
        rw [if_neg, if_neg, sub_zero]
        · intro e2; exact he (by rw [e2]; exact hc e)
        · intro e2; exact he (by rw [e2]; exact hc e)
      rw [d]; simp
  unfold edgeSum oriented
  rw [List.map_congr_left key]
  by_cases hp : p.1 > 0
  · simp only [hp, if_true]
  · simp only [hp, if_false]
    rw [List.map_map, (((List.reverse_perm (hes p.2)).map (dir (canon e) ∘ HE.rev))).sum_eq]
    congr 1
    apply List.map_congr_left
    intro h _
    exact (dir_rev _ _).symm

theorem edgeCount_eq {canon : Nat → HE} {fs : List (Int × Cycle)} (hg : Mergeable canon fs) (hc : ∀ e, (canon e).edge = e) (e : Nat) :
    edgeCount canon fs e = ((allOriented fs).count (canon e) : Int) - (allOriented fs).count (canon e).rev := by
  rw [← dir_sum]
  unfold edgeCount allOriented
  have h1 := hg.sign
  have h2 := hg.ends
  have h3 := hg.proper
  clear hg
  induction fs with
  | nil => rfl
  | cons p fs ih =>
    rw [List.map_cons, List.sum_cons, List.flatMap_cons, List.map_append, List.sum_append, edgeSum_eq (h1 p (by simp)) hc (h2 p (by simp)) (h3 p (by simp)),
      ih (fun q hq => h1 q (by simp [hq])) (fun q hq => h2 q (by simp [hq])) fun q hq => h3 q (by simp [hq])]

theorem oriented_edge {p : Int × Cycle} {h : HE} (hh : h ∈ oriented p) : h.edge ∈ p.2.map Prod.snd := by
  have key : ∀ k ∈ hes p.2, k.edge ∈ p.2.map Prod.snd := fun k hk => List.mem_map.2 ⟨_, hes_tail hk, rfl⟩
  unfold oriented at hh
  split at hh
  · exact key h hh
  · obtain ⟨k, hk, rfl⟩ := List.mem_map.1 hh
    exact key k (List.mem_reverse.1 hk)

/-- The list of the outline half-edges is right. -/
theorem mem_outlineHes {canon : Nat → HE} {fs : List (Int × Cycle)} (hg : Mergeable canon fs) (hc : ∀ e, (canon e).edge = e) (h : HE) : h ∈ outlineHes canon fs ↔ OnOutline fs h := by
  have hcount : ∀ k, ((allOriented fs).count k : Int) = if k ∈ allOriented fs then 1 else 0 := by
    intro k
    by_cases hk : k ∈ allOriented fs
    · rw [if_pos hk, List.count_eq_one_of_mem hg.once hk]; rfl
    · rw [if_neg hk, List.count_eq_zero_of_not_mem hk]; rfl
  unfold outlineHes
  rw [List.mem_filterMap]
  constructor
  · rintro ⟨e, _, he⟩
    rw [edgeCount_eq hg hc, hcount, hcount] at he
    by_cases a : canon e ∈ allOriented fs <;> by_cases b : (canon e).rev ∈ allOriented fs <;> simp only [a, b, if_true, if_false] at he <;> norm_num at he
    · cases he
    · subst he; exact ⟨a, b⟩
    · subst he; exact ⟨b, a⟩
    · cases he
  · intro ho
    refine ⟨h.edge, ?_, ?_⟩
    · rw [mem_uniq]
      obtain ⟨p, hp, hh⟩ := List.mem_flatMap.1 ho.1
      exact Or.inr (List.mem_flatMap.2 ⟨p, hp, oriented_edge hh⟩)
    · rw [edgeCount_eq hg hc, hcount, hcount]
      rcases (hg.ends' ho.1).1 with e | e
      · have a : canon h.edge ∈ allOriented fs := e ▸ ho.1
        have b : (canon h.edge).rev ∉ allOriented fs := by rw [← e]; exact ho.2
        simp only [a, b, if_true, if_false]
        norm_num
        exact e.symm
      · have b : (canon h.edge).rev ∈ allOriented fs := e ▸ ho.1
        have a : canon h.edge ∉ allOriented fs := by
          have := ho.2
          rw [e] at this
          exact this
        simp only [a, b, if_true, if_false]
        norm_num
        exact e.symm

theorem outlineHes_nodup {canon : Nat → HE} (hc : ∀ e, (canon e).edge = e) (fs : List (Int × Cycle)) : (outlineHes canon fs).Nodup := by
  unfold outlineHes
  refine List.Nodup.filterMap (fun e e' h h1 h2 => ?_) (nodup_uniq _ _ List.nodup_nil)
  have key : ∀ e, h ∈ (if edgeCount canon fs e = 0 then none else if edgeCount canon fs e > 0 then some (canon e) else some (canon e).rev) → h.edge = e := by
    intro e he
    split at he
    · cases he
    · split at he
      · cases he; exact hc e
      · cases he; exact hc e
  rw [← key e h1, key e' h2]

/-! ### The choice of the next half-edge -/

theorem turn_step {nm : Nat → Option Nat} {group : List HE} {fuel cur e : Nat} (h : nm cur = some e) :
    turn nm group (fuel + 1) cur = match group.find? fun h => h.edge = e with
      | some h => some h
      | none => turn nm group fuel e := by
  rw [turn, h]; rfl

theorem turn_eq {canon : Nat → HE} {fs : List (Int × Cycle)} {hs : List HE} (hg : Mergeable canon fs) (hm : ∀ h, h ∈ hs ↔ OnOutline fs h)
    (hin : ∀ h ∈ allOriented fs, h.rev ∈ allOriented fs → ¬ (isMulti hs h.tail = true ∧ isMulti hs h.tip = true)) {h k : HE} (ho : OnOutline fs h) (hk : OnOutline fs k) (hkt : k.tail = h.tip)
    (hmul : isMulti hs h.tip = true) (x : Nat → HE) (n : Nat) (h0 : x 0 = h) (h1 : ∀ i ≤ n, x i ∈ allOriented fs ∧ (x i).tip = h.tip)
    (h2 : ∀ i < n, (x i, (x (i + 1)).rev) ∈ allAround fs ∧ (x (i + 1)).rev ∈ allOriented fs) (h3 : (x n, k) ∈ allAround fs) {fuel : Nat} (hf : n < fuel) :
    turn (nextEdge hs fs) (outsAt hs h.tip) fuel h.edge = some k := by
  have hkey : ∀ i ≤ n, ∀ y, (x i, y) ∈ allAround fs → nextEdge hs fs (x i).edge = some y.edge := by
    intro i hi y hy
    refine nextEdge_eq (q := (x i, y)) hy (by rw [(h1 i hi).2]; exact hmul) fun q' hq' e em => ?_
    have hq1 : q'.1 ∈ allOriented fs := (allAround_fst hg.sign).mem_iff.1 (List.mem_map.2 ⟨_, hq', rfl⟩)
    refine hg.next_fun hq' hy ?_
    rcases hg.two (h1 i hi).1 hq1 e with e | e
    · exact e
    · exfalso
      cases i with
      | zero => rw [h0] at e; exact ho.2 (e ▸ hq1)
      | succ i =>
        rw [e] at em
        exact hin _ (h1 (i + 1) hi).1 (e ▸ hq1) ⟨em, by rw [(h1 (i + 1) hi).2]; exact hmul⟩
  have key : ∀ (d i : Nat) (fuel : Nat), i + d = n → d < fuel → turn (nextEdge hs fs) (outsAt hs h.tip) fuel (x i).edge = some k := by
    intro d
    induction d with
    | zero =>
      intro i fuel e hf
      obtain ⟨fuel, rfl⟩ : ∃ f, fuel = f + 1 := ⟨fuel - 1, by omega⟩
      have e : i = n := by omega
      subst e
      rw [turn_step (hkey i le_rfl k h3)]
      have hmem : k ∈ outsAt hs h.tip := List.mem_filter.2 ⟨(hm k).2 hk, by simpa using hkt⟩
      obtain ⟨y, hy⟩ : ∃ y, ((outsAt hs h.tip).find? fun g => g.edge = k.edge) = some y := by
        rw [← Option.isSome_iff_exists, List.find?_isSome]
        exact ⟨k, hmem, by simp⟩
      rw [hy]
      have hye : y.edge = k.edge := by simpa using List.find?_some hy
      have hyo : OnOutline fs y := (hm y).1 (List.mem_of_mem_filter (List.mem_of_find?_eq_some hy))
      rcases hg.two hk.1 hyo.1 hye with e | e
      · rw [e]
      · exact absurd (e ▸ hyo.1) hk.2
    | succ d ih =>
      intro i fuel e hf
      obtain ⟨fuel, rfl⟩ : ∃ f, fuel = f + 1 := ⟨fuel - 1, by omega⟩
      obtain ⟨a1, a2⟩ := h2 i (by omega)
      rw [turn_step (hkey i (by omega) _ a1)]
      have hnone : ((outsAt hs h.tip).find? fun g => g.edge = (x (i + 1)).rev.edge) = none := by
        rw [List.find?_eq_none]
        intro y hy hye
        have hye : y.edge = (x (i + 1)).rev.edge := by simpa using hye
        have hyo : OnOutline fs y := (hm y).1 (List.mem_of_mem_filter hy)
        rcases hg.two a2 hyo.1 hye with e | e
        · exact hyo.2 (by rw [e]; exact (h1 (i + 1) (by omega)).1)
        · exact hyo.2 (by rw [e]; exact a2)
      rw [hnone]
      exact ih (i + 1) fuel (by omega) (by omega)
  rw [← h0]
  have := key n 0 fuel (by omega) hf
  rwa [h0] at this ⊢

theorem paired {canon : Nat → HE} {fs : List (Int × Cycle)} {hs : List HE} (hg : Mergeable canon fs) (hnd : hs.Nodup) (hm : ∀ h, h ∈ hs ↔ OnOutline fs h)
    (hin : ∀ h ∈ allOriented fs, h.rev ∈ allOriented fs → ¬ (isMulti hs h.tail = true ∧ isMulti hs h.tip = true)) : ∃ P, ∀ fuel ≥ (allOriented fs).length, Paired hs (nextHe hs (nextEdge hs fs) fuel) P := by
  obtain ⟨P, x, n, h1, h2⟩ := hg.turns
  refine ⟨P, fun fuel hf => ⟨hnd, fun h hh => ?_, fun h hh k hk => h2 h ((hm h).1 hh) k ((hm k).1 hk), fun vis h hh => ?_⟩⟩
  · obtain ⟨a1, a2, -⟩ := h1 h ((hm h).1 hh)
    exact ⟨(hm _).2 a1, a2⟩
  · obtain ⟨a1, a2, a3, a4, a5, a6, a7⟩ := h1 h ((hm h).1 hh)
    have hP : P h ∈ outsAt hs h.tip := List.mem_filter.2 ⟨(hm _).2 a1, by simpa using a2⟩
    have hturn : isMulti hs h.tip = true → turn (nextEdge hs fs) (outsAt hs h.tip) fuel h.edge = some (P h) := fun hmul =>
      turn_eq hg hm hin ((hm h).1 hh) a1 a2 hmul (x h) (n h) a3 a5 a6 a7 (by omega)
    unfold isMulti at hturn
    unfold nextHe
    match ho : outsAt hs h.tip with
    | [] => rw [ho] at hP; cases hP
    | [k] =>
      rw [ho] at hP
      have : P h = k := List.mem_singleton.1 hP
      by_cases hv : k ∈ vis
      · exact Or.inr ⟨by simp [hv], by rw [this]⟩
      · exact Or.inl ⟨k, by simp [hv], rfl⟩
    | a :: b :: l =>
      rw [ho] at hturn
      match hfil : (a :: b :: l).filter fun k => k ∉ vis with
      | [k] => exact Or.inl ⟨k, rfl, by simp only [hfil]⟩
      | [] => exact Or.inr ⟨by simp, by simp only [hfil]; exact hturn (by simp)⟩
      | c :: d :: l' => exact Or.inr ⟨by simp, by simp only [hfil]; exact hturn (by simp)⟩

/-! ### More fuel does not matter -/

theorem turn_mono {nm : Nat → Option Nat} {group : List HE} {h : HE} : ∀ {f f' : Nat} {cur : Nat}, f ≤ f' → turn nm group f cur = some h → turn nm group f' cur = some h
  | 0, _, _, _, e => by cases e
  | f + 1, f' + 1, cur, hf, e => by
    cases hn : nm cur with
    | none => rw [turn, hn] at e; cases e
    | some y =>
      rw [turn_step hn] at e ⊢
      cases hfi : group.find? fun h => h.edge = y with
      | some k => rw [hfi] at e; exact e
      | none => rw [hfi] at e; exact turn_mono (by omega) e

theorem nextHe_mono {hs : List HE} {nm : Nat → Option Nat} {f f' : Nat} (hf : f ≤ f') {vis : List HE} {h k : HE} (e : nextHe hs nm f vis h = some k) : nextHe hs nm f' vis h = some k := by
  unfold nextHe at e ⊢
  split
  · simp_all
  · simp_all
  · rename_i h1 h2
    split at e
    · exact absurd (by assumption) h1
    · rename_i hx; exact absurd hx (h2 _)
    · split
      · simp_all
      · rename_i h3
        split at e
        · rename_i hx; exact absurd hx (h3 _)
        · exact turn_mono hf e

theorem trace_mono {next next' : List HE → HE → Option HE} (hn : ∀ vis h k, next vis h = some k → next' vis h = some k) {r : List HE × List HE} : ∀ {f f' : Nat} {vis out : List HE}, f ≤ f' →
    trace next f vis out = some r → trace next' f' vis out = some r
  | 0, _, _, _, _, e => by cases e
  | f + 1, f' + 1, vis, out, hf, e => by
    rw [trace] at e ⊢
    cases hl : out.getLast? with
    | none => rw [hl] at e; cases e
    | some h =>
      rw [hl] at e
      simp only [Option.bind_eq_bind, Option.bind_some] at e ⊢
      cases hk : next vis h with
      | none => rw [hk] at e; cases e
      | some k =>
        rw [hn _ _ _ hk]
        rw [hk] at e
        simp only [Option.bind_some] at e ⊢
        split
        · rw [if_pos ‹_›] at e; exact e
        · rw [if_neg ‹_›] at e; exact trace_mono hn (by omega) e

theorem tracePaths_mono {next next' : List HE → HE → Option HE} (hn : ∀ vis h k, next vis h = some k → next' vis h = some k) {f f' : Nat} (hf : f ≤ f') : ∀ {l vis : List HE} {r : List (List HE)},
    tracePaths next f l vis = some r → tracePaths next' f' l vis = some r
  | [], _, _, e => e
  | h :: l, vis, r, e => by
    rw [tracePaths] at e ⊢
    split
    · rw [if_pos ‹_›] at e; exact tracePaths_mono hn hf e
    · rw [if_neg ‹_›] at e
      cases ht : trace next f (h :: vis) [h] with
      | none => rw [ht] at e; cases e
      | some p =>
        rw [trace_mono hn hf ht]
        rw [ht] at e
        simp only [Option.bind_eq_bind, Option.bind_some] at e ⊢
        cases hr : tracePaths next f l p.1 with
        | none => rw [hr] at e; cases e
        | some q =>
          rw [tracePaths_mono hn hf hr]
          rw [hr] at e; exact e

/-- C79, partial. The outlines of a set of faces of which no two pass an edge in the same direction: `extract_faces_outlines` ends, each outline is a closed curve, and together they
contain each outline half-edge exactly once. This holds in whatever order the map gives its entries. What is missing: an edge inside the set must not connect two vertices at which
several outlines meet; otherwise the map of successors can be overwritten (`c79_refuted`). -/
theorem c79_outlines_partial {canon : Nat → HE} {fs : List (Int × Cycle)} {hs : List HE} (hg : Mergeable canon fs) (hc : ∀ e, (canon e).edge = e) (hp : hs.Perm (outlineHes canon fs))
    (hin : ∀ h ∈ allOriented fs, h.rev ∈ allOriented fs → ¬ (isMulti hs h.tail = true ∧ isMulti hs h.tip = true)) :
    (∀ h, h ∈ hs ↔ OnOutline fs h) ∧ ∃ r, (∀ fuel ≥ (allOriented fs).length + 1, outlines fuel hs fs = some r) ∧ (∀ o ∈ r, Closed o) ∧ r.flatten.Perm hs := by
  have hm : ∀ h, h ∈ hs ↔ OnOutline fs h := fun h => hp.mem_iff.trans (mem_outlineHes hg hc h)
  have hnd : hs.Nodup := hp.nodup_iff.2 (outlineHes_nodup hc fs)
  obtain ⟨P, hP⟩ := paired hg hnd hm hin
  have hlen : hs.length ≤ (allOriented fs).length := (hnd.subperm fun x hx => ((hm x).1 hx).1).length_le
  obtain ⟨r, e1, e2, e3⟩ := tracePaths_all (hP ((allOriented fs).length + 1) (by omega)) (fuel := (allOriented fs).length + 1) (by omega)
  refine ⟨hm, r, fun fuel hf => ?_, e2, e3⟩
  exact tracePaths_mono (fun vis h k => nextHe_mono hf) hf e1

instance (canon : Nat → HE) (fs : List (Int × Cycle)) : Decidable ((∀ p ∈ fs, p.1 ≠ 0) ∧ (∀ p ∈ fs, ∀ h ∈ hes p.2, h = canon h.edge ∨ h = (canon h.edge).rev) ∧
    (∀ p ∈ fs, ∀ h ∈ hes p.2, h.tail ≠ h.tip) ∧ (allOriented fs).Nodup) := inferInstance

theorem Mergeable.mk' {canon : Nat → HE} {fs : List (Int × Cycle)} (h : (∀ p ∈ fs, p.1 ≠ 0) ∧ (∀ p ∈ fs, ∀ h ∈ hes p.2, h = canon h.edge ∨ h = (canon h.edge).rev) ∧
    (∀ p ∈ fs, ∀ h ∈ hes p.2, h.tail ≠ h.tip) ∧ (allOriented fs).Nodup) : Mergeable canon fs := ⟨h.1, h.2.1, h.2.2.1, h.2.2.2⟩

/-- Half-edges for the examples: the edges are given by their ends. -/
def canonOf (ends : List (Nat × Nat)) (e : Nat) : HE := ⟨(ends.getD e (0, 0)).1, e, (ends.getD e (0, 0)).2⟩

/-- Four triangles `0 1 2`, `0 2 3`, `0 4 5`, `0 5 6` (the last one with the other sign): two sheets that meet in vertex 0. -/
def sheetEnds : List (Nat × Nat) := [(0, 1), (2, 1), (2, 0), (2, 3), (0, 3), (4, 0), (4, 5), (5, 0), (5, 6), (6, 0)]

def sheets : List (Int × Cycle) := [(1, [(0, 0), (1, 1), (2, 2)]), (1, [(0, 2), (2, 3), (3, 4)]), (1, [(0, 5), (4, 6), (5, 7)]), (-1, [(0, 9), (6, 8), (5, 7)])]

def sheetHes : List HE := outlineHes (canonOf sheetEnds) sheets

example : Mergeable (canonOf sheetEnds) sheets ∧ sheetHes.length = 8 ∧ isMulti sheetHes 0 = true ∧
    ∀ h ∈ allOriented sheets, h.rev ∈ allOriented sheets → ¬ (isMulti sheetHes h.tail = true ∧ isMulti sheetHes h.tip = true) :=
  ⟨.mk' (by decide +kernel), by decide +kernel, by decide +kernel, by decide +kernel⟩


/-- The two sheets get one common outline: at the end of the first sheet only one half-edge that leaves vertex 0 is left, and the code takes it without a look at the faces. -/
example : (outlines 20 sheetHes sheets).map (·.map (·.map HE.tail)) = some [[0, 1, 2, 3, 0, 4, 5, 6]] := by decide +kernel

/-! ### The general statement is false -/

/-- Seven polygons of the plane with three holes. Edge 3 lies between the faces `0 2 3 1` and `1 8 0`, and both of its ends are corners of two holes. -/
def holeEnds : List (Nat × Nat) :=
  [(0, 2), (2, 3), (3, 1), (1, 0), (2, 4), (4, 5), (5, 3), (0, 6), (6, 7), (7, 1), (1, 5), (4, 0), (1, 8), (8, 0), (0, 9), (9, 1), (1, 10), (10, 11), (11, 0), (11, 6), (7, 10)]

def holed : List (Int × Cycle) :=
  [(1, [(0, 0), (2, 1), (3, 2), (1, 3)]), (1, [(2, 4), (4, 5), (5, 6), (3, 1)]), (1, [(0, 7), (6, 8), (7, 9), (1, 10), (5, 5), (4, 11)]),
   (1, [(1, 12), (8, 13), (0, 3)]), (1, [(0, 14), (9, 15), (1, 16), (10, 17), (11, 18)]), (1, [(0, 18), (11, 19), (6, 7)]), (1, [(1, 9), (7, 20), (10, 16)])]

/-- An order of the outline half-edges that begins with `1 → 8`. -/
def holedHes : List HE := ⟨1, 12, 8⟩ :: (outlineHes (canonOf holeEnds) holed).erase ⟨1, 12, 8⟩

theorem holed_mergeable : Mergeable (canonOf holeEnds) holed := .mk' (by decide +kernel)

theorem holed_perm : holedHes.Perm (outlineHes (canonOf holeEnds) holed) := (List.perm_cons_erase (by decide +kernel)).symm

theorem holed_turn (fuel : Nat) : nextHe holedHes (nextEdge holedHes holed) fuel [⟨8, 13, 0⟩, ⟨1, 12, 8⟩] ⟨8, 13, 0⟩ = none := by
  have e1 : outsAt holedHes 0 = [⟨0, 0, 2⟩, ⟨0, 14, 9⟩] := by decide +kernel
  have e2 : nextEdge holedHes holed 13 = some 3 := by decide +kernel
  have e3 : nextEdge holedHes holed 3 = some 12 := by decide +kernel
  have e4 : nextEdge holedHes holed 12 = none := by decide +kernel
  have e5 : ∀ l, turn (nextEdge holedHes holed) [⟨0, 0, 2⟩, ⟨0, 14, 9⟩] l 12 = none := by
    intro l
    cases l with
    | zero => rfl
    | succ l => rw [turn, e4]; rfl
  have e6 : ∀ l, turn (nextEdge holedHes holed) [⟨0, 0, 2⟩, ⟨0, 14, 9⟩] l 3 = none := by
    intro l
    cases l with
    | zero => rfl
    | succ l => rw [turn_step e3]; exact e5 l
  have e7 : ∀ l, turn (nextEdge holedHes holed) [⟨0, 0, 2⟩, ⟨0, 14, 9⟩] l 13 = none := by
    intro l
    cases l with
    | zero => rfl
    | succ l => rw [turn_step e2]; exact e6 l
  have hfil : ([⟨0, 0, 2⟩, ⟨0, 14, 9⟩] : List HE).filter (fun k => k ∉ ([⟨8, 13, 0⟩, ⟨1, 12, 8⟩] : List HE)) = [⟨0, 0, 2⟩, ⟨0, 14, 9⟩] := by decide +kernel
  unfold nextHe
  simp only [e1, hfil]
  exact e7 fuel

theorem holed_none (fuel : Nat) : outlines fuel holedHes holed = none := by
  unfold outlines holedHes
  rw [tracePaths, if_neg (by simp)]
  have : ∀ f g, trace (nextHe holedHes (nextEdge holedHes holed) f) g [⟨1, 12, 8⟩] [⟨1, 12, 8⟩] = none := by
    intro f g
    have e1 : outsAt holedHes 8 = [⟨8, 13, 0⟩] := by decide +kernel
    have e2 : nextHe holedHes (nextEdge holedHes holed) f [⟨1, 12, 8⟩] ⟨1, 12, 8⟩ = some ⟨8, 13, 0⟩ := by
      unfold nextHe; simp only [e1]
    cases g with
    | zero => rfl
    | succ g =>
      rw [trace]
      simp only [List.getLast?_singleton, Option.bind_eq_bind, Option.bind_some, e2]
      rw [if_neg (by decide)]
      cases g with
      | zero => rfl
      | succ g =>
        rw [trace]
        simp only [List.singleton_append, List.getLast?_cons_cons, List.getLast?_singleton, Option.bind_eq_bind, Option.bind_some, holed_turn, Option.bind_none]
  unfold holedHes at this
  rw [this]; rfl

/-- `extract_faces_outlines` can panic although no two faces of the set pass an edge in the same direction: the successors around a vertex are kept in a map whose key is the edge,
and an edge inside the set whose two ends both are corners of several outlines is inserted twice. -/
theorem c79_refuted : ¬ ∀ (canon : Nat → HE) (fs : List (Int × Cycle)) (hs : List HE), Mergeable canon fs → (∀ e, (canon e).edge = e) → hs.Perm (outlineHes canon fs) →
    ∃ fuel r, outlines fuel hs fs = some r := by
  intro h
  obtain ⟨fuel, r, e⟩ := h _ _ _ holed_mergeable (fun _ => rfl) holed_perm
  rw [holed_none] at e
  cases e

end Verif.Bsp
