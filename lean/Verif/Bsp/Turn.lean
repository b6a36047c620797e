import Verif.Bsp.Trace
import Verif.Bsp.Shape
/-!
# Turning around a vertex inside a set of faces
-/
namespace Verif.Bsp

/-! ### The half-edges of a face follow each other -/

theorem path_map_tip : ∀ (l : Cycle) (x : Nat × Nat) (z : Nat), (path (x :: l) z).map HE.tip = l.map Prod.fst ++ [z]
  | [], x, z => rfl
  | y :: l, x, z => by
    rw [path, List.map_cons, path_map_tip l y z]; rfl

theorem hes_map_tip (c : Cycle) : (hes c).map HE.tip = ((hes c).map HE.tail).rotate 1 := by
  cases c with
  | nil => rfl
  | cons x l =>
    have h : (hes (x :: l)).map HE.tail = (x :: l).map Prod.fst := by
      rw [← hes_map (x :: l)]
      simp only [List.map_map]
      rw [hes_map]
      rfl
    rw [h, hes_cons, path_map_tip]
    simp

/-- The pairs of a half-edge and the one after it. -/
def around (l : List HE) : List (HE × HE) := l.zip (l.rotate 1)

theorem around_fst (l : List HE) : (around l).map Prod.fst = l := by
  unfold around
  rw [List.map_fst_zip]
  simp

theorem around_snd (l : List HE) : (around l).map Prod.snd = l.rotate 1 := by
  unfold around
  rw [List.map_snd_zip]
  simp

theorem around_tip {c : Cycle} {q : HE × HE} (h : q ∈ around (hes c)) : q.1.tip = q.2.tail := by
  obtain ⟨i, hi, e⟩ := List.getElem_of_mem h
  have e1 : (hes c)[i]? = some q.1 := by
    have := congrArg (fun l => l[i]?) (around_fst (hes c))
    simp only [List.getElem?_map, List.getElem?_eq_getElem hi, e] at this
    exact this.symm
  have e2 : ((hes c).rotate 1)[i]? = some q.2 := by
    have := congrArg (fun l => l[i]?) (around_snd (hes c))
    simp only [List.getElem?_map, List.getElem?_eq_getElem hi, e] at this
    exact this.symm
  have e3 := congrArg (fun l => l[i]?) (hes_map_tip c)
  simp only [List.getElem?_map, ← List.map_rotate, e1, e2] at e3
  simpa using e3

/-- The same in the direction of the sign. -/
def aroundSigned (p : Int × Cycle) : List (HE × HE) := if p.1 < 0 then (around (hes p.2)).map fun q => (q.2.rev, q.1.rev) else around (hes p.2)

theorem aroundSigned_fst {p : Int × Cycle} (hp : p.1 ≠ 0) : ((aroundSigned p).map Prod.fst).Perm (oriented p) := by
  unfold aroundSigned oriented
  by_cases h : p.1 < 0
  · rw [if_pos h, if_neg (by omega), List.map_map]
    have : (around (hes p.2)).map (Prod.fst ∘ fun q => (q.2.rev, q.1.rev)) = ((around (hes p.2)).map Prod.snd).map HE.rev := by rw [List.map_map]; rfl
    rw [this, around_snd]
    exact ((List.rotate_perm _ _).trans (List.reverse_perm _).symm).map _
  · rw [if_neg h, if_pos (by omega), around_fst]

theorem aroundSigned_snd {p : Int × Cycle} (hp : p.1 ≠ 0) : ((aroundSigned p).map Prod.snd).Perm (oriented p) := by
  unfold aroundSigned oriented
  by_cases h : p.1 < 0
  · rw [if_pos h, if_neg (by omega), List.map_map]
    have : (around (hes p.2)).map (Prod.snd ∘ fun q => (q.2.rev, q.1.rev)) = ((around (hes p.2)).map Prod.fst).map HE.rev := by rw [List.map_map]; rfl
    rw [this, around_fst]
    exact (List.reverse_perm _).symm.map _
  · rw [if_neg h, if_pos (by omega), around_snd]
    exact List.rotate_perm _ _

theorem aroundSigned_tip {p : Int × Cycle} {q : HE × HE} (h : q ∈ aroundSigned p) : q.1.tip = q.2.tail := by
  unfold aroundSigned at h
  split at h
  · obtain ⟨q', hq, rfl⟩ := List.mem_map.1 h
    exact (around_tip hq).symm
  · exact around_tip h

/-- The half-edges of all faces in the direction of their signs. -/
def allOriented (fs : List (Int × Cycle)) : List HE := fs.flatMap oriented

def allAround (fs : List (Int × Cycle)) : List (HE × HE) := fs.flatMap aroundSigned

theorem allAround_fst {fs : List (Int × Cycle)} (h : ∀ p ∈ fs, p.1 ≠ 0) : ((allAround fs).map Prod.fst).Perm (allOriented fs) := by
  unfold allAround allOriented
  induction fs with
  | nil => exact List.Perm.refl _
  | cons p fs ih =>
    rw [List.flatMap_cons, List.flatMap_cons, List.map_append]
    exact (aroundSigned_fst (h p (by simp))).append (ih fun q hq => h q (by simp [hq]))

theorem allAround_snd {fs : List (Int × Cycle)} (h : ∀ p ∈ fs, p.1 ≠ 0) : ((allAround fs).map Prod.snd).Perm (allOriented fs) := by
  unfold allAround allOriented
  induction fs with
  | nil => exact List.Perm.refl _
  | cons p fs ih =>
    rw [List.flatMap_cons, List.flatMap_cons, List.map_append]
    exact (aroundSigned_snd (h p (by simp))).append (ih fun q hq => h q (by simp [hq]))

theorem allAround_tip {fs : List (Int × Cycle)} {q : HE × HE} (h : q ∈ allAround fs) : q.1.tip = q.2.tail := by
  obtain ⟨p, _, hq⟩ := List.mem_flatMap.1 h
  exact aroundSigned_tip hq

theorem nextCalls_eq (hs : List HE) (fs : List (Int × Cycle)) :
    nextCalls hs fs = (allAround fs).filterMap fun q => if isMulti hs q.1.tip then some (q.1.edge, q.2.edge) else none := by
  unfold nextCalls allAround
  rw [List.filterMap_flatMap]
  congr 1
  funext p
  unfold aroundSigned
  by_cases h : p.1 < 0
  · simp only [h, if_true]
    rw [List.filterMap_map]
    apply List.filterMap_congr
    intro q hq
    have e2 := around_tip (c := p.2) hq
    simp only [Function.comp, HE.rev, e2]
  · simp only [h, if_false]
    rfl

/-- A key that is inserted once. -/
theorem nextEdge_eq {hs : List HE} {fs : List (Int × Cycle)} {q : HE × HE} (h : q ∈ allAround fs) (hm : isMulti hs q.1.tip = true)
    (hu : ∀ q' ∈ allAround fs, q'.1.edge = q.1.edge → isMulti hs q'.1.tip = true → q' = q) : nextEdge hs fs q.1.edge = some q.2.edge := by
  unfold nextEdge
  rw [nextCalls_eq]
  have hmem : (q.1.edge, q.2.edge) ∈ ((allAround fs).filterMap fun q => if isMulti hs q.1.tip then some (q.1.edge, q.2.edge) else none).reverse := by
    rw [List.mem_reverse, List.mem_filterMap]
    exact ⟨q, h, by rw [hm]; rfl⟩
  have huniq : ∀ x ∈ ((allAround fs).filterMap fun q => if isMulti hs q.1.tip then some (q.1.edge, q.2.edge) else none).reverse, x.1 = q.1.edge → x.2 = q.2.edge := by
    intro x hx hx1
    rw [List.mem_reverse, List.mem_filterMap] at hx
    obtain ⟨q', hq', e⟩ := hx
    split at e
    · cases e
      rw [hu q' hq' hx1 ‹_›]
    · cases e
  generalize ((allAround fs).filterMap fun q => if isMulti hs q.1.tip then some (q.1.edge, q.2.edge) else none).reverse = l at hmem huniq
  induction l with
  | nil => cases hmem
  | cons x l ih =>
    rw [List.lookup_cons]
    by_cases hx : q.1.edge = x.1
    · have : (q.1.edge == x.1) = true := by simpa using hx
      rw [this]
      exact congrArg some (huniq x (by simp) hx.symm)
    · have : (q.1.edge == x.1) = false := by simpa using hx
      rw [this]
      rcases List.mem_cons.1 hmem with e | hmem
      · rw [← e] at hx; exact absurd rfl hx
      · exact ih hmem fun y hy => huniq y (by simp [hy])

/-! ### Turning -/

/-- A set of faces that can be merged: no two of them pass an edge in the same direction. `canon e` is one of the two directions of edge `e`. -/
structure Mergeable (canon : Nat → HE) (fs : List (Int × Cycle)) : Prop where
  sign : ∀ p ∈ fs, p.1 ≠ 0
  ends : ∀ p ∈ fs, ∀ h ∈ hes p.2, h = canon h.edge ∨ h = (canon h.edge).rev
  proper : ∀ p ∈ fs, ∀ h ∈ hes p.2, h.tail ≠ h.tip
  once : (allOriented fs).Nodup

/-- A half-edge of the outline: a face passes it, and no face passes it in the other direction. -/
def OnOutline (fs : List (Int × Cycle)) (h : HE) : Prop := h ∈ allOriented fs ∧ h.rev ∉ allOriented fs

theorem rev_rev (h : HE) : h.rev.rev = h := rfl

theorem Mergeable.ends' {canon : Nat → HE} {fs : List (Int × Cycle)} (hg : Mergeable canon fs) {h : HE} (hh : h ∈ allOriented fs) :
    (h = canon h.edge ∨ h = (canon h.edge).rev) ∧ h.tail ≠ h.tip := by
  obtain ⟨p, hp, hh⟩ := List.mem_flatMap.1 hh
  unfold oriented at hh
  split at hh
  · exact ⟨hg.ends p hp h hh, hg.proper p hp h hh⟩
  · obtain ⟨k, hk, rfl⟩ := List.mem_map.1 hh
    rw [List.mem_reverse] at hk
    refine ⟨?_, fun e => hg.proper p hp k hk e.symm⟩
    rcases hg.ends p hp k hk with e | e
    · exact Or.inr (congrArg HE.rev e)
    · exact Or.inl (congrArg HE.rev e)

theorem Mergeable.two {canon : Nat → HE} {fs : List (Int × Cycle)} (hg : Mergeable canon fs) {h k : HE} (hh : h ∈ allOriented fs) (hk : k ∈ allOriented fs) (e : k.edge = h.edge) : k = h ∨ k = h.rev := by
  rcases (hg.ends' hh).1 with h1 | h1 <;> rcases (hg.ends' hk).1 with k1 | k1 <;> rw [e] at k1
  · exact Or.inl (k1.trans h1.symm)
  · exact Or.inr (k1.trans (congrArg HE.rev h1.symm))
  · exact Or.inr (k1.trans (congrArg HE.rev h1).symm)
  · exact Or.inl (k1.trans h1.symm)

theorem Mergeable.next_fun {canon : Nat → HE} {fs : List (Int × Cycle)} (hg : Mergeable canon fs) {q q' : HE × HE} (h : q ∈ allAround fs) (h' : q' ∈ allAround fs) (e : q.1 = q'.1) : q = q' :=
  List.inj_on_of_nodup_map ((allAround_fst hg.sign).nodup_iff.2 hg.once) h h' e

theorem Mergeable.next_inj {canon : Nat → HE} {fs : List (Int × Cycle)} (hg : Mergeable canon fs) {q q' : HE × HE} (h : q ∈ allAround fs) (h' : q' ∈ allAround fs) (e : q.2 = q'.2) : q = q' :=
  List.inj_on_of_nodup_map ((allAround_snd hg.sign).nodup_iff.2 hg.once) h h' e

theorem Mergeable.next_exists {canon : Nat → HE} {fs : List (Int × Cycle)} (hg : Mergeable canon fs) (h : HE) : ∃ k, h ∈ allOriented fs → (h, k) ∈ allAround fs := by
  by_cases hh : h ∈ allOriented fs
  · obtain ⟨q, hq, e⟩ := List.mem_map.1 ((allAround_fst hg.sign).mem_iff.2 hh)
    exact ⟨q.2, fun _ => by rw [← e]; exact hq⟩
  · exact ⟨h, fun e => absurd e hh⟩

/-- Turning around the end of an outline half-edge leads to another outline half-edge, and this is a one-to-one relation. -/
theorem Mergeable.turns {canon : Nat → HE} {fs : List (Int × Cycle)} (hg : Mergeable canon fs) : ∃ (P : HE → HE) (x : HE → Nat → HE) (n : HE → Nat),
    (∀ h, OnOutline fs h → OnOutline fs (P h) ∧ (P h).tail = h.tip ∧ x h 0 = h ∧ n h < (allOriented fs).length ∧
      (∀ i ≤ n h, x h i ∈ allOriented fs ∧ (x h i).tip = h.tip) ∧
      (∀ i < n h, (x h i, (x h (i + 1)).rev) ∈ allAround fs ∧ (x h (i + 1)).rev ∈ allOriented fs) ∧ (x h (n h), P h) ∈ allAround fs) ∧
    ∀ h, OnOutline fs h → ∀ k, OnOutline fs k → P h = P k → h = k := by
  classical
  choose succ hsucc using hg.next_exists
  have hsm : ∀ h ∈ allOriented fs, succ h ∈ allOriented fs ∧ (succ h).tail = h.tip := fun h hh =>
    ⟨(allAround_snd hg.sign).mem_iff.1 (List.mem_map.2 ⟨_, hsucc h hh, rfl⟩), (allAround_tip (hsucc h hh)).symm⟩
  have hsi : ∀ h ∈ allOriented fs, ∀ k ∈ allOriented fs, succ h = succ k → h = k := fun h hh k hk e =>
    congrArg Prod.fst (hg.next_inj (hsucc h hh) (hsucc k hk) e)
  let x : HE → Nat → HE := fun h i => (fun y => (succ y).rev)^[i] h
  have hx0 : ∀ h, x h 0 = h := fun h => rfl
  have hxs : ∀ h i, x h (i + 1) = (succ (x h i)).rev := fun h i => Function.iterate_succ_apply' _ _ _
  -- going back
  have hback : ∀ (d : Nat) (h k : HE) (i : Nat), OnOutline fs h → (∀ j ≤ i, x h j ∈ allOriented fs) → (∀ j ≤ i + d, x k j ∈ allOriented fs) → x h i = x k (i + d) → h = x k d := by
    intro d h k i
    induction i with
    | zero => intro _ _ _ e; rwa [hx0, Nat.zero_add] at e
    | succ i ih =>
      intro ho h1 h2 e
      refine ih ho (fun j hj => h1 j (by omega)) (fun j hj => h2 j (by omega)) ?_
      rw [show i + 1 + d = i + d + 1 by omega, hxs, hxs] at e
      exact hsi _ (h1 i (by omega)) _ (h2 (i + d) (by omega)) (by rw [← rev_rev (succ (x h i)), e]; rfl)
  have hnot : ∀ (h k : HE) (d : Nat), OnOutline fs h → x k d ∈ allOriented fs → h ≠ x k (d + 1) := by
    intro h k d ho hk e
    rw [hxs] at e
    exact ho.2 (by rw [e, rev_rev]; exact (hsm _ hk).1)
  have hdist : ∀ (h : HE) (n : Nat), OnOutline fs h → (∀ j ≤ n, x h j ∈ allOriented fs) → n < (allOriented fs).length := by
    intro h n ho hin
    have hnd : ((List.range (n + 1)).map (x h)).Nodup := by
      refine (List.nodup_map_iff_inj_on List.nodup_range).2 fun i hi j hj e => ?_
      have hi := List.mem_range.1 hi
      have hj := List.mem_range.1 hj
      have key : ∀ i j, i ≤ j → j ≤ n → x h i = x h j → i = j := by
        intro i j hij hj e
        obtain ⟨d, rfl⟩ : ∃ d, j = i + d := ⟨j - i, by omega⟩
        have := hback d h h i ho (fun a ha => hin a (by omega)) (fun a ha => hin a (by omega)) e
        cases d with
        | zero => rfl
        | succ d => exact absurd this (hnot h h d ho (hin d (by omega)))
      rcases Nat.le_total i j with h' | h'
      · exact key i j h' (by omega) e
      · exact (key j i h' (by omega) e.symm).symm
    have := (hnd.subperm (l₂ := allOriented fs) (fun y hy => by
      obtain ⟨i, hi, rfl⟩ := List.mem_map.1 hy
      exact hin i (by have := List.mem_range.1 hi; omega))).length_le
    rw [List.length_map, List.length_range] at this
    omega
  have hex : ∀ h, OnOutline fs h → ∃ n, (succ (x h n)).rev ∉ allOriented fs := by
    intro h ho
    by_contra hc
    push Not at hc
    have hin : ∀ j, x h j ∈ allOriented fs := fun j => by
      cases j with
      | zero => exact ho.1
      | succ j => rw [hxs]; exact hc j
    exact absurd (hdist h (allOriented fs).length ho fun j _ => hin j) (lt_irrefl _)
  have hn : ∀ h, ∃ n, OnOutline fs h → (succ (x h n)).rev ∉ allOriented fs ∧ ∀ i < n, (succ (x h i)).rev ∈ allOriented fs := by
    intro h
    by_cases ho : OnOutline fs h
    · refine ⟨Nat.find (hex h ho), fun _ => ⟨Nat.find_spec (hex h ho), fun i hi => ?_⟩⟩
      have := Nat.find_min (hex h ho) hi
      exact not_not.1 this
    · exact ⟨0, fun e => absurd e ho⟩
  choose n hn using hn
  have hin : ∀ h, OnOutline fs h → ∀ j ≤ n h, x h j ∈ allOriented fs := by
    intro h ho j hj
    cases j with
    | zero => exact ho.1
    | succ j => rw [hxs]; exact (hn h ho).2 j (by omega)
  have htip : ∀ h, OnOutline fs h → ∀ j ≤ n h, (x h j).tip = h.tip := by
    intro h ho j
    induction j with
    | zero => intro _; rfl
    | succ j ih =>
      intro hj
      rw [hxs]
      show (succ (x h j)).tail = _
      rw [(hsm _ (hin h ho j (by omega))).2, ih (by omega)]
  refine ⟨fun h => succ (x h (n h)), x, n, fun h ho => ⟨⟨(hsm _ (hin h ho _ le_rfl)).1, (hn h ho).1⟩, ?_, rfl, hdist h _ ho (hin h ho), fun i hi => ⟨hin h ho i hi, htip h ho i hi⟩,
    fun i hi => ?_, hsucc _ (hin h ho _ le_rfl)⟩, ?_⟩
  · rw [(hsm _ (hin h ho _ le_rfl)).2, htip h ho _ le_rfl]
  · rw [hxs, rev_rev]
    exact ⟨hsucc _ (hin h ho i (by omega)), (hsm _ (hin h ho i (by omega))).1⟩
  · intro h ho k ko e
    have e' := hsi _ (hin h ho _ le_rfl) _ (hin k ko _ le_rfl) e
    rcases Nat.le_total (n h) (n k) with hle | hle
    · obtain ⟨d, hd⟩ : ∃ d, n k = n h + d := ⟨n k - n h, by omega⟩
      rw [hd] at e'
      have := hback d h k (n h) ho (hin h ho) (fun j hj => hin k ko j (by omega)) e'
      cases d with
      | zero => exact this
      | succ d => exact absurd this (hnot h k d ho (hin k ko d (by omega)))
    · obtain ⟨d, hd⟩ : ∃ d, n h = n k + d := ⟨n h - n k, by omega⟩
      rw [hd] at e'
      have := hback d k h (n k) ko (hin k ko) (fun j hj => hin h ho j (by omega)) e'.symm
      cases d with
      | zero => exact this.symm
      | succ d => exact absurd this (hnot k h d ko (hin h ho d (by omega)))

end Verif.Bsp
