import Verif.Surface.Spec
import Mathlib.Data.List.Nodup
import Mathlib.Data.List.NodupEquivFin
import Mathlib.Data.Finset.Card
/-!
# Arrays of ids and rings
-/
namespace Verif.Surface

theorem bind_of {α β : Type} {x : Option α} {a : α} {f : α → Option β} (h : x = some a) : (x >>= f) = f a := by rw [h]; rfl

/-- One step of a `do` block. -/
macro "bstep " h:term : tactic => `(tactic| refine (bind_of $h).trans ?_)

/-! ### Arrays -/

theorem get_lt {a : Ids} {i x : Nat} (h : get a i = some x) : i < a.length := by
  unfold get at h
  by_contra hc
  rw [List.getElem?_eq_none (by omega)] at h
  cases h

theorem get_some {a : Ids} {i x : Nat} : get a i = some x ↔ a[i]? = some (some x) := by
  unfold get
  cases a[i]? <;> simp

theorem get_append {a : Ids} (n i : Nat) : get (a ++ List.replicate n none) i = get a i := by
  unfold get
  by_cases h : i < a.length
  · rw [List.getElem?_append_left h]
  · rw [List.getElem?_append_right (by omega), List.getElem?_replicate, List.getElem?_eq_none (l := a) (by omega)]
    split_ifs <;> rfl

theorem put_some {a : Ids} {i : Nat} (x : Nat) (h : i < a.length) : put a i x = some (a.set i (some x)) := by rw [put, if_pos h]

theorem get_set {a : Ids} {i : Nat} (x : Nat) (h : i < a.length) (j : Nat) : get (a.set i (some x)) j = if j = i then some x else get a j := by
  unfold get
  rw [List.getElem?_set]
  by_cases hj : i = j
  · subst hj; simp [h]
  · simp [hj, Ne.symm hj]

/-- `put` in one statement. -/
theorem put_spec {a : Ids} {i : Nat} (x : Nat) (h : i < a.length) :
    ∃ b, put a i x = some b ∧ b.length = a.length ∧ ∀ j, get b j = if j = i then some x else get a j :=
  ⟨_, put_some x h, by simp, get_set x h⟩

theorem setAll_spec {a : Ids} {l : List Nat} (x : Nat) (h : ∀ j ∈ l, j < a.length) :
    ∃ b, setAll a l x = some b ∧ b.length = a.length ∧ ∀ j, get b j = if j ∈ l then some x else get a j := by
  induction l generalizing a with
  | nil => exact ⟨a, rfl, rfl, by simp⟩
  | cons i l ih =>
    obtain ⟨b, hb, lb, gb⟩ := put_spec x (h i List.mem_cons_self)
    obtain ⟨c, hc, lc, gc⟩ := ih (a := b) (fun j hj => by rw [lb]; exact h j (List.mem_cons_of_mem _ hj))
    refine ⟨c, ?_, by rw [lc, lb], fun j => ?_⟩
    · simp only [setAll, List.foldlM_cons, hb, Option.bind_eq_bind, Option.bind_some]
      exact hc
    · rw [gc, gb]
      by_cases h1 : j ∈ l
      · simp [h1]
      · by_cases h2 : j = i <;> simp [h1, h2]

/-- The length, not unfolded by the arithmetic tactics. -/
def Len (a : Ids) (n : Nat) : Prop := a.length = n

theorem put_len {a : Ids} {i n : Nat} (x : Nat) (hl : Len a n) (h : i < n) :
    ∃ b, put a i x = some b ∧ Len b n ∧ ∀ j, get b j = if j = i then some x else get a j := by
  obtain ⟨b, h1, h2, h3⟩ := put_spec x (a := a) (i := i) (by rw [hl]; exact h)
  exact ⟨b, h1, h2.trans hl, h3⟩

theorem setAll_len {a : Ids} {l : List Nat} {n : Nat} (x : Nat) (hl : Len a n) (h : ∀ j ∈ l, j < n) :
    ∃ b, setAll a l x = some b ∧ Len b n ∧ ∀ j, get b j = if j ∈ l then some x else get a j := by
  obtain ⟨b, h1, h2, h3⟩ := setAll_spec x (a := a) (l := l) (fun j hj => by rw [hl]; exact h j hj)
  exact ⟨b, h1, h2.trans hl, h3⟩

/-! ### Chains -/

theorem chain_append {a : Ids} {x y z : Nat} {l r : List Nat} : Chain a x (l ++ y :: r) z ↔ Chain a x l y ∧ Chain a y r z := by
  induction l generalizing x with
  | nil => simp [Chain]
  | cons w l ih => simp [Chain, ih, and_assoc]

theorem chain_lt {a : Ids} {x z : Nat} {l : List Nat} (h : Chain a x l z) : ∀ y ∈ x :: l, y < a.length := by
  induction l generalizing x with
  | nil => simpa using get_lt h
  | cons w l ih =>
    intro y hy
    rcases List.mem_cons.1 hy with rfl | hy
    · exact get_lt h.1
    · exact ih h.2 y hy

theorem chain_congr {a b : Ids} {x z : Nat} {l : List Nat} (h : Chain a x l z) (hb : ∀ y ∈ x :: l, get b y = get a y) : Chain b x l z := by
  induction l generalizing x with
  | nil => rw [Chain, hb x (by simp)]; exact h
  | cons w l ih => exact ⟨by rw [hb x (by simp)]; exact h.1, ih h.2 fun y hy => hb y (List.mem_cons_of_mem _ hy)⟩

/-- The end of a chain is redirected. -/
theorem chain_last {a b : Ids} {x z z' : Nat} {l : List Nat} (h : Chain a x l z) (hn : (x :: l).Nodup)
    (hb : ∀ y ∈ x :: l, y ≠ (x :: l).getLast (by simp) → get b y = get a y) (hl : get b ((x :: l).getLast (by simp)) = some z') :
    Chain b x l z' := by
  induction l generalizing x with
  | nil => exact hl
  | cons w l ih =>
    rw [List.nodup_cons] at hn
    have e : (x :: w :: l).getLast (by simp) = (w :: l).getLast (by simp) := List.getLast_cons_cons
    refine ⟨?_, ih h.2 hn.2 (fun y hy hy' => hb y (List.mem_cons_of_mem _ hy) (by rw [e]; exact hy')) (by rw [← e]; exact hl)⟩
    rw [hb x (by simp) ?_]
    · exact h.1
    · rw [e]
      intro hc
      exact hn.1 (by rw [hc]; exact List.getLast_mem _)

theorem chain_last_get {a : Ids} {x z : Nat} {l : List Nat} (h : Chain a x l z) : get a ((x :: l).getLast (by simp)) = some z := by
  induction l generalizing x with
  | nil => exact h
  | cons w l ih => rw [List.getLast_cons_cons]; exact ih h.2

/-- The successor of an element of a chain. -/
theorem chain_get {a : Ids} {x z : Nat} {l : List Nat} (h : Chain a x l z) {y : Nat} (hy : y ∈ x :: l) :
    ∃ n, get a y = some n ∧ (n ∈ l ∨ n = z) := by
  induction l generalizing x with
  | nil =>
    rw [List.mem_singleton] at hy
    exact ⟨z, by rw [hy]; exact h, Or.inr rfl⟩
  | cons w l ih =>
    rcases List.mem_cons.1 hy with rfl | hy
    · exact ⟨w, h.1, Or.inl List.mem_cons_self⟩
    · obtain ⟨n, h1, h2⟩ := ih h.2 hy
      exact ⟨n, h1, h2.imp_left (List.mem_cons_of_mem _)⟩

/-! ### Rings -/

theorem Ring.mem {a : Ids} {h : Nat} {P : Nat → Prop} (r : Ring a h P) : P h := by
  obtain ⟨t, -, -, hm⟩ := r
  exact (hm h).1 List.mem_cons_self

theorem Ring.rebase {a : Ids} {h : Nat} {P : Nat → Prop} (r : Ring a h P) {x : Nat} (hx : P x) : Ring a x P := by
  obtain ⟨t, hc, hn, hm⟩ := r
  rcases List.mem_cons.1 ((hm x).2 hx) with rfl | hx'
  · exact ⟨t, hc, hn, hm⟩
  · obtain ⟨l, r, rfl⟩ := List.append_of_mem hx'
    obtain ⟨c1, c2⟩ := chain_append.1 hc
    refine ⟨r ++ h :: l, chain_append.2 ⟨c2, c1⟩, ?_, fun y => ?_⟩
    · have : (h :: (l ++ x :: r)).Perm (x :: (r ++ h :: l)) := by
        rw [← List.cons_append, ← List.cons_append]; exact List.perm_append_comm
      exact this.nodup_iff.1 hn
    · rw [← hm y]
      simp only [List.mem_cons, List.mem_append]
      tauto

theorem Ring.congr {a b : Ids} {h : Nat} {P : Nat → Prop} (r : Ring a h P) (hb : ∀ y, P y → get b y = get a y) : Ring b h P := by
  obtain ⟨t, hc, hn, hm⟩ := r
  exact ⟨t, chain_congr hc fun y hy => hb y ((hm y).1 hy), hn, hm⟩

theorem Ring.iff {a : Ids} {h : Nat} {P Q : Nat → Prop} (r : Ring a h P) (hb : ∀ y, P y ↔ Q y) : Ring a h Q := by
  obtain ⟨t, hc, hn, hm⟩ := r
  exact ⟨t, hc, hn, fun x => (hm x).trans (hb x)⟩

/-- The successor in a ring is in the ring. -/
theorem Ring.get {a : Ids} {h : Nat} {P : Nat → Prop} (r : Ring a h P) {x : Nat} (hx : P x) : ∃ n, get a x = some n ∧ P n := by
  obtain ⟨t, hc, hn, hm⟩ := r
  obtain ⟨n, h1, h2⟩ := chain_get hc ((hm x).2 hx)
  refine ⟨n, h1, (hm n).1 ?_⟩
  rcases h2 with h2 | rfl
  · exact List.mem_cons_of_mem _ h2
  · exact List.mem_cons_self

/-- Every element of a ring has exactly one predecessor in the ring. -/
theorem Ring.pred {a : Ids} {h : Nat} {P : Nat → Prop} (r : Ring a h P) : ∃ p, P p ∧ Surface.get a p = some h := by
  obtain ⟨t, hc, hn, hm⟩ := r
  exact ⟨_, (hm _).1 (List.getLast_mem (by simp)), chain_last_get hc⟩

theorem chain_inj {a : Ids} {x z y y' : Nat} {l : List Nat} (h : Chain a x l z) (hn : l.Nodup) (hz : z ∉ l) (hy : y ∈ x :: l) (hy' : y' ∈ x :: l)
    (e : get a y = get a y') : y = y' := by
  induction l generalizing x with
  | nil =>
    simp only [List.mem_singleton] at hy hy'
    rw [hy, hy']
  | cons w l ih =>
    have hn' := List.nodup_cons.1 hn
    have hz' : z ∉ l := fun h => hz (List.mem_cons_of_mem _ h)
    have key : ∀ u, u ∈ w :: l → get a u ≠ get a x := by
      intro u hu he
      obtain ⟨n, h1, h2⟩ := chain_get h.2 hu
      rw [h1, h.1] at he
      cases he
      rcases h2 with h2 | h2
      · exact hn'.1 h2
      · exact hz (by rw [← h2]; exact List.mem_cons_self)
    rcases List.mem_cons.1 hy with r1 | hy <;> rcases List.mem_cons.1 hy' with r2 | hy'
    · rw [r1, r2]
    · rw [r1] at e; exact absurd e.symm (key _ hy')
    · rw [r2] at e; exact absurd e (key _ hy)
    · exact ih h.2 hn'.2 hz' hy hy'

theorem Ring.inj {a : Ids} {h : Nat} {P : Nat → Prop} (r : Ring a h P) {x y : Nat} (hx : P x) (hy : P y) (e : Surface.get a x = Surface.get a y) :
    x = y := by
  obtain ⟨t, hc, hn, hm⟩ := r
  have hn' := List.nodup_cons.1 hn
  exact chain_inj hc hn'.2 hn'.1 ((hm x).2 hx) ((hm y).2 hy) e

theorem length_le_of_nodup {l : List Nat} {n : Nat} (hn : l.Nodup) (h : ∀ x ∈ l, x < n) : l.length ≤ n := by
  have := List.Subperm.length_le (List.subperm_of_subset hn (l₂ := List.range n) fun x hx => List.mem_range.2 (h x hx))
  simpa using this

theorem ringLoop_eq {a : Ids} {s x : Nat} {l : List Nat} (h : Chain a x l s) (hs : s ∉ l) {fuel : Nat} (hf : l.length < fuel) :
    ringLoop a s fuel x = some (x :: l) := by
  induction l generalizing x fuel with
  | nil =>
    obtain ⟨f, rfl⟩ : ∃ f, fuel = f + 1 := ⟨fuel - 1, by simp at hf; omega⟩
    have h : get a x = some s := h
    simp [ringLoop, h]
  | cons w l ih =>
    obtain ⟨f, rfl⟩ : ∃ f, fuel = f + 1 := ⟨fuel - 1, by simp at hf; omega⟩
    have h1 : get a x = some w := h.1
    have h2 : w ≠ s := fun e => hs (by rw [← e]; exact List.mem_cons_self)
    simp only [List.length_cons] at hf
    simp [ringLoop, h1, h2, ih h.2 (fun hm => hs (List.mem_cons_of_mem _ hm)) (fuel := f) (by omega)]

/-- The iterators return the whole ring. -/
theorem ringIter_eq {a : Ids} {h : Nat} {t : List Nat} (hc : Chain a h t h) (hn : (h :: t).Nodup) : ringIter a h = some (h :: t) := by
  refine ringLoop_eq hc (List.nodup_cons.1 hn).1 ?_
  have := length_le_of_nodup hn (chain_lt hc)
  simp only [List.length_cons] at this
  omega

theorem Ring.iter {a : Ids} {h : Nat} {P : Nat → Prop} (r : Ring a h P) : ∃ t, ringIter a h = some (h :: t) ∧ Chain a h t h ∧ (h :: t).Nodup ∧
    ∀ x, x ∈ h :: t ↔ P x := by
  obtain ⟨t, hc, hn, hm⟩ := r
  exact ⟨t, ringIter_eq hc hn, hc, hn, hm⟩

/-- A new element is put into a ring. -/
theorem Ring.insert {a b : Ids} {h : Nat} {P : Nat → Prop} (r : Ring a h P) {x : Nat} (hx : ¬ P x)
    (g1 : Surface.get b h = some x) (g2 : Surface.get b x = Surface.get a h) (g3 : ∀ y, P y → y ≠ h → Surface.get b y = Surface.get a y) :
    Ring b h fun y => P y ∨ y = x := by
  obtain ⟨t, hc, hn, hm⟩ := r
  have hn' := List.nodup_cons.1 hn
  have hxt : x ∉ h :: t := fun hx' => hx ((hm x).1 hx')
  refine ⟨x :: t, ⟨g1, ?_⟩, ?_, fun y => ?_⟩
  · cases t with
    | nil => rw [Chain, g2]; exact hc
    | cons w t =>
      refine ⟨g2.trans hc.1, chain_congr hc.2 fun y hy => g3 y ((hm y).1 (List.mem_cons_of_mem _ hy)) ?_⟩
      rintro rfl
      exact hn'.1 hy
  · simp only [List.nodup_cons, List.mem_cons, not_or] at hn hxt ⊢
    exact ⟨⟨fun e => hxt.1 e.symm, hn.1⟩, hxt.2, hn.2⟩
  · show _ ↔ P y ∨ y = x
    rw [← hm y]
    simp only [List.mem_cons]
    tauto

theorem insertHe_spec {a : Ids} {s x n : Nat} (hs : get a s = some n) (hx : x < a.length) (hne : x ≠ s) :
    ∃ b, insertHe a s x = some b ∧ b.length = a.length ∧ get b s = some x ∧ get b x = get a s ∧ ∀ j, j ≠ s → j ≠ x → get b j = get a j := by
  obtain ⟨b, hb, lb, gb⟩ := put_spec x (get_lt hs)
  obtain ⟨c, hc, lc, gc⟩ := put_spec (a := b) n (by rw [lb]; exact hx)
  refine ⟨c, ?_, by rw [lc, lb], ?_, ?_, fun j h1 h2 => ?_⟩
  · simp only [insertHe, hs, hb, Option.bind_eq_bind, Option.bind_some]; exact hc
  · rw [gc, if_neg hne.symm, gb, if_pos rfl]
  · rw [gc, if_pos rfl, hs]
  · rw [gc, if_neg h2, gb, if_neg h1]

/-- Inserting a fresh element next to one of its class. -/
theorem Rings.insert {a b : Ids} {key key' : Nat → Option Nat} (r : Rings a key) {s x : Nat} (hs : ∃ k, key s = some k) (hx : key x = none)
    (hk : ∀ j, key' j = if j = x then key s else key j)
    (g1 : get b s = some x) (g2 : get b x = get a s) (g3 : ∀ y, y ≠ s → y ≠ x → get b y = get a y) : Rings b key' := by
  obtain ⟨k0, hs⟩ := hs
  have hsx : s ≠ x := by rintro rfl; rw [hx] at hs; cases hs
  have main : Ring b s fun y => key' y = some k0 := by
    refine Ring.iff (Ring.insert (r s k0 hs) (x := x) (by rw [hx]; simp) g1 g2 fun y hy hys => g3 y hys ?_) fun y => ?_
    · rintro rfl; rw [hx] at hy; cases hy
    · rw [hk]
      by_cases hy : y = x
      · simp [hy, hs]
      · simp [hy]
  intro h k hh
  by_cases hkk : k = k0
  · subst hkk
    exact main.rebase hh
  · have hhx : h ≠ x := by
      rintro rfl
      rw [hk, if_pos rfl, hs] at hh
      cases hh; exact hkk rfl
    rw [hk, if_neg hhx] at hh
    refine Ring.iff (Ring.congr (r h k hh) fun y hy => g3 y ?_ ?_) fun y => ?_
    · rintro rfl; rw [hs] at hy; cases hy; exact hkk rfl
    · rintro rfl; rw [hx] at hy; cases hy
    · rw [hk]
      by_cases hy : y = x
      · subst hy
        simp only [hx, if_true, hs, reduceCtorEq, Option.some.injEq, false_iff]
        exact fun e => hkk e.symm
      · rw [if_neg hy]

/-- Writing a ring. -/
theorem ringSet_spec {a : Ids} {h : Nat} {t : List Nat} (hn : (h :: t).Nodup) (hl : ∀ j ∈ h :: t, j < a.length) :
    ∃ b, ringSet a (h :: t) = some b ∧ b.length = a.length ∧ (∀ j, j ∉ h :: t → get b j = get a j) ∧ Chain b h t h := by
  have gen : ∀ (t : List Nat) (x z : Nat) (a : Ids), (x :: t).Nodup → (∀ j ∈ x :: t, j < a.length) →
      ∃ b, ((x :: t).zip (t ++ [z])).foldlM (fun a w => put a w.1 w.2) a = some b ∧ b.length = a.length ∧
        (∀ j, j ∉ x :: t → get b j = get a j) ∧ Chain b x t z := by
    intro t
    induction t with
    | nil =>
      intro x z a hn hl
      obtain ⟨b, hb, lb, gb⟩ := put_spec z (hl x (by simp))
      refine ⟨b, by simp [hb], lb, fun j hj => ?_, ?_⟩
      · rw [gb, if_neg (by simpa using hj)]
      · rw [Chain, gb, if_pos rfl]
    | cons w t ih =>
      intro x z a hn hl
      obtain ⟨b, hb, lb, gb⟩ := put_spec w (hl x (by simp))
      have hn' := List.nodup_cons.1 hn
      obtain ⟨c, hc, lc, gc, cc⟩ := ih w z b hn'.2 (fun j hj => by rw [lb]; exact hl j (List.mem_cons_of_mem _ hj))
      refine ⟨c, ?_, by rw [lc, lb], fun j hj => ?_, ⟨?_, cc⟩⟩
      · simp only [List.cons_append, List.zip_cons_cons, List.foldlM_cons, hb, Option.bind_eq_bind, Option.bind_some]
        exact hc
      · rw [List.mem_cons, not_or] at hj
        rw [gc j hj.2, gb, if_neg hj.1]
      · rw [gc x hn'.1, gb, if_pos rfl]
  have e : (h :: t).rotate 1 = t ++ [h] := by simp
  simp only [ringSet, windows, e]
  exact gen t h h a hn hl

theorem ringSet_ring {a : Ids} {l : List Nat} (hne : l ≠ []) (hn : l.Nodup) (hl : ∀ j ∈ l, j < a.length) :
    ∃ b, ringSet a l = some b ∧ b.length = a.length ∧ (∀ j, j ∉ l → get b j = get a j) ∧ ∀ h ∈ l, Ring b h (· ∈ l) := by
  cases l with
  | nil => exact absurd rfl hne
  | cons x t =>
    obtain ⟨b, h1, h2, h3, h4⟩ := ringSet_spec hn hl
    exact ⟨b, h1, h2, h3, fun h hh => Ring.rebase ⟨t, h4, hn, fun _ => Iff.rfl⟩ hh⟩

end Verif.Surface
