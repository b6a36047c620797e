import Verif.DisjointSet.Spec
import Mathlib.Logic.Function.Basic
import Mathlib.Data.Finset.Card
import Mathlib.Data.Nat.Log
import Mathlib.Data.Finset.Range
import Mathlib.Algebra.BigOperators.Group.Finset.Basic
import Mathlib.Tactic.Linarith
/-!
# Helper lemmas for the disjoint-set model
-/
namespace Verif.DisjointSet

open Classical in
/-- `r` is the root reached from `x` by following the parent function `f`. -/
inductive RootOf (f : Nat → Nat) : Nat → Nat → Prop
  | root {x} : f x = x → RootOf f x x
  | step {x r} : f x ≠ x → RootOf f (f x) r → RootOf f x r

namespace RootOf
variable {f : Nat → Nat} {x y r r' : Nat}

theorem isRoot (h : RootOf f x r) : f r = r := by
  induction h <;> assumption

theorem unique (h : RootOf f x r) (h' : RootOf f x r') : r = r' := by
  induction h with
  | root hx => cases h' with
    | root => rfl
    | step h _ => exact absurd hx h
  | step hx _ ih => cases h' with
    | root h => exact absurd h hx
    | step _ h => exact ih h

theorem of_isRoot (h : f x = x) (h' : RootOf f x r) : r = x := (unique h' (.root h))

/-- Redirecting `x` to its root changes no root. -/
theorem compress_mp (hr : RootOf f x r) (h : RootOf f y r') : RootOf (Function.update f x r) y r' := by
  induction h with
  | @root y hy =>
    by_cases hyx : y = x
    · subst hyx
      have : r = y := of_isRoot hy hr
      subst this
      exact .root (by simp)
    · exact .root (by simp [Function.update_of_ne hyx, hy])
  | @step y r' hy hh ih =>
    by_cases hyx : y = x
    · subst hyx
      have h1 : r = r' := unique hr (.step hy hh)
      subst h1
      have hroot := isRoot hr
      by_cases hry : r = y
      · subst hry; exact absurd hroot hy
      · refine .step (by simpa using hry) ?_
        rw [Function.update_self]
        exact .root (by simp [Function.update_of_ne hry, hroot])
    · refine .step (by simpa [Function.update_of_ne hyx] using hy) ?_
      simpa [Function.update_of_ne hyx] using ih

theorem exists_of_rank {n : Nat} {rk : Nat → Nat} {L : Nat} (hlt : ∀ x < n, f x < n)
    (hrk : ∀ x < n, f x ≠ x → rk x < rk (f x)) (hL : ∀ x < n, rk x ≤ L) :
    ∀ k x, x < n → L - rk x ≤ k → ∃ r < n, RootOf f x r := by
  intro k
  induction k with
  | zero =>
    intro x hx hk
    by_cases h : f x = x
    · exact ⟨x, hx, .root h⟩
    · have := hrk x hx h; have := hL _ (hlt x hx); omega
  | succ k ih =>
    intro x hx hk
    by_cases h : f x = x
    · exact ⟨x, hx, .root h⟩
    · have h1 := hrk x hx h
      have h2 := hL _ (hlt x hx)
      obtain ⟨r, hr, h3⟩ := ih (f x) (hlt x hx) (by omega)
      exact ⟨r, hr, .step h h3⟩

theorem compress_iff (hex : ∀ y, ∃ q, RootOf f y q) (hr : RootOf f x r) :
    RootOf (Function.update f x r) y r' ↔ RootOf f y r' := by
  constructor
  · intro h
    obtain ⟨q, hq⟩ := hex y
    have := unique h (compress_mp hr hq)
    subst this; exact hq
  · exact compress_mp hr

/-- Hanging root `a` below root `b`. -/
theorem link_mp {a b : Nat} (ha : f a = a) (hb : f b = b) (hab : a ≠ b) (h : RootOf f y r) :
    RootOf (Function.update f a b) y (if r = a then b else r) := by
  have hbr : RootOf (Function.update f a b) b b := .root (by simp [Function.update_of_ne hab.symm, hb])
  induction h with
  | @root y hy =>
    by_cases hya : y = a
    · subst hya
      rw [if_pos rfl]
      exact .step (by simpa using hab.symm) (by simpa using hbr)
    · rw [if_neg hya]; exact .root (by simp [Function.update_of_ne hya, hy])
  | @step y r hy hh ih =>
    have hya : y ≠ a := by rintro rfl; exact hy ha
    exact .step (by simpa [Function.update_of_ne hya] using hy) (by simpa [Function.update_of_ne hya] using ih)

end RootOf

theorem _root_.List.getD_set_lt {l : List Nat} {i v : Nat} (h : i < l.length) :
    (fun j => (l.set i v).getD j j) = Function.update (fun j => l.getD j j) i v := by
  funext j
  by_cases hj : j = i
  · subst hj; simp [List.getD_eq_getElem?_getD, h]
  · simp [List.getD_eq_getElem?_getD, Function.update_of_ne hj, List.getElem?_set_ne (Ne.symm hj)]

/-- The parent function. -/
def DS.pa (s : DS) (x : Nat) : Nat := s.parent.getD x x
/-- The rank function. -/
def DS.rk (s : DS) (x : Nat) : Nat := s.rank.getD x x

open Classical in
/-- The members of the class of a root. -/
noncomputable def cls (n : Nat) (f : Nat → Nat) (r : Nat) : Finset Nat :=
  (Finset.range n).filter (fun x => RootOf f x r)

/-- The roots. -/
def roots (n : Nat) (f : Nat → Nat) : Finset Nat := (Finset.range n).filter (fun x => f x = x)

/-- Representation invariant. -/
structure Inv (n : Nat) (s : DS) : Prop where
  lenP : s.parent.length = n
  lenR : s.rank.length = n
  lt : ∀ x < n, s.pa x < n
  rank : ∀ x < n, s.pa x ≠ x → s.rk x < s.rk (s.pa x)
  size : ∀ x < n, s.pa x = x → 2 ^ s.rk x ≤ (cls n s.pa x).card
  groups : s.nGroups = (roots n s.pa).card

/-- `s` represents the relation `R`. -/
def Repr (n : Nat) (s : DS) (pairs : List (Nat × Nat)) : Prop :=
  ∀ x < n, ∀ y < n, ((∃ r, RootOf s.pa x r ∧ RootOf s.pa y r) ↔ Conn pairs x y)

theorem pa_of_ge {s : DS} {x : Nat} (h : s.parent.length ≤ x) : s.pa x = x := by
  simp [DS.pa, List.getD_eq_getElem?_getD, h]

theorem rank_le_root {n : Nat} {s : DS} (hs : Inv n s) {x r : Nat} (h : RootOf s.pa x r) (hx : x < n) :
    r < n ∧ s.rk x ≤ s.rk r := by
  induction h with
  | root => exact ⟨hx, le_rfl⟩
  | @step x r h _ ih =>
    have h1 := hs.rank _ hx h
    have := ih (hs.lt _ hx)
    exact ⟨this.1, by omega⟩

theorem Inv.exists_root_any {n : Nat} {s : DS} (hs : Inv n s) (x : Nat) : ∃ r, RootOf s.pa x r := by
  by_cases hx : x < n
  · obtain ⟨r, _, h⟩ := RootOf.exists_of_rank (f := s.pa) (rk := s.rk) (L := (Finset.range n).sup s.rk) hs.lt hs.rank
      (fun x hx => Finset.le_sup (f := s.rk) (Finset.mem_range.2 hx)) _ x hx le_rfl
    exact ⟨r, h⟩
  · exact ⟨x, .root (pa_of_ge (by rw [hs.lenP]; omega))⟩

theorem Inv.exists_root {n : Nat} {s : DS} (hs : Inv n s) {x : Nat} (hx : x < n) : ∃ r < n, RootOf s.pa x r := by
  obtain ⟨r, h⟩ := hs.exists_root_any x
  exact ⟨r, (rank_le_root hs h hx).1, h⟩

/-- Ranks are logarithmic. -/
theorem Inv.rank_le_log {n : Nat} {s : DS} (hs : Inv n s) {x : Nat} (hx : x < n) : s.rk x ≤ Nat.log 2 n := by
  obtain ⟨r, hr, h⟩ := hs.exists_root hx
  have h1 := (rank_le_root hs h hx).2
  have h2 := hs.size r hr h.isRoot
  have h3 : (cls n s.pa r).card ≤ n := by
    classical
    have := Finset.card_le_card (Finset.filter_subset (fun x => RootOf s.pa x r) (Finset.range n))
    unfold cls
    rw [Finset.card_range] at this
    convert this
  exact h1.trans (Nat.le_log_of_pow_le (by norm_num) (h2.trans h3))

/-- What one `findSet` does. -/
structure FindOk (n : Nat) (s s' : DS) (x r : Nat) : Prop where
  inv : Inv n s'
  root : RootOf s.pa x r
  same : ∀ y q, RootOf s'.pa y q ↔ RootOf s.pa y q
  groups : s'.nGroups = s.nGroups
  rank : s'.rank = s.rank

theorem findSet_ok {n : Nat} : ∀ fuel s x, Inv n s → x < n → Nat.log 2 n - s.rk x < fuel →
    ∃ s' r, findSet fuel s x = some (s', r) ∧ FindOk n s s' x r := by
  intro fuel
  induction fuel with
  | zero => intro s x _ _ h; omega
  | succ fuel ih =>
    intro s x hs hx hf
    have hp : s.parent[x]? = some (s.pa x) := by
      have : x < s.parent.length := by rw [hs.lenP]; exact hx
      simp [DS.pa, List.getD_eq_getElem?_getD, this]
    unfold findSet
    rw [hp]
    by_cases hxp : x = s.pa x
    · refine ⟨s, s.pa x, ?_, hs, ?_, fun _ _ => Iff.rfl, rfl, rfl⟩
      · simp [← hxp]
      · rw [← hxp]; exact .root hxp.symm
    · have hne : s.pa x ≠ x := fun h => hxp h.symm
      have h1 := hs.rank x hx hne
      have h2 := hs.rank_le_log (hs.lt x hx)
      obtain ⟨s', r, he, hok⟩ := ih s (s.pa x) hs (hs.lt x hx) (by omega)
      have hxl : x < s'.parent.length := by rw [hok.inv.lenP]; exact hx
      have hroot : RootOf s.pa x r := .step hne hok.root
      have hroot' : RootOf s'.pa x r := (hok.same x r).2 hroot
      have hrn : r < n := (rank_le_root hs hroot hx).1
      let s'' : DS := { s' with parent := s'.parent.set x r }
      have hpa : s''.pa = Function.update s'.pa x r := List.getD_set_lt hxl
      have hsame : ∀ y q, RootOf s''.pa y q ↔ RootOf s'.pa y q := by
        intro y q; rw [hpa]
        exact RootOf.compress_iff (fun y => hok.inv.exists_root_any y) hroot'
      have hisroot : ∀ y, s''.pa y = y ↔ s'.pa y = y := by
        intro y
        constructor
        · intro h; exact ((hsame y y).1 (.root h)).isRoot
        · intro h; exact ((hsame y y).2 (.root h)).isRoot
      refine ⟨s'', r, ?_, ?_, hroot, fun y q => (hsame y q).trans (hok.same y q), hok.groups, hok.rank⟩
      · simp [hxp, he, hxl, s'']
      · have hi := hok.inv
        refine ⟨by simpa [s''] using hi.lenP, hi.lenR, ?_, ?_, ?_, ?_⟩
        · intro y hy
          rw [hpa]; by_cases hyx : y = x
          · subst hyx; simpa using hrn
          · rw [Function.update_of_ne hyx]; exact hi.lt y hy
        · intro y hy
          rw [hpa]
          change Function.update s'.pa x r y ≠ y → s'.rk y < s'.rk (Function.update s'.pa x r y)
          by_cases hyx : y = x
          · subst hyx
            rw [Function.update_self]
            intro hry
            cases hroot' with
            | root h => exact absurd rfl hry
            | step h h' =>
              have := hi.rank y hy h
              have := (rank_le_root hi h' (hi.lt y hy)).2
              omega
          · rw [Function.update_of_ne hyx]; exact hi.rank y hy
        · intro y hy h
          have := hi.size y hy ((hisroot y).1 h)
          have hc : cls n s''.pa y = cls n s'.pa y := by
            unfold cls; congr 1; funext z; exact propext (hsame z y)
          rw [hc]; exact this
        · have hc : roots n s''.pa = roots n s'.pa := by
            unfold roots
            ext z; simp [hisroot]
          rw [hc]; exact hi.groups

theorem cls_link {n : Nat} {f : Nat → Nat} {a b : Nat} (hex : ∀ y, ∃ q, RootOf f y q) (ha : f a = a) (hb : f b = b)
    (hab : a ≠ b) (y r : Nat) : RootOf (Function.update f a b) y r ↔
      (∃ q, RootOf f y q ∧ r = if q = a then b else q) := by
  constructor
  · intro h
    obtain ⟨q, hq⟩ := hex y
    exact ⟨q, hq, RootOf.unique h (RootOf.link_mp ha hb hab hq)⟩
  · rintro ⟨q, hq, rfl⟩
    exact RootOf.link_mp ha hb hab hq

/-- Joining two distinct roots of the parent function: what holds whichever way the link goes. -/
theorem link_aux {n : Nat} {s s' : DS} (hs : Inv n s) {a b : Nat} (han : a < n) (hbn : b < n) (ha : s.pa a = a)
    (hb : s.pa b = b) (hab : a ≠ b) (hrk : s.rk a ≤ s.rk b)
    (hpa : s'.pa = Function.update s.pa a b)
    (hlen : s'.parent.length = n) (hlenR : s'.rank.length = n)
    (hrk' : ∀ x, s'.rk x = if x = b ∧ s.rk a = s.rk b then s.rk b + 1 else s.rk x)
    (hg : s'.nGroups = s.nGroups - 1) :
    Inv n s' ∧ ∀ y r, RootOf s'.pa y r ↔ ∃ q, RootOf s.pa y q ∧ r = if q = a then b else q := by
  have hex := fun y => hs.exists_root_any y
  have hR : ∀ y r, RootOf s'.pa y r ↔ ∃ q, RootOf s.pa y q ∧ r = if q = a then b else q := by
    intro y r; rw [hpa]; exact cls_link (n := n) hex ha hb hab y r
  refine ⟨⟨hlen, hlenR, ?_, ?_, ?_, ?_⟩, hR⟩
  · intro x hx
    rw [hpa]; by_cases h : x = a
    · subst h; simpa using hbn
    · rw [Function.update_of_ne h]; exact hs.lt x hx
  · intro x hx
    rw [hpa]
    by_cases h : x = a
    · subst h
      rw [Function.update_self, hrk', hrk']
      intro _
      rw [if_neg (by tauto)]
      split <;> rename_i h1
      · omega
      · have : s.rk x ≠ s.rk b := fun h => h1 ⟨rfl, h⟩
        omega
    · rw [Function.update_of_ne h]
      intro hne
      have h1 := hs.rank x hx hne
      rw [hrk', hrk']
      have hxb : x ≠ b := by rintro rfl; exact hne hb
      rw [if_neg (by tauto)]
      split <;> rename_i h2
      · rw [h2.1] at h1; omega
      · exact h1
  · intro x hx hroot
    have hxa : x ≠ a := by
      rintro rfl; rw [hpa, Function.update_self] at hroot; exact hab hroot.symm
    have hroot0 : s.pa x = x := by rw [hpa, Function.update_of_ne hxa] at hroot; exact hroot
    have h0 := hs.size x hx hroot0
    by_cases hxb : x = b
    · subst hxb
      have hunion : cls n s'.pa x = cls n s.pa a ∪ cls n s.pa x := by
        ext y
        simp only [cls, Finset.mem_filter, Finset.mem_union, hR, ← and_or_left]
        refine and_congr_right fun _ => ?_
        constructor
        · rintro ⟨q, hq, h⟩
          by_cases hqa : q = a
          · subst hqa; exact .inl hq
          · rw [if_neg hqa] at h; subst h; exact .inr hq
        · rintro (h | h)
          · exact ⟨a, h, by simp⟩
          · exact ⟨x, h, by simp⟩
      have hdisj : Disjoint (cls n s.pa a) (cls n s.pa x) := by
        rw [Finset.disjoint_left]
        intro y hy hy'
        simp only [cls, Finset.mem_filter] at hy hy'
        exact hab (RootOf.unique hy.2 hy'.2)
      rw [hunion, Finset.card_union_of_disjoint hdisj, hrk']
      have hA := hs.size a han ha
      split <;> rename_i h2
      · rw [h2.2] at hA
        rw [pow_succ]; omega
      · omega
    · rw [hrk', if_neg (by tauto)]
      refine h0.trans (Finset.card_le_card ?_)
      intro y hy
      simp only [cls, Finset.mem_filter] at hy ⊢
      exact ⟨hy.1, (hR y x).2 ⟨x, hy.2, by simp [hxa]⟩⟩
  · have : roots n s'.pa = (roots n s.pa).erase a := by
      ext x
      simp only [roots, Finset.mem_filter, Finset.mem_erase, hpa]
      by_cases h : x = a
      · subst h; simp [hab.symm]
      · simp [Function.update_of_ne h, h]
    rw [this, Finset.card_erase_of_mem, hg, hs.groups]
    simp [roots, han, ha]

theorem rk_set {s : DS} {i v : Nat} (h : i < s.rank.length) (x : Nat) :
    (s.rank.set i v).getD x x = if x = i then v else s.rk x := by
  by_cases hx : x = i
  · subst hx; simp [List.getD_eq_getElem?_getD, h]
  · simp [List.getD_eq_getElem?_getD, hx, List.getElem?_set_ne (Ne.symm hx), DS.rk]

/-- What one `link` of two roots does. -/
theorem link_ok {n : Nat} {s : DS} (hs : Inv n s) {x y : Nat} (hx : x < n) (hy : y < n) (hrx : s.pa x = x)
    (hry : s.pa y = y) : ∃ s', link s x y = some s' ∧ Inv n s' ∧
      ∀ u v, (∃ r, RootOf s'.pa u r ∧ RootOf s'.pa v r) ↔
        (∃ q q', RootOf s.pa u q ∧ RootOf s.pa v q' ∧ (q = q' ∨ (q = x ∧ q' = y) ∨ (q = y ∧ q' = x))) := by
  have key : ∀ (s' : DS) (a b : Nat), a ≠ b → (∀ y r, RootOf s'.pa y r ↔ ∃ q, RootOf s.pa y q ∧ r = if q = a then b else q) →
      ∀ u v, (∃ r, RootOf s'.pa u r ∧ RootOf s'.pa v r) ↔
        (∃ q q', RootOf s.pa u q ∧ RootOf s.pa v q' ∧ (q = q' ∨ (q = a ∧ q' = b) ∨ (q = b ∧ q' = a))) := by
    intro s' a b hab hR u v
    simp only [hR]
    constructor
    · rintro ⟨r, ⟨q, hq, h1⟩, q', hq', h2⟩
      refine ⟨q, q', hq, hq', ?_⟩
      by_cases hqa : q = a <;> by_cases hqa' : q' = a <;> simp [hqa, hqa'] at h1 h2 ⊢ <;> omega
    · rintro ⟨q, q', hq, hq', h⟩
      refine ⟨if q = a then b else q, ⟨q, hq, rfl⟩, q', hq', ?_⟩
      by_cases hqa : q = a <;> by_cases hqa' : q' = a <;> simp [hqa, hqa'] at h ⊢ <;> omega
  unfold link
  by_cases hxy : x = y
  · subst hxy
    refine ⟨s, by simp, hs, ?_⟩
    intro u v
    constructor
    · rintro ⟨r, h, h'⟩; exact ⟨r, r, h, h', .inl rfl⟩
    · rintro ⟨q, q', h, h', hh⟩
      have : q = q' := by omega
      subst this; exact ⟨q, h, h'⟩
  · rw [if_neg hxy]
    have hlx : x < s.rank.length := by rw [hs.lenR]; exact hx
    have hly : y < s.rank.length := by rw [hs.lenR]; exact hy
    have hpx : x < s.parent.length := by rw [hs.lenP]; exact hx
    have hpy : y < s.parent.length := by rw [hs.lenP]; exact hy
    have e1 : s.rank[x]? = some (s.rk x) := by simp [DS.rk, List.getD_eq_getElem?_getD, hlx]
    have e2 : s.rank[y]? = some (s.rk y) := by simp [DS.rk, List.getD_eq_getElem?_getD, hly]
    have hpos : s.nGroups ≠ 0 := by
      rw [hs.groups]
      exact Finset.card_ne_zero_of_mem (a := x) (by simp [roots, hx, hrx])
    rw [e1, e2]
    by_cases hgt : s.rk x > s.rk y
    · have hne : s.rk y ≠ s.rk x := by omega
      let s' : DS := { s with parent := s.parent.set y x, nGroups := s.nGroups - 1 }
      have := link_aux (s' := s') hs hy hx hry hrx (Ne.symm hxy) hgt.le (List.getD_set_lt hpy)
        (by simpa [s'] using hs.lenP) hs.lenR (by intro z; rw [if_neg (by tauto)]; rfl) rfl
      refine ⟨s', by simp [hpos, hgt, hpy, s'], this.1, ?_⟩
      intro u v
      rw [key s' y x (Ne.symm hxy) this.2]
      constructor <;> (rintro ⟨q, q', h, h', hh⟩; exact ⟨q, q', h, h', by omega⟩)
    · let s' : DS := { parent := s.parent.set x y
                       rank := if s.rk x = s.rk y then s.rank.set y (s.rk y + 1) else s.rank
                       nGroups := s.nGroups - 1 }
      have hrk' : ∀ z, s'.rk z = if z = y ∧ s.rk x = s.rk y then s.rk y + 1 else s.rk z := by
        intro z
        by_cases he : s.rk x = s.rk y
        · have : s'.rk z = (s.rank.set y (s.rk y + 1)).getD z z := by
            change (if s.rk x = s.rk y then s.rank.set y (s.rk y + 1) else s.rank).getD z z = _
            rw [if_pos he]
          rw [this, rk_set hly]; simp [he]
        · have : s'.rk z = s.rk z := by
            change (if s.rk x = s.rk y then s.rank.set y (s.rk y + 1) else s.rank).getD z z = _
            rw [if_neg he]; rfl
          rw [this]; simp [he]
      have := link_aux (s' := s') hs hx hy hrx hry hxy (by omega) (List.getD_set_lt hpx)
        (by simpa [s'] using hs.lenP) (by simp only [s']; split <;> simp [hs.lenR]) hrk' rfl
      exact ⟨s', by simp [hpos, hgt, hpx, s'], this.1, key s' x y hxy this.2⟩

/-- Adding one pair to the relation. -/
theorem conn_cons {pairs : List (Nat × Nat)} {x y : Nat} (u v : Nat) :
    Conn ((x, y) :: pairs) u v ↔ (Conn pairs u v ∨ (Conn pairs u x ∧ Conn pairs y v) ∨ (Conn pairs u y ∧ Conn pairs x v)) := by
  constructor
  · intro h
    induction h with
    | pair h =>
      rcases List.mem_cons.1 h with h | h
      · cases h; exact .inr (.inl ⟨.refl _, .refl _⟩)
      · exact .inl (.pair h)
    | refl => exact .inl (.refl _)
    | symm _ ih =>
      rcases ih with h | ⟨h, h'⟩ | ⟨h, h'⟩
      · exact .inl h.symm
      · exact .inr (.inr ⟨h'.symm, h.symm⟩)
      · exact .inr (.inl ⟨h'.symm, h.symm⟩)
    | trans _ _ ih ih' =>
      rcases ih with h | ⟨h, h'⟩ | ⟨h, h'⟩ <;> rcases ih' with k | ⟨k, k'⟩ | ⟨k, k'⟩
      · exact .inl (h.trans k)
      · exact .inr (.inl ⟨h.trans k, k'⟩)
      · exact .inr (.inr ⟨h.trans k, k'⟩)
      · exact .inr (.inl ⟨h, h'.trans k⟩)
      · exact .inr (.inl ⟨h, k'⟩)
      · exact .inl (h.trans k')
      · exact .inr (.inr ⟨h, h'.trans k⟩)
      · exact .inl (h.trans k')
      · exact .inr (.inr ⟨h, k'⟩)
  · have mono : ∀ {a b}, Conn pairs a b → Conn ((x, y) :: pairs) a b := by
      intro a b h
      induction h with
      | pair h => exact .pair (List.mem_cons_of_mem _ h)
      | refl => exact .refl _
      | symm _ ih => exact ih.symm
      | trans _ _ ih ih' => exact ih.trans ih'
    have hxy : Conn ((x, y) :: pairs) x y := .pair (by simp)
    rintro (h | ⟨h, h'⟩ | ⟨h, h'⟩)
    · exact mono h
    · exact (mono h).trans (hxy.trans (mono h'))
    · exact (mono h).trans (hxy.symm.trans (mono h'))

theorem FindOk.repr {n : Nat} {s s' : DS} {x r : Nat} {pairs : List (Nat × Nat)} (h : FindOk n s s' x r)
    (hr : Repr n s pairs) : Repr n s' pairs := by
  intro u hu v hv
  rw [← hr u hu v hv]
  simp only [h.same]

theorem merge_ok {n : Nat} {s : DS} {pairs : List (Nat × Nat)} {fuel x y : Nat} (hf : Nat.log 2 n < fuel)
    (hs : Inv n s) (hr : Repr n s pairs) (hx : x < n) (hy : y < n) :
    ∃ s', merge fuel s x y = some s' ∧ Inv n s' ∧ Repr n s' ((x, y) :: pairs) := by
  obtain ⟨s1, a, e1, h1⟩ := findSet_ok fuel s x hs hx (by omega)
  obtain ⟨s2, b, e2, h2⟩ := findSet_ok fuel s1 y h1.inv hy (by omega)
  have ha2 : RootOf s2.pa x a := (h2.same x a).2 ((h1.same x a).2 h1.root)
  have hb2 : RootOf s2.pa y b := (h2.same y b).2 h2.root
  have han := (rank_le_root h2.inv ha2 hx).1
  have hbn := (rank_le_root h2.inv hb2 hy).1
  obtain ⟨s', e', hi, hc⟩ := link_ok h2.inv han hbn ha2.isRoot hb2.isRoot
  have hr2 : Repr n s2 pairs := h2.repr (h1.repr hr)
  refine ⟨s', by simp [merge, e1, e2, e'], hi, ?_⟩
  intro u hu v hv
  rw [hc, conn_cons, ← hr2 u hu v hv, ← hr2 u hu x hx, ← hr2 y hy v hv, ← hr2 u hu y hy, ← hr2 x hx v hv]
  constructor
  · rintro ⟨q, q', h, h', hh⟩
    rcases hh with rfl | ⟨rfl, rfl⟩ | ⟨rfl, rfl⟩
    · exact .inl ⟨q, h, h'⟩
    · exact .inr (.inl ⟨⟨_, h, ha2⟩, _, hb2, h'⟩)
    · exact .inr (.inr ⟨⟨_, h, hb2⟩, _, ha2, h'⟩)
  · rintro (⟨q, h, h'⟩ | ⟨⟨q, h, h'⟩, q', k, k'⟩ | ⟨⟨q, h, h'⟩, q', k, k'⟩)
    · exact ⟨q, q, h, h', .inl rfl⟩
    · exact ⟨q, q', h, k', .inr (.inl ⟨RootOf.unique h' ha2, RootOf.unique k hb2⟩)⟩
    · exact ⟨q, q', h, k', .inr (.inr ⟨RootOf.unique h' hb2, RootOf.unique k ha2⟩)⟩

/-! ### `output` -/

theorem entryPush_spec {m : List (Nat × List Nat)} {p i : Nat} (k : Nat) :
    ((entryPush m p i).map Prod.fst = if p ∈ m.map Prod.fst then m.map Prod.fst else m.map Prod.fst ++ [p]) ∧
    ((m.map Prod.fst).Nodup → ∀ v, (k, v) ∈ entryPush m p i ↔
      (k ≠ p ∧ (k, v) ∈ m) ∨ (k = p ∧ ((∃ w, (k, w) ∈ m ∧ v = w ++ [i]) ∨ (p ∉ m.map Prod.fst ∧ v = [i])))) := by
  induction m with
  | nil => simp [entryPush]
  | cons a m ih =>
    obtain ⟨k0, v0⟩ := a
    unfold entryPush
    by_cases h : k0 = p
    · subst h
      constructor
      · simp
      · intro hnd v
        simp only [if_true, List.mem_cons, List.map_cons, List.nodup_cons] at hnd ⊢
        have hk0 : ∀ w, (k0, w) ∉ m := fun w hw => hnd.1 (List.mem_map_of_mem (f := Prod.fst) hw)
        by_cases hk : k = k0
        · subst hk; simp [hk0]
        · simp [hk]
    · rw [if_neg h]
      obtain ⟨ih1, ih2⟩ := ih
      constructor
      · simp only [List.map_cons, ih1, List.mem_cons]
        have : ¬ p = k0 := fun e => h e.symm
        simp only [this, false_or]
        split <;> simp
      · intro hnd v
        simp only [List.map_cons, List.nodup_cons] at hnd
        simp only [List.mem_cons, ih2 hnd.2 v, List.map_cons, Prod.mk.injEq]
        have hpk : ¬ p = k0 := fun e => h e.symm
        by_cases hk : k = k0
        · subst hk; simp [h]
        · simp [hk, hpk]

open Classical in
/-- State of the loop of `output`, after the elements of `done`. -/
structure OutInv (R : Nat → Nat → Prop) (done : List Nat) (m : List (Nat × List Nat)) : Prop where
  nodup : (m.map Prod.fst).Nodup
  mem : ∀ k v, (k, v) ∈ m ↔ (v ≠ [] ∧ v = done.filter (fun x => R x k))

open Classical in
theorem OutInv.key_mem {R : Nat → Nat → Prop} {done m} (h : OutInv R done m) (k : Nat) :
    k ∈ m.map Prod.fst ↔ done.filter (fun x => R x k) ≠ [] := by
  constructor
  · intro hk
    obtain ⟨⟨k', v⟩, hv, rfl⟩ := List.mem_map.1 hk
    obtain ⟨h1, h2⟩ := (h.mem _ _).1 hv
    rw [← h2]; exact h1
  · intro hk
    exact List.mem_map.2 ⟨(k, _), (h.mem k _).2 ⟨hk, rfl⟩, rfl⟩

theorem outputLoop_ok {n : Nat} {fuel : Nat} (hf : Nat.log 2 n < fuel) (R : Nat → Nat → Prop) :
    ∀ (is done : List Nat) (s : DS) (m : List (Nat × List Nat)), Inv n s → (∀ i ∈ is, i < n) →
      (∀ x q, RootOf s.pa x q ↔ R x q) → OutInv R done m →
      ∃ s' m', outputLoop fuel is s m = some (s', m') ∧ Inv n s' ∧ s'.nGroups = s.nGroups ∧
        (∀ x q, RootOf s'.pa x q ↔ R x q) ∧ OutInv R (done ++ is) m' := by
  intro is
  induction is with
  | nil => intro done s m hs _ hR ho; exact ⟨s, m, rfl, hs, rfl, hR, by simpa using ho⟩
  | cons i is ih =>
    intro done s m hs hin hR ho
    obtain ⟨s1, p, e1, h1⟩ := findSet_ok fuel s i hs (hin i (by simp)) (by omega)
    have hp : R i p := (hR _ _).1 h1.root
    have hR1 : ∀ x q, RootOf s1.pa x q ↔ R x q := fun x q => (h1.same x q).trans (hR x q)
    have hfun : ∀ {x q q'}, R x q → R x q' → q = q' := by
      intro x q q' a b
      exact RootOf.unique ((hR _ _).2 a) ((hR _ _).2 b)
    have ho1 : OutInv R (done ++ [i]) (entryPush m p i) := by
      classical
      constructor
      · rw [(entryPush_spec (m := m) (p := p) (i := i) 0).1]
        split
        · exact ho.nodup
        · rename_i h
          rw [List.nodup_append]
          refine ⟨ho.nodup, by simp, ?_⟩
          intro a ha b hb
          simp only [List.mem_singleton] at hb
          rintro rfl; subst hb; exact h ha
      · intro k v
        rw [(entryPush_spec (m := m) (p := p) (i := i) k).2 ho.nodup v]
        have hfil : (done ++ [i]).filter (fun x => R x k) = done.filter (fun x => R x k) ++ (if k = p then [i] else []) := by
          rw [List.filter_append]
          congr 1
          by_cases hk : k = p
          · subst hk; simp [hp]
          · have : ¬ R i k := fun h => hk (hfun h hp)
            simp [this, hk]
        simp only [hfil]
        by_cases hk : k = p
        · subst hk
          simp only [ne_eq, not_true_eq_false, false_and, true_and, if_true, false_or]
          constructor
          · rintro (⟨w, hw, rfl⟩ | ⟨hk, rfl⟩)
            · obtain ⟨_, rfl⟩ := (ho.mem _ _).1 hw
              exact ⟨by simp, rfl⟩
            · refine ⟨by simp, ?_⟩
              rw [ho.key_mem, not_not] at hk
              rw [hk]; rfl
          · rintro ⟨_, rfl⟩
            by_cases hnil : done.filter (fun x => R x k) = []
            · right
              refine ⟨?_, by rw [hnil]; rfl⟩
              rw [ho.key_mem, not_not]
              exact hnil
            · left
              exact ⟨_, (ho.mem k _).2 ⟨hnil, rfl⟩, rfl⟩
        · simp only [ne_eq, hk, not_false_eq_true, true_and, false_and, or_false, if_false, List.append_nil]
          exact ho.mem k v
    obtain ⟨s', m', e, hi, hg, hr, ho'⟩ := ih (done ++ [i]) s1 (entryPush m p i) h1.inv (fun j hj => hin j (by simp [hj])) hR1 ho1
    refine ⟨s', m', by simp [outputLoop, e1, e], hi, hg.trans h1.groups, hr, by simpa using ho'⟩

theorem output_ok {n : Nat} {fuel : Nat} {s : DS} (hf : Nat.log 2 n < fuel) (hs : Inv n s) :
    ∃ s' m, output fuel s = some (s', m) ∧ Inv n s' ∧ s'.nGroups = s.nGroups ∧
      (∀ x q, RootOf s'.pa x q ↔ RootOf s.pa x q) ∧ OutInv (RootOf s.pa) (List.range n) m := by
  unfold output
  rw [hs.lenP]
  simpa using outputLoop_ok hf (RootOf s.pa) (List.range n) [] s [] hs (by simp) (fun _ _ => Iff.rfl)
    ⟨by simp, by simp⟩

/-! ### Initial state and histories -/

theorem new_pa (n x : Nat) : (new n).pa x = x := by
  by_cases h : x < n <;> simp [DS.pa, new, List.getD_eq_getElem?_getD, h]

theorem new_inv (n : Nat) : Inv n (new n) := by
  refine ⟨by simp [new], by simp [new], fun x hx => by rwa [new_pa], fun x hx h => absurd (new_pa n x) h, ?_, ?_⟩
  · intro x hx _
    have : (new n).rk x = 0 := by simp [DS.rk, new, List.getD_eq_getElem?_getD, hx]
    rw [this]
    simp only [pow_zero]
    exact Finset.card_pos.2 ⟨x, by simp [cls, hx, RootOf.root (new_pa n x)]⟩
  · simp only [roots, new_pa]
    simp [new]

theorem new_repr (n : Nat) : Repr n (new n) [] := by
  intro x _ y _
  constructor
  · rintro ⟨r, h, h'⟩
    have := h.of_isRoot (new_pa n x)
    have := h'.of_isRoot (new_pa n y)
    subst_vars; exact .refl _
  · intro h
    have aux : ∀ {x y}, Conn [] x y → x = y := by
      intro x y h
      induction h with
      | pair h => cases h
      | refl => rfl
      | symm _ ih => exact ih.symm
      | trans _ _ ih ih' => exact ih.trans ih'
    have := aux h
    subst this
    exact ⟨x, .root (new_pa n x), .root (new_pa n x)⟩

theorem conn_congr {p q : List (Nat × Nat)} (h : ∀ a, a ∈ p ↔ a ∈ q) {x y} : Conn p x y ↔ Conn q x y := by
  have : ∀ {p q : List (Nat × Nat)}, (∀ a, a ∈ p → a ∈ q) → Conn p x y → Conn q x y := by
    intro p q h hc
    induction hc with
    | pair hp => exact .pair (h _ hp)
    | refl => exact .refl _
    | symm _ ih => exact ih.symm
    | trans _ _ ih ih' => exact ih.trans ih'
  exact ⟨this fun a => (h a).1, this fun a => (h a).2⟩

theorem run_ok {n fuel : Nat} (hf : Nat.log 2 n < fuel) : ∀ (ops : List Op) (s : DS) (pairs : List (Nat × Nat)),
    Inv n s → Repr n s pairs → InRange n ops →
      ∃ s', run fuel s ops = some s' ∧ Inv n s' ∧ Repr n s' (mergedPairs ops ++ pairs) := by
  intro ops
  induction ops with
  | nil => intro s pairs hs hr _; exact ⟨s, rfl, hs, by simpa [mergedPairs] using hr⟩
  | cons op ops ih =>
    intro s pairs hs hr hin
    have hin' : InRange n ops := fun o ho => hin o (by simp [ho])
    have hop := hin op (by simp)
    cases op with
    | merge x y =>
      obtain ⟨s1, e, hi, hr1⟩ := merge_ok hf hs hr hop.1 hop.2
      obtain ⟨s', e', hi', hr'⟩ := ih s1 _ hi hr1 hin'
      refine ⟨s', by simp [run, step, e, e'], hi', ?_⟩
      intro u hu v hv
      rw [hr' u hu v hv]
      apply conn_congr; intro a
      simp only [mergedPairs, List.mem_append, List.mem_cons, List.cons_append]; tauto
    | find x =>
      obtain ⟨s1, r, e, h⟩ := findSet_ok fuel s x hs hop (by omega)
      obtain ⟨s', e', hi', hr'⟩ := ih s1 _ h.inv (h.repr hr) hin'
      exact ⟨s', by simp [run, step, e, e'], hi', hr'⟩
    | output =>
      obtain ⟨s1, m, e, hi, _, hs1, _⟩ := output_ok hf hs
      have hr1 : Repr n s1 pairs := by
        intro u hu v hv
        rw [← hr u hu v hv]; simp only [hs1]
      obtain ⟨s', e', hi', hr'⟩ := ih s1 _ hi hr1 hin'
      exact ⟨s', by simp [run, step, e, e'], hi', hr'⟩

/-- The number of roots is the number of classes. -/
theorem card_roots {n : Nat} {s : DS} {pairs : List (Nat × Nat)} (hs : Inv n s) (hr : Repr n s pairs) :
    (roots n s.pa).card = numClasses n pairs := by
  classical
  unfold numClasses
  let g : {x // x ∈ roots n s.pa} → Quotient (connSetoid n pairs) := fun x =>
    Quotient.mk _ ⟨x.1, by have := x.2; simp [roots] at this; exact this.1⟩
  have hg : Function.Bijective g := by
    constructor
    · rintro ⟨x, hx⟩ ⟨y, hy⟩ h
      have h' : Conn pairs x y := Quotient.exact h
      simp only [roots, Finset.mem_filter, Finset.mem_range] at hx hy
      obtain ⟨r, h1, h2⟩ := (hr x hx.1 y hy.1).2 h'
      have := h1.of_isRoot hx.2
      have := h2.of_isRoot hy.2
      subst_vars; rfl
    · intro q
      induction q using Quotient.inductionOn with
      | h a =>
        obtain ⟨r, hrn, hrr⟩ := hs.exists_root a.2
        refine ⟨⟨r, by simp [roots, hrn, hrr.isRoot]⟩, ?_⟩
        apply Quotient.sound
        exact (hr r hrn a a.2).1 ⟨r, .root hrr.isRoot, hrr⟩
  rw [← Nat.card_eq_of_bijective g hg]
  simp

end Verif.DisjointSet
