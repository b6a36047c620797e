import Verif.Bsp.Cycle
import Mathlib.Data.List.Rotate
import Mathlib.Data.List.Count
import Mathlib.Data.List.Chain
import Verif.Poly.Lists
/-!
# Lists of curves that are cut into straight runs

The combinatorial part of C110: when straight runs are replaced by single segments, a closed surface stays closed if all outlines go straight on at the same places.
-/
namespace Verif.Bsp

theorem HE.rev_rev (h : HE) : h.rev.rev = h := rfl

/-- The curve in the other direction. -/
def revCurve (g : List HE) : List HE := (g.map HE.rev).reverse

theorem revCurve_revCurve (g : List HE) : revCurve (revCurve g) = g := by
  simp only [revCurve, List.map_reverse, List.reverse_reverse, List.map_map]
  rw [show HE.rev ∘ HE.rev = id from rfl, List.map_id]

theorem revCurve_append (a b : List HE) : revCurve (a ++ b) = revCurve b ++ revCurve a := by simp [revCurve]

/-- The runs of all outlines: `h` is followed by `k` inside of a run. -/
def Linked (R : List (List HE)) (h k : HE) : Prop := ∃ x y, x ++ h :: k :: y ∈ R

/-- If a run goes on from `h` to `k`, so does every run with `h` or `k`, and every run with one of them in the other direction goes on from `k` to `h`. -/
structure Uniform (R : List (List HE)) : Prop where
  ne : ∀ g ∈ R, g ≠ []
  fwd : ∀ h k, Linked R h k → ∀ x y, x ++ h :: y ∈ R → ∃ y', y = k :: y'
  bwd : ∀ h k, Linked R h k → ∀ x y, x ++ k :: y ∈ R → ∃ x', x = x' ++ [h]
  fwd' : ∀ h k, Linked R h k → ∀ x y, x ++ k.rev :: y ∈ R → ∃ y', y = h.rev :: y'
  bwd' : ∀ h k, Linked R h k → ∀ x y, x ++ h.rev :: y ∈ R → ∃ x', x = x' ++ [k.rev]

theorem mem_rev {R : List (List HE)} {g : List HE} : g ∈ R.map revCurve ↔ revCurve g ∈ R := by
  rw [List.mem_map]
  exact ⟨fun ⟨a, ha, e⟩ => by rw [← e, revCurve_revCurve]; exact ha, fun h => ⟨_, h, revCurve_revCurve g⟩⟩

theorem revCurve_mid (x y : List HE) (h : HE) : revCurve (x ++ h :: y) = revCurve y ++ h.rev :: revCurve x := by simp [revCurve]

theorem linked_rev {R : List (List HE)} {h k : HE} : Linked (R.map revCurve) h k ↔ Linked R k.rev h.rev := by
  constructor
  · rintro ⟨x, y, hm⟩
    rw [mem_rev] at hm
    exact ⟨revCurve y, revCurve x, by simpa [revCurve] using hm⟩
  · rintro ⟨x, y, hm⟩
    exact ⟨revCurve y, revCurve x, by rw [mem_rev]; simpa [revCurve, HE.rev_rev, Function.comp_def] using hm⟩

theorem revCurve_cons {x y : List HE} {h : HE} (e : revCurve x = h :: y) : x = revCurve y ++ [h.rev] := by
  rw [← revCurve_revCurve x, e]; simp [revCurve]

theorem revCurve_snoc {x y : List HE} {h : HE} (e : revCurve x = y ++ [h]) : x = h.rev :: revCurve y := by
  rw [← revCurve_revCurve x, e]; simp [revCurve]

theorem Uniform.rev {R : List (List HE)} (u : Uniform R) : Uniform (R.map revCurve) where
  ne g hg e := by
    rw [mem_rev, e] at hg
    exact u.ne _ hg rfl
  fwd h k hl x y hm := by
    rw [mem_rev, revCurve_mid] at hm
    obtain ⟨y', e⟩ := u.bwd _ _ (linked_rev.1 hl) _ _ hm
    exact ⟨_, revCurve_snoc e⟩
  bwd h k hl x y hm := by
    rw [mem_rev, revCurve_mid] at hm
    obtain ⟨y', e⟩ := u.fwd _ _ (linked_rev.1 hl) _ _ hm
    exact ⟨_, revCurve_cons e⟩
  fwd' h k hl x y hm := by
    rw [mem_rev, revCurve_mid] at hm
    obtain ⟨y', e⟩ := u.bwd' _ _ (linked_rev.1 hl) _ _ hm
    exact ⟨_, revCurve_snoc e⟩
  bwd' h k hl x y hm := by
    rw [mem_rev, revCurve_mid] at hm
    obtain ⟨y', e⟩ := u.fwd' _ _ (linked_rev.1 hl) _ _ hm
    exact ⟨_, revCurve_cons e⟩

/-- Two runs that begin in the same way agree. -/
theorem Uniform.same {R : List (List HE)} (u : Uniform R) : ∀ (a b x : List HE) (h : HE), x ++ h :: a ∈ R → x ++ h :: b ∈ R → a = b
  | [], [], _, _, _, _ => rfl
  | [], k :: b, x, h, ha, hb => by
    obtain ⟨y, e⟩ := u.fwd h k ⟨x, b, hb⟩ _ _ ha
    cases e
  | k :: a, b, x, h, ha, hb => by
    obtain ⟨b', rfl⟩ := u.fwd h k ⟨x, a, ha⟩ _ _ hb
    rw [u.same a b' (x ++ [h]) k (by simpa using ha) (by simpa using hb)]

/-- The first half-edge of a run is in no other run, and not twice in this one. -/
theorem Uniform.first {R : List (List HE)} (u : Uniform R) {h : HE} {a x b : List HE} (ha : h :: a ∈ R) (hb : x ++ h :: b ∈ R) : x = [] ∧ b = a := by
  have hx : x = [] := by
    rcases List.eq_nil_or_concat x with rfl | ⟨x', z, rfl⟩
    · rfl
    · obtain ⟨w, e⟩ := u.bwd z h ⟨x', b, by simpa using hb⟩ [] a ha
      simp at e
  subst hx
  exact ⟨rfl, u.same b a [] h hb ha⟩

theorem count_flatten_first {R : List (List HE)} (u : Uniform R) {h : HE} {a : List HE} (ha : h :: a ∈ R) : ∀ S : List (List HE), (∀ g ∈ S, g ∈ R) → S.flatten.count h = S.count (h :: a)
  | [], _ => rfl
  | g :: S, hS => by
    rw [List.flatten_cons, List.count_append, count_flatten_first u ha S fun g hg => hS g (List.mem_cons_of_mem _ hg), List.count_cons]
    rw [add_comm]
    congr 1
    have hg := hS g (by simp)
    by_cases hm : h ∈ g
    · obtain ⟨x, b, rfl⟩ := List.append_of_mem hm
      obtain ⟨rfl, rfl⟩ := u.first ha hg
      have : h ∉ b := by
        intro hb
        obtain ⟨p, q, rfl⟩ := List.append_of_mem hb
        obtain ⟨e, -⟩ := u.first ha (x := h :: p) (b := q) (by simpa using hg)
        cases e
      simp [List.count_eq_zero.2 this]
    · rw [List.count_eq_zero.2 hm, if_neg]
      intro e
      rw [beq_iff_eq] at e
      exact hm (by rw [e]; simp)

theorem flatten_rev : ∀ R : List (List HE), (R.map revCurve).flatten.Perm (R.flatten.map HE.rev)
  | [] => by simp
  | g :: R => by
    simp only [List.map_cons, List.flatten_cons, List.map_append]
    exact List.Perm.append (List.reverse_perm _) (flatten_rev R)

theorem rev_inj : Function.Injective HE.rev := fun a b h => by rw [← HE.rev_rev a, h, HE.rev_rev]
theorem revCurve_inj : Function.Injective revCurve := fun a b h => by rw [← revCurve_revCurve a, h, revCurve_revCurve]

/-- With a run the list contains the run in the other direction. -/
theorem Uniform.back {R : List (List HE)} (u : Uniform R) (hb : ∀ h, R.flatten.count h = R.flatten.count h.rev) {g : List HE} (hg : g ∈ R) : revCurve g ∈ R := by
  rcases List.eq_nil_or_concat g with rfl | ⟨g0, l, rfl⟩
  · exact absurd rfl (u.ne _ hg)
  have hl : l.rev ∈ R.flatten := by
    rw [← List.count_pos_iff, ← hb, List.count_pos_iff]
    exact List.mem_flatten.2 ⟨_, hg, by simp⟩
  obtain ⟨g', hg', hm⟩ := List.mem_flatten.1 hl
  obtain ⟨x, y, rfl⟩ := List.append_of_mem hm
  have hx : x = [] := by
    rcases List.eq_nil_or_concat x with rfl | ⟨x', z, rfl⟩
    · rfl
    · obtain ⟨w, e⟩ := u.fwd' z l.rev ⟨x', y, by simpa using hg'⟩ g0 [] (by simpa [HE.rev_rev] using hg)
      cases e
  subst hx
  have key : ∀ (a b x : List HE) (h : HE), revCurve (x ++ h :: a) ∈ R → x ++ h :: b ∈ R → a = b := by
    intro a
    induction a with
    | nil =>
      intro b x h ha hb
      cases b with
      | nil => rfl
      | cons k b =>
        rw [revCurve_mid] at ha
        obtain ⟨w, e⟩ := u.bwd' h k ⟨x, b, hb⟩ _ _ ha
        have := congrArg List.length e
        simp [revCurve] at this
    | cons k a ih =>
      intro b x h ha hb
      have hlk : Linked R k.rev h.rev := ⟨revCurve a, revCurve x, by simpa [revCurve] using ha⟩
      obtain ⟨b', rfl⟩ := u.fwd' _ _ hlk x b hb
      rw [ih b' (x ++ [h]) k (by simpa using ha) (by simpa [HE.rev_rev] using hb)]
      rfl
  have e := key (revCurve g0) y [] l.rev (by
    have : ([] : List HE) ++ l.rev :: revCurve g0 = revCurve (g0 ++ [l]) := by simp [revCurve]
    rw [this, revCurve_revCurve]; simpa using hg) hg'
  have : revCurve (g0.concat l) = [] ++ l.rev :: y := by simp [revCurve, ← e]
  rw [this]; exact hg'

/-- If the half-edges are balanced and all outlines go straight on at the same places, the runs are balanced. -/
theorem Uniform.balanced {R : List (List HE)} (u : Uniform R) (hb : ∀ h, R.flatten.count h = R.flatten.count h.rev) : R.Perm (R.map revCurve) := by
  have main : ∀ g ∈ R, R.count g = R.count (revCurve g) := by
    intro g hg
    have hg' := u.back hb hg
    rcases List.eq_nil_or_concat g with rfl | ⟨g0, l, rfl⟩
    · exact absurd rfl (u.ne _ hg)
    have e1 : revCurve (g0.concat l) = l.rev :: revCurve g0 := by simp [revCurve]
    have h1 : R.flatten.count l.rev = R.count (revCurve (g0.concat l)) := by
      rw [e1]; exact count_flatten_first u (e1 ▸ hg') R fun _ h => h
    have h2 : (R.map revCurve).flatten.count l.rev = (R.map revCurve).count (revCurve (g0.concat l)) := by
      rw [e1]
      refine count_flatten_first u.rev ?_ _ fun _ h => h
      rw [mem_rev, ← e1, revCurve_revCurve]; exact hg
    rw [(flatten_rev R).count_eq, List.count_map_of_injective _ _ rev_inj, List.count_map_of_injective _ _ revCurve_inj] at h2
    rw [← h1, ← h2, hb]
  refine List.perm_iff_count.2 fun g => ?_
  have e : (R.map revCurve).count g = R.count (revCurve g) := by
    rw [← List.count_map_of_injective R _ revCurve_inj (revCurve g), revCurve_revCurve]
  rw [e]
  by_cases hg : g ∈ R
  · exact main g hg
  · rw [List.count_eq_zero.2 hg, eq_comm, List.count_eq_zero]
    intro h
    have := u.back hb h
    rw [revCurve_revCurve] at this
    exact hg this

/-! ### Cyclic lists -/

/-- The pairs of neighbours of a cyclic list. -/
def cyc {α : Type} (l : List α) : List (α × α) := l.zip (l.rotate 1)

theorem cyc_rotate {α : Type} (l : List α) (n : Nat) : cyc (l.rotate n) = (cyc l).rotate n := by
  unfold cyc
  rw [List.rotate_rotate, add_comm, ← List.rotate_rotate]
  exact (List.zipWith_rotate_distrib Prod.mk l (l.rotate 1) n (by simp)).symm

theorem cyc_perm {α : Type} {l l' : List α} (h : l ~r l') : (cyc l).Perm (cyc l') := by
  obtain ⟨n, rfl⟩ := h
  rw [cyc_rotate]
  exact (List.rotate_perm _ _).symm

theorem cyc_cons {α : Type} (a : α) (l : List α) : cyc (a :: l) = (a :: l).zip (l ++ [a]) := by simp [cyc]

/-- `k` comes after `h` iff one can turn the list so that it begins with `h`, and then `k`. -/
theorem mem_cyc {α : Type} {l : List α} {h k : α} : (h, k) ∈ cyc l ↔ ∃ t, (h :: t) ~r l ∧ (t ++ [h]).head? = some k := by
  constructor
  · intro hm
    obtain ⟨i, hi⟩ := List.getElem?_of_mem hm
    obtain ⟨hlt, e⟩ := List.getElem?_eq_some_iff.1 hi
    simp only [cyc, List.getElem_zip, Prod.mk.injEq] at e
    simp only [cyc, List.length_zip, List.length_rotate, min_self] at hlt
    have hr : l.rotate i = l[i] :: (l.drop (i + 1) ++ l.take i) := by
      rw [List.rotate_eq_drop_append_take hlt.le, List.drop_eq_getElem_cons hlt]; rfl
    have hc : cyc (l.rotate i) = (cyc l).rotate i := cyc_rotate l i
    refine ⟨l.drop (i + 1) ++ l.take i, ?_, ?_⟩
    · rw [← e.1, ← hr]; exact List.IsRotated.symm ⟨i, rfl⟩
    · have h0 : (cyc (l.rotate i)).head? = some (h, k) := by
        rw [hc, List.head?_rotate (by simpa [cyc] using hlt)]; exact hi
      rw [hr, cyc_cons, e.1] at h0
      cases hq : l.drop (i + 1) ++ l.take i ++ [h] with
      | nil => simp at hq
      | cons q r =>
        rw [hq] at h0
        simp only [List.zip_cons_cons, List.head?_cons, Option.some.injEq, Prod.mk.injEq, true_and] at h0
        rw [h0]; rfl
  · rintro ⟨t, hr, hk⟩
    rw [← (cyc_perm hr).mem_iff, cyc_cons]
    cases hq : t ++ [h] with
    | nil => simp at hq
    | cons q r =>
      rw [hq] at hk
      simp only [List.head?_cons, Option.some.injEq] at hk
      rw [hk]
      simp

theorem flatten_rotated {α : Type} {r r' : List (List α)} (h : r ~r r') : r.flatten ~r r'.flatten := by
  obtain ⟨n, rfl⟩ := h
  obtain ⟨a, b, e1, e2⟩ : ∃ a b, r = a ++ b ∧ r.rotate n = b ++ a := by
    refine ⟨r.take (n % r.length), r.drop (n % r.length), by simp, ?_⟩
    rw [List.rotate_eq_drop_append_take_mod]
  rw [e2, e1, List.flatten_append, List.flatten_append]
  exact List.isRotated_append

/-! ### One outline -/

/-- The runs of an outline: their concatenation is the outline, up to the start; inside of a run all neighbours are colinear, at its end not. -/
structure IsRuns {α : Type} (col : α → α → Bool) (l : List α) (rs : List (List α)) : Prop where
  all : rs.flatten ~r l
  ne : ∀ g ∈ rs, g ≠ []
  inside : ∀ g ∈ rs, g.IsChain fun h k => col h k = true
  ends : ∀ p ∈ cyc rs, ∀ h ∈ p.1.getLast?, ∀ k ∈ p.2.head?, col h k = false

theorem IsRuns.linked {α : Type} {col : α → α → Bool} {l : List α} {rs : List (List α)} (r : IsRuns col l rs) {x y : List α} {h k : α} (hg : x ++ h :: k :: y ∈ rs) : (h, k) ∈ cyc l ∧ col h k = true := by
  refine ⟨?_, ?_⟩
  · obtain ⟨a, b, rfl⟩ := List.append_of_mem hg
    refine mem_cyc.2 ⟨k :: y ++ (b.flatten ++ a.flatten ++ x), ?_, rfl⟩
    refine List.IsRotated.trans ?_ r.all
    rw [show (a ++ (x ++ h :: k :: y) :: b).flatten = (a.flatten ++ x) ++ (h :: k :: y ++ b.flatten) by simp]
    rw [show h :: (k :: y ++ (b.flatten ++ a.flatten ++ x)) = (h :: k :: y ++ b.flatten) ++ (a.flatten ++ x) by simp]
    exact List.isRotated_append
  · have := r.inside _ hg
    exact (List.isChain_append_cons_cons.1 this).2.1

/-- What comes after the end of a run. -/
theorem IsRuns.after {α : Type} {col : α → α → Bool} {l : List α} {rs : List (List α)} (r : IsRuns col l rs) {g g' : List α} (hp : (g, g') ∈ cyc rs) : ∃ h ∈ g.getLast?, ∃ k ∈ g'.head?, (h, k) ∈ cyc l ∧ col h k = false := by
  have hgm : g ∈ rs ∧ g' ∈ rs := by
    have h1 := List.of_mem_zip hp
    exact ⟨h1.1, by simpa using h1.2⟩
  obtain ⟨t, ht, hh⟩ := mem_cyc.1 hp
  rcases List.eq_nil_or_concat g with rfl | ⟨g0, h, rfl⟩
  · exact absurd rfl (r.ne _ hgm.1)
  cases hg' : g' with
  | nil => exact absurd hg' (r.ne _ hgm.2)
  | cons k g1 =>
    subst hg'
    refine ⟨h, by simp, k, by simp, ?_, r.ends _ hp h (by simp) k (by simp)⟩
    refine mem_cyc.2 ⟨t.flatten ++ g0, ?_, ?_⟩
    · refine List.IsRotated.trans ?_ ((flatten_rotated ht).trans r.all)
      rw [show (g0.concat h :: t).flatten = g0 ++ (h :: t.flatten) by simp, show h :: (t.flatten ++ g0) = (h :: t.flatten) ++ g0 by simp]
      exact List.isRotated_append
    · have e : t.flatten ++ g0 ++ [h] = (t ++ [g0.concat h]).flatten := by simp
      rw [e]
      cases hq : t ++ [g0.concat h] with
      | nil => simp at hq
      | cons q s =>
        rw [hq] at hh
        simp only [List.head?_cons, Option.some.injEq] at hh
        subst hh
        simp

theorem exists_next {α : Type} {l : List α} {a : α} (h : a ∈ l) : (∃ b, (a, b) ∈ cyc l) ∧ ∃ b, (b, a) ∈ cyc l := by
  obtain ⟨x, y, rfl⟩ := List.append_of_mem h
  have hr : (a :: (y ++ x)) ~r (x ++ a :: y) := by
    rw [show a :: (y ++ x) = (a :: y) ++ x by simp]; exact List.isRotated_append
  constructor
  · cases hq : y ++ x ++ [a] with
    | nil => simp at hq
    | cons q s => exact ⟨q, mem_cyc.2 ⟨_, hr, by rw [hq]; rfl⟩⟩
  · rcases List.eq_nil_or_concat (y ++ x) with e | ⟨s, q, e⟩
    · exact ⟨a, mem_cyc.2 ⟨_, hr, by rw [e]; rfl⟩⟩
    · refine ⟨q, mem_cyc.2 ⟨a :: s, ?_, rfl⟩⟩
      rw [e] at hr
      refine List.IsRotated.trans ?_ hr
      rw [show q :: a :: s = [q] ++ (a :: s) by simp, show a :: s.concat q = (a :: s) ++ [q] by simp]
      exact List.isRotated_append

theorem IsRuns.next {α : Type} {col : α → α → Bool} {l : List α} {rs : List (List α)} (r : IsRuns col l rs) {x y : List α} {h : α} (hg : x ++ h :: y ∈ rs) :
    ∃ k, (h, k) ∈ cyc l ∧ ((∃ y', y = k :: y') ∨ col h k = false) := by
  cases y with
  | cons k y => exact ⟨k, (r.linked hg).1, .inl ⟨y, rfl⟩⟩
  | nil =>
    obtain ⟨g', hg'⟩ := (exists_next hg).1
    obtain ⟨h', e1, k, -, h2, h3⟩ := r.after hg'
    simp only [List.getLast?_append, List.getLast?_singleton, Option.some_or, Option.mem_def, Option.some.injEq] at e1
    subst e1
    exact ⟨k, h2, .inr h3⟩

theorem IsRuns.prev {α : Type} {col : α → α → Bool} {l : List α} {rs : List (List α)} (r : IsRuns col l rs) {x y : List α} {h : α} (hg : x ++ h :: y ∈ rs) :
    ∃ k, (k, h) ∈ cyc l ∧ ((∃ x', x = x' ++ [k]) ∨ col k h = false) := by
  rcases List.eq_nil_or_concat x with rfl | ⟨x, k, rfl⟩
  · obtain ⟨g', hg'⟩ := (exists_next hg).2
    obtain ⟨k, -, h', e1, h2, h3⟩ := r.after hg'
    simp only [List.nil_append, List.head?_cons, Option.mem_def, Option.some.injEq] at e1
    subst e1
    exact ⟨k, h2, .inr h3⟩
  · exact ⟨k, (r.linked (x := x) (y := y) (by simpa using hg)).1, .inl ⟨x, by simp⟩⟩

/-! ### All outlines -/

/-- Specification: where one outline goes straight on from one half-edge to the next, every outline that uses one of the two edges goes straight on over both of them. -/
def SameStraight (os : List ((HE → HE → Bool) × List HE)) : Prop :=
  ∀ o ∈ os, ∀ p ∈ cyc o.2, o.1 p.1 p.2 = true → ∀ o' ∈ os, ∀ q ∈ cyc o'.2,
    (q.1 = p.1 ∨ q.2 = p.2 → q = p ∧ o'.1 q.1 q.2 = true) ∧ (q.1 = p.2.rev ∨ q.2 = p.1.rev → q = (p.2.rev, p.1.rev) ∧ o'.1 q.1 q.2 = true)

theorem uniform_of {os : List ((HE → HE → Bool) × List HE)} (hs : SameStraight os) (f : (HE → HE → Bool) × List HE → List (List HE)) (hf : ∀ o ∈ os, IsRuns o.1 o.2 (f o)) : Uniform (os.flatMap f) := by
  have hlk : ∀ h k, Linked (os.flatMap f) h k → ∃ o ∈ os, (h, k) ∈ cyc o.2 ∧ o.1 h k = true := by
    rintro h k ⟨x, y, hm⟩
    obtain ⟨o, ho, hm⟩ := List.mem_flatMap.1 hm
    exact ⟨o, ho, (hf o ho).linked hm⟩
  refine ⟨fun g hg => ?_, fun h k hl x y hm => ?_, fun h k hl x y hm => ?_, fun h k hl x y hm => ?_, fun h k hl x y hm => ?_⟩
  · obtain ⟨o, ho, hg⟩ := List.mem_flatMap.1 hg
    exact (hf o ho).ne g hg
  all_goals
    obtain ⟨o, ho, hc, hcol⟩ := hlk h k hl
    obtain ⟨o', ho', hm⟩ := List.mem_flatMap.1 hm
  · obtain ⟨k', h1, h2⟩ := (hf o' ho').next hm
    obtain ⟨e, ec⟩ := (hs o ho _ hc hcol o' ho' _ h1).1 (.inl rfl)
    obtain rfl : k' = k := congrArg Prod.snd e
    exact h2.resolve_right (by rw [ec]; decide)
  · obtain ⟨k', h1, h2⟩ := (hf o' ho').prev hm
    obtain ⟨e, ec⟩ := (hs o ho _ hc hcol o' ho' _ h1).1 (.inr rfl)
    obtain rfl : k' = h := congrArg Prod.fst e
    exact h2.resolve_right (by rw [ec]; decide)
  · obtain ⟨k', h1, h2⟩ := (hf o' ho').next hm
    obtain ⟨e, ec⟩ := (hs o ho _ hc hcol o' ho' _ h1).2 (.inl rfl)
    obtain rfl : k' = h.rev := congrArg Prod.snd e
    exact h2.resolve_right (by rw [ec]; decide)
  · obtain ⟨k', h1, h2⟩ := (hf o' ho').prev hm
    obtain ⟨e, ec⟩ := (hs o ho _ hc hcol o' ho' _ h1).2 (.inr rfl)
    obtain rfl : k' = k.rev := congrArg Prod.fst e
    exact h2.resolve_right (by rw [ec]; decide)

/-- The ends of a run. -/
def runEnds (g : List HE) : Option (Nat × Nat) := g.head?.bind fun h => g.getLast?.map fun k => (h.tail, k.tip)

theorem runEnds_rev (g : List HE) : runEnds (revCurve g) = (runEnds g).map Prod.swap := by
  unfold runEnds revCurve
  rw [List.head?_reverse, List.getLast?_reverse, List.getLast?_map, List.head?_map]
  cases g.head? <;> cases g.getLast? <;> rfl

theorem flatten_perm {os : List ((HE → HE → Bool) × List HE)} (f : (HE → HE → Bool) × List HE → List (List HE)) (hf : ∀ o ∈ os, (f o).flatten ~r o.2) : (os.flatMap f).flatten.Perm (os.flatMap Prod.snd) := by
  induction os with
  | nil => simp
  | cons o os ih =>
    rw [List.flatMap_cons, List.flatMap_cons, List.flatten_append]
    exact (hf o (by simp)).perm.append (ih fun o ho => hf o (List.mem_cons_of_mem _ ho))

/-- The segments of an outline after merging are the ends of its runs. -/
theorem segments_perm {col : HE → HE → Bool} {l : List HE} {rs : List (List HE)} (r : IsRuns col l rs) (hc : ∀ p ∈ cyc l, p.1.tip = p.2.tail) {vs : List Nat}
    (hv : rs.map (fun g => g.getLast?.map HE.tip) = vs.map some) : ((cyc vs).map some).Perm (rs.map runEnds) := by
  have e1 : (cyc vs).map some = (cyc (vs.map some)).map fun p => p.1.bind fun a => p.2.map fun b => (a, b) := by
    unfold cyc
    rw [← List.map_rotate, List.zip_map, List.map_map]
    rfl
  have e2 : cyc (rs.map fun g => g.getLast?.map HE.tip) = (cyc rs).map (Prod.map (fun g => g.getLast?.map HE.tip) fun g => g.getLast?.map HE.tip) := by
    unfold cyc
    rw [← List.map_rotate, List.zip_map]
  rw [e1, ← hv, e2, List.map_map]
  have e3 : (cyc rs).map ((fun p : Option Nat × Option Nat => p.1.bind fun a => p.2.map fun b => (a, b)) ∘ Prod.map (fun g : List HE => g.getLast?.map HE.tip) fun g => g.getLast?.map HE.tip) =
      (cyc rs).map (runEnds ∘ Prod.snd) := by
    refine List.map_congr_left fun p hp => ?_
    obtain ⟨h, h1, k, h2, h3, -⟩ := r.after (g := p.1) (g' := p.2) hp
    have := hc _ h3
    simp only [Option.mem_def] at h1 h2
    simp only [Function.comp, Prod.map, h1, runEnds, h2, Option.map_some, Option.bind_some]
    simp only at this
    rw [this]
    cases p.2.getLast? <;> rfl
  rw [e3, ← List.map_map]
  have e4 : (cyc rs).map Prod.snd = rs.rotate 1 := by
    unfold cyc
    rw [List.map_snd_zip (by simp)]
  rw [e4]
  exact (List.rotate_perm rs 1).map _

/-- If the half-edges are balanced and all outlines go straight on at the same places, the segments are balanced. -/
theorem segments_closed {os : List ((HE → HE → Bool) × List HE)} (hs : SameStraight os) (hb : ∀ h, (os.flatMap Prod.snd).count h = (os.flatMap Prod.snd).count h.rev)
    (hc : ∀ o ∈ os, ∀ p ∈ cyc o.2, p.1.tip = p.2.tail) (f : (HE → HE → Bool) × List HE → List (List HE)) (hf : ∀ o ∈ os, IsRuns o.1 o.2 (f o)) (vs : (HE → HE → Bool) × List HE → List Nat)
    (hv : ∀ o ∈ os, (f o).map (fun g => g.getLast?.map HE.tip) = (vs o).map some) (a b : Nat) :
    (os.flatMap fun o => cyc (vs o)).count (a, b) = (os.flatMap fun o => cyc (vs o)).count (b, a) := by
  have u := uniform_of hs f hf
  have hp := flatten_perm f fun o ho => (hf o ho).all
  have hR := u.balanced fun h => by rw [hp.count_eq, hp.count_eq]; exact hb h
  have hS : ((os.flatMap fun o => cyc (vs o)).map some).Perm ((os.flatMap f).map runEnds) := by
    rw [List.map_flatMap, List.map_flatMap]
    clear hR hp u hs hb
    induction os with
    | nil => simp
    | cons o os ih =>
      rw [List.flatMap_cons, List.flatMap_cons]
      exact (segments_perm (hf o (by simp)) (hc o (by simp)) (hv o (by simp))).append
        (ih (fun o ho => hc o (List.mem_cons_of_mem _ ho)) (fun o ho => hf o (List.mem_cons_of_mem _ ho)) fun o ho => hv o (List.mem_cons_of_mem _ ho))
  have hT : ((os.flatMap f).map runEnds).Perm (((os.flatMap f).map runEnds).map (Option.map Prod.swap)) := by
    refine (hR.map runEnds).trans (List.Perm.of_eq ?_)
    rw [List.map_map, List.map_map]
    exact List.map_congr_left fun g _ => runEnds_rev g
  have hU : ((os.flatMap fun o => cyc (vs o)).map some).Perm (((os.flatMap fun o => cyc (vs o)).map some).map (Option.map Prod.swap)) :=
    hS.trans (hT.trans (hS.symm.map _))
  have h1 := hU.count_eq (some (a, b))
  rw [List.map_map, show (Option.map Prod.swap ∘ some : Nat × Nat → Option (Nat × Nat)) = some ∘ Prod.swap from rfl, ← List.map_map,
    List.count_map_of_injective _ _ (Option.some_injective _), List.count_map_of_injective _ _ (Option.some_injective _)] at h1
  rw [h1]
  exact List.count_map_of_injective _ _ Prod.swap_injective (b, a)

/-! ### `merge_colinear_edges` -/

section
variable {α β : Type} {col : α → α → Bool}
open Verif.Poly (groupStep mergeColinear)

/-- The end of the first run and the begin of the second one are not colinear. -/
def Bends (col : α → α → Bool) (g g' : List α) : Prop := ∀ h ∈ g.getLast?, ∀ k ∈ g'.head?, col h k = false

/-- What holds during the grouping. -/
structure Grouped (col : α → α → Bool) (l : List α) (s : List (List α) × List α) : Prop where
  all : s.1.flatten ++ s.2 = l
  ne : ∀ g ∈ s.1, g ≠ []
  ne' : l ≠ [] → s.2 ≠ []
  inside : ∀ g ∈ s.1 ++ [s.2], g.IsChain fun h k => col h k = true
  ends : (s.1 ++ [s.2]).IsChain (Bends col)

theorem Grouped.step {l : List α} {s : List (List α) × List α} (g : Grouped col l s) (he : α) : Grouped col (l ++ [he]) (groupStep col s he) := by
  unfold groupStep
  rcases List.eq_nil_or_concat s.2 with e | ⟨c, p, e⟩
  · have h1 : l = [] := by
      by_contra h
      exact g.ne' h e
    have h0 := g.all
    rw [e, h1, List.append_nil] at h0
    have h2 : s.1 = [] := by
      cases hs : s.1 with
      | nil => rfl
      | cons a t =>
        rw [hs] at h0
        simp only [List.flatten_cons, List.append_eq_nil_iff] at h0
        exact absurd h0.1 (g.ne a (by rw [hs]; simp))
    rw [e]
    simp only [List.getLast?_nil]
    exact ⟨by simp [h1, h2], by simp [h2], by simp, by simp [h2], by simp [h2]⟩
  · have hl : s.2.getLast? = some p := by rw [e]; simp
    rw [hl]
    simp only
    have h0 := g.all
    have hin := g.inside s.2 (by simp)
    split
    · next hc =>
      refine ⟨by simp [← h0], g.ne, by simp, ?_, ?_⟩
      · intro x hx
        rcases List.mem_append.1 hx with hx | hx
        · exact g.inside x (by simp [hx])
        · simp only [List.mem_singleton] at hx
          subst hx
          rw [List.isChain_append]
          refine ⟨hin, by simp, fun a ha b hb => ?_⟩
          rw [hl] at ha
          simp only [Option.mem_def, Option.some.injEq, List.head?_cons] at ha hb
          rw [← ha, ← hb]; exact hc
      · have h1 := g.ends
        rw [List.isChain_append] at h1 ⊢
        refine ⟨h1.1, by simp, fun a ha b hb => ?_⟩
        simp only [List.head?_cons, Option.mem_def, Option.some.injEq] at hb
        subst hb
        intro x hx k hk
        refine h1.2.2 a ha s.2 (by simp) x hx k ?_
        rw [List.head?_append] at hk
        rw [e] at hk ⊢
        cases c <;> simpa using hk
    · next hc =>
      refine ⟨by simp [← h0], ?_, by simp, ?_, ?_⟩
      · intro x hx
        rcases List.mem_append.1 hx with hx | hx
        · exact g.ne x hx
        · simp only [List.mem_singleton] at hx
          rw [hx, e]; simp
      · intro x hx
        rcases List.mem_append.1 hx with hx | hx
        · exact g.inside x hx
        · simp only [List.mem_singleton] at hx
          rw [hx]; simp
      · rw [List.isChain_append]
        refine ⟨g.ends, by simp, fun a ha b hb => ?_⟩
        simp only [List.getLast?_append, List.getLast?_singleton, Option.some_or, Option.mem_def, Option.some.injEq, List.head?_cons] at ha hb
        subst ha hb
        intro x hx k hk
        rw [hl] at hx
        simp only [Option.mem_def, Option.some.injEq, List.head?_cons] at hx hk
        subst hx hk
        simpa using hc

theorem grouped_foldl : ∀ (l' : List α) {l : List α} {s : List (List α) × List α}, Grouped col l s → Grouped col (l ++ l') (l'.foldl (groupStep col) s)
  | [], l, s, g => by simpa using g
  | a :: l', l, s, g => by
    have := grouped_foldl l' (g.step a)
    simpa using this

theorem cyc_rel {R : α → α → Prop} {rs : List α} (h1 : rs.IsChain R) (h2 : ∀ g ∈ rs.getLast?, ∀ g' ∈ rs.head?, R g g') : ∀ p ∈ cyc rs, R p.1 p.2 := by
  cases rs with
  | nil => simp [cyc]
  | cons a rs =>
    have h3 : ((a :: rs) ++ [a]).IsChain R := by
      rw [List.isChain_append]
      exact ⟨h1, by simp, fun x hx y hy => h2 x hx y hy⟩
    have key : ∀ (l : List α), l.IsChain R → ∀ p ∈ l.zip l.tail, R p.1 p.2 := by
      intro l
      induction l with
      | nil => simp
      | cons x l ih =>
        intro hc p hp
        cases l with
        | nil => simp at hp
        | cons y l =>
          simp only [List.tail_cons, List.zip_cons_cons, List.mem_cons] at hp
          rcases hp with rfl | hp
          · exact (List.isChain_cons_cons.1 hc).1
          · exact ih (List.isChain_cons_cons.1 hc).2 p (by simpa using hp)
    intro p hp
    rw [cyc_cons] at hp
    refine key _ h3 p ?_
    have e : ((a :: rs) ++ [a]).zip ((a :: rs) ++ [a]).tail = (a :: rs).zip (rs ++ [a]) := by
      rw [List.cons_append, List.tail_cons, ← List.cons_append]
      have : (a :: rs).length = (rs ++ [a]).length := by simp
      rw [← List.append_nil (rs ++ [a]), List.zip_append this, List.append_nil]
      simp
    rw [e]; exact hp

theorem cyc_ends {rs : List (List α)} (h1 : rs.IsChain (Bends col)) (h2 : ∀ g ∈ rs.getLast?, ∀ g' ∈ rs.head?, Bends col g g') : ∀ p ∈ cyc rs, Bends col p.1 p.2 := cyc_rel h1 h2

/-- The groups of `merge_colinear_edges` are the runs of the outline. -/
theorem mergeColinear_runs {endV : α → β} {l : List α} {vs : List β} (h : mergeColinear col endV l = some vs) : ∃ rs, IsRuns col l rs ∧ rs.map (fun g => g.getLast?.map endV) = vs.map some := by
  unfold mergeColinear at h
  split at h
  · cases h
  next hne =>
  have g : Grouped col l (l.foldl (groupStep col) ([], [])) := by
    have := grouped_foldl (col := col) l (l := []) (s := ([], [])) ⟨rfl, by simp, by simp, by simp, by simp⟩
    simpa using this
  generalize l.foldl (groupStep col) ([], []) = s at h g
  obtain ⟨gs, cur⟩ := s
  simp only [Option.bind_eq_bind] at h
  obtain ⟨first, e1, h⟩ := Option.bind_eq_some_iff.1 h
  obtain ⟨f0, e2, h⟩ := Option.bind_eq_some_iff.1 h
  obtain ⟨la, e3, h⟩ := Option.bind_eq_some_iff.1 h
  obtain ⟨rest, rfl⟩ : ∃ rest, gs = first :: rest := by
    cases gs with
    | nil => simp at e1
    | cons a t => simp only [List.getElem?_cons_zero, Option.some.injEq] at e1; exact ⟨t, by rw [e1]⟩
  obtain ⟨ft, rfl⟩ : ∃ ft, first = f0 :: ft := by
    cases first with
    | nil => simp at e2
    | cons a t => simp only [List.getElem?_cons_zero, Option.some.injEq] at e2; exact ⟨t, by rw [e2]⟩
  have hcur : cur ≠ [] := fun e => by rw [e] at e3; cases e3
  have hv : ∀ {rs : List (List α)} {vs : List β}, (rs.mapM fun g => g.getLast?.map endV) = some vs → rs.map (fun g => g.getLast?.map endV) = vs.map some := by
    intro rs
    induction rs with
    | nil => intro vs h; simp at h; simp [← h]
    | cons a rs ih =>
      intro vs h
      rw [List.mapM_cons] at h
      obtain ⟨x, hx, h⟩ := Option.bind_eq_some_iff.1 h
      obtain ⟨xs, hxs, h⟩ := Option.bind_eq_some_iff.1 h
      simp only [Option.pure_def, Option.some.injEq] at h
      rw [← h, List.map_cons, List.map_cons, ih hxs, hx]
  have hends := g.ends
  simp only [List.cons_append] at hends
  split at h
  · next hc =>
    rw [List.set_cons_zero] at h
    refine ⟨_, ⟨?_, ?_, ?_, ?_⟩, hv h⟩
    · have := g.all
      rw [← this]
      simp only [List.flatten_cons, List.append_assoc]
      rw [show f0 :: ft ++ (rest.flatten ++ cur) = (f0 :: ft ++ rest.flatten) ++ cur by simp]
      exact List.isRotated_append
    · intro x hx
      rcases List.mem_cons.1 hx with rfl | hx
      · simp
      · exact g.ne x (by simp [hx])
    · intro x hx
      rcases List.mem_cons.1 hx with rfl | hx
      · rw [List.isChain_append]
        refine ⟨g.inside cur (by simp), g.inside (f0 :: ft) (by simp), fun a ha b hb => ?_⟩
        rw [e3] at ha
        simp only [Option.mem_def, Option.some.injEq, List.head?_cons] at ha hb
        rw [← ha, ← hb]; exact hc
      · exact g.inside x (by simp [hx])
    · have hlast : ∀ x, Bends col (f0 :: ft) x → Bends col (cur ++ f0 :: ft) x := by
        intro x hx a ha k hk
        refine hx a ?_ k hk
        rw [List.getLast?_append_of_ne_nil _ (by simp)] at ha
        exact ha
      have hhead : ∀ x, Bends col x cur → Bends col x (cur ++ f0 :: ft) := by
        intro x hx a ha k hk
        refine hx a ha k ?_
        rw [List.head?_append_of_ne_nil _ hcur] at hk
        exact hk
      rw [← List.cons_append, List.isChain_append] at hends
      obtain ⟨c1, -, c3⟩ := hends
      refine cyc_ends ?_ fun x hx y hy => ?_
      · cases rest with
        | nil => simp
        | cons r rest =>
          rw [List.isChain_cons_cons] at c1 ⊢
          exact ⟨hlast _ c1.1, c1.2⟩
      · simp only [List.head?_cons, Option.mem_def, Option.some.injEq] at hy
        subst hy
        refine hhead _ ?_
        cases rest with
        | nil =>
          simp only [List.getLast?_singleton, Option.mem_def, Option.some.injEq] at hx
          subst hx
          exact hlast _ (c3 _ (by simp) cur (by simp))
        | cons r rest =>
          refine c3 x ?_ cur (by simp)
          simpa using hx
  · next hc =>
    refine ⟨_, ⟨?_, ?_, ?_, ?_⟩, hv h⟩
    · rw [List.flatten_append]
      have := g.all
      simp only [List.flatten_cons, List.flatten_nil, List.append_nil] at this ⊢
      rw [this]
    · intro x hx
      rcases List.mem_append.1 hx with hx | hx
      · exact g.ne x hx
      · simp only [List.mem_singleton] at hx
        rw [hx]; exact hcur
    · exact g.inside
    · refine cyc_ends (by simpa using hends) fun x hx y hy => ?_
      rw [List.getLast?_append] at hx
      simp only [List.getLast?_singleton, Option.some_or, Option.mem_def, Option.some.injEq, List.cons_append, List.head?_cons] at hx hy
      subst hx hy
      intro a ha k hk
      rw [e3] at ha
      simp only [Option.mem_def, Option.some.injEq, List.head?_cons] at ha hk
      subst ha hk
      simpa using hc
end

end Verif.Bsp
