import Verif.Tri.HullsBase
import Verif.Tri.Witness
import Mathlib.Tactic.Ring
/-!
# C112: the recursion of `div_conq_recurse` (`src/triangle/triangle.rs` lines 682-823)
-/
namespace Verif.Tri

section walks
variable {m : Mesh} {Q : Nat → Prop} (hQ : ∀ e e', m.nei e = some e' → Q e.tri → Q e'.tri) {lt : Nat → Nat → Bool}
include hQ

theorem walkLow_set : ∀ (k : Nat) {e e' : HE} {d a d' a' : Nat}, Q e.tri → walkLow lt m k e d a = some (e', d', a') → Q e'.tri
  | 0, _, _, _, _, _, _, _, h => by simp [walkLow] at h
  | k + 1, e, e', d, a, d', a', s, h => by
    unfold walkLow at h
    split at h
    · simp only [Option.bind_eq_bind, Option.bind_eq_some_iff] at h
      obtain ⟨c, h1, cv, h2, h⟩ := h
      exact walkLow_set k (hQ e.next _ h1 s) h
    · simp only [Option.some.injEq, Prod.mk.injEq] at h
      obtain ⟨rfl, rfl, rfl⟩ := h
      exact s

theorem walkHigh_set : ∀ (k : Nat) {e e' : HE} {d a d' a' : Nat}, Q e.tri → walkHigh lt m k e d a = some (e', d', a') → Q e'.tri
  | 0, _, _, _, _, _, _, _, h => by simp [walkHigh] at h
  | k + 1, e, e', d, a, d', a', s, h => by
    simp only [walkHigh, Option.bind_eq_bind, Option.bind_eq_some_iff] at h
    obtain ⟨c, h1, cv, h2, h⟩ := h
    split at h
    · have sc : Q c.tri := hQ e _ h1 s
      exact walkHigh_set k (e := c.next) sc h
    · simp only [Option.some.injEq, Prod.mk.injEq] at h
      obtain ⟨rfl, rfl, rfl⟩ := h
      exact s

theorem restoreLeft_set : ∀ (k : Nat) {e e' : HE} {d : Nat}, Q e.tri → restoreLeft lt m k e d = some e' → Q e'.tri
  | 0, _, _, _, _, h => by simp [restoreLeft] at h
  | k + 1, e, e', d, s, h => by
    simp only [restoreLeft, Option.bind_eq_bind, Option.bind_eq_some_iff] at h
    obtain ⟨c, h1, cv, h2, h⟩ := h
    split at h
    · have sc : Q c.tri := hQ e _ h1 s
      exact restoreLeft_set k (e := c.prev) sc h
    · rw [← Option.some.inj h]
      exact s

theorem restoreRight_set : ∀ (k : Nat) {e e' : HE} {d a : Nat}, Q e.tri → restoreRight lt m k e d a = some e' → Q e'.tri
  | 0, _, _, _, _, _, h => by simp [restoreRight] at h
  | k + 1, e, e', d, a, s, h => by
    unfold restoreRight at h
    split at h
    · simp only [Option.bind_eq_bind, Option.bind_eq_some_iff] at h
      obtain ⟨c, h1, cv, h2, h⟩ := h
      exact restoreRight_set k (hQ e.prev _ h1 s) h
    · rw [← Option.some.inj h]
      exact s
end walks

/-- The handles that `merge_hulls` returns lie in the part. -/
theorem mergeHulls_handles {G : Geo} {N : Nat} {m m' : Mesh} {axis : Bool} {fl il ir fr fl' fr' : HE} (ok : Ok m) {R : Nat → Prop} (hR : Apartment m R) (n0 : R m.n)
    (Rl : R fl.tri ∧ fl.tri < m.n) (Rr : R fr.tri ∧ fr.tri < m.n) (h : mergeHulls G N m axis fl il ir fr = some (m', fl', fr')) (ok' : Ok m') (hn : m'.n = m.n + 2) (W : Within R m m') :
    (R fl'.tri ∧ fl'.tri < m'.n) ∧ R fr'.tri ∧ fr'.tri < m'.n := by
  unfold mergeHulls at h
  simp only [Option.bind_eq_bind, Option.bind_eq_some_iff, Option.pure_def, Option.some.injEq, Prod.mk.injEq] at h
  obtain ⟨ild, h1, ila, h2, iro, h3, ira, h4, ⟨fl1, fr1, t1⟩, h5, t, h6, lc, h7, rc, h8, ul, h9, ur, h10, m2, h11, ⟨fl2, fr2⟩, h12, rfl, rfl, rfl⟩ := h
  have Q1 : ∀ e e', m.nei e = some e' → (R e.tri ∧ e.tri < m.n) → (R e'.tri ∧ e'.tri < m.n) := fun e e' x y => ⟨(hR _ _ x).1 y.1, ok.tri x⟩
  have Q2 : ∀ e e', m2.nei e = some e' → (R e.tri ∧ e.tri < m2.n) → (R e'.tri ∧ e'.tri < m2.n) := fun e e' x y => ⟨(W.apart _ _ x).1 y.1, ok'.tri x⟩
  have A : (R fl1.tri ∧ fl1.tri < m.n) ∧ R fr1.tri ∧ fr1.tri < m.n := by
    unfold preMerge at h5
    split at h5
    · simp only [Option.bind_eq_bind, Option.bind_eq_some_iff, Option.pure_def, Option.some.injEq, Prod.mk.injEq] at h5
      obtain ⟨_, _, _, _, _, _, ⟨a1, a2, a3⟩, x1, _, _, _, _, ⟨b1, b2, b3⟩, x2, y1, y2, _⟩ := h5
      rw [← y1, ← y2]
      exact ⟨walkLow_set (Q := fun t => R t ∧ t < m.n) Q1 N Rl x1, walkHigh_set (Q := fun t => R t ∧ t < m.n) Q1 N Rr x2⟩
    · simp only [Option.some.injEq, Prod.mk.injEq] at h5
      rw [← h5.1, ← h5.2.1]
      exact ⟨Rl, Rr⟩
  have Bt : (knitBottom m t).2.next.tri = m.n := rfl
  have Bt' : (knitBottom m t).2.prev.tri = m.n := rfl
  have new : R m.n ∧ m.n < m2.n := ⟨n0, by omega⟩
  have B : ∀ (c : Prop) [Decidable c] (e f : HE), f.tri = m.n → (R e.tri ∧ e.tri < m.n) → R (if c then f else e).tri ∧ (if c then f else e).tri < m2.n := by
    intro c _ e f hf he
    split
    · rw [hf]; exact new
    · exact ⟨he.1, by omega⟩
  unfold postMerge at h12
  split at h12
  · simp only [Option.bind_eq_bind, Option.bind_eq_some_iff, Option.pure_def, Option.some.injEq, Prod.mk.injEq] at h12
    obtain ⟨_, _, _, _, _, _, a1, x1, b1, x2, rfl, rfl⟩ := h12
    exact ⟨restoreLeft_set (Q := fun t => R t ∧ t < m2.n) Q2 N (B _ _ _ Bt A.1) x1, restoreRight_set (Q := fun t => R t ∧ t < m2.n) Q2 N (B _ _ _ Bt' A.2) x2⟩
  · simp only [Option.some.injEq, Prod.mk.injEq] at h12
    rw [← h12.1, ← h12.2]
    exact ⟨B _ _ _ Bt A.1, B _ _ _ Bt' A.2⟩

/-- In the recursion, the handles that `merge_hulls` returns for more than three points lie at the ghost vertex: `far_left` goes to it and `far_right` comes from it. -/
def Handles (G : Geo) (N : Nat) : Nat → Mesh → List Nat → Bool → Prop
  | 0, _, _, _ => True
  | k + 1, m, pts, axis => 3 < pts.length →
    (∀ m' fl fr, divConq G N (k + 1) m pts axis = some (m', fl, fr) → dest m' fl = none ∧ org m' fr = none) ∧
    Handles G N k m (pts.take (pts.length / 2)) (!axis) ∧
    ∀ m1 fl il, divConq G N k m (pts.take (pts.length / 2)) (!axis) = some (m1, fl, il) → Handles G N k m1 (pts.drop (pts.length / 2)) (!axis)

theorem divConq_short {G : Geo} {N : Nat} : ∀ (k : Nat) (m : Mesh) (pts : List Nat) (axis : Bool), pts.length ≤ 1 → divConq G N k m pts axis = none
  | 0, _, _, _, _ => rfl
  | k + 1, m, [], axis, _ => by simp [divConq, divConq_short k m [] (!axis) (by simp)]
  | k + 1, m, [a], axis, _ => by simp [divConq, divConq_short k m [] (!axis) (by simp)]
  | _ + 1, _, _ :: _ :: _, _, h => by simp at h

theorem divConq_more {G : Geo} {N : Nat} (k : Nat) (m : Mesh) (pts : List Nat) (axis : Bool) (h : 3 < pts.length) : divConq G N (k + 1) m pts axis =
    (divConq G N k m (pts.take (pts.length / 2)) (!axis)).bind fun x => (divConq G N k x.1 (pts.drop (pts.length / 2)) (!axis)).bind fun y => mergeHulls G N y.1 axis x.2.1 x.2.2 y.2.1 y.2.2 := by
  match pts, h with
  | a :: b :: c :: d :: l, _ => rfl

/-- **C112.** Missing: that the handles stay at the ghost vertex, which depends on the geometry of the hulls. -/
theorem c112_recursion_partial {G : Geo} (hP : Tame G.toPreds) {N : Nat} : ∀ (k : Nat) {m m' : Mesh} {pts : List Nat} {axis : Bool} {fl fr : HE}, Ok m → pts.Nodup → Handles G N k m pts axis →
    divConq G N k m pts axis = some (m', fl, fr) → Part m m' pts fl fr ∧ dest m' fl = none ∧ org m' fr = none
  | 0, _, _, _, _, _, _, _, _, _, h => by simp [divConq] at h
  | k + 1, m, m', pts, axis, fl, fr, ok, nd, hh, h => by
    by_cases h2 : pts.length = 2
    · obtain ⟨a, b, rfl⟩ := List.length_eq_two.1 h2
      simp only [divConq, Option.some.injEq] at h
      have hab : a ≠ b := by simpa using nd
      have := base2_part ok hab
      rw [h] at this
      exact this
    by_cases h3 : pts.length = 3
    · obtain ⟨a, b, c, rfl⟩ := List.length_eq_three.1 h3
      simp only [List.nodup_cons, List.mem_cons, List.not_mem_nil, or_false, not_or, not_false_eq_true, List.nodup_nil, and_true] at nd
      obtain ⟨⟨ab, ac⟩, bc⟩ := nd
      simp only [divConq] at h
      split at h
      · have := base3flat_part ok ab bc
        rw [Option.some.inj h] at this
        exact this
      · by_cases c0 : G.ccw a b c > 0
        · have := base3pos_part ok ab bc ac
          rw [show decide (G.ccw a b c > 0) = true from decide_eq_true c0] at h
          rw [Option.some.inj h] at this
          exact this
        · have := base3neg_part ok ab bc ac
          rw [show decide (G.ccw a b c > 0) = false from decide_eq_false c0] at h
          rw [Option.some.inj h] at this
          exact this
    by_cases h1 : pts.length ≤ 1
    · rw [divConq_short _ _ _ _ h1] at h
      cases h
    obtain ⟨q1, q2, q3⟩ := hh (by omega)
    have hq := q1 _ _ _ h
    refine ⟨?_, hq⟩
    rw [divConq_more k m pts axis (by omega)] at h
    simp only [Option.bind_eq_some_iff] at h
    obtain ⟨⟨m1, fl1, il⟩, e1, ⟨m2, ir, fr1⟩, e2, e3⟩ := h
    simp only at e2 e3
    generalize hL : pts.take (pts.length / 2) = L at *
    generalize hD : pts.drop (pts.length / 2) = D at *
    have hLD : L ++ D = pts := by rw [← hL, ← hD, List.take_append_drop]
    have hlen : pts.length = L.length + D.length := by rw [← hLD, List.length_append]
    rw [← hLD, List.nodup_append] at nd
    obtain ⟨nL, nD, nLD⟩ := nd
    obtain ⟨P1, -, f1⟩ := c112_recursion_partial hP k ok nL q2 e1
    obtain ⟨P2, f2, -⟩ := c112_recursion_partial hP k P1.ok nD (q3 _ _ _ e1) e2
    have le1 : m.n ≤ m1.n := by have := P1.left; omega
    have le2 : m1.n ≤ m2.n := by have := P2.left; omega
    have lv : ∀ e : HE, e.tri < m1.n → m2.vert e = m1.vert e := fun e he => P2.within.vert e (by omega)
    have hR : Apartment m2 fun t => m.n ≤ t := fun e e' x => by
      have y := P2.within.apart _ _ x
      simp only at y ⊢
      by_cases c : m1.n ≤ e.tri
      · have := y.1 c
        omega
      · rw [P2.within.nei e c] at x
        exact P1.within.apart _ _ x
    have hS : Apartment m2 fun t => t < m1.n := fun e e' x => by
      have y := P2.within.apart _ _ x
      simp only at y ⊢
      omega
    have cL : ∀ e : HE, m.n ≤ e.tri → e.tri < m1.n → m2.vert e = none ∨ ∃ p ∈ L, m2.vert e = some p := fun e a1 a2 => (P1.corners _).1 ⟨e, a2, a1, (lv e a2).symm⟩
    have cD : ∀ e : HE, m1.n ≤ e.tri → e.tri < m2.n → m2.vert e = none ∨ ∃ p ∈ D, m2.vert e = some p := fun e a1 a2 => (P2.corners _).1 ⟨e, a2, a1, rfl⟩
    obtain ⟨ok', hn, hc, W⟩ := c111_merge hP P2.ok hR hS (fun e e' a1 a2 a3 _ a5 a6 a7 => by
        rcases cL e a3 a5 with x | ⟨p, hp, x⟩
        · exact x
        · rcases cD e' (by omega) a2 with y | ⟨q, hq, y⟩
          · rw [a7]; exact y
          · rw [x, y, Option.some.injEq] at a7
            exact absurd a7 (nLD p hp q hq)) (by omega) (by omega) P1.right.2 P1.right.1 (by have := P1.right.2; omega)
      (by rw [show org m2 il = org m1 il from lv il.next P1.right.2]; exact f1) (by have := P2.left.1; omega) (by have := P2.left.1; omega) P2.left.2 f2 e3
    have H := mergeHulls_handles P2.ok hR (by omega) ⟨P1.left.1, by have := P1.left.2; omega⟩ ⟨by have := P2.right.1; omega, P2.right.2⟩ e3 ok' hn W
    refine ⟨ok', ?_, ⟨W.apart, fun e he => ?_, fun e he => ?_⟩, fun v => (hc v).trans ⟨?_, ?_⟩, H.1, H.2⟩
    · have := P1.n
      have := P2.n
      omega
    · rw [W.nei e he, P2.within.nei e (by omega), P1.within.nei e he]
    · rw [W.vert e he, P2.within.vert e (by omega), P1.within.vert e he]
    · rintro ⟨e, a1, a2, rfl⟩
      by_cases c : e.tri < m1.n
      · rcases cL e a2 c with x | ⟨p, hp, x⟩
        · exact Or.inl x
        · exact Or.inr ⟨p, by rw [← hLD]; exact List.mem_append_left _ hp, x⟩
      · rcases cD e (by omega) a1 with x | ⟨p, hp, x⟩
        · exact Or.inl x
        · exact Or.inr ⟨p, by rw [← hLD]; exact List.mem_append_right _ hp, x⟩
    · have toL : ∀ v, IsCorner m1 (fun t => m.n ≤ t) v → IsCorner m2 (fun t => m.n ≤ t) v := fun v ⟨e, a1, a2, a3⟩ => ⟨e, by omega, a2, by rw [lv e a1]; exact a3⟩
      have toD : ∀ v, IsCorner m2 (fun t => m1.n ≤ t) v → IsCorner m2 (fun t => m.n ≤ t) v := fun v ⟨e, a1, a2, a3⟩ => ⟨e, a1, by omega, a3⟩
      rintro (rfl | ⟨p, hp, rfl⟩)
      · exact toL _ ((P1.corners _).2 (Or.inl rfl))
      · rw [← hLD, List.mem_append] at hp
        rcases hp with hp | hp
        · exact toL _ ((P1.corners _).2 (Or.inr ⟨p, hp, rfl⟩))
        · exact toD _ ((P2.corners _).2 (Or.inr ⟨p, hp, rfl⟩))

theorem exact_tame (pts : List (Int × Int)) : Tame (exactGeo pts).toPreds where
  ccw1 a b := by simp [exactGeo, exactPreds]
  ccw2 a b := by simp only [exactGeo, exactPreds]; apply le_of_eq; ring
  inc1 a b c := by simp only [exactGeo, exactPreds]; apply le_of_eq; ring
  inc2 a b c := by simp only [exactGeo, exactPreds]; apply le_of_eq; ring

/-- The handles of a result lie at the ghost vertex. -/
def handlesAt (r : Option (Mesh × HE × HE)) : Bool :=
  match r with
  | some (m, fl, fr) => decide (dest m fl = none ∧ org m fr = none)
  | none => true

theorem handlesAt_spec {r : Option (Mesh × HE × HE)} (h : handlesAt r = true) : ∀ m fl fr, r = some (m, fl, fr) → dest m fl = none ∧ org m fr = none := by
  rintro m fl fr rfl
  exact of_decide_eq_true h

theorem handles_of_le {G : Geo} {N k : Nat} {m : Mesh} {pts : List Nat} {axis : Bool} (h : pts.length ≤ 3) : Handles G N k m pts axis := by
  cases k with
  | zero => trivial
  | succ k => exact fun x => absurd x (by omega)

theorem empty_ok : Ok emptyMesh := ⟨fun e h => absurd h (Nat.not_lt_zero _), (fun _ _ h => by cases h), (fun _ _ h => by cases h), (fun _ _ h => by cases h), fun e h => absurd h (Nat.not_lt_zero _)⟩

/-- The seven points of `pts7`: two levels of merging. -/
theorem handles7 : Handles (exactGeo pts7) 50 20 emptyMesh [0, 4, 3, 1, 6, 5, 2] false := by
  refine fun _ => ⟨handlesAt_spec (by decide +kernel), handles_of_le (by decide), fun m1 fl il h => ?_⟩
  intro _
  refine ⟨?_, handles_of_le (by decide), fun _ _ _ _ => handles_of_le (by decide)⟩
  have key : handlesAt ((divConq (exactGeo pts7) 50 19 emptyMesh [0, 4, 3] true).bind fun x => divConq (exactGeo pts7) 50 19 x.1 [1, 6, 5, 2] true) = true := by decide +kernel
  rw [show divConq (exactGeo pts7) 50 19 emptyMesh [0, 4, 3] true = some (m1, fl, il) from h] at key
  exact handlesAt_spec key

example : ∃ m' fl fr, divConq (exactGeo pts7) 50 20 emptyMesh [0, 4, 3, 1, 6, 5, 2] false = some (m', fl, fr) ∧ Part emptyMesh m' [0, 4, 3, 1, 6, 5, 2] fl fr ∧ m'.n = 12 := by
  obtain ⟨⟨m', fl, fr⟩, h⟩ := Option.isSome_iff_exists.1 (show (divConq (exactGeo pts7) 50 20 emptyMesh [0, 4, 3, 1, 6, 5, 2] false).isSome = true by decide +kernel)
  have := (c112_recursion_partial (exact_tame pts7) 20 empty_ok (by decide) handles7 h).1
  exact ⟨m', fl, fr, h, this, by have := this.n; simp [emptyMesh] at this; exact this⟩
end Verif.Tri
