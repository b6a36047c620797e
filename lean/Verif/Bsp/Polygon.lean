import Verif.Bsp.Vec
import Verif.Bsp.SplitFace
/-!
# Convex polygons as faces

A face whose vertices lie in a plane, with all of them to the left of each of its half-edges, is met by any plane as `Convex` says.
-/
namespace Verif.Bsp
open InSphere (Pt)
open Geom (lerp)

variable {K : Type} [Field K] [LinearOrder K] [IsStrictOrderedRing K]

/-- The face is a convex polygon in the plane `B = 0`: its vertices are different points of the plane, seen from the side where `B` is positive (against `B.n`) none
is to the right of any half-edge, none lies inside of a half-edge, and they do not all lie on a line. -/
structure FaceOk (pos : Nat → Pt K) (B : Aff K) (c : Cycle) : Prop where
  simple : (c.map Prod.fst).Nodup
  inj : ∀ x ∈ c, ∀ y ∈ c, pos x.1 = pos y.1 → x.1 = y.1
  plane : ∀ x ∈ c, B.ev (pos x.1) = 0
  left : ∀ h ∈ hes c, ∀ x ∈ c, 0 ≤ area B.n (pos h.tail) (pos h.tip) (pos x.1)
  nomid : ∀ h ∈ hes c, ∀ x ∈ c, ∀ t : K, 0 < t → t < 1 → pos x.1 ≠ lerp (pos h.tail) (pos h.tip) t
  fat : ∃ h ∈ hes c, ∃ x ∈ c, 0 < area B.n (pos h.tail) (pos h.tip) (pos x.1)

/-! ### Blocks -/

/-- Somewhere on the way the property begins to hold. -/
theorem exists_enter {Q : Nat → Prop} : ∀ (l : Cycle) (z : Nat), (∃ x l', l = x :: l' ∧ ¬ Q x.1) → Q z → ∃ k ∈ path l z, ¬ Q k.tail ∧ Q k.tip
  | [], _, h, _ => by obtain ⟨x, l', e, _⟩ := h; cases e
  | [x], z, h, hz => by
    obtain ⟨x', l', e, hx⟩ := h
    cases e
    exact ⟨⟨x.1, x.2, z⟩, by simp [path, firstTail], hx, hz⟩
  | x :: y :: l, z, h, hz => by
    obtain ⟨x', l', e, hx⟩ := h
    cases e
    by_cases hy : Q y.1
    · exact ⟨⟨x.1, x.2, y.1⟩, by simp [path, firstTail], hx, hy⟩
    · obtain ⟨k, hk, h1, h2⟩ := exists_enter (y :: l) z ⟨y, l, rfl, hy⟩ hz
      exact ⟨k, by rw [path]; exact List.mem_cons_of_mem _ hk, h1, h2⟩

theorem mem_takeWhile_true {α : Type} {q : α → Bool} : ∀ {l : List α} {y : α}, y ∈ l.takeWhile q → q y = true
  | [], _, h => by cases h
  | x :: l, y, h => by
    by_cases hx : q x = true
    · rw [List.takeWhile_cons, if_pos hx] at h
      rcases List.mem_cons.1 h with rfl | h
      · exact hx
      · exact mem_takeWhile_true h
    · rw [List.takeWhile_cons, if_neg hx] at h; cases h

theorem rot_swap {α : Type} (a b : List α) : (a ++ b) ~r (b ++ a) := ⟨a.length, List.rotate_append_length_eq a b⟩

theorem mem_hes_rot {c d : Cycle} (h : c ~r d) (k : HE) : k ∈ hes c ↔ k ∈ hes d := (hes_rotated h).perm.mem_iff

theorem firstTail_cons (x : Nat × Nat) (l : Cycle) (z : Nat) : firstTail (x :: l) z = x.1 := rfl

theorem firstTail_ne {l : Cycle} (h : l ≠ []) (z z' : Nat) : firstTail l z = firstTail l z' := by
  cases l with
  | nil => exact absurd rfl h
  | cons x l => rfl

/-- The half-edges along a part of a cycle. -/
theorem path_sub_hes (a b d : Cycle) (k : HE) (h : k ∈ path a (firstTail (b ++ (d ++ a)) 0)) : k ∈ hes (d ++ a ++ b) := by
  have hr : (d ++ a ++ b) ~r (a ++ (b ++ d)) := by
    have := rot_swap d (a ++ b)
    simpa [List.append_assoc] using this
  rw [mem_hes_rot hr, hes_append, List.mem_append]
  left
  convert h using 2
  cases b with
  | nil => cases d <;> simp [firstTail]
  | cons x b => rfl

/-- If the property begins to hold only once on the way around, it holds on one block. -/
theorem one_block {Q : Nat → Prop} {c : Cycle} (hnd : (c.map Prod.fst).Nodup)
    (h1 : ∀ h ∈ hes c, ∀ k ∈ hes c, ¬ Q h.tail → Q h.tip → ¬ Q k.tail → Q k.tip → h.tail = k.tail) :
    ∃ X P, c ~r X ++ P ∧ (∀ x ∈ X, ¬ Q x.1) ∧ (∀ x ∈ P, Q x.1) := by
  classical
  by_cases hall : ∀ x ∈ c, ¬ Q x.1
  · exact ⟨c, [], by rw [List.append_nil], hall, by simp⟩
  push Not at hall
  obtain ⟨x, hx, hQx⟩ := hall
  obtain ⟨l1, l2, rfl⟩ := List.append_of_mem hx
  have hr : (l1 ++ x :: l2) ~r (x :: l2 ++ l1) := rot_swap l1 (x :: l2)
  generalize hd : x :: l2 ++ l1 = d at hr
  have hdx : ∃ d', d = x :: d' := ⟨l2 ++ l1, by rw [← hd]; rfl⟩
  have hdnd : (d.map Prod.fst).Nodup := (hr.perm.map _).nodup_iff.1 hnd
  have h1' : ∀ h ∈ hes d, ∀ k ∈ hes d, ¬ Q h.tail → Q h.tip → ¬ Q k.tail → Q k.tip → h.tail = k.tail := fun h hh k hk =>
    h1 h ((mem_hes_rot hr h).2 hh) k ((mem_hes_rot hr k).2 hk)
  set q : Nat × Nat → Bool := fun y => decide (Q y.1) with hq
  have e1 : d = d.takeWhile q ++ d.dropWhile q := List.takeWhile_append_dropWhile.symm
  generalize hA : d.takeWhile q = A at e1
  generalize hR : d.dropWhile q = R at e1
  have hAQ : ∀ y ∈ A, Q y.1 := fun y hy => by
    have := mem_takeWhile_true (hA ▸ hy); simpa [hq] using this
  have e2 : R = R.takeWhile (fun y => !q y) ++ R.dropWhile (fun y => !q y) := List.takeWhile_append_dropWhile.symm
  generalize hM : R.takeWhile (fun y => !q y) = M at e2
  generalize hT : R.dropWhile (fun y => !q y) = T at e2
  have hMQ : ∀ y ∈ M, ¬ Q y.1 := fun y hy => by
    have := mem_takeWhile_true (hM ▸ hy); simpa [hq] using this
  have hA0 : ∃ A', A = x :: A' := by
    obtain ⟨d', rfl⟩ := hdx
    rw [List.takeWhile_cons, if_pos (by simpa [hq] using hQx)] at hA
    exact ⟨_, hA.symm⟩
  have hTQ : ∀ y ∈ T, Q y.1 := by
    by_contra hno
    push Not at hno
    obtain ⟨y, hy, hyQ⟩ := hno
    obtain ⟨T1, T2, eT⟩ := List.append_of_mem hy
    -- the first element of T has the property
    have hT0 : ∃ t T', T = t :: T' ∧ Q t.1 := by
      cases hT' : T with
      | nil => rw [hT'] at hy; cases hy
      | cons t T' =>
        refine ⟨t, T', rfl, ?_⟩
        have := List.head?_dropWhile_not (fun y => !q y) R
        rw [hT, hT'] at this
        simpa [hq] using this
    obtain ⟨t, T', eT', ht⟩ := hT0
    have hM0 : ∃ m M', M = m :: M' ∧ ¬ Q m.1 := by
      cases hM' : M with
      | nil =>
        exfalso
        rw [hM', List.nil_append] at e2
        have := List.head?_dropWhile_not q d
        rw [hR, e2, eT'] at this
        have : q t = false := by simpa using this
        simp [hq, ht] at this
      | cons m M' => exact ⟨m, M', rfl, hMQ m (by rw [hM']; simp)⟩
    obtain ⟨k1, hk1, a1, a2⟩ := exists_enter M t.1 hM0 ht
    obtain ⟨k2, hk2, b1, b2⟩ := exists_enter (y :: T2) x.1 ⟨y, T2, rfl, hyQ⟩ hQx
    obtain ⟨A', eA⟩ := hA0
    have ed : d = A ++ (M ++ T) := by rw [e1, e2]
    have m1 : k1 ∈ hes d := by
      have := path_sub_hes M T A k1 (by rw [eT']; exact hk1)
      rw [ed]; simpa [List.append_assoc] using this
    have m2 : k2 ∈ hes d := by
      have := path_sub_hes (y :: T2) [] (A ++ (M ++ T1)) k2 (by rw [eA]; exact hk2)
      rw [ed, eT]; simpa [List.append_assoc] using this
    have := h1' k1 m1 k2 m2 a1 a2 b1 b2
    have t1 : (k1.tail, k1.edge) ∈ M := path_tail hk1
    have t2 : (k2.tail, k2.edge) ∈ T := by rw [eT]; exact List.mem_append_right _ (path_tail hk2)
    rw [ed, List.map_append, List.map_append] at hdnd
    exact (List.nodup_append.1 (List.nodup_append.1 hdnd).2.1).2.2 _ (List.mem_map_of_mem t1) _ (List.mem_map_of_mem t2) this
  refine ⟨M, T ++ A, hr.trans ?_, hMQ, fun y hy => ?_⟩
  · rw [e1, e2]
    simpa [List.append_assoc] using rot_swap A (M ++ T)
  · rcases List.mem_append.1 hy with h | h
    · exact hTQ y h
    · exact hAQ y h

/-- The block of the other side, seen from a block that does not meet it. -/
theorem inner_block {Q : Nat → Prop} {c X P : Cycle} (hr : c ~r X ++ P) (hnd : (c.map Prod.fst).Nodup) (hP : P ≠ []) (hPQ : ∀ x ∈ P, ¬ Q x.1)
    (h1 : ∀ h ∈ hes c, ∀ k ∈ hes c, ¬ Q h.tail → Q h.tip → ¬ Q k.tail → Q k.tip → h.tail = k.tail) :
    ∃ Z' N Z, X = Z' ++ N ++ Z ∧ (∀ x ∈ Z', ¬ Q x.1) ∧ (∀ x ∈ N, Q x.1) ∧ (∀ x ∈ Z, ¬ Q x.1) := by
  classical
  set q : Nat × Nat → Bool := fun y => decide (Q y.1) with hq
  have e1 : X = X.takeWhile (fun y => !q y) ++ X.dropWhile (fun y => !q y) := List.takeWhile_append_dropWhile.symm
  generalize hZ' : X.takeWhile (fun y => !q y) = Z' at e1
  generalize hR : X.dropWhile (fun y => !q y) = R at e1
  have e2 : R = R.takeWhile q ++ R.dropWhile q := List.takeWhile_append_dropWhile.symm
  generalize hN : R.takeWhile q = N at e2
  generalize hZ : R.dropWhile q = Z at e2
  have hZ'Q : ∀ y ∈ Z', ¬ Q y.1 := fun y hy => by
    have := mem_takeWhile_true (hZ' ▸ hy); simpa [hq] using this
  have hNQ : ∀ y ∈ N, Q y.1 := fun y hy => by
    have := mem_takeWhile_true (hN ▸ hy); simpa [hq] using this
  refine ⟨Z', N, Z, by rw [List.append_assoc, ← e2]; exact e1, hZ'Q, hNQ, ?_⟩
  by_contra hno
  push Not at hno
  obtain ⟨y, hy, hyQ⟩ := hno
  obtain ⟨Z1, Z2, eZ⟩ := List.append_of_mem hy
  have hZ0 : ∃ z Z0, Z = z :: Z0 ∧ ¬ Q z.1 := by
    cases hZc : Z with
    | nil => rw [hZc] at hy; cases hy
    | cons z Z0 =>
      refine ⟨z, Z0, rfl, ?_⟩
      have := List.head?_dropWhile_not q R
      rw [hZ, hZc] at this
      simpa [hq] using this
  have hN0 : ∃ n N0, N = n :: N0 ∧ Q n.1 := by
    cases hNc : N with
    | nil =>
      exfalso
      rw [hNc, List.nil_append] at e2
      obtain ⟨z, Z0, ez, hz⟩ := hZ0
      have := List.head?_dropWhile_not (fun y => !q y) X
      rw [hR, e2, ez] at this
      have : q z = true := by simpa using this
      exact hz (by simpa [hq] using this)
    | cons n N0 => exact ⟨n, N0, rfl, hNQ n (by rw [hNc]; simp)⟩
  obtain ⟨n, N0, eN, hn⟩ := hN0
  obtain ⟨z, Z0, ez, hz⟩ := hZ0
  have hP0 : ∃ p P', P = p :: P' := List.exists_cons_of_ne_nil hP
  obtain ⟨p, P', eP⟩ := hP0
  have hZ10 : ∃ z Z1', Z1 = z :: Z1' ∧ ¬ Q z.1 := by
    cases hZ1 : Z1 with
    | nil =>
      rw [hZ1, List.nil_append, ez] at eZ
      cases eZ
      exact absurd hyQ hz
    | cons z' Z1' =>
      rw [hZ1, ez] at eZ
      simp only [List.cons_append, List.cons.injEq] at eZ
      exact ⟨z', Z1', rfl, by rw [← eZ.1]; exact hz⟩
  obtain ⟨k1, hk1, a1, a2⟩ := exists_enter Z1 y.1 hZ10 hyQ
  obtain ⟨k2, hk2, b1, b2⟩ := exists_enter (P ++ Z') n.1 ⟨p, P' ++ Z', by rw [eP]; rfl, hPQ p (by rw [eP]; simp)⟩ hn
  have ec : c ~r (P ++ Z') ++ (N ++ (Z1 ++ y :: Z2)) := by
    refine hr.trans ?_
    rw [e1, e2, eZ]
    simpa [List.append_assoc] using rot_swap (Z' ++ (N ++ (Z1 ++ y :: Z2))) P
  have m1 : k1 ∈ hes c := by
    rw [mem_hes_rot ec]
    have := path_sub_hes Z1 (y :: Z2) (P ++ Z' ++ N) k1 hk1
    simpa [List.append_assoc] using this
  have m2 : k2 ∈ hes c := by
    rw [mem_hes_rot ec]
    have := path_sub_hes (P ++ Z') (N ++ (Z1 ++ y :: Z2)) [] k2 (by rw [eN]; exact hk2)
    simpa [List.append_assoc] using this
  have := h1 k1 m1 k2 m2 a1 a2 b1 b2
  have t1 : (k1.tail, k1.edge) ∈ N ++ (Z1 ++ y :: Z2) := List.mem_append_right _ (List.mem_append_left _ (path_tail hk1))
  have t2 : (k2.tail, k2.edge) ∈ P ++ Z' := path_tail hk2
  have hnd' := (ec.perm.map Prod.fst).nodup_iff.1 hnd
  rw [List.map_append] at hnd'
  exact (List.nodup_append.1 hnd').2.2 _ (List.mem_map_of_mem t2) _ (List.mem_map_of_mem t1) this.symm

/-! ### Planes that meet a convex polygon -/

section
variable {pos : Nat → Pt K} {B : Aff K} {c : Cycle}

theorem FaceOk.normal (hf : FaceOk pos B c) : vdot B.n B.n ≠ 0 := by
  obtain ⟨h, _, x, _, h1⟩ := hf.fat
  exact normal_of_turn h1.ne'

theorem FaceOk.tail_mem {h : HE} (hh : h ∈ hes c) : (h.tail, h.edge) ∈ c := hes_tail hh

theorem FaceOk.ev_tail (hf : FaceOk pos B c) {h : HE} (hh : h ∈ hes c) : B.ev (pos h.tail) = 0 := hf.plane _ (hes_tail hh)

theorem FaceOk.ev_tip (hf : FaceOk pos B c) {h : HE} (hh : h ∈ hes c) : B.ev (pos h.tip) = 0 := by
  obtain ⟨x, hx, e⟩ := hes_tip hh
  rw [← e]; exact hf.plane x hx

theorem FaceOk.left_tail (hf : FaceOk pos B c) {h k : HE} (hh : h ∈ hes c) (hk : k ∈ hes c) : 0 ≤ area B.n (pos h.tail) (pos h.tip) (pos k.tail) := hf.left h hh _ (hes_tail hk)

theorem FaceOk.left_tip (hf : FaceOk pos B c) {h k : HE} (hh : h ∈ hes c) (hk : k ∈ hes c) : 0 ≤ area B.n (pos h.tail) (pos h.tip) (pos k.tip) := by
  obtain ⟨x, hx, e⟩ := hes_tip hk
  rw [← e]; exact hf.left h hh x hx

/-- The boundary comes to the positive side only once. -/
theorem FaceOk.once (hf : FaceOk pos B c) (G : Aff K) {h k : HE} (hh : h ∈ hes c) (hk : k ∈ hes c) (h1 : G.ev (pos h.tail) ≤ 0) (h2 : 0 < G.ev (pos h.tip))
    (k1 : G.ev (pos k.tail) ≤ 0) (k2 : 0 < G.ev (pos k.tip)) : h.tail = k.tail := by
  by_contra hne
  have hn := hf.normal
  have hpne : pos h.tail ≠ pos k.tail := fun e => hne (hf.inj _ (hes_tail hh) _ (hes_tail hk) e)
  have hsum := two_up (G := G) hn (hf.ev_tail hh) (hf.ev_tip hh) (hf.ev_tail hk) (hf.ev_tip hk)
  have t1 := hf.left_tail hh hk
  have t2 := hf.left_tip hh hk
  have t3 := hf.left_tail hk hh
  have t4 := hf.left_tip hk hh
  have s1 := mul_nonneg k2.le t1
  have s2 := mul_nonneg (neg_nonneg.2 k1) t2
  have s3 := mul_nonneg h2.le t3
  have s4 := mul_nonneg (neg_nonneg.2 h1) t4
  have z1 : area B.n (pos h.tail) (pos h.tip) (pos k.tail) = 0 := by
    have : G.ev (pos k.tip) * area B.n (pos h.tail) (pos h.tip) (pos k.tail) = 0 := by linarith
    exact (mul_eq_zero.1 this).resolve_left k2.ne'
  have z3 : area B.n (pos k.tail) (pos k.tip) (pos h.tail) = 0 := by
    have : G.ev (pos h.tip) * area B.n (pos k.tail) (pos k.tip) (pos h.tail) = 0 := by linarith
    exact (mul_eq_zero.1 this).resolve_left h2.ne'
  have hab : pos h.tail ≠ pos h.tip := fun e => by rw [e] at h1; linarith
  obtain ⟨τ, eτ⟩ := on_line hn (hf.ev_tail hh) (hf.ev_tip hh) (hf.ev_tail hk) hab z1
  have gτ : G.ev (pos k.tail) = (1 - τ) * G.ev (pos h.tail) + τ * G.ev (pos h.tip) := by rw [eτ, ev_lerp]
  have τ1 : τ < 1 := by
    by_contra hτ
    rw [not_lt] at hτ
    nlinarith
  rcases lt_trichotomy τ 0 with hτ | hτ | hτ
  · -- the first half-edge begins inside of the second one
    have z3' : area B.n (pos k.tail) (pos h.tail) (pos k.tip) = 0 := by
      have := turn_rot B.n (pos k.tip) (pos k.tail) (pos h.tail)
      have h' := turn_swap B.n (pos k.tail) (pos k.tip) (pos h.tail)
      have h'' := turn_rot B.n (pos k.tail) (pos k.tip) (pos h.tail)
      have h3 := turn_swap B.n (pos h.tail) (pos k.tail) (pos k.tip)
      have h4 := turn_rot B.n (pos h.tail) (pos k.tail) (pos k.tip)
      linarith
    obtain ⟨ρ, eρ⟩ := on_line hn (hf.ev_tail hk) (hf.ev_tail hh) (hf.ev_tip hk) hpne.symm z3'
    have gρ : G.ev (pos k.tip) = (1 - ρ) * G.ev (pos k.tail) + ρ * G.ev (pos h.tail) := by rw [eρ, ev_lerp]
    have hlt : G.ev (pos k.tail) < G.ev (pos h.tail) := by rw [gτ]; nlinarith
    have ρ1 : 1 < ρ := by
      by_contra hρ
      rw [not_lt] at hρ
      nlinarith
    have ρ0 : 0 < ρ := by linarith
    refine hf.nomid k hk _ (hes_tail hh) (1 / ρ) (by positivity) ((div_lt_one ρ0).2 ρ1) ?_
    rw [eρ]
    generalize pos k.tail = a
    generalize pos h.tail = b
    obtain ⟨x, y, z⟩ := b
    simp only [lerp, Pt.mk.injEq]
    refine ⟨?_, ?_, ?_⟩ <;> field_simp <;> ring
  · rw [hτ, lerp_zero] at eτ
    exact hpne eτ.symm
  · exact hf.nomid h hh _ (hes_tail hk) τ hτ τ1 eτ

/-- A plane through a side of the polygon has the polygon on one side. -/
theorem FaceOk.side (hf : FaceOk pos B c) (G : Aff K) {h : HE} (hh : h ∈ hes c) (hne : pos h.tail ≠ pos h.tip) (h1 : G.ev (pos h.tail) = 0) (h2 : G.ev (pos h.tip) = 0) {x y : Nat × Nat} (hx : x ∈ c) (hy : y ∈ c)
    (hx1 : 0 < G.ev (pos x.1)) (hy1 : G.ev (pos y.1) < 0) : False := by
  have hn := hf.normal
  have e := ev_ratio (G := G) hn (hf.ev_tail hh) (hf.ev_tip hh) (hf.plane x hx) (hf.plane y hy) h1 h2
  have t1 := hf.left h hh x hx
  have t2 := hf.left h hh y hy
  have s1 := mul_nonneg hx1.le t2
  have s2 := mul_nonneg (neg_nonneg.2 hy1.le) t1
  have z : area B.n (pos h.tail) (pos h.tip) (pos x.1) = 0 := by
    have : G.ev (pos y.1) * area B.n (pos h.tail) (pos h.tip) (pos x.1) = 0 := by linarith
    exact (mul_eq_zero.1 this).resolve_left hy1.ne
  obtain ⟨t, et⟩ := on_line hn (hf.ev_tail hh) (hf.ev_tip hh) (hf.plane x hx) hne z
  rw [et, ev_lerp, h1, h2] at hx1
  simp at hx1

theorem FaceOk.three (hf : FaceOk pos B c) : 3 ≤ c.length := by
  obtain ⟨h, hh, x, hx, ht⟩ := hf.fat
  have m1 := hes_tail hh
  obtain ⟨y, m2, e⟩ := hes_tip hh
  have n1 : h.tail ≠ h.tip := fun e => by rw [e, turn_self] at ht; exact lt_irrefl _ ht
  have n2 : x.1 ≠ h.tail := fun e => by rw [e, turn_left] at ht; exact lt_irrefl _ ht
  have n3 : x.1 ≠ h.tip := fun e => by rw [e, turn_right] at ht; exact lt_irrefl _ ht
  have hsub : [h.tail, h.tip, x.1] ⊆ c.map Prod.fst := by
    intro v hv
    simp only [List.mem_cons, List.not_mem_nil, or_false] at hv
    rcases hv with rfl | rfl | rfl
    · exact List.mem_map.2 ⟨_, m1, rfl⟩
    · exact List.mem_map.2 ⟨y, m2, e⟩
    · exact List.mem_map.2 ⟨x, hx, rfl⟩
  have hnd : [h.tail, h.tip, x.1].Nodup := by simp [n1, n2.symm, n3.symm]
  have := (hnd.subperm hsub).length_le
  simpa using this

/-- The ends of a half-edge are different. -/
theorem FaceOk.ne (hf : FaceOk pos B c) {h : HE} (hh : h ∈ hes c) : h.tail ≠ h.tip := by
  have h3 := hf.three
  obtain ⟨a, b, e⟩ := List.append_of_mem (hes_tail hh)
  have hr : c ~r ((h.tail, h.edge) :: (b ++ a)) := by rw [e]; exact rot_swap a _
  have hnd := (hr.perm.map Prod.fst).nodup_iff.1 hf.simple
  have hh' := (mem_hes_rot hr h).1 hh
  have hlen : (b ++ a).length ≥ 2 := by
    have := hr.perm.length_eq
    simp only [List.length_cons] at this
    omega
  match hba : b ++ a, hlen with
  | y :: l, _ =>
    rw [hba] at hr hnd hh'
    rw [List.map_cons, List.nodup_cons] at hnd
    rw [hes_cons, path] at hh'
    rcases List.mem_cons.1 hh' with e | hh'
    · intro e'
      have : h.tip = y.1 := by rw [e]; rfl
      apply hnd.1
      simp only
      rw [e', this]; simp
    · exact absurd (List.mem_map.2 ⟨_, path_tail hh', rfl⟩) hnd.1

theorem FaceOk.pos_ne (hf : FaceOk pos B c) {h : HE} (hh : h ∈ hes c) : pos h.tail ≠ pos h.tip := by
  intro e
  obtain ⟨x, hx, ex⟩ := hes_tip hh
  apply hf.ne hh
  rw [← ex]
  exact hf.inj _ (hes_tail hh) x hx (by rw [ex]; exact e)

/-- **Any plane that does not contain the polygon meets it as `Convex` says.** -/
theorem FaceOk.convex (hf : FaceOk pos B c) {G : Aff K} {sgn : Nat → SignType} (hs : ∀ x ∈ c, sgn x.1 = SignType.sign (G.ev (pos x.1))) (hne : ∃ x ∈ c, sgn x.1 ≠ 0) : Convex sgn c := by
  have hpos : ∀ x ∈ c, sgn x.1 = 1 ↔ 0 < G.ev (pos x.1) := fun x hx => by rw [hs x hx, sign_eq_one_iff]
  have hneg : ∀ x ∈ c, sgn x.1 = -1 ↔ G.ev (pos x.1) < 0 := fun x hx => by rw [hs x hx, sign_eq_neg_one_iff]
  have hzero : ∀ x ∈ c, sgn x.1 = 0 ↔ G.ev (pos x.1) = 0 := fun x hx => by rw [hs x hx, sign_eq_zero_iff]
  have tp : ∀ h ∈ hes c, sgn h.tip = SignType.sign (G.ev (pos h.tip)) := fun h hh => by
    obtain ⟨x, hx, e⟩ := hes_tip hh
    rw [← e]; exact hs x hx
  have tl : ∀ h ∈ hes c, sgn h.tail = SignType.sign (G.ev (pos h.tail)) := fun h hh => hs _ (hes_tail hh)
  have up : ∀ h ∈ hes c, ∀ k ∈ hes c, ¬ sgn h.tail = 1 → sgn h.tip = 1 → ¬ sgn k.tail = 1 → sgn k.tip = 1 → h.tail = k.tail := by
    intro h hh k hk a1 a2 b1 b2
    rw [tl h hh, sign_eq_one_iff, not_lt] at a1
    rw [tl k hk, sign_eq_one_iff, not_lt] at b1
    rw [tp h hh, sign_eq_one_iff] at a2
    rw [tp k hk, sign_eq_one_iff] at b2
    exact hf.once G hh hk a1 a2 b1 b2
  have down : ∀ h ∈ hes c, ∀ k ∈ hes c, ¬ sgn h.tail = -1 → sgn h.tip = -1 → ¬ sgn k.tail = -1 → sgn k.tip = -1 → h.tail = k.tail := by
    intro h hh k hk a1 a2 b1 b2
    rw [tl h hh, sign_eq_neg_one_iff, not_lt] at a1
    rw [tl k hk, sign_eq_neg_one_iff, not_lt] at b1
    rw [tp h hh, sign_eq_neg_one_iff] at a2
    rw [tp k hk, sign_eq_neg_one_iff] at b2
    refine hf.once G.neg hh hk ?_ ?_ ?_ ?_ <;> rw [Aff.neg_ev] <;> linarith
  have cases3 : ∀ s : SignType, s ≠ 1 → s ≠ -1 → s = 0 := by decide
  refine ⟨hf.simple, hf.three, ?_⟩
  obtain ⟨X, P, hr, hX, hP⟩ := one_block (Q := fun v => sgn v = 1) hf.simple up
  by_cases hP0 : P = []
  · obtain ⟨X', N, hr', hX', hN⟩ := one_block (Q := fun v => sgn v = -1) hf.simple down
    refine Or.inl ⟨-1, by decide, X', N, hr', fun x hx => cases3 _ (hX x ?_) (hX' x hx), hN, ?_⟩
    · have := hr.perm.mem_iff.1 (hr'.perm.mem_iff.2 (List.mem_append_left N hx))
      simpa [hP0] using this
    · rintro rfl
      obtain ⟨x, hx, hx0⟩ := hne
      have m1 := hr.perm.mem_iff.1 hx
      have m2 := hr'.perm.mem_iff.1 hx
      rw [hP0, List.append_nil] at m1
      rw [List.append_nil] at m2
      exact hx0 (cases3 _ (hX x m1) (hX' x m2))
  by_cases hn : ∃ x ∈ c, sgn x.1 = -1
  · obtain ⟨Z', N, Z, eX, hZ', hN, hZ⟩ := inner_block (Q := fun v => sgn v = -1) hr hf.simple hP0 (fun x hx => by rw [hP x hx]; decide) down
    have hr2 : c ~r (Z ++ P) ++ (Z' ++ N) := by
      refine hr.trans ?_
      rw [eX]
      simpa [List.append_assoc] using rot_swap (Z' ++ N) (Z ++ P)
    have mem : ∀ x, x ∈ c ↔ x ∈ (Z ++ P) ++ (Z' ++ N) := fun x => hr2.perm.mem_iff
    have zZ : ∀ x ∈ Z, sgn x.1 = 0 := fun x hx => cases3 _ (hX x (by rw [eX]; simp [hx])) (hZ x hx)
    have zZ' : ∀ x ∈ Z', sgn x.1 = 0 := fun x hx => cases3 _ (hX x (by rw [eX]; simp [hx])) (hZ' x hx)
    have hN0 : N ≠ [] := by
      rintro rfl
      obtain ⟨x, hx, hx1⟩ := hn
      rw [mem] at hx
      simp only [List.mem_append, List.not_mem_nil, or_false] at hx
      rcases hx with (h | h) | h
      · rw [zZ x h] at hx1; exact absurd hx1 (by decide)
      · rw [hP x h] at hx1; exact absurd hx1 (by decide)
      · rw [zZ' x h] at hx1; exact absurd hx1 (by decide)
    obtain ⟨p, hp⟩ := List.exists_mem_of_ne_nil P hP0
    obtain ⟨n, hn'⟩ := List.exists_mem_of_ne_nil N hN0
    have hpc : p ∈ c := (mem p).2 (by simp [hp])
    have hnc : n ∈ c := (mem n).2 (by simp [hn'])
    have two : ∀ z1 z2 : Nat × Nat, (⟨z1.1, z1.2, z2.1⟩ : HE) ∈ hes c → sgn z1.1 = 0 → sgn z2.1 = 0 → False := by
      intro z1 z2 hh e1 e2
      have t1 := tl _ hh
      have t2 := tp _ hh
      simp only at t1 t2
      rw [e1, eq_comm, sign_eq_zero_iff] at t1
      rw [e2, eq_comm, sign_eq_zero_iff] at t2
      exact hf.side G hh (hf.pos_ne hh) t1 t2 hpc hnc ((hpos p hpc).1 (hP p hp)) ((hneg n hnc).1 (hN n hn'))
    refine Or.inr ⟨Z, P, Z', N, hr2, ?_, ?_, zZ, zZ', hP, hN, hP0, hN0⟩
    · match Z, zZ, hr2 with
      | [], _, _ => simp
      | [z], _, _ => simp
      | z1 :: z2 :: Z, zZ, hr2 =>
        exfalso
        refine two z1 z2 ?_ (zZ z1 (by simp)) (zZ z2 (by simp))
        rw [mem_hes_rot hr2]
        simp [hes, path, firstTail]
    · match Z', zZ', hr2 with
      | [], _, _ => simp
      | [z], _, _ => simp
      | z1 :: z2 :: Z', zZ', hr2 =>
        exfalso
        refine two z1 z2 ?_ (zZ' z1 (by simp)) (zZ' z2 (by simp))
        rw [mem_hes_rot (hr2.trans (rot_swap _ _))]
        simp [hes, path, firstTail]
  · push Not at hn
    refine Or.inl ⟨1, by decide, X, P, hr, fun x hx => cases3 _ (hX x hx) (hn x (hr.perm.mem_iff.2 (by simp [hx]))), hP, hP0⟩

end

end Verif.Bsp
