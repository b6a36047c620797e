import Verif.Bsp.Curve
import Verif.Bsp.Geo
/-!
# The pieces in which a plane meets the faces of a convex cell
-/
namespace Verif.Bsp
open InSphere (Pt)
open Geom (lerp)

variable {K : Type} [Field K] [LinearOrder K] [IsStrictOrderedRing K]

/-! ### As many pieces begin as end -/

/-- The half-edges that leave `u` to the positive side, minus those that arrive from there. -/
def flow (σ : Nat → SignType) (u : Nat) (l : List HE) : Int :=
  (l.map fun h => (if h.tail = u ∧ σ h.tip = 1 then (1 : Int) else 0) - (if h.tip = u ∧ σ h.tail = 1 then 1 else 0)).sum

theorem flow_cons (σ : Nat → SignType) (u : Nat) (h : HE) (l : List HE) :
    flow σ u (h :: l) = ((if h.tail = u ∧ σ h.tip = 1 then (1 : Int) else 0) - (if h.tip = u ∧ σ h.tail = 1 then 1 else 0)) + flow σ u l := by simp [flow]
theorem flow_nil (σ : Nat → SignType) (u : Nat) : flow σ u [] = 0 := rfl
theorem flow_append (σ : Nat → SignType) (u : Nat) (l r : List HE) : flow σ u (l ++ r) = flow σ u l + flow σ u r := by simp [flow]
theorem flow_perm {σ : Nat → SignType} {u : Nat} {l r : List HE} (h : l.Perm r) : flow σ u l = flow σ u r := (h.map _).sum_eq

theorem flow_ones {σ : Nat → SignType} {u : Nat} (hu : σ u = 0) : ∀ (P : Cycle) (z : Nat), P ≠ [] → (∀ x ∈ P, σ x.1 = 1) → flow σ u (path P z) = - (if z = u then 1 else 0)
  | [], _, h, _ => absurd rfl h
  | [x], z, _, hP => by
    have hx := hP x (by simp)
    have h1 : x.1 ≠ u := fun e => by rw [e, hu] at hx; cases hx
    simp [path, flow_cons, flow_nil, firstTail, h1, hx]
  | x :: y :: P, z, _, hP => by
    have ih := flow_ones hu (y :: P) z (by simp) fun w hw => hP w (by simp [List.mem_cons.1 hw])
    have hx := hP x (by simp)
    have hy := hP y (by simp)
    have h1 : x.1 ≠ u := fun e => by rw [e, hu] at hx; cases hx
    have h2 : y.1 ≠ u := fun e => by rw [e, hu] at hy; cases hy
    rw [path, flow_cons, ih]
    simp [firstTail, h1, h2]

theorem flow_none {σ : Nat → SignType} {u : Nat} {l : List HE} (h : ∀ k ∈ l, (k.tail = u → σ k.tip ≠ 1) ∧ (k.tip = u → σ k.tail ≠ 1)) : flow σ u l = 0 := by
  induction l with
  | nil => rfl
  | cons k l ih =>
    rw [flow_cons, ih fun x hx => h x (by simp [hx]), if_neg fun e => (h k (by simp)).1 e.1 e.2, if_neg fun e => (h k (by simp)).2 e.1 e.2]; rfl

theorem flow_negs {σ : Nat → SignType} {u : Nat} (hu : σ u = 0) (P : Cycle) (z : Nat) (hP : ∀ x ∈ P, σ x.1 = -1) : flow σ u (path P z) = 0 := by
  apply flow_none
  intro k hk
  have := hP _ (path_tail hk)
  simp only at this
  refine ⟨fun e => ?_, fun _ => by rw [this]; decide⟩
  rw [e, hu] at this; cases this

theorem flow_zeros {σ : Nat → SignType} {u : Nat} : ∀ (Z : Cycle) (w : Nat × Nat) (z : Nat), (∀ x ∈ Z ++ [w], σ x.1 = 0) → σ z = 1 → flow σ u (path (Z ++ [w]) z) = if w.1 = u then 1 else 0
  | [], w, z, h, hz => by
    have hw := h w (by simp)
    simp [path, flow_cons, flow_nil, firstTail, hz, hw]
  | x :: Z, w, z, h, hz => by
    have ih := flow_zeros (u := u) Z w z (fun y hy => h y (List.mem_cons_of_mem _ hy)) hz
    have hx := h x (by simp)
    have hn : σ (firstTail (Z ++ [w]) z) = 0 := by
      cases Z with
      | nil => exact h w (by simp)
      | cons y Z => exact h y (by simp)
    rw [List.cons_append, path, flow_cons, ih]
    simp [hx, hn]

/-- On each edge the half-edges of a closed cell cancel, so the flow does. -/
theorem flow_edges {cl : List (Nat × Option Nat)} {m : PMesh} (gm : MGood cl m) {σ : Nat → SignType} {u : Nat} (hu : σ u = 0) {Q : Nat → Bool}
    (hQ : ∀ e, Q e = true ↔ ∃ k ∈ m.all, k.edge = e ∧ (σ k.tail = 1 ∨ σ k.tip = 1)) {l : List HE} (hl : ∀ h ∈ l, h ∈ m.all) :
    flow σ u l = (Finset.range m.nE).sum fun e => if Q e then bd l e u else 0 := by
  induction l with
  | nil => simp [flow_nil, bd_nil]
  | cons h l ih =>
    rw [flow_cons, ih fun k hk => hl k (by simp [hk])]
    have hm := hl h (by simp)
    have hlt := (all_lt gm hm).2.1
    have e1 : ((Finset.range m.nE).sum fun e => if Q e then bd (h :: l) e u else 0) =
        ((Finset.range m.nE).sum fun e => if Q e then inc h e u else 0) + ((Finset.range m.nE).sum fun e => if Q e then bd l e u else 0) := by
      rw [← Finset.sum_add_distrib]
      apply Finset.sum_congr rfl
      intro e _
      split
      · rw [bd_cons]
      · rfl
    rw [e1]
    congr 1
    rw [Finset.sum_eq_single h.edge]
    · have hq : Q h.edge = true ↔ (σ h.tail = 1 ∨ σ h.tip = 1) := by
        rw [hQ]
        constructor
        · rintro ⟨k, hk, e, hs⟩
          rcases gm.ends h hm k hk e.symm with rfl | rfl
          · exact hs
          · exact hs.symm
        · intro hs; exact ⟨h, hm, rfl, hs⟩
      unfold inc
      rw [if_pos rfl]
      by_cases t1 : h.tail = u
      · have s1 : σ h.tail = 0 := by rw [t1]; exact hu
        have t2 : h.tip ≠ u := fun e => gm.proper h hm (t1.trans e.symm)
        by_cases hs : σ h.tip = 1
        · rw [if_pos (hq.2 (Or.inr hs))]; simp [t1, hs, t2]
        · have hn : ¬ Q h.edge = true := fun e => by
            rcases hq.1 e with e | e
            · rw [s1] at e; cases e
            · exact hs e
          simp [t2, hs, hn]
      · by_cases t2 : h.tip = u
        · have s2 : σ h.tip = 0 := by rw [t2]; exact hu
          by_cases hs : σ h.tail = 1
          · rw [if_pos (hq.2 (Or.inl hs))]; simp [t1, hs, t2]
          · have hn : ¬ Q h.edge = true := fun e => by
              rcases hq.1 e with e | e
              · exact hs e
              · rw [s2] at e; cases e
            simp [t1, hs, hn]
        · simp [t1, t2]
    · intro e _ hne
      unfold inc
      rw [if_neg (Ne.symm hne)]; simp
    · intro hn
      exact absurd (Finset.mem_range.2 hlt) hn

theorem flow_closed {cl : List (Nat × Option Nat)} {m : PMesh} (gm : MGood cl m) {σ : Nat → SignType} {u : Nat} (hu : σ u = 0) (k : Nat) :
    ((Finset.range m.faces.length).sum fun i => match cl[i]?, m.faces[i]? with | some P, some c => sg P k * flow σ u (hes c) | _, _ => 0) = 0 := by
  classical
  set Q : Nat → Bool := fun e => decide (∃ k ∈ m.all, k.edge = e ∧ (σ k.tail = 1 ∨ σ k.tip = 1)) with hQ
  have hQ' : ∀ e, Q e = true ↔ ∃ k ∈ m.all, k.edge = e ∧ (σ k.tail = 1 ∨ σ k.tip = 1) := fun e => by simp [hQ]
  have e1 : ∀ i ∈ Finset.range m.faces.length, (match cl[i]?, m.faces[i]? with | some P, some c => sg P k * flow σ u (hes c) | _, _ => 0) =
      (Finset.range m.nE).sum fun e => if Q e then term cl m.faces k e u i else 0 := by
    intro i hi
    unfold term
    cases h1 : cl[i]? with
    | none => simp
    | some P =>
      cases h2 : m.faces[i]? with
      | none => simp
      | some c =>
        simp only
        rw [flow_edges gm hu hQ' fun h hh => mem_all.2 ⟨c, List.mem_of_getElem? h2, hh⟩, Finset.mul_sum]
        apply Finset.sum_congr rfl
        intro e _
        split
        · rfl
        · rw [mul_zero]
  rw [Finset.sum_congr rfl e1, Finset.sum_comm]
  apply Finset.sum_eq_zero
  intro e _
  split
  · exact gm.closed k e u
  · simp

/-! ### The shape of the pieces -/

/-- More on the pieces. -/
def PieceZ (σ : Nat → SignType) (s : Int) (c : Cycle) : Split → Prop
  | .two _ _ => True
  | .zero l => ∃ Z w P, c ~r (Z ++ [w]) ++ P ∧ (∀ x ∈ Z ++ [w], σ x.1 = 0) ∧ (∀ x ∈ P, σ x.1 = 1) ∧ Z ≠ [] ∧ P ≠ [] ∧
      ((s = 1 ∧ l = (path Z w.1).reverse.map HE.rev) ∨ (s = -1 ∧ l = path Z w.1))
  | .isPos true => ∃ Z P, c ~r Z ++ P ∧ (∀ x ∈ Z, σ x.1 = 0) ∧ (∀ x ∈ P, σ x.1 = 1) ∧ Z.length ≤ 1 ∧ P ≠ []
  | .isPos false => ∀ x ∈ c, σ x.1 ≠ 1

theorem pieceZ {cl : List (Nat × Option Nat)} {m : PMesh} (g : MGood cl m) {sgn : Nat → SignType} {hs : List HE} (hsub : ∀ h ∈ hs, h ∈ m.all) {c : Cycle}
    (hcm : c ∈ m.faces) (hch : ∀ h ∈ hes c, h ∈ hs) (hc : Convex sgn c) {E : Nat × Nat → Cycle} (ex : Expands (crossing sgn hs) m.nV E) (correct : Bool) :
    PieceZ (newSgn sgn m.nV) (if correct then 1 else -1) (c.flatMap E) (splitFaceVerts sgn m.twin correct c) := by
  have hall : ∀ h ∈ hes c, h ∈ m.all := fun h hh => mem_all.2 ⟨c, hcm, hh⟩
  have hlt : ∀ x ∈ c, x.1 < m.nV := fun x hx => (g.lt c hcm x hx).1
  have hLiff : ∀ h ∈ hes c, h.edge ∈ crossing sgn hs ↔ crosses sgn h = true := fun h hh =>
    ⟨crosses_of_mem g hsub (hall h hh), fun hx => mem_crossing.2 ⟨h, hch h hh, rfl, hx⟩⟩
  have hns : ∀ x ∈ c, newSgn sgn m.nV x.1 = sgn x.1 := fun x hx => by rw [newSgn, if_pos (hlt x hx)]
  rcases hc.shape with ⟨s, hs0, Z, P, hr, hZ, hP, hP0⟩ | ⟨Z, P, Z', N, hr, h1, h2, hZ, hZ', hP, hN, hP0, hN0⟩
  · have hmem : ∀ x ∈ c, sgn x.1 = 0 ∨ sgn x.1 = s := fun x hx => by
      rcases List.mem_append.1 (hr.perm.mem_iff.1 hx) with h | h
      · exact Or.inl (hZ x h)
      · exact Or.inr (hP x h)
    have hnc : ∀ h ∈ hes c, crosses sgn h = false := by
      intro h hh
      obtain ⟨x, hx, e⟩ := hes_tip hh
      have t1 := hmem _ (hes_tail hh)
      have t2 := hmem x hx
      rw [e] at t2
      apply not_crosses
      simp only at t1
      rcases t1 with t1 | t1 <;> rcases t2 with t2 | t2
      · exact Or.inl t1
      · exact Or.inl t1
      · exact Or.inr (Or.inl t2)
      · exact Or.inr (Or.inr (t1.trans t2.symm))
    have hE : c.flatMap E = c := flatMap_id fun x hx => by
      apply ex.out
      obtain ⟨h, hh, _, e2⟩ := mem_hes hx
      rw [← e2, hLiff h hh, hnc h hh]
      exact Bool.false_ne_true
    rw [hE, split_side m.twin correct hs0 hr hZ hP hP0]
    have hZ' : ∀ x ∈ Z, newSgn sgn m.nV x.1 = 0 := fun x hx => by rw [hns x (hr.perm.mem_iff.2 (by simp [hx]))]; exact hZ x hx
    have hP' : ∀ x ∈ P, newSgn sgn m.nV x.1 = s := fun x hx => by rw [hns x (hr.perm.mem_iff.2 (by simp [hx]))]; exact hP x hx
    by_cases e1 : s = 1
    · subst e1
      rw [if_pos rfl]
      by_cases hz : Z.length ≤ 1
      · rw [if_pos hz]
        exact ⟨Z, P, hr, hZ', hP', hz, hP0⟩
      · rw [if_neg hz]
        have hZ0 : Z ≠ [] := by rintro rfl; simp at hz
        obtain ⟨Z1, w, rfl⟩ := exists_snoc hZ0
        have hpath : (path (Z1 ++ [w]) (firstTail P 0)).dropLast = path Z1 w.1 := by
          rw [path_append]
          show (path Z1 w.1 ++ [_]).dropLast = _
          rw [List.dropLast_concat]
        have hZ1 : Z1 ≠ [] := by rintro rfl; simp at hz
        have htw : (path Z1 w.1).reverse.map m.twin = (path Z1 w.1).reverse.map HE.rev := by
          apply List.map_congr_left
          intro h hh
          apply twin_eq g
          apply hall
          rw [mem_hes_rot hr, hes_append, path_append, List.mem_append, List.mem_append]
          exact Or.inl (Or.inl (List.mem_reverse.1 hh))
        refine ⟨Z1, w, P, hr, hZ', hP', hZ1, hP0, ?_⟩
        rw [hpath]
        cases correct
        · exact Or.inr ⟨rfl, rfl⟩
        · exact Or.inl ⟨rfl, htw⟩
    · rw [if_neg e1]
      intro x hx
      rw [hns x hx]
      rcases hmem x hx with h | h <;> rw [h]
      · decide
      · exact e1
  · rw [split_cut m.twin correct hr h1 h2 hZ hZ' hP hN hP0 hN0]
    cases correct <;> simp [PieceZ]

theorem arcs_key {L : List Nat} {nV f : Nat} {s : Split} {k : Nat × Nat} (h : s.key L nV = some k) : HasKey (f, s.arcs L nV) k := by
  cases s with
  | isPos b => cases h
  | zero l =>
    simp only [Split.key, Option.bind_eq_bind] at h
    obtain ⟨x, hx, h⟩ := Option.bind_eq_some_iff.1 h
    obtain ⟨y, hy, h⟩ := Option.bind_eq_some_iff.1 h
    cases h
    constructor
    · simp [Split.arcs, hx]
    · simp [Split.arcs, hy]
  | two a b =>
    simp only [Split.key, Option.bind_eq_bind] at h
    obtain ⟨x, hx, h⟩ := Option.bind_eq_some_iff.1 h
    obtain ⟨y, hy, h⟩ := Option.bind_eq_some_iff.1 h
    cases h
    constructor <;> simp [Split.arcs, hx, hy]

theorem path_head (Z : Cycle) (x w : Nat × Nat) : ((path (x :: Z) w.1).head?.map HE.tail = some x.1) := rfl

theorem path_last : ∀ (Z : Cycle) (w : Nat), Z ≠ [] → (path Z w).getLast?.map HE.tip = some w
  | [], _, h => absurd rfl h
  | [x], w, _ => rfl
  | x :: y :: Z, w, _ => by
    rw [path, show path (y :: Z) w = ⟨y.1, y.2, firstTail Z w⟩ :: path Z w from rfl, List.getLast?_cons_cons]
    exact path_last (y :: Z) w (by simp)

/-- What a piece contributes. -/
theorem flow_piece {σ : Nat → SignType} {L : List Nat} {nV : Nat} {A : List HE} {s : Int} {c : Cycle} {p : Split} (ok : PieceOk σ L nV A s c p) (oz : PieceZ σ s c p) {u : Nat} (hu : σ u = 0) :
    (p.outline = false → s * flow σ u (hes c) = 0) ∧ ∀ k, p.key L nV = some k → s * flow σ u (hes c) = (if k.1 = u then 1 else 0) - (if k.2 = u then 1 else 0) ∧ σ k.1 = 0 ∧ σ k.2 = 0 := by
  match p, ok, oz with
  | .two a b, ok, _ =>
    refine ⟨fun h => by simp [Split.outline] at h, fun k hk => ?_⟩
    obtain ⟨x, P, y, N, hr, hP0, hN0, hP, hN, sx, sy, -, hid⟩ := ok
    have hfl : flow σ u (hes c) = (if x.1 = u then 1 else 0) - (if y.1 = u then 1 else 0) := by
      rw [flow_perm (hes_rotated hr).perm, hes_append]
      show flow σ u (path (x :: P) y.1 ++ path (y :: N) x.1) = _
      rw [flow_append, path, path, flow_cons, flow_cons, flow_ones hu P _ hP0 hP, flow_negs hu N _ hN]
      have h1 : σ (firstTail P y.1) = 1 := by
        cases P with
        | nil => exact absurd rfl hP0
        | cons z P => exact hP z (by simp)
      have h2 : σ (firstTail N x.1) = -1 := by
        cases N with
        | nil => exact absurd rfl hN0
        | cons z N => exact hN z (by simp)
      have h3 : firstTail P y.1 ≠ u := fun e => by rw [e, hu] at h1; cases h1
      have h4 : firstTail N x.1 ≠ u := fun e => by rw [e, hu] at h2; cases h2
      simp [h1, h2, h3, h4]; ring
    rw [hfl]
    simp only [Split.key, Option.bind_eq_bind] at hk
    obtain ⟨va, ha, hk⟩ := Option.bind_eq_some_iff.1 hk
    obtain ⟨vb, hb, hk⟩ := Option.bind_eq_some_iff.1 hk
    cases hk
    rcases hid with ⟨rfl, i1, i2⟩ | ⟨rfl, i1, i2⟩
    · rw [i1] at ha; rw [i2] at hb
      cases ha; cases hb
      exact ⟨by simp, sx, sy⟩
    · rw [i1] at ha; rw [i2] at hb
      cases ha; cases hb
      exact ⟨by simp, sy, sx⟩
  | .zero l, ok, oz =>
    refine ⟨fun h => by simp [Split.outline] at h, fun k hk => ?_⟩
    obtain ⟨Z, w, P, hr, hZ, hP, hZ0, hP0, hl⟩ := oz
    obtain ⟨x, Z, rfl⟩ := List.exists_cons_of_ne_nil hZ0
    have hfl : flow σ u (hes c) = (if w.1 = u then 1 else 0) - (if x.1 = u then 1 else 0) := by
      rw [flow_perm (hes_rotated hr).perm, hes_append, flow_append]
      obtain ⟨z, P, rfl⟩ := List.exists_cons_of_ne_nil hP0
      rw [firstTail_cons, flow_zeros _ w _ hZ (hP z (by simp)), flow_ones hu _ _ (by simp) hP]
      show (if w.1 = u then (1 : Int) else 0) + -(if x.1 = u then 1 else 0) = _
      ring
    rw [hfl]
    have hx := hZ x (by simp)
    have hw := hZ w (by simp)
    simp only [Split.key, Option.bind_eq_bind] at hk
    obtain ⟨va, ha, hk⟩ := Option.bind_eq_some_iff.1 hk
    obtain ⟨vb, hb, hk⟩ := Option.bind_eq_some_iff.1 hk
    cases hk
    obtain ⟨z, hz⟩ : ∃ z, (path (x :: Z) w.1).getLast? = some z := by
      have := path_last (x :: Z) w.1 (by simp)
      obtain ⟨z, hz, -⟩ := Option.map_eq_some_iff.1 this
      exact ⟨z, hz⟩
    have hzt : z.tip = w.1 := by
      have := path_last (x :: Z) w.1 (by simp)
      rw [hz] at this; simpa using this
    rcases hl with ⟨rfl, rfl⟩ | ⟨rfl, rfl⟩
    · rw [List.head?_map, List.head?_reverse, hz] at ha
      rw [List.getLast?_map, List.getLast?_reverse] at hb
      cases ha; cases hb
      show _ = (if z.tip = u then (1 : Int) else 0) - (if x.1 = u then 1 else 0) ∧ σ z.tip = 0 ∧ σ x.1 = 0
      rw [hzt]
      exact ⟨by simp, hw, hx⟩
    · rw [hz] at hb
      cases ha; cases hb
      show _ = (if x.1 = u then (1 : Int) else 0) - (if vb.tip = u then 1 else 0) ∧ σ x.1 = 0 ∧ σ vb.tip = 0
      rw [hzt]
      exact ⟨by simp, hx, hw⟩
  | .isPos true, ok, oz =>
    refine ⟨fun _ => ?_, fun k hk => by cases hk⟩
    obtain ⟨Z, P, hr, hZ, hP, hz, hP0⟩ := oz
    have : flow σ u (hes c) = 0 := by
      obtain ⟨z, P, rfl⟩ := List.exists_cons_of_ne_nil hP0
      have hz1 := hP z (by simp)
      have hne : z.1 ≠ u := fun e => by rw [e, hu] at hz1; cases hz1
      rw [flow_perm (hes_rotated hr).perm, hes_append, flow_append, flow_ones hu _ _ (by simp) hP]
      match Z, hz with
      | [], _ => simp [path, flow_nil, firstTail, hne]
      | [w], _ =>
        have := flow_zeros (u := u) [] w (firstTail (z :: P) (firstTail [w] 0)) (by simpa using hZ) (by rw [firstTail_cons]; exact hz1)
        rw [List.nil_append] at this
        rw [this]
        exact add_neg_cancel _
    rw [this, mul_zero]
  | .isPos false, ok, oz =>
    refine ⟨fun _ => ?_, fun k hk => by cases hk⟩
    have : flow σ u (hes c) = 0 := by
      apply flow_none
      intro k hk
      obtain ⟨x, hx, e⟩ := hes_tip hk
      exact ⟨fun _ => by rw [← e]; exact oz x hx, fun _ => oz _ (hes_tail hk)⟩
    rw [this, mul_zero]

theorem sum_keys {f : Nat × Split → Option (Nat × Nat)} {v : Nat × Split → Int} {d : Nat × Nat → Int} : ∀ (sp : List (Nat × Split)) (keys : List (Nat × Nat)),
    List.Forall₂ (fun p k => f p = some k) (sp.filter fun p => p.2.outline) keys → (∀ p ∈ sp, p.2.outline = false → v p = 0) → (∀ p ∈ sp, ∀ k, f p = some k → v p = d k) →
    (sp.map v).sum = (keys.map d).sum
  | [], keys, hf, _, _ => by
    simp at hf; subst hf; rfl
  | p :: sp, keys, hf, h0, h1 => by
    by_cases ho : p.2.outline = true
    · rw [List.filter_cons_of_pos (p := fun q : Nat × Split => q.2.outline) ho] at hf
      cases hf with
      | @cons _ k _ keys hk hf =>
        rw [List.map_cons, List.sum_cons, List.map_cons, List.sum_cons, h1 p (by simp) k hk, sum_keys sp keys hf (fun q hq => h0 q (by simp [hq])) (fun q hq => h1 q (by simp [hq]))]
    · rw [List.filter_cons_of_neg (p := fun q : Nat × Split => q.2.outline) ho] at hf
      rw [List.map_cons, List.sum_cons, h0 p (by simp) (by simpa using ho), zero_add, sum_keys sp keys hf (fun q hq => h0 q (by simp [hq])) (fun q hq => h1 q (by simp [hq]))]

theorem count_diff (keys : List (Nat × Nat)) (u : Nat) : (keys.map fun k => (if k.1 = u then (1 : Int) else 0) - (if k.2 = u then 1 else 0)).sum = ((keys.map Prod.fst).count u : Int) - ((keys.map Prod.snd).count u : Int) := by
  induction keys with
  | nil => rfl
  | cons k keys ih =>
    rw [List.map_cons, List.sum_cons, ih, List.map_cons, List.map_cons, List.count_cons, List.count_cons]
    push_cast
    simp only [beq_iff_eq]
    ring

/-- **As many pieces begin as end at each vertex.** -/
theorem keys_perm {cl : List (Nat × Option Nat)} {m : PMesh} (gm : MGood cl m) {σ : Nat → SignType} {L : List Nat} {nV cid : Nat} {sp : List (Nat × Split)} (hnd : (sp.map Prod.fst).Nodup)
    (hcell : ∀ i P, cl[i]? = some P → sg P cid ≠ 0 → i ∈ sp.map Prod.fst)
    (hpiece : ∀ p ∈ sp, ∃ P c, cl[p.1]? = some P ∧ m.faces[p.1]? = some c ∧ PieceOk σ L nV m.all (sg P cid) c p.2 ∧ PieceZ σ (sg P cid) c p.2)
    {keys : List (Nat × Nat)} (hk : List.Forall₂ (fun p k => p.2.key L nV = some k) (sp.filter fun p => p.2.outline) keys) : (keys.map Prod.fst).Perm (keys.map Prod.snd) := by
  rw [List.perm_iff_count]
  intro u
  have hmemk : ∀ k ∈ keys, ∃ p ∈ sp, p.2.key L nV = some k := by
    intro k hk'
    obtain ⟨p, hp, e⟩ := forall₂_mem_right hk k hk'
    exact ⟨p, (List.mem_filter.1 hp).1, e⟩
  by_cases hu : σ u = 0
  · have h0 := flow_closed gm hu cid
    rw [sum_filter_nodup hnd (fun i hi => ?_) (fun i hi hni => ?_)] at h0
    · rw [List.map_map] at h0
      rw [sum_keys (f := fun p => p.2.key L nV) (d := fun k => (if k.1 = u then (1 : Int) else 0) - (if k.2 = u then 1 else 0)) sp keys hk] at h0
      · rw [count_diff] at h0
        omega
      · intro p hp ho
        obtain ⟨P, c, q1, q2, q3, q4⟩ := hpiece p hp
        simp only [Function.comp, q1, q2]
        exact (flow_piece q3 q4 hu).1 ho
      · intro p hp k hk'
        obtain ⟨P, c, q1, q2, q3, q4⟩ := hpiece p hp
        simp only [Function.comp, q1, q2]
        exact ((flow_piece q3 q4 hu).2 k hk').1
    · obtain ⟨p, hp, rfl⟩ := List.mem_map.1 hi
      obtain ⟨P, c, q1, q2, -⟩ := hpiece p hp
      exact (List.getElem?_eq_some_iff.1 q2).1
    · cases h1 : cl[i]? with
      | none => rfl
      | some P =>
        cases h2 : m.faces[i]? with
        | none => rfl
        | some c =>
          simp only
          have : sg P cid = 0 := by
            by_contra hc
            exact hni (hcell i P h1 hc)
          rw [this, zero_mul]
  · have hz : ∀ k ∈ keys, σ k.1 = 0 ∧ σ k.2 = 0 := by
      intro k hk'
      obtain ⟨p, hp, e⟩ := hmemk k hk'
      obtain ⟨P, c, q1, q2, q3, q4⟩ := hpiece p hp
      -- any vertex in the plane will do
      match p, q3, q4, e with
      | (f, .two a b), q3, q4, e =>
        obtain ⟨x, _, y, _, _, _, _, _, _, sx, sy, _, hid⟩ := q3
        exact ((flow_piece (u := x.1) (A := m.all) (p := .two a b) ⟨x, _, y, _, ‹_›, ‹_›, ‹_›, ‹_›, ‹_›, sx, sy, ‹_›, hid⟩ q4 sx).2 k e).2
      | (f, .zero l), q3, q4, e =>
        have q4' := q4
        obtain ⟨Z, w, _, _, hZ, _⟩ := q4'
        exact ((flow_piece (u := w.1) (p := .zero l) q3 q4 (hZ w (by simp))).2 k e).2
      | (f, .isPos _), _, _, e => cases e
    rw [List.count_eq_zero.2, List.count_eq_zero.2]
    · intro hm
      obtain ⟨k, hk', e⟩ := List.mem_map.1 hm
      exact hu (by rw [← e]; exact (hz k hk').2)
    · intro hm
      obtain ⟨k, hk', e⟩ := List.mem_map.1 hm
      exact hu (by rw [← e]; exact (hz k hk').1)

end Verif.Bsp
