import Verif.Bsp.Shape
/-!
# The pieces in which the plane meets the faces of a cell
-/
namespace Verif.Bsp

/-- What the result of `split_face_verts` means for the face `c` once the edges have been split; `s` is the sign of the face in the cell. -/
def PieceOk (σ : Nat → SignType) (L : List Nat) (nV : Nat) (A : List HE) (s : Int) (c : Cycle) : Split → Prop
  | .two a b => ∃ x P y N, c ~r (x :: P) ++ (y :: N) ∧ P ≠ [] ∧ N ≠ [] ∧ (∀ z ∈ P, σ z.1 = 1) ∧ (∀ z ∈ N, σ z.1 = -1) ∧ σ x.1 = 0 ∧ σ y.1 = 0 ∧ x.1 ≠ y.1 ∧
      ((s = 1 ∧ a.id L nV = some x.1 ∧ b.id L nV = some y.1) ∨ (s = -1 ∧ a.id L nV = some y.1 ∧ b.id L nV = some x.1))
  | .zero l => l ≠ [] ∧ l.IsChain (fun h k => h.tip = k.tail) ∧ (∀ x ∈ c, σ x.1 ≠ -1) ∧ (∀ e u, s * bd ((hes c).filter (inPlane σ)) e u + bd l e u = 0) ∧ ∀ z ∈ l, z ∈ A ∧ σ z.tail = 0
  | .isPos true => (∀ x ∈ c, σ x.1 ≠ -1) ∧ (hes c).filter (inPlane σ) = []
  | .isPos false => ∀ x ∈ c, σ x.1 ≠ 1

theorem twin_eq {cl : List (Nat × Option Nat)} {m : PMesh} (g : MGood cl m) {h : HE} (hh : h ∈ m.all) : m.twin h = h.rev := by
  unfold PMesh.twin
  rw [if_pos]
  rw [List.any_eq_true]
  refine ⟨h.rev, g.sides _ hh, ?_⟩
  have := (g.proper _ hh).symm
  simp [HE.rev, this]

theorem flatMap_id {E : Nat × Nat → Cycle} {c : Cycle} (h : ∀ x ∈ c, E x = [x]) : c.flatMap E = c := by
  induction c with
  | nil => rfl
  | cons x c ih => rw [List.flatMap_cons, h x (by simp), ih fun y hy => h y (by simp [hy])]; rfl

theorem isChain_rev {l : List HE} (h : l.IsChain fun h k => h.tip = k.tail) : (l.reverse.map HE.rev).IsChain fun h k => h.tip = k.tail := by
  rw [List.isChain_map, List.isChain_reverse]
  exact h.imp fun _ _ e => e.symm

/-- `split_face_verts` gives such pieces. -/
theorem pieceOk {cl : List (Nat × Option Nat)} {m : PMesh} (g : MGood cl m) {sgn : Nat → SignType} {hs : List HE} (hsub : ∀ h ∈ hs, h ∈ m.all) {c : Cycle}
    (hcm : c ∈ m.faces) (hch : ∀ h ∈ hes c, h ∈ hs) (hc : Convex sgn c) {E : Nat × Nat → Cycle} (ex : Expands (crossing sgn hs) m.nV E) {A : List HE}
    (hA : ∀ h ∈ m.all, h.edge ∉ crossing sgn hs → h ∈ A) (correct : Bool) :
    PieceOk (newSgn sgn m.nV) (crossing sgn hs) m.nV A (if correct then 1 else -1) (c.flatMap E) (splitFaceVerts sgn m.twin correct c) := by
  have hall : ∀ h ∈ hes c, h ∈ m.all := fun h hh => mem_all.2 ⟨c, hcm, hh⟩
  have hlt : ∀ x ∈ c, x.1 < m.nV := fun x hx => (g.lt c hcm x hx).1
  have hLiff : ∀ h ∈ hes c, h.edge ∈ crossing sgn hs ↔ crosses sgn h = true := fun h hh =>
    ⟨crosses_of_mem g hsub (hall h hh), fun hx => mem_crossing.2 ⟨h, hch h hh, rfl, hx⟩⟩
  have hns : ∀ x ∈ c, newSgn sgn m.nV x.1 = sgn x.1 := fun x hx => by rw [newSgn, if_pos (hlt x hx)]
  have hns' : ∀ h ∈ hes c, newSgn sgn m.nV h.tail = sgn h.tail ∧ newSgn sgn m.nV h.tip = sgn h.tip := by
    intro h hh
    obtain ⟨x, hx, e⟩ := hes_tip hh
    exact ⟨hns _ (hes_tail hh), by rw [← e]; exact hns x hx⟩
  have hfil : (hes c).filter (inPlane (newSgn sgn m.nV)) = (hes c).filter (inPlane sgn) := by
    apply List.filter_congr
    intro h hh
    unfold inPlane
    rw [(hns' h hh).1, (hns' h hh).2]
  rcases hc.shape with ⟨s, hs0, Z, P, hr, hZ, hP, hP0⟩ | ⟨Z, P, Z', N, hr, h1, h2, hZ, hZ', hP, hN, hP0, hN0⟩
  · have hmem : ∀ x ∈ c, sgn x.1 = 0 ∨ sgn x.1 = s := fun x hx => by
      rcases List.mem_append.1 (hr.perm.mem_iff.1 hx) with h | h
      · exact Or.inl (hZ x h)
      · exact Or.inr (hP x h)
    have hnc : ∀ h ∈ hes c, crosses sgn h = false := by
      intro h hh
      obtain ⟨x, hx, e⟩ := hes_tip hh
      have t1 := hmem _ (hes_tail hh)
      have t2 := hmem x hx
      rw [e] at t2
      apply not_crosses
      simp only at t1
      rcases t1 with t1 | t1 <;> rcases t2 with t2 | t2
      · exact Or.inl t1
      · exact Or.inl t1
      · exact Or.inr (Or.inl t2)
      · exact Or.inr (Or.inr (t1.trans t2.symm))
    have hE : c.flatMap E = c := flatMap_id fun x hx => by
      apply ex.out
      obtain ⟨h, hh, _, e2⟩ := mem_hes hx
      rw [← e2, hLiff h hh, hnc h hh]
      exact Bool.false_ne_true
    rw [hE, split_side m.twin correct hs0 hr hZ hP hP0]
    have hpl := inPlane_side hs0 hr hZ hP hP0
    by_cases e1 : s = 1
    · rw [if_pos e1]
      have hneg : ∀ x ∈ c, newSgn sgn m.nV x.1 ≠ -1 := fun x hx => by
        rw [hns x hx]
        rcases hmem x hx with h | h <;> rw [h]
        · decide
        · rw [e1]; decide
      have hlen : (path Z (firstTail P 0)).dropLast.length = Z.length - 1 := by rw [List.length_dropLast, path_length]
      by_cases hz : Z.length ≤ 1
      · rw [if_pos hz]
        refine ⟨hneg, ?_⟩
        rw [hfil]
        apply List.eq_nil_of_length_eq_zero
        rw [hpl.length_eq, hlen]; omega
      · rw [if_neg hz]
        have hmem' : ∀ h ∈ (path Z (firstTail P 0)).dropLast, h ∈ m.all ∧ h.edge ∉ crossing sgn hs ∧ newSgn sgn m.nV h.tail = 0 ∧ newSgn sgn m.nV h.tip = 0 := by
          intro h hh
          have hh' := List.mem_of_mem_filter (hpl.mem_iff.2 hh)
          have hin := (List.mem_filter.1 (hpl.mem_iff.2 hh)).2
          simp only [inPlane, Bool.and_eq_true, decide_eq_true_eq] at hin
          exact ⟨hall h hh', by rw [hLiff h hh', hnc h hh']; exact Bool.false_ne_true, by rw [(hns' h hh').1]; exact hin.1, by rw [(hns' h hh').2]; exact hin.2⟩
        have htw : (path Z (firstTail P 0)).dropLast.reverse.map m.twin = (path Z (firstTail P 0)).dropLast.reverse.map HE.rev := by
          apply List.map_congr_left
          intro h hh
          exact twin_eq g (hmem' h (List.mem_reverse.1 hh)).1
        have hch : (path Z (firstTail P 0)).dropLast.IsChain fun h k => h.tip = k.tail := (path_chain Z _).prefix (List.dropLast_prefix _)
        have hb : ∀ e u, bd ((hes c).filter (inPlane (newSgn sgn m.nV))) e u = bd (path Z (firstTail P 0)).dropLast e u := fun e u => by
          rw [hfil]; exact bd_perm hpl e u
        generalize hl : (path Z (firstTail P 0)).dropLast = l at *
        have hl0 : l ≠ [] := by rintro rfl; simp at hlen; omega
        cases correct
        · simp only [Bool.false_eq_true, if_false]
          refine ⟨hl0, hch, hneg, fun e u => ?_, fun z hz => ⟨hA z (hmem' z hz).1 (hmem' z hz).2.1, (hmem' z hz).2.2.1⟩⟩
          rw [hb]; ring
        · simp only [if_true]
          rw [htw]
          refine ⟨by simpa using hl0, isChain_rev hch, hneg, fun e u => ?_, fun z hz => ?_⟩
          · rw [hb, bd_rev]; ring
          · obtain ⟨k, hk, rfl⟩ := List.mem_map.1 hz
            have := hmem' k (List.mem_reverse.1 hk)
            exact ⟨hA _ (g.sides _ this.1) this.2.1, this.2.2.2⟩
    · rw [if_neg e1]
      intro x hx
      rw [hns x hx]
      rcases hmem x hx with h | h <;> rw [h]
      · decide
      · exact e1
  · have hp : sgn (firstTail P 0) = 1 := by
      cases P with
      | nil => exact absurd rfl hP0
      | cons y l => exact hP y (by simp)
    have hn : sgn (firstTail N 0) = -1 := by
      cases N with
      | nil => exact absurd rfl hN0
      | cons y l => exact hN y (by simp)
    -- one round, beginning with the positive vertices
    have hr2 : c ~r (P ++ Z') ++ (N ++ Z) := by
      refine hr.trans ?_
      rw [show (Z ++ P) ++ (Z' ++ N) = Z ++ (P ++ (Z' ++ N)) by simp]
      refine ⟨Z.length, ?_⟩
      rw [List.rotate_append_length_eq]; simp
    have hmem2 : ∀ x, x ∈ c ↔ x ∈ (P ++ Z') ++ (N ++ Z) := fun x => hr2.perm.mem_iff
    have hes2 : ∀ h, h ∈ hes c ↔ h ∈ path (P ++ Z') (firstTail N 0) ∨ h ∈ path (N ++ Z) (firstTail P 0) := by
      intro h
      rw [(hes_rotated hr2).perm.mem_iff, hes_append, List.mem_append]
      have f1 : firstTail (N ++ Z) (firstTail (P ++ Z') 0) = firstTail N 0 := by
        rw [firstTail_append]
        cases N with
        | nil => exact absurd rfl hN0
        | cons y l => rfl
      have f2 : firstTail (P ++ Z') (firstTail (N ++ Z) 0) = firstTail P 0 := by
        rw [firstTail_append]
        cases P with
        | nil => exact absurd rfl hP0
        | cons y l => rfl
      rw [f1, f2]
    obtain ⟨P', y, ep, hP'0, hP's, idy, sy, cy⟩ := expand_half ex (sgn := sgn) (s := 1) (by decide) (P := P) (Z := Z') (v := firstTail N 0) h2 hZ' hP hP0 hn
      (fun x hx => hlt x ((hmem2 x).2 (List.mem_append_left _ hx))) (fun h hh => hLiff h ((hes2 h).2 (Or.inl hh)))
    obtain ⟨N', x, en, hN'0, hN's, idx, sx, cx⟩ := expand_half ex (sgn := sgn) (s := -1) (by decide) (P := N) (Z := Z) (v := firstTail P 0) h1 hZ hN hN0 hp
      (fun x hx => hlt x ((hmem2 x).2 (List.mem_append_right _ hx))) (fun h hh => hLiff h ((hes2 h).2 (Or.inr hh)))
    have hshape : c.flatMap E ~r (x :: P') ++ (y :: N') := by
      have := flatMap_rotated E hr2
      rw [List.flatMap_append, ep, en] at this
      refine this.trans ?_
      have e : P' ++ [y] ++ (N' ++ [x]) = (P' ++ y :: N') ++ [x] := by simp
      rw [e]
      exact ⟨(P' ++ y :: N').length, by rw [List.rotate_append_length_eq]; simp⟩
    have hne : x.1 ≠ y.1 := by
      have hnd : ((P ++ Z') ++ (N ++ Z)).map Prod.fst |>.Nodup := (hr2.perm.map _).nodup_iff.1 hc.simple
      have hl2 : ((P ++ Z') ++ (N ++ Z)).length ≥ 3 := by rw [← hr2.perm.length_eq]; exact hc.three
      rcases cx with ⟨z, rfl, e1⟩ | ⟨rfl, Q, p, rfl, e1, e2⟩ <;> rcases cy with ⟨z', rfl, e3⟩ | ⟨rfl, Q', p', rfl, e3, e4⟩
      · rw [e1, e3]
        intro h
        rw [List.map_append, List.map_append, List.map_append] at hnd
        have := (List.nodup_append.1 hnd).2.2 z'.1 (by simp) z.1 (by simp)
        exact this h.symm
      · rw [e1, e4]
        have := hlt z ((hmem2 z).2 (by simp)); omega
      · rw [e2, e3]
        have := hlt z' ((hmem2 z').2 (by simp)); omega
      · rw [e2, e4]
        intro h
        have hidx : (crossing sgn hs).idxOf p.2 = (crossing sgn hs).idxOf p'.2 := by omega
        have hee : p.2 = p'.2 := by
          have h1 := List.getElem_idxOf (List.idxOf_lt_length_iff.2 e1)
          have h2 := List.getElem_idxOf (List.idxOf_lt_length_iff.2 e3)
          rw [← h1, ← h2]; congr 1
        -- the two crossings would be on the same edge
        have m1 : (⟨p.1, p.2, firstTail (Q' ++ [p']) 0⟩ : HE) ∈ hes c := (hes2 _).2 (Or.inr (by simp [path_append, path, firstTail]))
        have m2 : (⟨p'.1, p'.2, firstTail (Q ++ [p]) 0⟩ : HE) ∈ hes c := (hes2 _).2 (Or.inl (by simp [path_append, path, firstTail]))
        have sp : sgn p.1 = -1 := hN p (by simp)
        have sp' : sgn p'.1 = 1 := hP p' (by simp)
        have hends := ends_on g (hall _ m1) (hall _ m2) hee
        simp only at hends
        rcases hends with ⟨t, _⟩ | ⟨t1, t2⟩
        · rw [t, sp] at sp'; cases sp'
        · have nd1 : ((Q' ++ [p']).map Prod.fst).Nodup := by
            rw [List.map_append] at hnd
            have := (List.nodup_append.1 hnd).1
            simpa using this
          have nd2 : ((Q ++ [p]).map Prod.fst).Nodup := by
            rw [List.map_append] at hnd
            have := (List.nodup_append.1 hnd).2.1
            simpa using this
          have q0 : Q' = [] := by
            cases Q' with
            | nil => rfl
            | cons w Q' =>
              exfalso
              simp only [firstTail, List.cons_append, List.head?_cons, Option.map_some, Option.getD_some] at t1
              simp only [List.cons_append, List.map_cons, List.map_append, List.nodup_cons, List.mem_append] at nd1
              exact nd1.1 (Or.inr (by simp [t1]))
          have q1 : Q = [] := by
            cases Q with
            | nil => rfl
            | cons w Q =>
              exfalso
              simp only [firstTail, List.cons_append, List.head?_cons, Option.map_some, Option.getD_some] at t2
              simp only [List.cons_append, List.map_cons, List.map_append, List.nodup_cons, List.mem_append] at nd2
              exact nd2.1 (Or.inr (by simp [t2]))
          subst q0 q1
          simp at hl2
    rw [split_cut m.twin correct hr h1 h2 hZ hZ' hP hN hP0 hN0]
    cases correct
    · simp only [Bool.false_eq_true, if_false]
      exact ⟨x, P', y, N', hshape, hP'0, hN'0, hP's, hN's, sx, sy, hne, Or.inr ⟨rfl, idy, idx⟩⟩
    · simp only [if_true]
      exact ⟨x, P', y, N', hshape, hP'0, hN'0, hP's, hN's, sx, sy, hne, Or.inl ⟨rfl, idx, idy⟩⟩

end Verif.Bsp
