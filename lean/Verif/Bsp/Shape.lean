import Verif.Bsp.Edge
/-!
# The faces of a cell after its edges have been split
-/
namespace Verif.Bsp

/-- What splitting the edges `L` one after the other does to a corner of a face: the new vertices are `nV`, `nV + 1`, ... -/
structure Expands (L : List Nat) (nV : Nat) (E : Nat × Nat → Cycle) : Prop where
  out : ∀ x : Nat × Nat, x.2 ∉ L → E x = [x]
  cut : ∀ x : Nat × Nat, x.2 ∈ L → ∃ p q, E x = [(x.1, p), (nV + L.idxOf x.2, q)]

theorem splitAll_good {cl : List (Nat × Option Nat)} (keep : Nat → Bool) : ∀ (L : List Nat) {m : PMesh}, MGood cl m → L.Nodup → (∀ e ∈ L, ∃ h ∈ m.all, h.edge = e) →
    ∃ m1 E, L.foldlM (fun m e => m.splitEdge (keep e) e) m = some m1 ∧ MGood cl m1 ∧ m1.nV = m.nV + L.length ∧ m1.faces = m.faces.map (fun c => c.flatMap E) ∧
      Expands L m.nV E ∧ (∀ h ∈ m.all, h.edge ∉ L → h ∈ m1.all)
  | [], m, g, _, _ => ⟨m, fun x => [x], rfl, g, rfl, by simp, ⟨fun _ _ => rfl, fun _ h => absurd h (by simp)⟩, fun h hh _ => hh⟩
  | e :: L, m, g, hnd, hL => by
    obtain ⟨a, r, -, g1⟩ := splitEdge_good g (keep e) (hL e (by simp))
    obtain ⟨hn1, hn2⟩ := List.nodup_cons.1 hnd
    have hkeep : ∀ h ∈ m.all, h.edge ≠ e → h ∈ PMesh.all { nV := m.nV + 1, nE := m.nE + 1, faces := m.faces.map fun c => c.flatMap (cutCorner e a m.nV m.nE) } := by
      intro h hh hne
      obtain ⟨c, hc, hh⟩ := mem_all.1 hh
      refine mem_all.2 ⟨_, List.mem_map.2 ⟨c, hc, rfl⟩, ?_⟩
      rw [hes_cut]
      exact List.mem_flatMap.2 ⟨h, hh, by unfold cutHE; rw [if_neg hne]; simp⟩
    have hlt : ∀ x ∈ L, x < m.nE := by
      intro x hx
      obtain ⟨h, hh, rfl⟩ := hL x (by simp [hx])
      exact (all_lt g hh).2.1
    obtain ⟨m1, E, r1, g2, v1, f1, ex, al⟩ := splitAll_good keep L g1 hn2 (fun x hx => by
      obtain ⟨h, hh, rfl⟩ := hL x (by simp [hx])
      exact ⟨h, hkeep h hh (fun h' => hn1 (h' ▸ hx)), rfl⟩)
    have hnE : m.nE ∉ L := fun h => lt_irrefl _ (hlt _ h)
    refine ⟨m1, fun x => (cutCorner e a m.nV m.nE x).flatMap E, by rw [List.foldlM_cons, r]; exact r1, g2, by rw [v1]; simp; omega, ?_, ⟨?_, ?_⟩, ?_⟩
    · rw [f1, List.map_map]
      apply List.map_congr_left
      intro c _
      simp [List.flatMap_assoc]
    · intro x hx
      have h1 : x.2 ≠ e := fun h => hx (by simp [h])
      have h2 : x.2 ∉ L := fun h => hx (by simp [h])
      simp only [cutCorner, if_neg h1]
      simp [ex.out x h2]
    · intro x hx
      by_cases h1 : x.2 = e
      · have o1 : ∀ v, E (v, e) = [(v, e)] := fun v => ex.out _ hn1
        have o2 : ∀ v, E (v, m.nE) = [(v, m.nE)] := fun v => ex.out _ hnE
        simp only [cutCorner, if_pos h1]
        split
        · exact ⟨e, m.nE, by simp [o1, o2, h1]⟩
        · exact ⟨m.nE, e, by simp [o1, o2, h1]⟩
      · have h2 : x.2 ∈ L := by simpa [h1] using hx
        obtain ⟨p, q, hp⟩ := ex.cut x h2
        refine ⟨p, q, ?_⟩
        simp only [cutCorner, if_neg h1]
        rw [List.flatMap_singleton, hp, List.idxOf_cons_ne _ (Ne.symm h1)]
        simp; omega
    · intro h hh hn
      exact al h (hkeep h hh fun h' => hn (by simp [h'])) fun h' => hn (by simp [h'])

/-! ### The edges that the plane crosses -/

theorem mem_uniq : ∀ (l acc : List Nat) (x : Nat), x ∈ uniq acc l ↔ x ∈ acc ∨ x ∈ l
  | [], acc, x => by simp [uniq]
  | y :: l, acc, x => by
    rw [uniq, mem_uniq l]
    split
    · rename_i h
      constructor
      · rintro (h' | h')
        · exact Or.inl h'
        · exact Or.inr (by simp [h'])
      · rintro (h' | h')
        · exact Or.inl h'
        · rcases List.mem_cons.1 h' with rfl | h'
          · exact Or.inl h
          · exact Or.inr h'
    · simp only [List.mem_append, List.mem_cons, List.not_mem_nil, or_false]; tauto

theorem nodup_uniq : ∀ (l acc : List Nat), acc.Nodup → (uniq acc l).Nodup
  | [], _, h => h
  | y :: l, acc, h => by
    rw [uniq]
    apply nodup_uniq l
    split
    · exact h
    · rename_i hy
      exact List.nodup_append.2 ⟨h, List.nodup_singleton _, fun a ha b hb e => hy (by rw [List.mem_singleton] at hb; rw [← hb, ← e]; exact ha)⟩

theorem crossing_nodup (sgn : Nat → SignType) (hs : List HE) : (crossing sgn hs).Nodup := (nodup_uniq _ _ List.nodup_nil).filter _

theorem mem_crossing {sgn : Nat → SignType} {hs : List HE} {e : Nat} : e ∈ crossing sgn hs ↔ ∃ h ∈ hs, h.edge = e ∧ crosses sgn h = true := by
  unfold crossing
  simp only [List.mem_filter, mem_uniq, List.not_mem_nil, false_or, List.mem_map, List.any_eq_true, Bool.and_eq_true, decide_eq_true_eq]
  constructor
  · rintro ⟨_, h⟩; exact h
  · rintro ⟨h, h1, h2, h3⟩; exact ⟨⟨h, h1, h2⟩, h, h1, h2, h3⟩

theorem crosses_rev (sgn : Nat → SignType) (h : HE) : crosses sgn h.rev = crosses sgn h := by
  simp only [crosses, HE.rev]
  exact Bool.or_comm _ _

/-- A half-edge on an edge that is split crosses the plane. -/
theorem crosses_of_mem {cl : List (Nat × Option Nat)} {m : PMesh} (g : MGood cl m) {sgn : Nat → SignType} {hs : List HE} (hsub : ∀ h ∈ hs, h ∈ m.all) {h : HE}
    (hh : h ∈ m.all) (he : h.edge ∈ crossing sgn hs) : crosses sgn h = true := by
  obtain ⟨k, hk, ek, ck⟩ := mem_crossing.1 he
  rcases g.ends k (hsub k hk) h hh ek with rfl | rfl
  · exact ck
  · rw [crosses_rev]; exact ck

theorem not_crosses {sgn : Nat → SignType} {h : HE} (h1 : sgn h.tail = 0 ∨ sgn h.tip = 0 ∨ sgn h.tail = sgn h.tip) : crosses sgn h = false := by
  unfold crosses
  revert h1
  cases sgn h.tail <;> cases sgn h.tip <;> decide

theorem crosses_opp {sgn : Nat → SignType} {h : HE} {s : SignType} (hs : s ≠ 0) (h1 : sgn h.tail = s) (h2 : sgn h.tip = -s) : crosses sgn h = true := by
  unfold crosses
  rw [h1, h2]
  revert hs
  cases s <;> decide

/-! ### One side of a face that is cut -/

/-- Corners between vertices of the same sign are not touched. -/
theorem expand_same {L : List Nat} {nV : Nat} {E : Nat × Nat → Cycle} (ex : Expands L nV E) {sgn : Nat → SignType} {s : SignType} :
    ∀ (P : Cycle) (z : Nat), (∀ h ∈ path P z, h.edge ∈ L → crosses sgn h = true) → (∀ x ∈ P, sgn x.1 = s) → sgn z = s → P.flatMap E = P
  | [], _, _, _, _ => rfl
  | x :: P, z, hL, hP, hz => by
    have h1 : x.2 ∉ L := by
      intro hx
      have c := hL ⟨x.1, x.2, firstTail P z⟩ (by simp [path]) hx
      have : sgn (firstTail P z) = s := by
        cases P with
        | nil => exact hz
        | cons y P => exact hP y (by simp)
      rw [not_crosses (Or.inr (Or.inr ((hP x (by simp)).trans this.symm)))] at c
      cases c
    rw [List.flatMap_cons, ex.out x h1, expand_same ex P z (fun h hh => hL h (by simp [path, hh])) (fun y hy => hP y (by simp [hy])) hz]
    rfl

/-- A run of vertices on one side with the point that follows. -/
theorem expand_half {L : List Nat} {nV : Nat} {E : Nat × Nat → Cycle} (ex : Expands L nV E) {sgn : Nat → SignType} {s : SignType} (hs : s ≠ 0) {P Z : Cycle} {v : Nat}
    (h1 : Z.length ≤ 1) (hZ : ∀ x ∈ Z, sgn x.1 = 0) (hP : ∀ x ∈ P, sgn x.1 = s) (hP0 : P ≠ []) (hv : sgn v = -s)
    (hlt : ∀ x ∈ P ++ Z, x.1 < nV)
    (hL : ∀ h ∈ path (P ++ Z) v, h.edge ∈ L ↔ crosses sgn h = true) :
    ∃ P' y, (P ++ Z).flatMap E = P' ++ [y] ∧ P' ≠ [] ∧ (∀ x ∈ P', newSgn sgn nV x.1 = s) ∧ (junction Z P v).id L nV = some y.1 ∧ newSgn sgn nV y.1 = 0 ∧
      ((∃ z, Z = [z] ∧ y.1 = z.1) ∨ (Z = [] ∧ ∃ Q p, P = Q ++ [p] ∧ p.2 ∈ L ∧ y.1 = nV + L.idxOf p.2)) := by
  have hns : ∀ x ∈ P ++ Z, newSgn sgn nV x.1 = sgn x.1 := fun x hx => by rw [newSgn, if_pos (hlt x hx)]
  match Z, h1 with
  | [z], _ =>
    have hz : sgn z.1 = 0 := hZ z (by simp)
    have ez : z.2 ∉ L := by
      intro hx
      have := (hL ⟨z.1, z.2, v⟩ (by rw [path_append]; simp [path, firstTail])).1 hx
      rw [not_crosses (Or.inl hz)] at this; cases this
    obtain ⟨Q, p, rfl⟩ := exists_snoc hP0
    have ep : p.2 ∉ L := by
      intro hx
      have := (hL ⟨p.1, p.2, z.1⟩ (by simp [path_append, path, firstTail])).1 hx
      rw [not_crosses (Or.inr (Or.inl hz))] at this; cases this
    have eQ : Q.flatMap E = Q := by
      refine expand_same ex (sgn := sgn) (s := s) Q p.1 (fun h hh => (hL h ?_).1) (fun x hx => hP x (by simp [hx])) (hP p (by simp))
      rw [path_append, path_append]
      exact List.mem_append_left _ (List.mem_append_left _ hh)
    refine ⟨Q ++ [p], z, ?_, by simp, fun x hx => ?_, ?_, ?_, Or.inl ⟨z, rfl, rfl⟩⟩
    · simp [eQ, ex.out z ez, ex.out p ep]
    · rw [hns x (List.mem_append_left _ hx)]; exact hP x hx
    · rfl
    · rw [hns z (by simp)]; exact hz
  | [], _ =>
    obtain ⟨Q, p, rfl⟩ := exists_snoc hP0
    have ep : p.2 ∈ L := (hL ⟨p.1, p.2, v⟩ (by simp [path_append, path, firstTail])).2 (crosses_opp hs (hP p (by simp)) hv)
    have eQ : Q.flatMap E = Q := by
      refine expand_same ex (sgn := sgn) (s := s) Q p.1 (fun h hh => (hL h ?_).1) (fun x hx => hP x (by simp [hx])) (hP p (by simp))
      rw [List.append_nil, path_append]
      exact List.mem_append_left _ hh
    obtain ⟨a, b, e1⟩ := ex.cut p ep
    refine ⟨Q ++ [(p.1, a)], (nV + L.idxOf p.2, b), ?_, by simp, fun x hx => ?_, ?_, ?_, Or.inr ⟨rfl, Q, p, rfl, ep, rfl⟩⟩
    · simp [eQ, e1]
    · rcases List.mem_append.1 hx with hx | hx
      · rw [hns x (by simp [hx])]; exact hP x (by simp [hx])
      · rw [List.mem_singleton] at hx
        subst hx
        have := hns p (by simp)
        simp only at this ⊢
        rw [this]; exact hP p (by simp)
    · simp [junction, ZeroVert.id, ep]
    · simp [newSgn]

/-- Cutting a cycle at two corners. -/
theorem cut_shape {c P N : Cycle} {x y : Nat × Nat} (hr : c ~r (x :: P) ++ (y :: N)) :
    ∃ p q r u v, c = p ++ u :: (q ++ v :: r) ∧ ((u = x ∧ v = y ∧ q = P ∧ r ++ p = N) ∨ (u = y ∧ v = x ∧ q = N ∧ r ++ p = P)) := by
  obtain ⟨n, hn⟩ := hr.symm
  rw [List.rotate_eq_drop_append_take_mod] at hn
  generalize n % ((x :: P) ++ (y :: N)).length = k at hn
  have hsplit := List.take_append_drop k ((x :: P) ++ (y :: N))
  generalize List.take k ((x :: P) ++ (y :: N)) = A at *
  generalize List.drop k ((x :: P) ++ (y :: N)) = B at *
  subst hn
  rcases List.append_eq_append_iff.1 hsplit with ⟨as, e1, e2⟩ | ⟨bs, e1, e2⟩
  · -- the beginning lies in the first half
    cases A with
    | nil =>
      refine ⟨[], P, N, x, y, ?_, Or.inl ⟨rfl, rfl, rfl, by simp⟩⟩
      rw [e2]
      simp only [List.nil_append] at e1
      rw [← e1]; simp
    | cons x' A =>
      rw [List.cons_append] at e1
      obtain ⟨rfl, rfl⟩ := List.cons.inj e1
      exact ⟨as, N, A, y, x, by rw [e2]; simp, Or.inr ⟨rfl, rfl, rfl, rfl⟩⟩
  · cases bs with
    | nil =>
      simp only [List.nil_append] at e2
      simp only [List.append_nil] at e1
      refine ⟨[], N, P, y, x, ?_, Or.inr ⟨rfl, rfl, rfl, by simp⟩⟩
      rw [← e2, e1]; simp
    | cons y' bs =>
      rw [List.cons_append] at e2
      obtain ⟨rfl, rfl⟩ := List.cons.inj e2
      exact ⟨B, P, bs, x, y, by rw [e1]; simp, Or.inl ⟨rfl, rfl, rfl, rfl⟩⟩

end Verif.Bsp
