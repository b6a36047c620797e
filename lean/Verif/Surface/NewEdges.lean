import Verif.Surface.NewPoly
/-!
# `SurfaceMesh::new`: edges and their rings of siblings
-/
namespace Verif.Surface

/-- Following `a` from `x` one passes through `l`; the last element has no successor. -/
def Line (a : Ids) : Nat → List Nat → Prop
  | x, [] => a[x]? = some none
  | x, y :: l => get a x = some y ∧ Line a y l

theorem line_congr {a b : Ids} {x : Nat} {l : List Nat} (h : Line a x l) (hb : ∀ y ∈ x :: l, b[y]? = a[y]?) : Line b x l := by
  induction l generalizing x with
  | nil => exact (hb x (by simp)).trans h
  | cons y l ih => exact ⟨by rw [get, hb x (by simp)]; exact h.1, ih h.2 fun z hz => hb z (List.mem_cons_of_mem _ hz)⟩

theorem line_lt {a : Ids} {x : Nat} {l : List Nat} (h : Line a x l) : ∀ y ∈ x :: l, y < a.length := by
  induction l generalizing x with
  | nil =>
    intro y hy
    simp only [List.mem_singleton] at hy
    subst hy
    exact (List.getElem?_eq_some_iff.1 h).1
  | cons z l ih =>
    intro y hy
    rcases List.mem_cons.1 hy with rfl | hy
    · exact get_lt h.1
    · exact ih h.2 y hy

theorem line_last {a : Ids} {x : Nat} {l : List Nat} (h : Line a x l) {fuel : Nat} (hf : l.length < fuel) :
    lastSibling a fuel x = some ((x :: l).getLast (by simp)) := by
  induction l generalizing x fuel with
  | nil =>
    obtain ⟨fuel, rfl⟩ := Nat.exists_eq_succ_of_ne_zero (by omega : fuel ≠ 0)
    rw [lastSibling]
    exact (bind_of h).trans rfl
  | cons y l ih =>
    obtain ⟨fuel, rfl⟩ := Nat.exists_eq_succ_of_ne_zero (by omega : fuel ≠ 0)
    rw [lastSibling]
    refine (bind_of (get_some.1 h.1)).trans ?_
    simp only
    rw [ih h.2 (by simp at hf; omega)]
    simp

theorem line_close {a b : Ids} {x z : Nat} {l : List Nat} (h : Line a x l) (hn : (x :: l).Nodup) (h1 : get b ((x :: l).getLast (by simp)) = some z)
    (h2 : ∀ y, y ≠ (x :: l).getLast (by simp) → get b y = get a y) : Chain b x l z := by
  induction l generalizing x with
  | nil => exact h1
  | cons y l ih =>
    have hn' := (List.nodup_cons.1 hn)
    refine ⟨?_, ih h.2 hn'.2 (by simpa using h1) (fun w hw => h2 w (by simpa using hw))⟩
    rw [h2 x, h.1]
    intro hc
    have : x ∈ y :: l := by
      rw [hc, List.getLast_cons (by simp)]
      exact List.getLast_mem _
    exact hn'.1 this

/-- The state of the loop over the pairs, after the pairs `W`. -/
structure EdgeInv (m0 : Mesh) (W : List (Nat × Nat)) (m : Mesh) (h : History) : Prop where
  same : m = { m0 with nE := m.nE, heEdge := m.heEdge, sib := m.sib, eHe := m.eHe }
  edgeLen : m.heEdge.length = m0.heEdge.length
  sibLen : m.sib.length = m0.sib.length
  eLen : m.eHe.length = m.nE
  keyLen : h.keys.length = m.nE
  keysNd : h.keys.Nodup
  val : ∀ k, k ∈ h.keys ↔ ∃ x, h.val k = some x
  edge : ∀ x k, (W[x]?).map (fun w : Nat × Nat => edgeKey w.1 w.2) = some k → ∃ e, h.keys[e]? = some k ∧ get m.heEdge x = some e
  edge' : ∀ x, W.length ≤ x → get m.heEdge x = none
  first : ∀ (e : Nat) (k : Nat × Nat), h.keys[e]? = some k → ∃ x, get m.eHe e = some x ∧ (W[x]?).map (fun w : Nat × Nat => edgeKey w.1 w.2) = some k
  line : ∀ k x, h.val k = some x → ∃ l, Line m.sib x l ∧ (x :: l).Nodup ∧ ∀ y, y ∈ x :: l ↔ (W[y]?).map (fun w : Nat × Nat => edgeKey w.1 w.2) = some k

theorem key_append {W : List (Nat × Nat)} {w : Nat × Nat} {x : Nat} {k : Nat × Nat} :
    ((W ++ [w])[x]?).map (fun w : Nat × Nat => edgeKey w.1 w.2) = some k ↔
      (W[x]?).map (fun w : Nat × Nat => edgeKey w.1 w.2) = some k ∨ (x = W.length ∧ k = edgeKey w.1 w.2) := by
  rcases Nat.lt_trichotomy x W.length with h | h | h
  · rw [List.getElem?_append_left h]
    constructor
    · exact Or.inl
    · rintro (h | ⟨h, -⟩)
      · exact h
      · omega
  · subst h
    simp [eq_comm]
  · rw [List.getElem?_append_right (by omega), List.getElem?_eq_none (show W.length ≤ x by omega), List.getElem?_eq_none (by simp; omega)]
    simp; omega

theorem key_lt {W : List (Nat × Nat)} {x : Nat} {k : Nat × Nat} (h : (W[x]?).map (fun w : Nat × Nat => edgeKey w.1 w.2) = some k) : x < W.length := by
  by_contra hc
  rw [List.getElem?_eq_none (by omega)] at h
  cases h

theorem EdgeInv.known {m0 : Mesh} {W : List (Nat × Nat)} {m : Mesh} {h : History} (c : EdgeInv m0 W m h) (tail tp : Nat) (hl : W.length < m0.heEdge.length)
    (hs : W.length < m0.sib.length) {prev : Nat} (hp : h.val (edgeKey tail tp) = some prev) :
    ∃ sib e heEdge, put m.sib W.length prev = some sib ∧ get m.heEdge prev = some e ∧ put m.heEdge W.length e = some heEdge ∧
      EdgeInv m0 (W ++ [(tail, tp)]) { m with sib := sib, heEdge := heEdge }
        { h with val := fun k => if k = edgeKey tail tp then some W.length else h.val k } := by
  obtain ⟨l, l1, l2, l3⟩ := c.line _ _ hp
  have hpk := (l3 prev).1 (by simp)
  obtain ⟨e, e1, e2⟩ := c.edge prev _ hpk
  obtain ⟨S, s1, s2, s3⟩ := put_spec (a := m.sib) (i := W.length) prev (by rw [c.sibLen]; exact hs)
  have s4 : ∀ j, j ≠ W.length → S[j]? = m.sib[j]? := fun j hj => by
    rw [put_some _ (by rw [c.sibLen]; exact hs)] at s1
    cases s1
    rw [List.getElem?_set_ne (Ne.symm hj)]
  obtain ⟨E, t1, t2, t3⟩ := put_spec (a := m.heEdge) (i := W.length) e (by rw [c.edgeLen]; exact hl)
  refine ⟨S, e, E, s1, e2, t1, ?_⟩
  refine { same := ?_, edgeLen := t2.trans c.edgeLen, sibLen := s2.trans c.sibLen, eLen := c.eLen, keyLen := c.keyLen, keysNd := c.keysNd,
           val := ?_, edge := ?_, edge' := ?_, first := ?_, line := ?_ }
  · conv_lhs => rw [c.same]
  · intro k
    rw [c.val]
    simp only
    split_ifs with hk
    · subst hk; exact ⟨fun _ => ⟨_, rfl⟩, fun _ => ⟨_, hp⟩⟩
    · exact Iff.rfl
  · intro x k hx
    simp only [t3]
    rcases key_append.1 hx with hx | ⟨rfl, rfl⟩
    · rw [if_neg (by have := key_lt hx; omega)]
      exact c.edge x k hx
    · rw [if_pos rfl]
      exact ⟨e, e1, rfl⟩
  · intro x hx
    simp only [List.length_append, List.length_singleton] at hx
    simp only [t3]
    rw [if_neg (by omega)]
    exact c.edge' x (by omega)
  · intro e k hk
    obtain ⟨x, x1, x2⟩ := c.first e k hk
    exact ⟨x, x1, key_append.2 (Or.inl x2)⟩
  · intro k x hx
    simp only at hx ⊢
    split_ifs at hx with hk
    · subst hk
      cases hx
      refine ⟨prev :: l, ⟨by rw [s3, if_pos rfl], line_congr l1 fun y hy => s4 y ?_⟩, List.nodup_cons.2 ⟨fun hc => ?_, l2⟩, fun y => ?_⟩
      · have := key_lt ((l3 y).1 hy); omega
      · have := key_lt ((l3 _).1 hc); omega
      · rw [List.mem_cons, l3, key_append]
        constructor
        · rintro (h | h)
          · exact Or.inr ⟨h, rfl⟩
          · exact Or.inl h
        · rintro (h | ⟨h, -⟩)
          · exact Or.inr h
          · exact Or.inl h
    · obtain ⟨r, r1, r2, r3⟩ := c.line k x hx
      refine ⟨r, line_congr r1 fun y hy => s4 y ?_, r2, fun y => ?_⟩
      · have := key_lt ((r3 y).1 hy); omega
      · rw [r3, key_append]
        constructor
        · exact Or.inl
        · rintro (h | ⟨-, h⟩)
          · exact h
          · exact absurd h hk

theorem EdgeInv.fresh {m0 : Mesh} {W : List (Nat × Nat)} {m : Mesh} {h : History} (c : EdgeInv m0 W m h) (tail tp : Nat) (hl : W.length < m0.heEdge.length)
    (hs : W.length < m0.sib.length) (hp : h.val (edgeKey tail tp) = none) :
    ∃ heEdge eHe, put m.heEdge W.length m.eHe.length = some heEdge ∧ put (m.eHe ++ List.replicate 1 none) m.eHe.length W.length = some eHe ∧
      EdgeInv m0 (W ++ [(tail, tp)]) { m with nE := m.nE + 1, sib := m.sib.set W.length none, heEdge := heEdge, eHe := eHe }
        { keys := h.keys ++ [edgeKey tail tp], val := fun k => if k = edgeKey tail tp then some W.length else h.val k } := by
  have s4 : ∀ j, j ≠ W.length → (m.sib.set W.length none)[j]? = m.sib[j]? := fun j hj => List.getElem?_set_ne (Ne.symm hj)
  obtain ⟨E, t1, t2, t3⟩ := put_spec (a := m.heEdge) (i := W.length) m.eHe.length (by rw [c.edgeLen]; exact hl)
  have hk0 : edgeKey tail tp ∉ h.keys := fun hc => by
    obtain ⟨x, hx⟩ := (c.val _).1 hc
    rw [hp] at hx; cases hx
  have nok : ∀ y, (W[y]?).map (fun w : Nat × Nat => edgeKey w.1 w.2) ≠ some (edgeKey tail tp) := fun y hy => by
    obtain ⟨e, e1, -⟩ := c.edge y _ hy
    exact hk0 (List.mem_of_getElem? e1)
  refine ⟨E, m.eHe ++ [some W.length], t1, set_last, ?_⟩
  refine { same := ?_, edgeLen := t2.trans c.edgeLen, sibLen := by simp [c.sibLen], eLen := by simp [c.eLen], keyLen := by simp [c.keyLen], keysNd := ?_,
           val := ?_, edge := ?_, edge' := ?_, first := ?_, line := ?_ }
  · conv_lhs => rw [c.same]
  · rw [List.nodup_append]
    exact ⟨c.keysNd, by simp, fun a ha b hb hab => hk0 (by simp only [List.mem_singleton] at hb; rw [← hb, ← hab]; exact ha)⟩
  · intro k
    simp only [List.mem_append, List.mem_singleton]
    rw [c.val]
    split_ifs with hk
    · exact ⟨fun _ => ⟨_, rfl⟩, fun _ => Or.inr hk⟩
    · exact ⟨fun h => h.resolve_right hk, Or.inl⟩
  · intro x k hx
    simp only [t3]
    rcases key_append.1 hx with hx | ⟨rfl, rfl⟩
    · rw [if_neg (by have := key_lt hx; omega)]
      obtain ⟨e, e1, e2⟩ := c.edge x k hx
      exact ⟨e, by rw [List.getElem?_append_left (List.getElem?_eq_some_iff.1 e1).1, e1], e2⟩
    · rw [if_pos rfl]
      refine ⟨m.eHe.length, ?_, rfl⟩
      rw [c.eLen, ← c.keyLen]
      simp
  · intro x hx
    simp only [List.length_append, List.length_singleton] at hx
    simp only [t3]
    rw [if_neg (by omega)]
    exact c.edge' x (by omega)
  · intro e k hk
    simp only at hk ⊢
    by_cases he : e < h.keys.length
    · rw [List.getElem?_append_left he] at hk
      obtain ⟨x, x1, x2⟩ := c.first e k hk
      exact ⟨x, by rw [get_left (get_lt x1), x1], key_append.2 (Or.inl x2)⟩
    · have he' : e = h.keys.length := by
        have := (List.getElem?_eq_some_iff.1 hk).1
        simp at this
        omega
      subst he'
      simp only [List.getElem?_concat_length, Option.some.injEq] at hk
      subst hk
      refine ⟨W.length, ?_, key_append.2 (Or.inr ⟨rfl, rfl⟩)⟩
      rw [c.keyLen, ← c.eLen, get_right (Nat.le_refl _)]
      simp [get]
  · intro k x hx
    simp only at hx ⊢
    split_ifs at hx with hk
    · subst hk
      cases hx
      refine ⟨[], ?_, by simp, fun y => ?_⟩
      · show (m.sib.set W.length none)[W.length]? = some none
        rw [List.getElem?_set_self (by rw [c.sibLen]; exact hs)]
      · rw [List.mem_singleton, key_append]
        constructor
        · intro h; exact Or.inr ⟨h, rfl⟩
        · rintro (h | ⟨h, -⟩)
          · exact absurd h (nok y)
          · exact h
    · obtain ⟨r, r1, r2, r3⟩ := c.line k x hx
      refine ⟨r, line_congr r1 fun y hy => s4 y ?_, r2, fun y => ?_⟩
      · have := key_lt ((r3 y).1 hy); omega
      · rw [r3, key_append]
        constructor
        · exact Or.inl
        · rintro (h | ⟨-, h⟩)
          · exact h
          · exact absurd h hk

theorem buildEdges_spec {m0 : Mesh} : ∀ (rest W : List (Nat × Nat)) (m : Mesh) (h : History), EdgeInv m0 W m h →
    W.length + rest.length ≤ m0.heEdge.length → W.length + rest.length ≤ m0.sib.length →
    ∃ m' h', buildEdges rest W.length m h = some (m', h') ∧ EdgeInv m0 (W ++ rest) m' h' := by
  intro rest
  induction rest with
  | nil => intro W m h c _ _; exact ⟨m, h, rfl, by simpa using c⟩
  | cons w rest ih =>
    intro W m h c h1 h2
    obtain ⟨tail, tp⟩ := w
    simp only [List.length_cons] at h1 h2
    cases hp : h.val (edgeKey tail tp) with
    | some prev =>
      obtain ⟨S, e, E, q1, q2, q3, q4⟩ := c.known tail tp (by omega) (by omega) hp
      obtain ⟨m', h', r1, r2⟩ := ih _ _ _ q4 (by simp; omega) (by simp; omega)
      refine ⟨m', h', ?_, by simpa using r2⟩
      rw [buildEdges]
      simp only [hp]
      refine (bind_of q1).trans ?_
      refine (bind_of q2).trans ?_
      refine (bind_of q3).trans ?_
      simpa using r1
    | none =>
      obtain ⟨E, G, q1, q2, q4⟩ := c.fresh tail tp (by omega) (by omega) hp
      obtain ⟨m', h', r1, r2⟩ := ih _ _ _ q4 (by simp; omega) (by simp; omega)
      refine ⟨m', h', ?_, by simpa using r2⟩
      rw [buildEdges]
      simp only [hp]
      refine (bind_of q1).trans ?_
      rw [if_pos (show W.length < (newEdges m 1).2.sib.length by show W.length < m.sib.length; rw [c.sibLen]; omega)]
      refine (bind_of rfl).trans ?_
      refine (bind_of q2).trans ?_
      rw [List.length_append, List.length_singleton] at r1
      exact r1

/-- The rings that are closed. -/
theorem closeRings_spec {K : Nat → Option (Nat × Nat)} {n : Nat} : ∀ (L : List Nat) (a : Ids) (D : Nat × Nat → Prop), Len a n →
    (∀ x, (∃ k, K x = some k) → x < n) → L.Pairwise (fun x y => K x ≠ K y) →
    (∀ x ∈ L, ∃ k, K x = some k ∧ ¬ D k ∧ ∃ l, Line a x l ∧ (x :: l).Nodup ∧ ∀ y, y ∈ x :: l ↔ K y = some k) →
    (∀ h k, D k → K h = some k → Ring a h fun x => K x = some k) →
    ∃ b, closeRings L a = some b ∧ Len b n ∧ ∀ h k, (D k ∨ ∃ x ∈ L, K x = some k) → K h = some k → Ring b h fun x => K x = some k := by
  intro L
  induction L with
  | nil =>
    intro a D ha _ _ _ hD
    exact ⟨a, rfl, ha, fun h k hk => hD h k (hk.resolve_right (by simp))⟩
  | cons x L ih =>
    intro a D ha hlt hpw hL hD
    obtain ⟨k, k1, k2, l, l1, l2, l3⟩ := hL x (by simp)
    have lmem : (x :: l).getLast (by simp) ∈ x :: l := List.getLast_mem _
    have lk := (l3 _).1 lmem
    obtain ⟨b, b1, b2, b3⟩ := put_len (i := (x :: l).getLast (by simp)) x ha (hlt _ ⟨k, lk⟩)
    have b4 : ∀ j, j ≠ (x :: l).getLast (by simp) → b[j]? = a[j]? := fun j hj => by
      rw [put_some _ (by rw [ha]; exact hlt _ ⟨k, lk⟩)] at b1
      cases b1
      rw [List.getElem?_set_ne (Ne.symm hj)]
    have ring : Ring b x fun y => K y = some k :=
      ⟨l, line_close l1 l2 (by rw [b3, if_pos rfl]) (fun y hy => by rw [b3, if_neg hy]), l2, l3⟩
    have other : ∀ y k', k' ≠ k → K y = some k' → y ≠ (x :: l).getLast (by simp) := fun y k' hk hy hc => by
      rw [hc, lk] at hy
      cases hy; exact hk rfl
    obtain ⟨hx, hpw⟩ := List.pairwise_cons.1 hpw
    obtain ⟨c, c1, c2, c3⟩ := ih b (fun k' => D k' ∨ k' = k) b2 hlt hpw
      (fun y hy => by
        obtain ⟨k', q1, q2, r, r1, r2, r3⟩ := hL y (by simp [hy])
        have hne : k' ≠ k := fun hc => hx y hy (by rw [k1, q1, hc])
        exact ⟨k', q1, fun hc => hc.elim q2 hne, r, line_congr r1 fun z hz => b4 z (other z k' hne ((r3 z).1 hz)), r2, r3⟩)
      (fun h k' hk' hh => by
        by_cases hkk : k' = k
        · subst hkk
          exact ring.rebase hh
        · exact (hD h k' (hk'.resolve_right hkk) hh).congr fun y hy => by rw [get, b4 y (other y k' hkk hy)]; rfl)
    refine ⟨c, ?_, c2, fun h k' hk' => c3 h k' ?_⟩
    · rw [closeRings]
      have hxa : x < a.length := line_lt l1 x (by simp)
      refine (bind_of (List.getElem?_eq_getElem hxa)).trans ?_
      have hll : l.length < a.length + 1 := by
        have := length_le_of_nodup l2 fun y hy => line_lt l1 y hy
        simp at this; omega
      cases hax : a[x] with
      | none =>
        have hl : l = [] := by
          cases l with
          | nil => rfl
          | cons y l =>
            have := get_some.1 l1.1
            rw [List.getElem?_eq_getElem hxa, hax] at this
            cases this
        subst hl
        simp only
        exact (bind_of b1).trans c1
      | some y =>
        simp only
        refine (bind_of (line_last l1 hll)).trans ?_
        exact (bind_of b1).trans c1
    · rcases hk' with h | ⟨y, hy, hyk⟩
      · exact Or.inl (Or.inl h)
      · rcases List.mem_cons.1 hy with rfl | hy
        · rw [k1] at hyk; cases hyk; exact Or.inl (Or.inr rfl)
        · exact Or.inr ⟨y, hy, hyk⟩

theorem edgeInv_start {m0 : Mesh} (h1 : m0.nE = 0) (h2 : m0.eHe = []) (h3 : ∀ x, get m0.heEdge x = none) :
    EdgeInv m0 [] m0 { keys := [], val := fun _ => none } where
  same := rfl
  edgeLen := rfl
  sibLen := rfl
  eLen := by rw [h1, h2]; rfl
  keyLen := h1.symm
  keysNd := by simp
  val := fun k => by simp
  edge := fun x k h => by simp at h
  edge' := fun x _ => h3 x
  first := fun e k h => by simp at h
  line := fun k x h => by cases h

/-- All edges and their rings of siblings. -/
theorem edges_spec {m0 : Mesh} {W : List (Nat × Nat)} {order : List Nat → List Nat} (ho : ∀ l, (order l).Perm l) (h1 : m0.nE = 0) (h2 : m0.eHe = [])
    (h3 : m0.heEdge = List.replicate W.length none) (h4 : m0.sib.length = W.length) :
    ∃ m h b, buildEdges W 0 m0 { keys := [], val := fun _ => none } = some (m, h) ∧ closeRings (order h.values) m.sib = some b ∧
      b.length = W.length ∧ EdgeInv m0 W m h ∧ Rings b (get m.heEdge) := by
  obtain ⟨m, h, q1, q2⟩ := buildEdges_spec W [] m0 _ (edgeInv_start h1 h2 fun x => by rw [h3, get_replicate_none]) (by simp [h3]) (by simp [h4])
  rw [List.nil_append] at q2
  let K := fun x : Nat => (W[x]?).map (fun w : Nat × Nat => edgeKey w.1 w.2)
  have kv : ∀ {k x}, h.val k = some x → K x = some k := fun {k x} hx => by
    obtain ⟨l, -, -, l3⟩ := q2.line k x hx
    exact (l3 x).1 (by simp)
  have pw : h.values.Pairwise fun x y => K x ≠ K y := by
    rw [History.values, List.pairwise_filterMap]
    refine q2.keysNd.imp fun {k k'} hne x hx y hy hc => hne ?_
    rw [kv hx, kv hy] at hc
    exact Option.some.inj hc
  have mem : ∀ x, x ∈ order h.values ↔ ∃ k, k ∈ h.keys ∧ h.val k = some x := fun x => by
    rw [(ho _).mem_iff, History.values, List.mem_filterMap]
  obtain ⟨b, b1, b2, b3⟩ := closeRings_spec (K := K) (n := W.length) (order h.values) m.sib (fun _ => False) (by rw [Len, q2.sibLen, h4])
    (fun x ⟨k, hk⟩ => key_lt hk) ((ho _).symm.pairwise pw fun {x y} h => Ne.symm h)
    (fun x hx => by
      obtain ⟨k, k1, k2⟩ := (mem x).1 hx
      exact ⟨k, kv k2, id, q2.line k x k2⟩)
    (fun _ _ h => h.elim)
  refine ⟨m, h, b, q1, b1, b2, q2, fun x e hx => ?_⟩
  have hxl : x < W.length := by
    by_contra hc
    rw [q2.edge' x (by omega)] at hx; cases hx
  have ek : ∀ {y k}, K y = some k → (get m.heEdge y = some e ↔ h.keys[e]? = some k) := fun {y k} hy => by
    obtain ⟨e', e1, e2⟩ := q2.edge y k hy
    rw [e2, Option.some.injEq]
    constructor
    · rintro rfl; exact e1
    · intro h2
      have l1 := (List.getElem?_eq_some_iff.1 e1).1
      exact (List.getElem?_inj l1 q2.keysNd).1 (e1.trans h2.symm)
  have hk : K x = some (edgeKey W[x].1 W[x].2) := by simp only [K, List.getElem?_eq_getElem hxl]; rfl
  have he := (ek hk).1 hx
  obtain ⟨z, hz⟩ := (q2.val _).1 (List.mem_of_getElem? he)
  refine (b3 x _ (Or.inr ⟨z, (mem z).2 ⟨_, List.mem_of_getElem? he, hz⟩, kv hz⟩) hk).iff fun y => ⟨fun hy => (ek hy).2 he, fun hy => ?_⟩
  have hyl : y < W.length := by
    by_contra hc
    rw [q2.edge' y (by omega)] at hy; cases hy
  have hky : K y = some (edgeKey W[y].1 W[y].2) := by simp only [K, List.getElem?_eq_getElem hyl]; rfl
  have := (ek hky).1 hy
  rw [he] at this
  rw [hky, ← this]

end Verif.Surface
