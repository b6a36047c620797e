import Verif.Surface.SplitFace
/-!
# `split_edge`
-/
namespace Verif.Surface

/-- The new halfedge of a halfedge of the edge. -/
def nw (es : List Nat) (N x : Nat) : Nat := N + es.idxOf x

theorem nw_range {es : List Nat} {N x : Nat} (h : x ∈ es) : N ≤ nw es N x ∧ nw es N x < N + es.length :=
  ⟨Nat.le_add_right _ _, Nat.add_lt_add_left (List.idxOf_lt_length_of_mem h) _⟩

theorem nw_inj {es : List Nat} {N x y : Nat} (hx : x ∈ es) (hy : y ∈ es) (e : nw es N x = nw es N y) : x = y := by
  have h1 : es.idxOf x = es.idxOf y := Nat.add_left_cancel e
  exact (List.idxOf_inj hx).1 h1

theorem nw_get {es : List Nat} (hn : es.Nodup) {N i : Nat} (hi : i < es.length) : nw es N es[i] = N + i := by
  rw [nw, hn.idxOf_getElem]

theorem mem_nh {es : List Nat} (hn : es.Nodup) {N y : Nat} : y ∈ List.range' N es.length ↔ ∃ x ∈ es, y = nw es N x := by
  rw [List.mem_range'_1]
  constructor
  · rintro ⟨h1, h2⟩
    have hi : y - N < es.length := by omega
    exact ⟨es[y - N], List.getElem_mem _, by rw [nw_get hn hi]; omega⟩
  · rintro ⟨x, hx, rfl⟩
    exact nw_range hx

theorem nh_eq {es : List Nat} (hn : es.Nodup) (N : Nat) : List.range' N es.length = es.map (nw es N) := by
  apply List.ext_getElem
  · simp
  · intro i h1 h2
    have hi : i < es.length := by simpa using h1
    simp [nw_get hn hi]

theorem idxOf?_some {es : List Nat} {x : Nat} (h : x ∈ es) : es.idxOf? x = some (es.idxOf x) := by
  rw [List.idxOf?_eq_some_iff]
  refine ⟨List.idxOf_lt_length_of_mem h, ?_, fun j hj => ?_⟩
  · simp
  · intro hc
    have := List.not_of_lt_findIdx (p := (· == x)) (xs := es) hj
    rw [beq_eq_false_iff_ne] at this
    exact this (by simpa using hc)

/-- `to_new_halfedge` on a list. -/
theorem toNew_spec {es : List Nat} {N : Nat} (l : List Nat) :
    toNew es (List.range' N es.length) l = (l.map (fun x => if x ∈ es then nw es N x else x), (l.filter (· ∈ es)).map es.idxOf) := by
  unfold toNew
  congr 1
  · refine List.map_congr_left fun x _ => ?_
    by_cases h : x ∈ es
    · rw [idxOf?_some h, if_pos h]
      simp only
      rw [List.getD_eq_getElem?_getD, range'_get (List.idxOf_lt_length_of_mem h)]; rfl
    · rw [List.idxOf?_eq_none_iff.2 h, if_neg h]
  · induction l with
    | nil => rfl
    | cons x l ih =>
      by_cases h : x ∈ es
      · rw [List.filterMap_cons, idxOf?_some h, ih]; simp [h]
      · rw [List.filterMap_cons, List.idxOf?_eq_none_iff.2 h, ih]; simp [h]

theorem mapM_old {es : List Nat} (l : List Nat) (h : ∀ x ∈ l, x ∈ es) : (l.map es.idxOf).mapM (es[·]?) = some l := by
  induction l with
  | nil => rfl
  | cons x l ih =>
    have hx := h x (by simp)
    have e : es[es.idxOf x]? = some x := by
      rw [List.getElem?_eq_getElem (List.idxOf_lt_length_of_mem hx)]; simp
    rw [List.map_cons, List.mapM_cons, e, ih fun y hy => h y (List.mem_cons_of_mem _ hy)]; rfl

theorem mapM_new {es : List Nat} {N : Nat} (l : List Nat) (h : ∀ x ∈ l, x ∈ es) :
    (l.map es.idxOf).mapM ((List.range' N es.length)[·]?) = some (l.map (nw es N)) := by
  induction l with
  | nil => rfl
  | cons x l ih =>
    have hx := h x (by simp)
    rw [List.map_cons, List.mapM_cons, range'_get (List.idxOf_lt_length_of_mem hx), ih fun y hy => h y (List.mem_cons_of_mem _ hy)]; rfl

/-- Pairs of an old and a new halfedge. -/
structure Fresh (n : Nat) (l : List (Nat × Nat)) : Prop where
  olds : (l.map Prod.fst).Nodup
  news : (l.map Prod.snd).Nodup
  lt : ∀ w ∈ l, w.2 < n
  disj : ∀ w ∈ l, ∀ w' ∈ l, w.1 ≠ w'.2

theorem Fresh.tail {n : Nat} {w : Nat × Nat} {l : List (Nat × Nat)} (h : Fresh n (w :: l)) : Fresh n l :=
  ⟨(List.nodup_cons.1 h.olds).2, (List.nodup_cons.1 h.news).2, fun w hw => h.lt w (List.mem_cons_of_mem _ hw),
    fun w hw w' hw' => h.disj w (List.mem_cons_of_mem _ hw) w' (List.mem_cons_of_mem _ hw')⟩

theorem fresh_zip {es : List Nat} (hn : es.Nodup) {N : Nat} (hl : ∀ x ∈ es, x < N) : Fresh (N + es.length) (es.zip (List.range' N es.length)) := by
  have e1 : (es.zip (List.range' N es.length)).map Prod.fst = es := List.map_fst_zip (by simp)
  have e2 : (es.zip (List.range' N es.length)).map Prod.snd = List.range' N es.length := List.map_snd_zip (by simp)
  refine ⟨by rw [e1]; exact hn, by rw [e2]; exact List.nodup_range', fun w hw => ?_, fun w hw w' hw' => ?_⟩
  · have := (List.of_mem_zip (a := w.1) (b := w.2) hw).2
    rw [List.mem_range'_1] at this; exact this.2
  · have h1 := hl _ (List.of_mem_zip (a := w.1) (b := w.2) hw).1
    have h2 := (List.of_mem_zip (a := w'.1) (b := w'.2) hw').2
    rw [List.mem_range'_1] at h2
    omega

theorem mem_zip_nh {es : List Nat} (hn : es.Nodup) {N x : Nat} (hx : x ∈ es) : (x, nw es N x) ∈ es.zip (List.range' N es.length) := by
  rw [nh_eq hn, List.mem_iff_getElem]
  have hi := List.idxOf_lt_length_of_mem hx
  exact ⟨es.idxOf x, by simpa using hi, by simp⟩

theorem zip_mem {es : List Nat} (hn : es.Nodup) {N : Nat} {w : Nat × Nat} (hw : w ∈ es.zip (List.range' N es.length)) : w.1 ∈ es ∧ w.2 = nw es N w.1 := by
  rw [nh_eq hn, List.mem_iff_getElem] at hw
  obtain ⟨i, hi, rfl⟩ := hw
  simp

/-- Inserting all new halfedges. -/
theorem insertAll_spec {n : Nat} : ∀ (l : List (Nat × Nat)) (a : Ids), Fresh n l → Len a n → (∀ w ∈ l, ∃ k, get a w.1 = some k) →
    ∃ b, insertAll a l = some b ∧ Len b n ∧ (∀ w ∈ l, get b w.1 = some w.2 ∧ get b w.2 = get a w.1) ∧
      ∀ j, j ∉ l.map Prod.fst → j ∉ l.map Prod.snd → get b j = get a j := by
  intro l
  induction l with
  | nil => intro a _ hl _; exact ⟨a, rfl, hl, by simp, fun _ _ _ => rfl⟩
  | cons w l ih =>
    obtain ⟨o, x⟩ := w
    intro a hf hl hg
    obtain ⟨k, hk⟩ := hg (o, x) (by simp)
    have hne : x ≠ o := fun e => hf.disj (o, x) (by simp) (o, x) (by simp) e.symm
    have hxn : x < n := hf.lt (o, x) (by simp)
    obtain ⟨b, b1, b2, b3, b4, b5⟩ := insertHe_spec hk (by rw [hl]; exact hxn) hne
    have o1 : o ∉ l.map Prod.fst := (List.nodup_cons.1 hf.olds).1
    have o2 : x ∉ l.map Prod.snd := (List.nodup_cons.1 hf.news).1
    have d1 : ∀ w ∈ l, w.1 ≠ o := fun w hw e => o1 (List.mem_map.2 ⟨w, hw, e⟩)
    have d2 : ∀ w ∈ l, w.1 ≠ x := fun w hw => hf.disj w (List.mem_cons_of_mem _ hw) (o, x) (by simp)
    have o3 : o ∉ l.map Prod.snd := fun hc => by
      obtain ⟨w, hw, e⟩ := List.mem_map.1 hc
      exact hf.disj (o, x) (by simp) w (List.mem_cons_of_mem _ hw) e.symm
    have o4 : x ∉ l.map Prod.fst := fun hc => by
      obtain ⟨w, hw, e⟩ := List.mem_map.1 hc
      exact d2 w hw e
    obtain ⟨c, c1, c2, c3, c4⟩ := ih b hf.tail (b2.trans hl) (fun w hw => by
      rw [b5 w.1 (d1 w hw) (d2 w hw)]; exact hg w (List.mem_cons_of_mem _ hw))
    refine ⟨c, ?_, c2, fun w hw => ?_, fun j h1 h2 => ?_⟩
    · simp only [insertAll, List.foldlM_cons, b1, Option.bind_eq_bind, Option.bind_some]; exact c1
    · rcases List.mem_cons.1 hw with rfl | hw
      · simp only
        rw [c4 o o1 o3, b3, c4 x o4 o2, b4]
        exact ⟨rfl, rfl⟩
      · rw [(c3 w hw).1, (c3 w hw).2, b5 w.1 (d1 w hw) (d2 w hw)]
        exact ⟨rfl, rfl⟩
    · simp only [List.map_cons, List.mem_cons, not_or] at h1 h2
      rw [c4 j h1.2 h2.2, b5 j h1.1 h2.1]

/-- Copying the faces. -/
theorem copy_spec {n : Nat} : ∀ (l : List (Nat × Nat)) (a : Ids), Fresh n l → Len a n → (∀ w ∈ l, ∃ k, get a w.1 = some k) →
    ∃ b, l.foldlM (fun a w => do put a w.2 (← get a w.1)) a = some b ∧ Len b n ∧ (∀ w ∈ l, get b w.2 = get a w.1) ∧
      ∀ j, j ∉ l.map Prod.snd → get b j = get a j := by
  intro l
  induction l with
  | nil => intro a _ hl _; exact ⟨a, rfl, hl, by simp, fun _ _ => rfl⟩
  | cons w l ih =>
    obtain ⟨o, x⟩ := w
    intro a hf hl hg
    obtain ⟨k, hk⟩ := hg (o, x) (by simp)
    simp only at hk
    obtain ⟨b, b1, b2, b3⟩ := put_len (a := a) (i := x) k hl (hf.lt (o, x) (by simp))
    have o2 : x ∉ l.map Prod.snd := (List.nodup_cons.1 hf.news).1
    have d2 : ∀ w ∈ l, w.1 ≠ x := fun w hw => hf.disj w (List.mem_cons_of_mem _ hw) (o, x) (by simp)
    obtain ⟨c, c1, c2, c3, c4⟩ := ih b hf.tail b2 (fun w hw => by
      rw [b3, if_neg (d2 w hw)]; exact hg w (List.mem_cons_of_mem _ hw))
    refine ⟨c, ?_, c2, fun w hw => ?_, fun j h2 => ?_⟩
    · simp only [List.foldlM_cons, hk, b1, Option.bind_eq_bind, Option.bind_some]; exact c1
    · rcases List.mem_cons.1 hw with rfl | hw
      · simp only
        rw [c4 x o2, b3, if_pos rfl, hk]
      · rw [c3 w hw, b3, if_neg (d2 w hw)]
    · simp only [List.map_cons, List.mem_cons, not_or] at h2
      rw [c4 j h2.2, b3, if_neg h2.1]

/-- The boundary of a face after the edge is split. -/
def expand (es : List Nat) (N : Nat) (l : List Nat) : List Nat := l.flatMap fun h => if h ∈ es then [h, nw es N h] else [h]

theorem chain_expand {a b : Ids} {es : List Nat} {N x z : Nat} {l : List Nat} (h : Chain a x l z)
    (h1 : ∀ y, y ∈ es → get b y = some (nw es N y) ∧ get b (nw es N y) = get a y) (h2 : ∀ y ∈ x :: l, y ∉ es → get b y = get a y) :
    ∃ t, expand es N (x :: l) = x :: t ∧ Chain b x t z := by
  induction l generalizing x with
  | nil =>
    have h : get a x = some z := h
    by_cases hx : x ∈ es
    · exact ⟨[nw es N x], by simp [expand, hx], (h1 x hx).1, by rw [Chain, (h1 x hx).2, h]⟩
    · exact ⟨[], by simp [expand, hx], by rw [Chain, h2 x (by simp) hx, h]⟩
  | cons y l ih =>
    obtain ⟨t, e, c⟩ := ih h.2 (fun w hw => h2 w (List.mem_cons_of_mem _ hw))
    have e' : expand es N (x :: y :: l) = (if x ∈ es then [x, nw es N x] else [x]) ++ expand es N (y :: l) := rfl
    by_cases hx : x ∈ es
    · refine ⟨nw es N x :: y :: t, by rw [e', e]; simp [hx], (h1 x hx).1, ?_, c⟩
      rw [(h1 x hx).2]; exact h.1
    · refine ⟨y :: t, by rw [e', e]; simp [hx], ?_, c⟩
      rw [h2 x (by simp) hx]; exact h.1

theorem mem_expand {es : List Nat} {N y : Nat} {l : List Nat} : y ∈ expand es N l ↔ y ∈ l ∨ ∃ x ∈ l, x ∈ es ∧ y = nw es N x := by
  unfold expand
  rw [List.mem_flatMap]
  constructor
  · rintro ⟨x, hx, hy⟩
    split_ifs at hy with he
    · rcases List.mem_cons.1 hy with rfl | hy
      · exact Or.inl hx
      · exact Or.inr ⟨x, hx, he, by simpa using hy⟩
    · rw [List.mem_singleton] at hy
      exact Or.inl (by rw [hy]; exact hx)
  · rintro (hy | ⟨x, hx, he, rfl⟩)
    · exact ⟨y, hy, by split_ifs <;> simp⟩
    · exact ⟨x, hx, by simp [he]⟩

theorem nodup_expand {es : List Nat} {N : Nat} {l : List Nat} (hn : l.Nodup) (hl : ∀ x ∈ l, x < N) : (expand es N l).Nodup := by
  induction l with
  | nil => exact List.nodup_nil
  | cons x l ih =>
    have hn' := List.nodup_cons.1 hn
    have hx := hl x (by simp)
    have hl' : ∀ y ∈ l, y < N := fun y hy => hl y (List.mem_cons_of_mem _ hy)
    have e' : expand es N (x :: l) = (if x ∈ es then [x, nw es N x] else [x]) ++ expand es N l := rfl
    have nx : x ∉ expand es N l := by
      rw [mem_expand]
      rintro (h | ⟨y, -, -, e⟩)
      · exact hn'.1 h
      · have : N ≤ nw es N y := Nat.le_add_right _ _
        omega
    have nnx : x ∈ es → nw es N x ∉ expand es N l := by
      intro he
      rw [mem_expand]
      rintro (h | ⟨y, hy, hy', e⟩)
      · have := hl' _ h
        have : N ≤ nw es N x := Nat.le_add_right _ _
        omega
      · exact hn'.1 (by rw [nw_inj he hy' e]; exact hy)
    rw [e']
    split_ifs with he
    · have : x ≠ nw es N x := by
        have : N ≤ nw es N x := Nat.le_add_right _ _
        omega
      simp only [List.cons_append, List.nil_append, List.nodup_cons, List.mem_cons, not_or]
      exact ⟨⟨this, nx⟩, nnx he, ih hn'.2 hl'⟩
    · exact List.nodup_cons.2 ⟨nx, ih hn'.2 hl'⟩

theorem mapM_expand {es : List Nat} {N M : Nat} {V V' : Ids} {l vs : List Nat} (h : l.mapM (get V) = some vs)
    (h1 : ∀ x ∈ l, get V' x = get V x) (h2 : ∀ x ∈ es, get V' (nw es N x) = some M) :
    (expand es N l).mapM (get V') = some ((l.zip vs).flatMap fun w => if w.1 ∈ es then [w.2, M] else [w.2]) := by
  induction l generalizing vs with
  | nil => simp only [List.mapM_nil, Option.pure_def, Option.some.injEq] at h; subst h; rfl
  | cons x l ih =>
    rw [List.mapM_cons] at h
    cases hx : get V x with
    | none => simp [hx] at h
    | some u =>
      cases hr : l.mapM (get V) with
      | none => simp [hx, hr] at h
      | some us =>
        simp only [hx, hr, Option.bind_eq_bind, Option.bind_some, Option.pure_def, Option.some.injEq] at h
        subst h
        have e' : expand es N (x :: l) = (if x ∈ es then [x, nw es N x] else [x]) ++ expand es N l := rfl
        have hxV : get V' x = some u := by rw [h1 x (by simp), hx]
        have hr' := ih hr fun y hy => h1 y (List.mem_cons_of_mem _ hy)
        rw [e', List.zip_cons_cons, List.flatMap_cons]
        by_cases he : x ∈ es
        · simp only [he, if_true, List.cons_append, List.nil_append, List.mapM_cons, hxV, h2 x he, hr', Option.bind_eq_bind, Option.bind_some,
            Option.pure_def]
        · simp only [he, if_false, List.cons_append, List.nil_append, List.mapM_cons, hxV, hr', Option.bind_eq_bind, Option.bind_some,
            Option.pure_def]

/-- The rings of some of the classes. -/
def RingsOn (a : Ids) (key : Nat → Option Nat) (K : Nat → Prop) : Prop := ∀ h k, K k → key h = some k → Ring a h fun x => key x = some k

theorem RingsOn.write {a : Ids} {key : Nat → Option Nat} {K : Nat → Prop} {n k0 : Nat} {L : List Nat} (r : RingsOn a key K) (hl : Len a n) (hne : L ≠ [])
    (hn : L.Nodup) (hm : ∀ y, y ∈ L ↔ key y = some k0) (hlt : ∀ y ∈ L, y < n) :
    ∃ b, ringSet a L = some b ∧ Len b n ∧ RingsOn b key fun k => K k ∨ k = k0 := by
  obtain ⟨b, b1, b2, b3, b4⟩ := ringSet_ring hne hn (a := a) fun j hj => by rw [hl]; exact hlt j hj
  refine ⟨b, b1, b2.trans hl, fun h k hk hh => ?_⟩
  by_cases e : k = k0
  · subst e
    exact (b4 h ((hm h).2 hh)).iff hm
  · refine (r h k (hk.resolve_right e) hh).congr fun y hy => b3 y fun hc => ?_
    rw [(hm y).1 hc] at hy
    cases hy; exact e rfl

/-- The edge that is split. -/
structure EdgeCtx (m : Mesh) (e va vb : Nat) (es : List Nat) : Prop where
  v : Valid m
  lt : e < m.nE
  nd : es.Nodup
  mem : ∀ x, x ∈ es ↔ get m.heEdge x = some e
  ne : va ≠ vb
  ends : ∀ x ∈ es, (get m.heVertex x = some va ∧ tip m x = some vb) ∨ (get m.heVertex x = some vb ∧ tip m x = some va)
  some_b : ∃ x ∈ es, tip m x = some vb
  a_lt : va < m.nV
  b_lt : vb < m.nV

theorem EdgeCtx.es_lt {m : Mesh} {e va vb : Nat} {es : List Nat} (c : EdgeCtx m e va vb es) {x : Nat} (hx : x ∈ es) : x < m.nH := by
  have := get_lt ((c.mem x).1 hx)
  rwa [c.v.sEdge] at this

theorem EdgeCtx.cases {m : Mesh} {e va vb : Nat} {es : List Nat} (c : EdgeCtx m e va vb es) (y : Nat) :
    y ∈ es ∨ (y < m.nH ∧ y ∉ es) ∨ (∃ x ∈ es, y = nw es m.nH x) ∨ m.nH + es.length ≤ y := by
  by_cases h1 : y ∈ es
  · exact Or.inl h1
  by_cases h2 : y < m.nH
  · exact Or.inr (Or.inl ⟨h2, h1⟩)
  by_cases h3 : y < m.nH + es.length
  · exact Or.inr (Or.inr (Or.inl ((mem_nh c.nd).1 (List.mem_range'_1.2 ⟨by omega, h3⟩))))
  · exact Or.inr (Or.inr (Or.inr (by omega)))

/-- A key after the split, given by its values on the four kinds of ids. -/
structure Key (m : Mesh) (es : List Nat) (key onE onN : Nat → Option Nat) (key' : Nat → Option Nat) : Prop where
  onEdge : ∀ x ∈ es, key' x = onE x
  old : ∀ x, x < m.nH → x ∉ es → key' x = key x
  new : ∀ x ∈ es, key' (nw es m.nH x) = onN x
  out : ∀ x, m.nH + es.length ≤ x → key' x = none

section
variable {m : Mesh} {e va vb : Nat} {es : List Nat}

/-- The incoming halfedges of an end of the edge after the split. -/
theorem EdgeCtx.in_class (c : EdgeCtx m e va vb es) {T : Nat → Option Nat} (hT : Key m es (tip m) (fun _ => some m.nV) (tip m) T) {u : Nat}
    (hu : u < m.nV) {l : List Nat} (hl : ∀ x, x ∈ l ↔ tip m x = some u) (hn : l.Nodup) (hne : l ≠ []) :
    let L := l.map fun x => if x ∈ es then nw es m.nH x else x
    L ≠ [] ∧ L.Nodup ∧ (∀ y, y ∈ L ↔ T y = some u) ∧ ∀ y ∈ L, y < m.nH + es.length := by
  have lN : ∀ x ∈ l, x < m.nH := fun x hx => by
    obtain ⟨n, h1, -⟩ := tip_some.1 ((hl x).1 hx)
    have := get_lt h1; rwa [c.v.sNext] at this
  refine ⟨by simpa using hne, ?_, fun y => ?_, fun y hy => ?_⟩
  · refine (List.nodup_map_iff_inj_on hn).2 fun x hx y hy hxy => ?_
    have h1 := lN x hx
    have h2 := lN y hy
    split_ifs at hxy with g1 g2 g2
    · exact nw_inj g1 g2 hxy
    · have := (nw_range (N := m.nH) g1).1; omega
    · have := (nw_range (N := m.nH) g2).1; omega
    · exact hxy
  · rw [List.mem_map]
    constructor
    · rintro ⟨x, hx, rfl⟩
      split_ifs with g
      · rw [hT.new x g]; exact (hl x).1 hx
      · rw [hT.old x (lN x hx) g]; exact (hl x).1 hx
    · intro hy
      rcases c.cases y with h | ⟨h1, h2⟩ | ⟨x, hx, rfl⟩ | h
      · rw [hT.onEdge y h] at hy
        simp only [Option.some.injEq] at hy
        omega
      · rw [hT.old y h1 h2] at hy
        exact ⟨y, (hl y).2 hy, by rw [if_neg h2]⟩
      · rw [hT.new x hx] at hy
        exact ⟨x, (hl x).2 hy, by rw [if_pos hx]⟩
      · rw [hT.out y h] at hy; cases hy
  · obtain ⟨x, hx, rfl⟩ := List.mem_map.1 hy
    split_ifs with g
    · exact (nw_range g).2
    · have := lN x hx; omega

/-- The halfedges of one half of the edge after the split: those that end at `q` and the new parts of those that end at `p`. -/
theorem EdgeCtx.half (c : EdgeCtx m e va vb es) {p q : Nat} (hpq : (p = va ∧ q = vb) ∨ (p = vb ∧ q = va)) {lp lq : List Nat}
    (hp : ∀ x, x ∈ lp ↔ tip m x = some p) (hq : ∀ x, x ∈ lq ↔ tip m x = some q) (np : lp.Nodup) (nq : lq.Nodup) :
    let L := lq.filter (· ∈ es) ++ (lp.filter (· ∈ es)).map (nw es m.nH)
    L ≠ [] ∧ L.Nodup ∧ (∀ x ∈ es, (x ∈ L ↔ tip m x = some q) ∧ (nw es m.nH x ∈ L ↔ tip m x = some p)) ∧
      ∀ y ∈ L, y ∈ es ∨ ∃ x ∈ es, y = nw es m.nH x := by
  have mq : ∀ x, x ∈ lq.filter (· ∈ es) ↔ tip m x = some q ∧ x ∈ es := fun x => by rw [List.mem_filter, hq]; simp
  have mp : ∀ x, x ∈ lp.filter (· ∈ es) ↔ tip m x = some p ∧ x ∈ es := fun x => by rw [List.mem_filter, hp]; simp
  have mem1 : ∀ x ∈ es, (x ∈ lq.filter (· ∈ es) ++ (lp.filter (· ∈ es)).map (nw es m.nH) ↔ tip m x = some q) := by
    intro x hx
    rw [List.mem_append, mq, List.mem_map]
    constructor
    · rintro (h | ⟨y, hy, rfl⟩)
      · exact h.1
      · have h1 := c.es_lt hx
        have h2 := (nw_range (N := m.nH) ((mp y).1 hy).2).1
        omega
    · exact fun h => Or.inl ⟨h, hx⟩
  have mem2 : ∀ x ∈ es, (nw es m.nH x ∈ lq.filter (· ∈ es) ++ (lp.filter (· ∈ es)).map (nw es m.nH) ↔ tip m x = some p) := by
    intro x hx
    rw [List.mem_append, mq, List.mem_map]
    constructor
    · rintro (h | ⟨y, hy, e⟩)
      · have h1 := c.es_lt h.2
        have h2 := (nw_range (N := m.nH) hx).1
        omega
      · rw [mp] at hy
        rw [← nw_inj hy.2 hx e]; exact hy.1
    · exact fun h => Or.inr ⟨x, (mp x).2 ⟨h, hx⟩, rfl⟩
  refine ⟨?_, ?_, fun x hx => ⟨mem1 x hx, mem2 x hx⟩, fun y hy => ?_⟩
  · obtain ⟨x, hx, hxb⟩ := c.some_b
    rcases hpq with ⟨rfl, rfl⟩ | ⟨rfl, rfl⟩
    · exact List.ne_nil_of_mem ((mem1 x hx).2 hxb)
    · exact List.ne_nil_of_mem ((mem2 x hx).2 hxb)
  · rw [List.nodup_append']
    refine ⟨nq.filter _, (List.nodup_map_iff_inj_on (np.filter _)).2 fun x hx y hy h => nw_inj ((mp x).1 hx).2 ((mp y).1 hy).2 h, ?_⟩
    intro y h1 h2
    obtain ⟨x, hx, rfl⟩ := List.mem_map.1 h2
    have h3 := c.es_lt ((mq _).1 h1).2
    have h4 := (nw_range (N := m.nH) ((mp x).1 hx).2).1
    omega
  · rcases List.mem_append.1 hy with h | h
    · exact Or.inl ((mq y).1 h).2
    · obtain ⟨x, hx, rfl⟩ := List.mem_map.1 h
      exact Or.inr ⟨x, ((mp x).1 hx).2, rfl⟩

end

theorem splitEdge_run {m : Mesh} {e va vb h0 N : Nat} {es la lb ea eb La Lb : List Nat} {W V I1 I2 I O S1 S X E1 E G1 G F : Ids} {e0 e1 : Nat}
    (r1 : edgeHalfedges m e = some es) (r2 : es[0]? = some h0) (r3 : get m.heVertex h0 = some va) (r4 : tip m h0 = some vb)
    (hN : m.heNext.length = N) (r5 : (List.range' N es.length)[0]? = some N)
    (r6 : put (m.vHe ++ [none]) m.vHe.length N = some W)
    (r7 : setAll (m.heVertex ++ List.replicate es.length none) (List.range' N es.length) m.vHe.length = some V)
    (r8 : incoming { (newHalfedges (newVertices m 1).2 es.length).2 with vHe := W, heVertex := V } va = some la)
    (r9 : incoming { (newHalfedges (newVertices m 1).2 es.length).2 with vHe := W, heVertex := V } vb = some lb)
    (t1 : toNew es (List.range' N es.length) la = (La, (la.filter (· ∈ es)).map es.idxOf))
    (t2 : toNew es (List.range' N es.length) lb = (Lb, (lb.filter (· ∈ es)).map es.idxOf))
    (i1 : ringSet (m.vIn ++ List.replicate es.length none) La = some I1) (i2 : ringSet I1 Lb = some I2) (i3 : ringSet I2 es = some I)
    (o1 : ringSet (m.vOut ++ List.replicate es.length none) (List.range' N es.length) = some O)
    (hea : ea = lb.filter (· ∈ es) ++ (la.filter (· ∈ es)).map (nw es N)) (heb : eb = la.filter (· ∈ es) ++ (lb.filter (· ∈ es)).map (nw es N))
    (s1 : ringSet (m.sib ++ List.replicate es.length none) ea = some S1) (s2 : ringSet S1 eb = some S)
    (x1 : insertAll (m.heNext ++ List.replicate es.length none) (es.zip (List.range' N es.length)) = some X)
    (k1 : setAll (m.heEdge ++ List.replicate es.length none) ea e = some E1) (k2 : setAll E1 eb m.eHe.length = some E)
    (a0 : ea[0]? = some e0) (b0 : eb[0]? = some e1) (g1 : put (m.eHe ++ [none]) e e0 = some G1) (g2 : put G1 m.eHe.length e1 = some G)
    (f1 : (es.zip (List.range' N es.length)).foldlM (fun a w => do put a w.2 (← get a w.1)) (m.heFace ++ List.replicate es.length none) = some F) :
    splitEdge m e = some (m.vHe.length, ⟨W, X, V, m.fHe, m.nV + 1, m.nH + es.length, m.nF, m.nE + 1, E, F, I, O, S, G⟩) := by
  have hin : ∀ x ∈ lb.filter (· ∈ es), x ∈ es := fun x hx => by simpa using (List.mem_filter.1 hx).2
  have hin' : ∀ x ∈ la.filter (· ∈ es), x ∈ es := fun x hx => by simpa using (List.mem_filter.1 hx).2
  subst hN hea heb
  unfold splitEdge
  bstep r1
  bstep r2
  bstep r3
  bstep r4
  bstep r5
  bstep r6
  bstep r7
  bstep r8
  bstep r9
  have t1' := congrArg Prod.fst t1
  have t2' := congrArg Prod.fst t2
  bstep ((congrArg _ t1').trans i1)
  bstep ((congrArg _ t2').trans i2)
  bstep i3
  bstep o1
  bstep ((congrArg (fun p => List.mapM (es[·]?) p.2) t2).trans (mapM_old _ hin))
  bstep ((congrArg (fun p => List.mapM ((List.range' m.heNext.length es.length)[·]?) p.2) t1).trans (mapM_new _ hin'))
  bstep ((congrArg (fun p => List.mapM (es[·]?) p.2) t1).trans (mapM_old _ hin'))
  bstep ((congrArg (fun p => List.mapM ((List.range' m.heNext.length es.length)[·]?) p.2) t2).trans (mapM_new _ hin))
  bstep s1
  bstep s2
  bstep x1
  bstep k1
  bstep k2
  bstep a0
  bstep g1
  bstep b0
  bstep g2
  bstep f1
  rfl

end Verif.Surface
