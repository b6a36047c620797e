import Mathlib.Logic.Function.Basic
import Mathlib.Data.List.Basic
/-!
# The triangle mesh of `src/triangle/triangle.rs` and `flip`

A mesh is modelled by functions on half edges. A half edge is a triangle with one of its three edges; edge `i` of a triangle is opposite to corner `i`.
-/
namespace Verif.Tri

/-- `HEdge` (lines 157-169). `INVALID_IND` as triangle is `none` in `Option HE`. -/
structure HE where
  tri : Nat
  ori : Fin 3
deriving DecidableEq, Repr

/-- `next_self`, `next` (lines 267-269, 297-300). -/
def HE.next (e : HE) : HE := ⟨e.tri, e.ori + 1⟩

/-- `prev_self`, `prev` (lines 262-264, 291-294). -/
def HE.prev (e : HE) : HE := ⟨e.tri, e.ori + 2⟩

/-- `Mesh` and `Triangle` (lines 172-189): `vert ⟨t, i⟩` is `triangles[t].data[i]`, `mark ⟨t, i⟩` is `triangles[t].data[i + 3]`, `nei ⟨t, i⟩` is
`triangles[t].nei[i]`, and `n` is the number of triangles. `INVALID_IND` is `none`. The points are only seen through predicates, which are parameters of the
functions that use them. -/
structure Mesh where
  n : Nat
  vert : HE → Option Nat
  mark : HE → Option Nat
  nei : HE → Option HE

/-- A function changed at one half edge. -/
def upd {α : Type} (f : HE → α) (e : HE) (a : α) : HE → α := fun x => if x = e then a else f x

theorem upd_self {α : Type} (f : HE → α) (e : HE) (a : α) : upd f e a e = a := if_pos rfl
theorem upd_of_ne {α : Type} {f : HE → α} {e x : HE} {a : α} (h : x ≠ e) : upd f e a x = f x := if_neg h

/-- `org` (lines 242-244). -/
def org (m : Mesh) (e : HE) : Option Nat := m.vert e.next
/-- `dest` (lines 247-249). -/
def dest (m : Mesh) (e : HE) : Option Nat := m.vert e.prev
/-- `apex` (lines 252-254). -/
def apex (m : Mesh) (e : HE) : Option Nat := m.vert e
/-- `set_org` (lines 221-223). -/
def setOrg (m : Mesh) (e : HE) (v : Option Nat) : Mesh := { m with vert := upd m.vert e.next v }
/-- `set_dest` (lines 226-228). -/
def setDest (m : Mesh) (e : HE) (v : Option Nat) : Mesh := { m with vert := upd m.vert e.prev v }
/-- `set_apex` (lines 231-233). -/
def setApex (m : Mesh) (e : HE) (v : Option Nat) : Mesh := { m with vert := upd m.vert e v }
/-- `bond` (lines 236-239). -/
def bond (m : Mesh) (a b : HE) : Mesh := { m with nei := upd (upd m.nei a (some b)) b (some a) }
/-- `twin` (lines 927-933). -/
def twin (k : Nat) : Nat := if k % 2 = 0 then k + 1 else k - 1
/-- `set_mark` with `reverse = false` (lines 940-941). -/
def setMark1 (m : Mesh) (e : HE) (k : Option Nat) : Mesh := { m with mark := upd m.mark e k }
/-- `set_mark` with `reverse = true` (lines 940-949); the marks given there are never invalid. -/
def setMark2 (m : Mesh) (e : HE) (k : Nat) : Mesh :=
  let m1 := setMark1 m e (some k)
  match m.nei e with
  | some s => setMark1 m1 s (some (twin k))
  | none => m1

/-- The vertex map: a half edge leaving each vertex, `none` for `INVALID_IND`. -/
abbrev VMap := Nat → Option HE

def updv (f : VMap) (v : Nat) (e : HE) : VMap := fun x => if x = v then some e else f x

/-- One of the four updates of the vertex map in `flip`: `if vertex_map[v] == a || vertex_map[v] == b { vertex_map[v] = c }`. -/
def remap (f : VMap) (v : Nat) (a b c : HE) : VMap := if f v = some a ∨ f v = some b then updv f v c else f

/-- `flip` (lines 988-1048). Reading the neighbour of a half edge without one panics, and so does indexing the vertex map by an invalid vertex. -/
def flip (m : Mesh) (f : VMap) (e : HE) : Option (Mesh × VMap) := do
  let right ← org m e
  let left ← dest m e
  let bot ← apex m e
  let top ← m.nei e
  let far ← apex m top
  let tl := top.prev
  let tlc ← m.nei tl
  let tr := top.next
  let trc ← m.nei tr
  let bl := e.next
  let blc ← m.nei bl
  let br := e.prev
  let brc ← m.nei br
  let m1 := bond (bond (bond (bond m tl blc) bl brc) br trc) tr tlc
  let f1 := remap f right e tr br
  let f2 := remap f1 left top bl tl
  let f3 := remap f2 bot br br bl
  let f4 := remap f3 far tl tl tr
  let m2 := setMark1 (setMark1 (setMark1 (setMark1 m1 tr (m1.mark tl)) br (m1.mark tr)) tl (m1.mark bl)) bl (m1.mark br)
  let m3 := setApex (setDest (setOrg m2 e (some far)) e (some bot)) e (some right)
  let m4 := setApex (setDest (setOrg m3 top (some bot)) top (some far)) top (some left)
  return (m4, f4)

/-! ### Specification -/

/-- A closed, consistently oriented triangle mesh: every half edge of a triangle has a neighbour that points back and joins the same two vertices in the other
direction, and the three corners of a triangle are different. One of the corners may be the ghost vertex `none`. -/
structure Ok (m : Mesh) : Prop where
  total : ∀ e, e.tri < m.n → ∃ e', m.nei e = some e'
  range : ∀ e e', m.nei e = some e' → e.tri < m.n
  symm : ∀ e e', m.nei e = some e' → m.nei e' = some e
  swap : ∀ e e', m.nei e = some e' → org m e = dest m e' ∧ dest m e = org m e'
  distinct : ∀ e : HE, e.tri < m.n → m.vert e ≠ m.vert e.next

/-- Marks on the two sides of an edge are twins. -/
def Twins (m : Mesh) : Prop := ∀ e e', m.nei e = some e' → m.mark e' = (m.mark e).map twin

/-- The vertex map gives half edges that leave the vertex. -/
def VOk (m : Mesh) (f : VMap) : Prop := ∀ v e, f v = some e → e.tri < m.n ∧ org m e = some v

theorem twin_twin (k : Nat) : twin (twin k) = k := by unfold twin; split <;> split <;> omega

section
theorem next_next (e : HE) : e.next.next = e.prev := by
  obtain ⟨t, i⟩ := e; simp only [HE.next, HE.prev, HE.mk.injEq, true_and]; revert i; decide
theorem next_prev (e : HE) : e.next.prev = e := by
  obtain ⟨t, i⟩ := e; simp only [HE.next, HE.prev, HE.mk.injEq, true_and]; revert i; decide
theorem prev_next (e : HE) : e.prev.next = e := by
  obtain ⟨t, i⟩ := e; simp only [HE.next, HE.prev, HE.mk.injEq, true_and]; revert i; decide
theorem prev_prev (e : HE) : e.prev.prev = e.next := by
  obtain ⟨t, i⟩ := e; simp only [HE.next, HE.prev, HE.mk.injEq, true_and]; revert i; decide
theorem next_ne (e : HE) : e.next ≠ e := by
  obtain ⟨t, i⟩ := e; simp only [HE.next, ne_eq, HE.mk.injEq, true_and]; revert i; decide
theorem prev_ne (e : HE) : e.prev ≠ e := by
  obtain ⟨t, i⟩ := e; simp only [HE.prev, ne_eq, HE.mk.injEq, true_and]; revert i; decide
theorem next_ne_prev (e : HE) : e.next ≠ e.prev := by
  obtain ⟨t, i⟩ := e; simp only [HE.next, HE.prev, ne_eq, HE.mk.injEq, true_and]; revert i; decide
theorem same_tri {e x : HE} (h : x.tri = e.tri) : x = e ∨ x = e.next ∨ x = e.prev := by
  obtain ⟨t, i⟩ := e; obtain ⟨s, j⟩ := x
  simp only at h; subst h
  simp only [HE.next, HE.prev, HE.mk.injEq, true_and]; revert i j; decide
theorem tri_next (e : HE) : e.next.tri = e.tri := rfl
theorem tri_prev (e : HE) : e.prev.tri = e.tri := rfl
end

/-- How `flip` moves the four outer edges of the quadrilateral: a quarter turn. `top` is the neighbour of the flipped edge `e`. -/
def turn (e top : HE) (x : HE) : HE :=
  if x = top.prev then top.next else if x = top.next then e.prev else if x = e.prev then e.next else if x = e.next then top.prev else x

/-- What `flip` promises: the new mesh is the old one with the outer edges of the quadrilateral moved by a quarter turn, with their ends, marks and neighbours,
while the diagonal now joins the two opposite corners. -/
structure Flipped (m m' : Mesh) (e top : HE) : Prop where
  n : m'.n = m.n
  nei : ∀ x, m'.nei (turn e top x) = (m.nei x).map (turn e top)
  mark : ∀ x, m'.mark (turn e top x) = m.mark x
  ends : ∀ x, x ≠ e → x ≠ top → org m' (turn e top x) = org m x ∧ dest m' (turn e top x) = dest m x
  diag : org m' e = apex m top ∧ dest m' e = apex m e ∧ org m' top = apex m e ∧ dest m' top = apex m top
  apexes : apex m' e = org m e ∧ apex m' top = dest m e
  rest : ∀ x : HE, x.tri ≠ e.tri → x.tri ≠ top.tri → m'.vert x = m.vert x

theorem Ok.range' {m : Mesh} (h : Ok m) {e e' : HE} (he : m.nei e = some e') : e'.tri < m.n := h.range e' e (h.symm e e' he)

/-- Neighbours are different triangles. -/
theorem Ok.tri_ne {m : Mesh} (h : Ok m) {e e' : HE} (he : m.nei e = some e') : e'.tri ≠ e.tri := by
  intro ht
  obtain ⟨h1, h2⟩ := h.swap e e' he
  have hr := h.range e e' he
  have d0 := h.distinct e hr
  have d1 := h.distinct e.next hr
  have d2 := h.distinct e.prev hr
  rw [next_next] at d1
  rw [prev_next] at d2
  unfold org dest at h1 h2
  rcases same_tri ht with rfl | rfl | rfl
  · exact d1 h1
  · rw [next_prev] at h1; exact d0 h1.symm
  · rw [prev_next] at h2; exact d2 h2

theorem Ok.inj {m : Mesh} (h : Ok m) {a b c : HE} (ha : m.nei a = some c) (hb : m.nei b = some c) : a = b := by
  have h1 := h.symm a c ha
  have h2 := h.symm b c hb
  rw [h1] at h2; exact Option.some.inj h2

/-- The five vertices and four casings of a flip. -/
structure Quad (m : Mesh) (e top tlc trc blc brc : HE) : Prop where
  htop : m.nei e = some top
  htl : m.nei top.prev = some tlc
  htr : m.nei top.next = some trc
  hbl : m.nei e.next = some blc
  hbr : m.nei e.prev = some brc
  nd : [e, top, top.prev, top.next, e.next, e.prev, tlc, trc, blc, brc].Nodup

theorem mem_two {x e top : HE} (h : x.tri = e.tri ∨ x.tri = top.tri) : x = e ∨ x = top ∨ x = top.prev ∨ x = top.next ∨ x = e.next ∨ x = e.prev := by
  rcases h with h | h
  · rcases same_tri h with h | h | h <;> simp [h]
  · rcases same_tri h with h | h | h <;> simp [h]

/-- The casings lie outside the two triangles. -/
theorem Ok.outer {m : Mesh} (h : Ok m) {e top c x : HE} (he : m.nei e = some top) (hf : apex m top ≠ apex m e)
    (hx : x = top.prev ∨ x = top.next ∨ x = e.next ∨ x = e.prev) (hc : m.nei x = some c) : c.tri ≠ e.tri ∧ c.tri ≠ top.tri := by
  have hte := h.tri_ne he
  obtain ⟨s1, s2⟩ := h.swap e top he
  have he' := h.symm e top he
  have hr := h.range _ _ he
  have hr' := h.range _ _ he'
  have d0 := h.distinct e hr
  have d1 := h.distinct e.next hr
  have d2 := h.distinct e.prev hr
  have t0 := h.distinct top hr'
  have t1 := h.distinct top.next hr'
  have t2 := h.distinct top.prev hr'
  rw [next_next] at d1 t1
  rw [prev_next] at d2 t2
  obtain ⟨c1, c2⟩ := h.swap x c hc
  have hct := h.tri_ne hc
  unfold org dest at s1 s2 c1 c2
  unfold apex at hf
  have cs := h.symm x c hc
  have key : c ≠ e ∧ c ≠ top := by
    constructor
    · rintro rfl
      rw [he] at cs
      have := Option.some.inj cs
      subst this
      rcases hx with hx | hx | hx | hx
      · exact prev_ne _ hx.symm
      · exact next_ne _ hx.symm
      · exact hte (by rw [hx]; rfl)
      · exact hte (by rw [hx]; rfl)
    · rintro rfl
      rw [he'] at cs
      have := Option.some.inj cs
      subst this
      rcases hx with hx | hx | hx | hx
      · exact hte (by rw [hx]; rfl)
      · exact hte (by rw [hx]; rfl)
      · exact next_ne _ hx.symm
      · exact prev_ne _ hx.symm
  constructor <;> intro hh
  · rcases hx with rfl | rfl | rfl | rfl
    · rcases same_tri hh with rfl | rfl | rfl
      · exact key.1 rfl
      · rw [prev_next, next_prev] at c1; exact hf c1
      · rw [prev_next, prev_prev] at c1; rw [s1] at c1; exact t2 c1.symm
    · rcases same_tri hh with rfl | rfl | rfl
      · exact key.1 rfl
      · rw [next_next, next_prev] at c1; rw [← s1] at c1; exact d0 c1.symm
      · rw [next_prev, prev_next] at c2; exact hf c2
    · exact hct hh
    · exact hct hh
  · rcases hx with rfl | rfl | rfl | rfl
    · exact hct hh
    · exact hct hh
    · rcases same_tri hh with rfl | rfl | rfl
      · exact key.2 rfl
      · rw [next_prev, next_next] at c2; rw [← s1] at c2; exact d0 c2
      · rw [next_prev, prev_next] at c2; exact hf c2.symm
    · rcases same_tri hh with rfl | rfl | rfl
      · exact key.2 rfl
      · rw [prev_next, next_prev] at c1; exact hf c1.symm
      · rw [prev_next, prev_prev] at c1; rw [← s2] at c1; exact d2 c1.symm

theorem Ok.quad {m : Mesh} (h : Ok m) {e top : HE} (he : m.nei e = some top) (hf : apex m top ≠ apex m e) :
    ∃ tlc trc blc brc, Quad m e top tlc trc blc brc := by
  have hr := h.range _ _ he
  have hr' := h.range' he
  obtain ⟨tlc, h1⟩ := h.total top.prev hr'
  obtain ⟨trc, h2⟩ := h.total top.next hr'
  obtain ⟨blc, h3⟩ := h.total e.next hr
  obtain ⟨brc, h4⟩ := h.total e.prev hr
  refine ⟨tlc, trc, blc, brc, he, h1, h2, h3, h4, ?_⟩
  have o1 := h.outer he hf (.inl rfl) h1
  have o2 := h.outer he hf (.inr (.inl rfl)) h2
  have o3 := h.outer he hf (.inr (.inr (.inl rfl))) h3
  have o4 := h.outer he hf (.inr (.inr (.inr rfl))) h4
  have ht := h.tri_ne he
  have out : ∀ c : HE, c.tri ≠ e.tri ∧ c.tri ≠ top.tri →
      e ≠ c ∧ top ≠ c ∧ top.prev ≠ c ∧ top.next ≠ c ∧ e.next ≠ c ∧ e.prev ≠ c := by
    rintro c ⟨p1, p2⟩
    refine ⟨?_, ?_, ?_, ?_, ?_, ?_⟩ <;> rintro rfl
    exacts [p1 rfl, p2 rfl, p2 rfl, p2 rfl, p1 rfl, p1 rfl]
  have inj : ∀ {a b c d : HE}, a ≠ b → m.nei a = some c → m.nei b = some d → c ≠ d := by
    intro a b c d hab ha hb hcd
    subst hcd; exact hab (h.inj ha hb)
  have q1 := out _ o1
  have q2 := out _ o2
  have q3 := out _ o3
  have q4 := out _ o4
  have triq : ∀ a b : HE, a.tri ≠ b.tri → a ≠ b := fun a b h1 h2 => h1 (congrArg HE.tri h2)
  have e1 : top.prev ≠ top.next := (next_ne_prev _).symm
  have e2 : top.prev ≠ e.next := triq _ _ ht
  have e3 : top.prev ≠ e.prev := triq _ _ ht
  have e4 : top.next ≠ e.next := triq _ _ ht
  have e5 : top.next ≠ e.prev := triq _ _ ht
  have e6 : e.next ≠ e.prev := next_ne_prev _
  simp only [List.nodup_cons, List.mem_cons, List.not_mem_nil, or_false, not_or, List.nodup_nil, and_true, not_false_eq_true]
  exact ⟨⟨triq _ _ ht.symm, triq _ _ ht.symm, triq _ _ ht.symm, (next_ne e).symm, (prev_ne e).symm, q1.1, q2.1, q3.1, q4.1⟩,
    ⟨(prev_ne top).symm, (next_ne top).symm, triq _ _ ht, triq _ _ ht, q1.2.1, q2.2.1, q3.2.1, q4.2.1⟩,
    ⟨e1, e2, e3, q1.2.2.1, q2.2.2.1, q3.2.2.1, q4.2.2.1⟩,
    ⟨e4, e5, q1.2.2.2.1, q2.2.2.2.1, q3.2.2.2.1, q4.2.2.2.1⟩,
    ⟨e6, q1.2.2.2.2.1, q2.2.2.2.2.1, q3.2.2.2.2.1, q4.2.2.2.2.1⟩,
    ⟨q1.2.2.2.2.2, q2.2.2.2.2.2, q3.2.2.2.2.2, q4.2.2.2.2.2⟩,
    ⟨inj e1 h1 h2, inj e2 h1 h3, inj e3 h1 h4⟩, ⟨inj e4 h2 h3, inj e5 h2 h4⟩, inj e6 h3 h4⟩

/-- Facts about ten different half edges, in the form `simp` can use. -/
theorem nodup10 {a b c d e f g h i j : HE} (nd : [a, b, c, d, e, f, g, h, i, j].Nodup) :
    ((a ≠ b ∧ a ≠ c ∧ a ≠ d ∧ a ≠ e ∧ a ≠ f ∧ a ≠ g ∧ a ≠ h ∧ a ≠ i ∧ a ≠ j) ∧ (b ≠ c ∧ b ≠ d ∧ b ≠ e ∧ b ≠ f ∧ b ≠ g ∧ b ≠ h ∧ b ≠ i ∧ b ≠ j) ∧
    (c ≠ d ∧ c ≠ e ∧ c ≠ f ∧ c ≠ g ∧ c ≠ h ∧ c ≠ i ∧ c ≠ j) ∧ (d ≠ e ∧ d ≠ f ∧ d ≠ g ∧ d ≠ h ∧ d ≠ i ∧ d ≠ j) ∧ (e ≠ f ∧ e ≠ g ∧ e ≠ h ∧ e ≠ i ∧ e ≠ j) ∧
    (f ≠ g ∧ f ≠ h ∧ f ≠ i ∧ f ≠ j) ∧ (g ≠ h ∧ g ≠ i ∧ g ≠ j) ∧ (h ≠ i ∧ h ≠ j) ∧ i ≠ j) ∧
    ((b ≠ a ∧ c ≠ a ∧ d ≠ a ∧ e ≠ a ∧ f ≠ a ∧ g ≠ a ∧ h ≠ a ∧ i ≠ a ∧ j ≠ a) ∧ (c ≠ b ∧ d ≠ b ∧ e ≠ b ∧ f ≠ b ∧ g ≠ b ∧ h ≠ b ∧ i ≠ b ∧ j ≠ b) ∧
    (d ≠ c ∧ e ≠ c ∧ f ≠ c ∧ g ≠ c ∧ h ≠ c ∧ i ≠ c ∧ j ≠ c) ∧ (e ≠ d ∧ f ≠ d ∧ g ≠ d ∧ h ≠ d ∧ i ≠ d ∧ j ≠ d) ∧ (f ≠ e ∧ g ≠ e ∧ h ≠ e ∧ i ≠ e ∧ j ≠ e) ∧
    (g ≠ f ∧ h ≠ f ∧ i ≠ f ∧ j ≠ f) ∧ (h ≠ g ∧ i ≠ g ∧ j ≠ g) ∧ (i ≠ h ∧ j ≠ h) ∧ j ≠ i) := by
  have : ∀ {x y : HE}, ¬ x = y → y ≠ x := fun h e => h e.symm
  simp only [List.nodup_cons, List.mem_cons, List.not_mem_nil, or_false, not_or, List.nodup_nil, and_true, not_false_eq_true] at nd
  obtain ⟨⟨_, _, _, _, _, _, _, _, _⟩, ⟨_, _, _, _, _, _, _, _⟩, ⟨_, _, _, _, _, _, _⟩, ⟨_, _, _, _, _, _⟩, ⟨_, _, _, _, _⟩, ⟨_, _, _, _⟩, ⟨_, _, _⟩, ⟨_, _⟩, _⟩ := nd
  refine ⟨⟨⟨?_, ?_, ?_, ?_, ?_, ?_, ?_, ?_, ?_⟩, ⟨?_, ?_, ?_, ?_, ?_, ?_, ?_, ?_⟩, ⟨?_, ?_, ?_, ?_, ?_, ?_, ?_⟩, ⟨?_, ?_, ?_, ?_, ?_, ?_⟩, ⟨?_, ?_, ?_, ?_, ?_⟩, ⟨?_, ?_, ?_, ?_⟩, ⟨?_, ?_, ?_⟩, ⟨?_, ?_⟩, ?_⟩,
    ⟨⟨?_, ?_, ?_, ?_, ?_, ?_, ?_, ?_, ?_⟩, ⟨?_, ?_, ?_, ?_, ?_, ?_, ?_, ?_⟩, ⟨?_, ?_, ?_, ?_, ?_, ?_, ?_⟩, ⟨?_, ?_, ?_, ?_, ?_, ?_⟩, ⟨?_, ?_, ?_, ?_, ?_⟩, ⟨?_, ?_, ?_, ?_⟩, ⟨?_, ?_, ?_⟩, ⟨?_, ?_⟩, ?_⟩⟩ <;>
    first | assumption | (apply this; assumption)

/-- The links of the flipped mesh. -/
theorem flip_nei {N : HE → Option HE} {e top tl tr bl br tlc trc blc brc : HE} (nd : [e, top, tl, tr, bl, br, tlc, trc, blc, brc].Nodup)
    (hs : ∀ a b, N a = some b → N b = some a) (h0 : N e = some top) (h1 : N tl = some tlc) (h2 : N tr = some trc) (h3 : N bl = some blc) (h4 : N br = some brc) (x : HE) :
    let σ : HE → HE := fun x => if x = tl then tr else if x = tr then br else if x = br then bl else if x = bl then tl else x
    upd (upd (upd (upd (upd (upd (upd (upd N tl (some blc)) blc (some tl)) bl (some brc)) brc (some bl)) br (some trc)) trc (some br)) tr (some tlc)) tlc (some tr) (σ x) =
      (N x).map σ := by
  intro σ
  obtain ⟨f1, f2⟩ := nodup10 nd
  have h0' := hs _ _ h0
  have h1' := hs _ _ h1
  have h2' := hs _ _ h2
  have h3' := hs _ _ h3
  have h4' := hs _ _ h4
  by_cases c1 : x = tl
  · subst c1; simp [σ, upd, f1, f2, h1]
  by_cases c2 : x = tr
  · subst c2; simp [σ, upd, f1, f2, h2]
  by_cases c3 : x = br
  · subst c3; simp [σ, upd, f1, f2, h4]
  by_cases c4 : x = bl
  · subst c4; simp [σ, upd, f1, f2, h3]
  by_cases d1 : x = tlc
  · subst d1; simp [σ, upd, f1, f2, h1']
  by_cases d2 : x = trc
  · subst d2; simp [σ, upd, f1, f2, h2']
  by_cases d3 : x = blc
  · subst d3; simp [σ, upd, f1, f2, h3']
  by_cases d4 : x = brc
  · subst d4; simp [σ, upd, f1, f2, h4']
  have hx : σ x = x := by simp [σ, c1, c2, c3, c4]
  rw [hx]
  simp only [upd, c1, c2, c3, c4, d1, d2, d3, d4, if_false]
  cases hy : N x with
  | none => rfl
  | some y =>
    have hy' := hs _ _ hy
    have g1 : y ≠ tl := by rintro rfl; rw [h1] at hy'; exact d1 (Option.some.inj hy').symm
    have g2 : y ≠ tr := by rintro rfl; rw [h2] at hy'; exact d2 (Option.some.inj hy').symm
    have g3 : y ≠ br := by rintro rfl; rw [h4] at hy'; exact d4 (Option.some.inj hy').symm
    have g4 : y ≠ bl := by rintro rfl; rw [h3] at hy'; exact d3 (Option.some.inj hy').symm
    simp [σ, g1, g2, g3, g4]

/-- The result of `flip` written out. -/
theorem flip_eq {m m' : Mesh} {f f' : VMap} {e : HE} (h : flip m f e = some (m', f')) : ∃ top tlc trc blc brc right left bot far,
    m.nei e = some top ∧ m.nei top.prev = some tlc ∧ m.nei top.next = some trc ∧ m.nei e.next = some blc ∧ m.nei e.prev = some brc ∧
    m.vert e.next = some right ∧ m.vert e.prev = some left ∧ m.vert e = some bot ∧ m.vert top = some far ∧ m'.n = m.n ∧
    m'.nei = upd (upd (upd (upd (upd (upd (upd (upd m.nei top.prev (some blc)) blc (some top.prev)) e.next (some brc)) brc (some e.next)) e.prev (some trc)) trc (some e.prev))
      top.next (some tlc)) tlc (some top.next) ∧
    m'.mark = upd (upd (upd (upd m.mark top.next (m.mark top.prev)) e.prev (m.mark top.next)) top.prev (m.mark e.next)) e.next (m.mark e.prev) ∧
    m'.vert = upd (upd (upd (upd (upd (upd m.vert e.next (some far)) e.prev (some bot)) e (some right)) top.next (some bot)) top.prev (some far)) top (some left) ∧
    f' = remap (remap (remap (remap f right e top.next e.prev) left top e.next top.prev) bot e.prev e.prev e.next) far top.prev top.prev top.next := by
  unfold flip org dest apex at h
  simp only [Option.bind_eq_bind, Option.bind_eq_some_iff] at h
  obtain ⟨right, r1, left, r2, bot, r3, top, r4, far, r5, tlc, r6, trc, r7, blc, r8, brc, r9, h⟩ := h
  cases h
  refine ⟨top, tlc, trc, blc, brc, right, left, bot, far, r4, r6, r7, r8, r9, r1, r2, r3, r5, ?_, ?_, ?_, ?_, rfl⟩ <;>
    simp only [bond, setMark1, setOrg, setDest, setApex]

theorem flip_spec {m m' : Mesh} {f f' : VMap} {e top : HE} (ok : Ok m) (he : m.nei e = some top) (hf : apex m top ≠ apex m e)
    (h : flip m f e = some (m', f')) : Flipped m m' e top := by
  obtain ⟨top', tlc, trc, blc, brc, right, left, bot, far, a0, a1, a2, a3, a4, b1, b2, b3, b4, c1, c2, c3, c4, c5⟩ := flip_eq h
  rw [he] at a0
  cases a0
  obtain ⟨tlc', trc', blc', brc', q0, q1, q2, q3, q4, nd⟩ := ok.quad he hf
  rw [a1] at q1; rw [a2] at q2; rw [a3] at q3; rw [a4] at q4
  cases q1; cases q2; cases q3; cases q4
  obtain ⟨f1, f2⟩ := nodup10 nd
  obtain ⟨s1, s2⟩ := ok.swap e top he
  unfold org dest at s1 s2
  have b1' : m.vert top.prev = some right := by rw [← s1, b1]
  have b2' : m.vert top.next = some left := by rw [← s2, b2]
  refine ⟨c1, fun x => ?_, fun x => ?_, fun x hx1 hx2 => ?_, ?_, ?_, fun x hx1 hx2 => ?_⟩
  · rw [c2]; exact flip_nei nd ok.symm he a1 a2 a3 a4 x
  · rw [c3]
    unfold turn
    by_cases d1 : x = top.prev
    · subst d1; simp [upd, f1, f2]
    by_cases d2 : x = top.next
    · subst d2; simp [upd, f1, f2]
    by_cases d3 : x = e.prev
    · subst d3; simp [upd, f1, f2]
    by_cases d4 : x = e.next
    · subst d4; simp [upd, f1, f2]
    simp [upd, d1, d2, d3, d4]
  · unfold org dest turn
    rw [c4]
    by_cases d1 : x = top.prev
    · subst d1; simp [upd, f1, f2, next_next, next_prev, prev_next, prev_prev, b1, b2, b3, b4, b1', b2']
    by_cases d2 : x = top.next
    · subst d2; simp [upd, f1, f2, next_next, next_prev, prev_next, prev_prev, b1, b2, b3, b4, b1', b2']
    by_cases d3 : x = e.prev
    · subst d3; simp [upd, f1, f2, next_next, next_prev, prev_next, prev_prev, b1, b2, b3, b4, b1', b2']
    by_cases d4 : x = e.next
    · subst d4; simp [upd, f1, f2, next_next, next_prev, prev_next, prev_prev, b1, b2, b3, b4, b1', b2']
    have o : x.tri ≠ e.tri ∧ x.tri ≠ top.tri := by
      refine ⟨fun hh => ?_, fun hh => ?_⟩
      · rcases same_tri hh with h | h | h
        exacts [hx1 h, d4 h, d3 h]
      · rcases same_tri hh with h | h | h
        exacts [hx2 h, d2 h, d1 h]
    have tq : ∀ a b : HE, a.tri ≠ b.tri → a ≠ b := fun a b h1 h2 => h1 (congrArg HE.tri h2)
    have g1 : ∀ a : HE, a.tri = e.tri → x.next ≠ a ∧ x.prev ≠ a := fun a ha => ⟨tq _ _ (by rw [ha]; exact o.1), tq _ _ (by rw [ha]; exact o.1)⟩
    have g2 : ∀ a : HE, a.tri = top.tri → x.next ≠ a ∧ x.prev ≠ a := fun a ha => ⟨tq _ _ (by rw [ha]; exact o.2), tq _ _ (by rw [ha]; exact o.2)⟩
    simp [upd, d1, d2, d3, d4, g1 e rfl, g1 e.next rfl, g1 e.prev rfl, g2 top rfl, g2 top.next rfl, g2 top.prev rfl]
  · unfold org dest apex
    rw [c4]; simp [upd, f1, f2, b3, b4]
  · unfold org dest apex
    rw [c4]; simp [upd, f1, f2, b1, b2]
  · have tq : ∀ a b : HE, a.tri ≠ b.tri → a ≠ b := fun a b h1 h2 => h1 (congrArg HE.tri h2)
    have g1 : ∀ a : HE, a.tri = e.tri → x ≠ a := fun a ha => tq _ _ (by rw [ha]; exact hx1)
    have g2 : ∀ a : HE, a.tri = top.tri → x ≠ a := fun a ha => tq _ _ (by rw [ha]; exact hx2)
    rw [c4]; simp [upd, g1 e rfl, g1 e.next rfl, g1 e.prev rfl, g2 top rfl, g2 top.next rfl, g2 top.prev rfl]

theorem turn_tri {m : Mesh} {e top x : HE} (he : e.tri < m.n) (ht : top.tri < m.n) : (turn e top x).tri < m.n ↔ x.tri < m.n := by
  unfold turn
  split
  · rename_i h; subst h; exact Iff.rfl
  split
  · rename_i h; subst h; exact ⟨fun _ => ht, fun _ => he⟩
  split
  · rename_i h; subst h; exact Iff.rfl
  split
  · rename_i h; subst h; exact ⟨fun _ => he, fun _ => ht⟩
  · exact Iff.rfl

theorem turn_surj {e top : HE} (h : top.tri ≠ e.tri) (y : HE) : ∃ x, turn e top x = y := by
  have tq : ∀ a b : HE, a.tri ≠ b.tri → a ≠ b := fun a b h1 h2 => h1 (congrArg HE.tri h2)
  have e1 : top.next ≠ top.prev := next_ne_prev _
  have e2 : e.prev ≠ top.prev := tq _ _ h.symm
  have e3 : e.prev ≠ top.next := tq _ _ h.symm
  have e4 : e.next ≠ top.prev := tq _ _ h.symm
  have e5 : e.next ≠ top.next := tq _ _ h.symm
  have e6 : e.next ≠ e.prev := next_ne_prev _
  by_cases c1 : y = top.next
  · exact ⟨top.prev, by simp [turn, c1]⟩
  by_cases c2 : y = e.prev
  · exact ⟨top.next, by simp [turn, c2, e1]⟩
  by_cases c3 : y = e.next
  · exact ⟨e.prev, by simp [turn, c3, e2, e3]⟩
  by_cases c4 : y = top.prev
  · exact ⟨e.next, by simp [turn, c4, e4, e5, e6]⟩
  exact ⟨y, by simp [turn, c1, c2, c3, c4]⟩

theorem turn_e {e top : HE} (h : top.tri ≠ e.tri) : turn e top e = e ∧ turn e top top = top := by
  have tq : ∀ a b : HE, a.tri ≠ b.tri → a ≠ b := fun a b h1 h2 => h1 (congrArg HE.tri h2)
  have e1 : e ≠ top.prev := tq _ _ h.symm
  have e2 : e ≠ top.next := tq _ _ h.symm
  have e3 : top ≠ e.prev := tq _ _ h
  have e4 : top ≠ e.next := tq _ _ h
  simp [turn, e1, e2, e3, e4, (prev_ne e).symm, (next_ne e).symm, (prev_ne top).symm, (next_ne top).symm]

theorem turn_out {e top x : HE} (h1 : x.tri ≠ e.tri) (h2 : x.tri ≠ top.tri) : turn e top x = x := by
  have tq : ∀ a b : HE, a.tri ≠ b.tri → a ≠ b := fun a b h1 h2 => h1 (congrArg HE.tri h2)
  have e1 : x ≠ top.prev := tq _ _ h2
  have e2 : x ≠ top.next := tq _ _ h2
  have e3 : x ≠ e.prev := tq _ _ h1
  have e4 : x ≠ e.next := tq _ _ h1
  simp [turn, e1, e2, e3, e4]

theorem Flipped.ok {m m' : Mesh} {e top : HE} (ok : Ok m) (he : m.nei e = some top) (hf : apex m top ≠ apex m e) (h : Flipped m m' e top) : Ok m' := by
  have hte := ok.tri_ne he
  have hr := ok.range _ _ he
  have hr' := ok.range' he
  obtain ⟨te, tt⟩ := turn_e hte
  have lift : ∀ y y', m'.nei y = some y' → ∃ x x', turn e top x = y ∧ turn e top x' = y' ∧ m.nei x = some x' := by
    intro y y' hy
    obtain ⟨x, rfl⟩ := turn_surj hte y
    rw [h.nei] at hy
    obtain ⟨x', h1, h2⟩ := Option.map_eq_some_iff.1 hy
    exact ⟨x, x', rfl, h2, h1⟩
  have down : ∀ x x', m.nei x = some x' → m'.nei (turn e top x) = some (turn e top x') := fun x x' hx => by rw [h.nei, hx]; rfl
  refine ⟨fun y hy => ?_, fun y y' hy => ?_, fun y y' hy => ?_, fun y y' hy => ?_, fun y hy => ?_⟩
  · obtain ⟨x, rfl⟩ := turn_surj hte y
    rw [h.n, turn_tri hr hr'] at hy
    obtain ⟨x', hx⟩ := ok.total x hy
    exact ⟨_, down x x' hx⟩
  · obtain ⟨x, x', rfl, rfl, hx⟩ := lift y y' hy
    rw [h.n, turn_tri hr hr']
    exact ok.range _ _ hx
  · obtain ⟨x, x', rfl, rfl, hx⟩ := lift y y' hy
    exact down _ _ (ok.symm _ _ hx)
  · obtain ⟨x, x', rfl, rfl, hx⟩ := lift y y' hy
    by_cases c1 : x = e
    · subst c1
      rw [he] at hx; cases hx
      rw [te, tt]
      obtain ⟨d1, d2, d3, d4⟩ := h.diag
      exact ⟨by rw [d1, d4], by rw [d2, d3]⟩
    by_cases c2 : x = top
    · subst c2
      rw [ok.symm _ _ he] at hx; cases hx
      rw [te, tt]
      obtain ⟨d1, d2, d3, d4⟩ := h.diag
      exact ⟨by rw [d3, d2], by rw [d1, d4]⟩
    have c1' : x' ≠ e := by
      rintro rfl
      exact c2 (ok.inj hx (ok.symm _ _ he))
    have c2' : x' ≠ top := by
      rintro rfl
      exact c1 (ok.inj hx he)
    rw [(h.ends x c1 c2).1, (h.ends x c1 c2).2, (h.ends x' c1' c2').1, (h.ends x' c1' c2').2]
    exact ok.swap _ _ hx
  · obtain ⟨d1, d2, d3, d4⟩ := h.diag
    obtain ⟨a1, a2⟩ := h.apexes
    obtain ⟨s1, s2⟩ := ok.swap e top he
    have v0 := ok.distinct e hr
    have v1 := ok.distinct e.next hr
    have v2 := ok.distinct e.prev hr
    have t0 := ok.distinct top hr'
    have t1 := ok.distinct top.next hr'
    have t2 := ok.distinct top.prev hr'
    rw [next_next] at v1 t1
    rw [prev_next] at v2 t2
    unfold org dest apex at *
    by_cases c1 : y.tri = e.tri
    · rcases same_tri c1 with rfl | rfl | rfl
      · rw [a1, d1, s1]; exact t2
      · rw [next_next, d1, d2]; exact hf
      · rw [prev_next, d2, a1]; exact v0
    by_cases c2 : y.tri = top.tri
    · rcases same_tri c2 with rfl | rfl | rfl
      · rw [a2, d3]; exact v2
      · rw [next_next, d3, d4]; exact hf.symm
      · rw [prev_next, d4, a2, s2]; exact t0
    rw [h.rest y c1 c2, h.rest y.next c1 c2]
    exact ok.distinct y (h.n ▸ hy)

theorem Flipped.twins {m m' : Mesh} {e top : HE} (hte : top.tri ≠ e.tri) (h : Flipped m m' e top) (tw : Twins m) : Twins m' := by
  intro y y' hy
  obtain ⟨x, rfl⟩ := turn_surj hte y
  rw [h.nei] at hy
  obtain ⟨x', h1, rfl⟩ := Option.map_eq_some_iff.1 hy
  rw [h.mark, h.mark]
  exact tw x x' h1

theorem remap_apply (f : VMap) (v w : Nat) (a b c : HE) : remap f v a b c w = if w = v ∧ (f v = some a ∨ f v = some b) then some c else f w := by
  unfold remap updv
  by_cases h1 : f v = some a ∨ f v = some b
  · simp [h1]
  · simp [h1]

theorem flip_vok {m m' : Mesh} {f f' : VMap} {e top : HE} (ok : Ok m) (he : m.nei e = some top) (hf : apex m top ≠ apex m e) (vok : VOk m f)
    (h : flip m f e = some (m', f')) : VOk m' f' := by
  have fl := flip_spec ok he hf h
  obtain ⟨top', tlc, trc, blc, brc, right, left, bot, far, a0, a1, a2, a3, a4, b1, b2, b3, b4, c1, c2, c3, c4, c5⟩ := flip_eq h
  rw [he] at a0; cases a0
  have hte := ok.tri_ne he
  have hr := ok.range _ _ he
  have hr' := ok.range' he
  obtain ⟨s1, s2⟩ := ok.swap e top he
  obtain ⟨d1, d2, d3, d4⟩ := fl.diag
  obtain ⟨g1, g2⟩ := fl.apexes
  have v0 := ok.distinct e hr
  have v1 := ok.distinct e.next hr
  have v2 := ok.distinct e.prev hr
  have t0 := ok.distinct top hr'
  have t2 := ok.distinct top.prev hr'
  rw [next_next] at v1
  rw [prev_next] at v2 t2
  unfold org dest apex at *
  rw [← s1] at t2
  rw [← s2] at t0
  rw [b1] at v0 v1 t2 g1; rw [b2] at v1 v2 t0 g2; rw [b3] at v0 v2 d2 d3 hf; rw [b4] at t0 t2 d1 d4 hf
  have n1 : right ≠ left := fun h => v1 (by rw [h])
  have n2 : right ≠ bot := fun h => v0 (by rw [h])
  have n3 : right ≠ far := fun h => t2 (by rw [h])
  have n4 : left ≠ bot := fun h => v2 (by rw [h])
  have n5 : left ≠ far := fun h => t0 (by rw [h])
  have n6 : bot ≠ far := fun h => hf (by rw [h])
  have mem : ∀ (v : Nat) (g : HE), f v = some g → g.tri = e.tri ∨ g.tri = top.tri → (g = e ∧ v = right) ∨ (g = top ∧ v = left) ∨ (g = top.prev ∧ v = far) ∨ (g = top.next ∧ v = right) ∨
      (g = e.next ∧ v = left) ∨ (g = e.prev ∧ v = bot) := by
    intro v g hg ht
    have ho := (vok v g hg).2
    unfold org at ho
    rcases mem_two ht with rfl | rfl | rfl | rfl | rfl | rfl
    · rw [b1] at ho; exact .inl ⟨rfl, (Option.some.inj ho).symm⟩
    · rw [← s2, b2] at ho; exact .inr (.inl ⟨rfl, (Option.some.inj ho).symm⟩)
    · rw [prev_next, b4] at ho; exact .inr (.inr (.inl ⟨rfl, (Option.some.inj ho).symm⟩))
    · rw [next_next, ← s1, b1] at ho; exact .inr (.inr (.inr (.inl ⟨rfl, (Option.some.inj ho).symm⟩)))
    · rw [next_next, b2] at ho; exact .inr (.inr (.inr (.inr (.inl ⟨rfl, (Option.some.inj ho).symm⟩))))
    · rw [prev_next, b3] at ho; exact .inr (.inr (.inr (.inr (.inr ⟨rfl, (Option.some.inj ho).symm⟩))))
  have out : ∀ (v : Nat) (g : HE), f v = some g → g.tri ≠ e.tri → g.tri ≠ top.tri → g.tri < m'.n ∧ m'.vert g.next = some v := by
    intro v g hg p1 p2
    refine ⟨by rw [c1]; exact (vok v g hg).1, ?_⟩
    rw [fl.rest g.next p1 p2]; exact (vok v g hg).2
  have i1 : e.prev.tri < m'.n := by rw [c1]; exact hr
  have i2 : top.prev.tri < m'.n := by rw [c1]; exact hr'
  have i3 : e.next.tri < m'.n := by rw [c1]; exact hr
  have i4 : top.next.tri < m'.n := by rw [c1]; exact hr'
  intro v g hg
  unfold org
  rw [c5] at hg
  simp only [remap_apply] at hg
  by_cases w1 : v = right
  · subst w1
    simp only [n3, n2, n1, false_and, if_false, true_and] at hg
    split at hg
    · cases hg; exact ⟨i1, by rw [prev_next, g1]⟩
    · rename_i hh
      by_cases hout : g.tri = e.tri ∨ g.tri = top.tri
      · rcases mem v g hg hout with ⟨rfl, _⟩ | ⟨_, q⟩ | ⟨_, q⟩ | ⟨rfl, _⟩ | ⟨_, q⟩ | ⟨_, q⟩
        · exact absurd (.inl hg) hh
        · exact absurd q n1
        · exact absurd q n3
        · exact absurd (.inr hg) hh
        · exact absurd q n1
        · exact absurd q n2
      · push Not at hout; exact out v g hg hout.1 hout.2
  by_cases w2 : v = left
  · subst w2
    simp only [n5, n4, n1.symm, false_and, if_false, true_and] at hg
    split at hg
    · cases hg; exact ⟨i2, by rw [prev_next, g2]⟩
    · rename_i hh
      by_cases hout : g.tri = e.tri ∨ g.tri = top.tri
      · rcases mem v g hg hout with ⟨_, q⟩ | ⟨rfl, q⟩ | ⟨_, q⟩ | ⟨_, q⟩ | ⟨rfl, q⟩ | ⟨_, q⟩
        · exact absurd q n1.symm
        · exact absurd (.inl hg) hh
        · exact absurd q n5
        · exact absurd q n1.symm
        · exact absurd (.inr hg) hh
        · exact absurd q n4
      · push Not at hout; exact out v g hg hout.1 hout.2
  by_cases w3 : v = bot
  · subst w3
    simp only [n6, n2.symm, n4.symm, false_and, if_false, true_and, or_self] at hg
    split at hg
    · cases hg; exact ⟨i3, by rw [next_next, d2]⟩
    · rename_i hh
      by_cases hout : g.tri = e.tri ∨ g.tri = top.tri
      · rcases mem v g hg hout with ⟨_, q⟩ | ⟨_, q⟩ | ⟨_, q⟩ | ⟨_, q⟩ | ⟨_, q⟩ | ⟨rfl, q⟩
        · exact absurd q n2.symm
        · exact absurd q n4.symm
        · exact absurd q n6
        · exact absurd q n2.symm
        · exact absurd q n4.symm
        · exact absurd hg hh
      · push Not at hout; exact out v g hg hout.1 hout.2
  by_cases w4 : v = far
  · subst w4
    simp only [n6.symm, n5.symm, n3.symm, false_and, if_false, true_and, or_self] at hg
    split at hg
    · cases hg; exact ⟨i4, by rw [next_next, d4]⟩
    · rename_i hh
      by_cases hout : g.tri = e.tri ∨ g.tri = top.tri
      · rcases mem v g hg hout with ⟨_, q⟩ | ⟨_, q⟩ | ⟨rfl, q⟩ | ⟨_, q⟩ | ⟨_, q⟩ | ⟨_, q⟩
        · exact absurd q n3.symm
        · exact absurd q n5.symm
        · exact absurd hg hh
        · exact absurd q n3.symm
        · exact absurd q n5.symm
        · exact absurd q n6.symm
      · push Not at hout; exact out v g hg hout.1 hout.2
  simp only [w1, w2, w3, w4, false_and, if_false] at hg
  by_cases hout : g.tri = e.tri ∨ g.tri = top.tri
  · rcases mem v g hg hout with ⟨_, q⟩ | ⟨_, q⟩ | ⟨_, q⟩ | ⟨_, q⟩ | ⟨_, q⟩ | ⟨_, q⟩
    exacts [absurd q w1, absurd q w2, absurd q w4, absurd q w1, absurd q w2, absurd q w3]
  · push Not at hout; exact out v g hg hout.1 hout.2

/-- C47. Flipping an edge of a consistent mesh whose two triangles have different real apexes succeeds, gives a consistent mesh, turns the outer edges of the
quadrilateral and replaces the diagonal (`Flipped`), keeps marks twins, and keeps the vertex map right. -/
theorem c47_flip (m : Mesh) (f : VMap) (e top : HE) (ok : Ok m) (he : m.nei e = some top) (hf : apex m top ≠ apex m e)
    (real : org m e ≠ none ∧ dest m e ≠ none ∧ apex m e ≠ none ∧ apex m top ≠ none) :
    ∃ m' f', flip m f e = some (m', f') ∧ Flipped m m' e top ∧ Ok m' ∧ (Twins m → Twins m') ∧ (VOk m f → VOk m' f') := by
  obtain ⟨r1, r2, r3, r4⟩ := real
  obtain ⟨a1, h1⟩ := Option.ne_none_iff_exists'.1 r1
  obtain ⟨a2, h2⟩ := Option.ne_none_iff_exists'.1 r2
  obtain ⟨a3, h3⟩ := Option.ne_none_iff_exists'.1 r3
  obtain ⟨a4, h4⟩ := Option.ne_none_iff_exists'.1 r4
  obtain ⟨tlc, trc, blc, brc, q0, q1, q2, q3, q4, nd⟩ := ok.quad he hf
  have : ∃ r, flip m f e = some r := by
    unfold flip
    simp [h1, h2, h3, h4, he, q1, q2, q3, q4]
  obtain ⟨⟨m', f'⟩, h⟩ := this
  have fl := flip_spec ok he hf h
  exact ⟨m', f', h, fl, fl.ok ok he hf, fl.twins (ok.tri_ne he), fun vok => flip_vok ok he hf vok h⟩

end Verif.Tri
