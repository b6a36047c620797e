import Verif.Bsp.Cycle
import Mathlib.Data.Sign.Defs
import Mathlib.Data.List.Chain
/-!
# `split_face_verts` (`src/polygonlization/bsp_complex.rs` lines 1632-1736)

How a face is cut by a plane. `sgn` is the orientation of the vertices with respect to the plane.
-/
namespace Verif.Bsp

/-- `enum ZeroVert` (lines 1565-1571). The edge stored with an intersection is `h.edge`. -/
inductive ZeroVert
  | inter (h : HE)
  | start (h : HE)
deriving Repr, DecidableEq

/-- `is_intersection` (lines 1574-1580). -/
def ZeroVert.isInter : ZeroVert → Bool
  | .inter _ => true
  | .start _ => false

/-- `unwrap_halfedge` (lines 1582-1587). -/
def ZeroVert.he : ZeroVert → HE
  | .inter h => h
  | .start h => h

/-- `enum SplitFaceResult` (lines 1597-1602). -/
inductive Split
  | two (a b : ZeroVert)
  | zero (l : List HE)
  | isPos (b : Bool)
deriving Repr, DecidableEq

/-- The loop over the half-edges (lines 1648-1676): `os` is `ori_start`, `base` is `base_ori` (`0` is `Undefined`, the code never stores `Zero` there).
An early return is `inl`. -/
def scan (sgn : Nat → SignType) (correct : Bool) : List HE → SignType → SignType → List ZeroVert → Split ⊕ (SignType × List ZeroVert)
  | [], _, base, cs => .inr (base, cs)
  | h :: l, os, base, cs =>
    let oe := sgn h.tip
    if os = 0 then scan sgn correct l oe (if base = 0 ∧ oe ≠ 0 then oe else base) (cs ++ [.start h])
    else if oe ≠ 0 ∧ oe ≠ os then
      match cs ++ [.inter h] with
      | [c0, c1] => .inl (if (decide (oe = 1)).xor correct then .two c0 c1 else .two c1 c0)
      | cs' => scan sgn correct l oe base cs'
    else scan sgn correct l oe base cs

/-- `sort_two_verts` (lines 1679-1687). -/
def sortTwo (sgn : Nat → SignType) (correct : Bool) (a b : ZeroVert) : Split :=
  if (decide (sgn b.he.tip = 1)) == correct then .two b a else .two a b

/-- `sort_zero_halfedges` (lines 1689-1699). -/
def sortZero (twin : HE → HE) (correct : Bool) (base : SignType) (l : List HE) : Split :=
  if base ≠ 1 then .isPos false
  else if (decide (base = 1)) == correct then .zero (l.reverse.map twin) else .zero l

/-- The first position where the chain breaks (lines 1719-1722). -/
def breakPos : List HE → Option Nat
  | a :: b :: l => if a.tip ≠ b.tail then some 0 else (breakPos (b :: l)).map (· + 1)
  | _ => none

/-- The end of the function (lines 1701-1735). -/
def finish (sgn : Nat → SignType) (twin : HE → HE) (correct : Bool) (base : SignType) : List ZeroVert → Split
  | [] => .isPos (decide (base = 1))
  | [_] => .isPos (decide (base = 1))
  | [a, b] =>
    if a.isInter || b.isInter then sortTwo sgn correct a b
    else if a.he.tip = b.he.tail then sortZero twin correct base [a.he]
    else if b.he.tip = a.he.tail then sortZero twin correct base [b.he]
    else sortTwo sgn correct a b
  | cs =>
    let l := cs.map ZeroVert.he
    let l := match breakPos l with
      | some pos => l.rotate (pos + 1)
      | none => l
    sortZero twin correct base l.dropLast

/-- `split_face_verts` (lines 1632-1736) on the cycle of the face; `correct` is `face_ori_correct`, `twin` is `he_twin`. -/
def splitFaceVerts (sgn : Nat → SignType) (twin : HE → HE) (correct : Bool) (c : Cycle) : Split :=
  let s := sgn (firstTail c 0)
  match scan sgn correct (hes c) s s [] with
  | .inl r => r
  | .inr (base, cs) => finish sgn twin correct base cs

/-! ### Specification -/

/-- The plane meets the polygon as a plane meets a convex polygon that it does not contain: going around once, one sees points of the plane, then points of
one side, then points of the plane, then points of the other side; if both sides occur, there is at most one vertex in the plane each time. -/
structure Convex (sgn : Nat → SignType) (c : Cycle) : Prop where
  simple : (c.map Prod.fst).Nodup
  three : 3 ≤ c.length
  shape : (∃ s : SignType, s ≠ 0 ∧ ∃ Z P, c ~r Z ++ P ∧ (∀ x ∈ Z, sgn x.1 = 0) ∧ (∀ x ∈ P, sgn x.1 = s) ∧ P ≠ []) ∨
    (∃ Z P Z' N, c ~r (Z ++ P) ++ (Z' ++ N) ∧ Z.length ≤ 1 ∧ Z'.length ≤ 1 ∧ (∀ x ∈ Z, sgn x.1 = 0) ∧ (∀ x ∈ Z', sgn x.1 = 0) ∧
      (∀ x ∈ P, sgn x.1 = 1) ∧ (∀ x ∈ N, sgn x.1 = -1) ∧ P ≠ [] ∧ N ≠ [])

/-- Here the boundary of the face comes to the positive side. -/
def Enters (sgn : Nat → SignType) (c : Cycle) : ZeroVert → Prop
  | .start h => h ∈ hes c ∧ sgn h.tail = 0 ∧ sgn h.tip = 1
  | .inter h => h ∈ hes c ∧ sgn h.tail = -1 ∧ sgn h.tip = 1

/-- Here the boundary of the face comes to the negative side. -/
def Leaves (sgn : Nat → SignType) (c : Cycle) : ZeroVert → Prop
  | .start h => h ∈ hes c ∧ sgn h.tail = 0 ∧ sgn h.tip = -1
  | .inter h => h ∈ hes c ∧ sgn h.tail = 1 ∧ sgn h.tip = -1

/-- The half-edge lies in the plane. -/
def inPlane (sgn : Nat → SignType) (h : HE) : Bool := decide (sgn h.tail = 0) && decide (sgn h.tip = 0)

/-! ### The candidates -/

/-- What a half-edge contributes to `zero_candidates`. -/
def cand (sgn : Nat → SignType) (h : HE) : Option ZeroVert :=
  if sgn h.tail = 0 then some (.start h) else if sgn h.tip ≠ 0 ∧ sgn h.tip ≠ sgn h.tail then some (.inter h) else none

/-- The scan when all signs are `0` or `s`. -/
theorem scan_side {sgn : Nat → SignType} {s : SignType} (hs : s ≠ 0) (correct : Bool) : ∀ (c : Cycle) (z : Nat) (base : SignType) (cs : List ZeroVert),
    (∀ x ∈ c, sgn x.1 = 0 ∨ sgn x.1 = s) → (sgn z = 0 ∨ sgn z = s) → (base = 0 ∨ base = s) → (base = 0 → sgn (firstTail c z) = 0) →
    ∃ b, scan sgn correct (path c z) (sgn (firstTail c z)) base cs = .inr (b, cs ++ (path c z).filterMap (cand sgn)) ∧
      (b = 0 ∨ b = s) ∧ (base = s → b = s) ∧ ((∃ h ∈ path c z, sgn h.tip = s) → b = s) ∧ (∀ k ∈ (path c z).filterMap (cand sgn), ∃ h, k = .start h)
  | [], z, base, cs, _, _, hb, _ => ⟨base, by simp [path, scan], hb, id, by simp [path], by simp [path]⟩
  | x :: l, z, base, cs, hc, hz, hb, h0 => by
    have hft : sgn (firstTail l z) = 0 ∨ sgn (firstTail l z) = s := by
      cases l with
      | nil => exact hz
      | cons y l => exact hc y (by simp)
    have hl : ∀ y ∈ l, sgn y.1 = 0 ∨ sgn y.1 = s := fun y hy => hc y (List.mem_cons_of_mem _ hy)
    have e1 : sgn (firstTail (x :: l) z) = sgn x.1 := rfl
    have e2 : path (x :: l) z = ⟨x.1, x.2, firstTail l z⟩ :: path l z := rfl
    rw [e1] at h0
    rw [e1, e2]
    by_cases hx : sgn x.1 = 0
    · obtain ⟨b, q1, q2, q3, q4, q5⟩ := scan_side hs correct l z (if base = 0 ∧ sgn (firstTail l z) ≠ 0 then sgn (firstTail l z) else base)
        (cs ++ [.start ⟨x.1, x.2, firstTail l z⟩]) hl hz (by split
                                                             · rcases hft with h | h
                                                               · rw [h]; exact Or.inl rfl
                                                               · rw [h]; exact Or.inr rfl
                                                             · exact hb) (by
          intro h
          by_contra hne
          rw [if_pos] at h
          · exact hne h
          · by_contra hn
            rw [if_neg hn] at h
            exact hn ⟨h, hne⟩)
      have ec : cand sgn ⟨x.1, x.2, firstTail l z⟩ = some (.start ⟨x.1, x.2, firstTail l z⟩) := by simp [cand, hx]
      refine ⟨b, ?_, q2, fun h => q3 (by rw [if_neg (by rintro ⟨h', -⟩; exact hs (h.symm.trans h'))]; exact h), ?_, ?_⟩
      · rw [scan, if_pos hx, List.filterMap_cons_some ec, q1]; simp
      · rintro ⟨h, hm, ht⟩
        rcases List.mem_cons.1 hm with rfl | hm
        · have ht : sgn (firstTail l z) = s := ht
          apply q3
          by_cases hb0 : base = 0
          · rw [if_pos ⟨hb0, by rw [ht]; exact hs⟩]; exact ht
          · rw [if_neg (by rintro ⟨h, -⟩; exact hb0 h)]; exact hb.resolve_left hb0
        · exact q4 ⟨h, hm, ht⟩
      · rw [List.filterMap_cons_some ec]
        intro k hk
        rcases List.mem_cons.1 hk with rfl | hk
        · exact ⟨_, rfl⟩
        · exact q5 k hk
    · have hxs := (hc x (by simp)).resolve_left hx
      have hbs : base = s := hb.resolve_left fun h => hx (h0 h)
      obtain ⟨b, q1, q2, q3, q4, q5⟩ := scan_side hs correct l z base cs hl hz hb (fun h => absurd (h.symm.trans hbs) hs.symm)
      have hno : ¬ (sgn (firstTail l z) ≠ 0 ∧ sgn (firstTail l z) ≠ sgn x.1) := by
        rintro ⟨h1, h2⟩; rw [hxs] at h2; exact h2 (hft.resolve_left h1)
      have ec : cand sgn ⟨x.1, x.2, firstTail l z⟩ = none := by unfold cand; rw [if_neg hx, if_neg hno]
      refine ⟨b, ?_, q2, q3, fun _ => q3 hbs, ?_⟩
      · rw [scan, if_neg hx, if_neg hno, List.filterMap_cons_none ec, q1]
      · rw [List.filterMap_cons_none ec]; exact q5

/-- The scan when there are two candidates. -/
theorem scan_two {sgn : Nat → SignType} (correct : Bool) {c0 c1 : ZeroVert} : ∀ (c : Cycle) (z : Nat) (base : SignType) (cs : List ZeroVert),
    cs ++ (path c z).filterMap (cand sgn) = [c0, c1] →
    (∃ b, scan sgn correct (path c z) (sgn (firstTail c z)) base cs = .inr (b, [c0, c1])) ∨
      (c1.isInter = true ∧ scan sgn correct (path c z) (sgn (firstTail c z)) base cs = .inl (sortTwo sgn correct c0 c1))
  | [], z, base, cs, h => Or.inl ⟨base, by simp [path] at h; simp [path, scan, h]⟩
  | x :: l, z, base, cs, h => by
    have e1 : sgn (firstTail (x :: l) z) = sgn x.1 := rfl
    have e2 : path (x :: l) z = ⟨x.1, x.2, firstTail l z⟩ :: path l z := rfl
    rw [e2] at h
    rw [e1, e2]
    by_cases hx : sgn x.1 = 0
    · have ec : cand sgn ⟨x.1, x.2, firstTail l z⟩ = some (.start ⟨x.1, x.2, firstTail l z⟩) := by simp [cand, hx]
      rw [List.filterMap_cons_some ec] at h
      rw [scan, if_pos hx]
      exact scan_two correct l z _ _ (by rw [← h]; simp)
    · by_cases hno : sgn (firstTail l z) ≠ 0 ∧ sgn (firstTail l z) ≠ sgn x.1
      · have ec : cand sgn ⟨x.1, x.2, firstTail l z⟩ = some (.inter ⟨x.1, x.2, firstTail l z⟩) := by
          unfold cand; rw [if_neg hx, if_pos hno]
        rw [List.filterMap_cons_some ec] at h
        rw [scan, if_neg hx, if_pos hno]
        match cs, h with
        | [], h => exact scan_two correct l z _ _ h
        | [k], h =>
          right
          simp only [List.cons_append, List.nil_append, List.cons.injEq] at h
          obtain ⟨rfl, rfl, h⟩ := h
          refine ⟨rfl, ?_⟩
          show Sum.inl _ = _
          unfold sortTwo
          simp only [ZeroVert.he]
          congr 1
          by_cases hp : sgn (firstTail l z) = 1 <;> cases correct <;> simp [hp]
        | k :: k' :: cs, h =>
          exfalso
          have := congrArg List.length h
          simp at this
      · have ec : cand sgn ⟨x.1, x.2, firstTail l z⟩ = none := by unfold cand; rw [if_neg hx, if_neg hno]
        rw [List.filterMap_cons_none ec] at h
        rw [scan, if_neg hx, if_neg hno]
        exact scan_two correct l z _ _ h

/-! ### A face that is cut -/

theorem cand_none {sgn : Nat → SignType} {s : SignType} (hs : s ≠ 0) : ∀ (P : Cycle) (z : Nat), (∀ x ∈ P, sgn x.1 = s) → (sgn z = 0 ∨ sgn z = s) →
    (path P z).filterMap (cand sgn) = []
  | [], _, _, _ => rfl
  | x :: l, z, hP, hz => by
    have hft : sgn (firstTail l z) = 0 ∨ sgn (firstTail l z) = s := by
      cases l with
      | nil => exact hz
      | cons y l => exact Or.inr (hP y (by simp))
    have hx := hP x (by simp)
    have ec : cand sgn ⟨x.1, x.2, firstTail l z⟩ = none := by
      unfold cand
      rw [if_neg (by rw [hx]; exact hs), if_neg]
      rintro ⟨h1, h2⟩
      exact h2 (by rw [hx]; exact hft.resolve_left h1)
    rw [path, List.filterMap_cons_none ec]
    exact cand_none hs l z (fun y hy => hP y (List.mem_cons_of_mem _ hy)) hz

/-- A run of one side that ends at the other side has its last half-edge as only candidate. -/
theorem cand_last {sgn : Nat → SignType} {s : SignType} (hs : s ≠ 0) {P : Cycle} {x : Nat × Nat} {z : Nat} (hP : ∀ y ∈ P ++ [x], sgn y.1 = s)
    (hz : sgn z ≠ 0) (hz' : sgn z ≠ s) : (path (P ++ [x]) z).filterMap (cand sgn) = [.inter ⟨x.1, x.2, z⟩] := by
  rw [path_append, List.filterMap_append, cand_none hs P (firstTail [x] z) (fun y hy => hP y (by simp [hy])) (Or.inr (hP x (by simp)))]
  have hx := hP x (by simp)
  have ec : cand sgn ⟨x.1, x.2, z⟩ = some (.inter ⟨x.1, x.2, z⟩) := by
    unfold cand; rw [if_neg (by rw [hx]; exact hs), if_pos ⟨hz, by rw [hx]; exact hz'⟩]
  show [] ++ ([⟨x.1, x.2, z⟩] : List HE).filterMap (cand sgn) = _
  rw [List.filterMap_cons_some ec]; rfl

/-- The point where a run of vertices beginning with vertex `v` is entered: `Z` are the vertices in the plane before it (at most one), `N` the run before. -/
def junction (Z N : Cycle) (v : Nat) : ZeroVert :=
  match Z with
  | z :: _ => .start ⟨z.1, z.2, v⟩
  | [] => .inter ⟨(N.getLastD (0, 0)).1, (N.getLastD (0, 0)).2, v⟩

theorem exists_snoc {P : Cycle} (h : P ≠ []) : ∃ Q x, P = Q ++ [x] := ⟨P.dropLast, P.getLast h, (List.dropLast_append_getLast h).symm⟩

/-- One side of a face that is cut. -/
theorem cands_half {sgn : Nat → SignType} {s : SignType} (hs : s ≠ 0) {Z P Z' N : Cycle} {w : Nat} (h1 : Z.length ≤ 1) (hZ : ∀ x ∈ Z, sgn x.1 = 0)
    (hP : ∀ x ∈ P, sgn x.1 = s) (hP0 : P ≠ []) (hZ' : ∀ x ∈ Z', sgn x.1 = 0) (hN : ∀ x ∈ N, sgn x.1 = -s) (hN0 : N ≠ []) :
    (path (Z ++ P) (firstTail (Z' ++ N) w)).filterMap (cand sgn) =
      (if Z = [] then [] else [junction Z N (firstTail P 0)]) ++ (if Z' = [] then [junction Z' P (firstTail N 0)] else []) := by
  have ftP : ∀ z, firstTail P z = firstTail P 0 := by cases P with | nil => exact absurd rfl hP0 | cons y l => intro z; rfl
  have ftN : ∀ z, firstTail N z = firstTail N 0 := by cases N with | nil => exact absurd rfl hN0 | cons y l => intro z; rfl
  rw [path_append, List.filterMap_append]
  congr 1
  · match Z, h1 with
    | [], _ => rfl
    | [z], _ =>
      have ec : cand sgn ⟨z.1, z.2, firstTail P (firstTail (Z' ++ N) w)⟩ = some (.start ⟨z.1, z.2, firstTail P (firstTail (Z' ++ N) w)⟩) := by
        simp [cand, hZ z (by simp)]
      rw [if_neg (by simp)]
      show ([⟨z.1, z.2, firstTail P (firstTail (Z' ++ N) w)⟩] : List HE).filterMap (cand sgn) = _
      rw [List.filterMap_cons_some ec, ftP]; rfl
  · cases Z' with
    | nil =>
      rw [if_pos rfl]
      obtain ⟨Q, x, rfl⟩ := exists_snoc hP0
      have hn : sgn (firstTail N 0) = -s := by
        cases N with
        | nil => exact absurd rfl hN0
        | cons y l => exact hN y (by simp)
      rw [List.nil_append, ftN, cand_last hs hP (by rw [hn]; revert hs; cases s <;> decide) (by rw [hn]; revert hs; cases s <;> decide)]
      simp [junction]
    | cons z Z' =>
      rw [if_neg (by simp)]
      exact cand_none hs P _ hP (Or.inl (hZ' z (by simp)))

theorem cands_cut {sgn : Nat → SignType} {Z P Z' N : Cycle} (h1 : Z.length ≤ 1) (h2 : Z'.length ≤ 1) (hZ : ∀ x ∈ Z, sgn x.1 = 0)
    (hZ' : ∀ x ∈ Z', sgn x.1 = 0) (hP : ∀ x ∈ P, sgn x.1 = 1) (hN : ∀ x ∈ N, sgn x.1 = -1) (hP0 : P ≠ []) (hN0 : N ≠ []) :
    (hes ((Z ++ P) ++ (Z' ++ N))).filterMap (cand sgn) = [junction Z N (firstTail P 0), junction Z' P (firstTail N 0)] ∨
    (hes ((Z ++ P) ++ (Z' ++ N))).filterMap (cand sgn) = [junction Z' P (firstTail N 0), junction Z N (firstTail P 0)] := by
  rw [hes_append, List.filterMap_append, cands_half (s := 1) (by decide) h1 hZ hP hP0 hZ' hN hN0,
    cands_half (s := -1) (by decide) h2 hZ' hN hN0 hZ (by simpa using hP) hP0]
  by_cases hz : Z = [] <;> by_cases hz' : Z' = [] <;> simp [hz, hz']

/-- A rotation of a list of two elements. -/
theorem rotated_pair {α : Type} {a b : α} {l : List α} (h : l ~r [a, b]) : l = [a, b] ∨ l = [b, a] := by
  have hl : l.length = 2 := h.perm.length_eq
  match l, hl with
  | [x, y], _ =>
    obtain ⟨n, hn⟩ := h
    rw [List.rotate_eq_drop_append_take_mod] at hn
    have : n % 2 = 0 ∨ n % 2 = 1 := by omega
    rcases this with h0 | h0 <;> simp [h0] at hn
    · left; simp [hn]
    · right; simp [hn]

theorem filterMap_rotated {α β : Type} (f : α → Option β) {l l' : List α} (h : l ~r l') : l.filterMap f ~r l'.filterMap f := by
  obtain ⟨n, rfl⟩ := h
  rw [List.rotate_eq_drop_append_take_mod]
  conv_lhs => rw [← List.take_append_drop (n % l.length) l]
  rw [List.filterMap_append, List.filterMap_append]
  exact ⟨_, List.rotate_append_length_eq ..⟩

theorem flatMap_rotated {α β : Type} (f : α → List β) {l l' : List α} (h : l ~r l') : l.flatMap f ~r l'.flatMap f := by
  obtain ⟨n, rfl⟩ := h
  rw [List.rotate_eq_drop_append_take_mod]
  conv_lhs => rw [← List.take_append_drop (n % l.length) l]
  rw [List.flatMap_append, List.flatMap_append]
  exact ⟨_, List.rotate_append_length_eq ..⟩

theorem junction_tip (Z N : Cycle) (v : Nat) : (junction Z N v).he.tip = v := by
  unfold junction; cases Z <;> rfl

/-- A face with vertices on both sides: the point where its boundary comes to the positive side, and the one where it comes to the negative side. -/
theorem split_cut {sgn : Nat → SignType} (twin : HE → HE) (correct : Bool) {c Z P Z' N : Cycle} (hr : c ~r (Z ++ P) ++ (Z' ++ N)) (h1 : Z.length ≤ 1)
    (h2 : Z'.length ≤ 1) (hZ : ∀ x ∈ Z, sgn x.1 = 0) (hZ' : ∀ x ∈ Z', sgn x.1 = 0) (hP : ∀ x ∈ P, sgn x.1 = 1) (hN : ∀ x ∈ N, sgn x.1 = -1)
    (hP0 : P ≠ []) (hN0 : N ≠ []) :
    splitFaceVerts sgn twin correct c = if correct then .two (junction Z N (firstTail P 0)) (junction Z' P (firstTail N 0))
      else .two (junction Z' P (firstTail N 0)) (junction Z N (firstTail P 0)) := by
  have hp : sgn (firstTail P 0) = 1 := by
    cases P with
    | nil => exact absurd rfl hP0
    | cons y l => exact hP y (by simp)
  have hn : sgn (firstTail N 0) = -1 := by
    cases N with
    | nil => exact absurd rfl hN0
    | cons y l => exact hN y (by simp)
  have core : ∀ c0 c1 : ZeroVert, (hes c).filterMap (cand sgn) = [c0, c1] → sgn c0.he.tip ≠ 0 → sgn c1.he.tip ≠ 0 →
      splitFaceVerts sgn twin correct c = sortTwo sgn correct c0 c1 := by
    intro c0 c1 hc t0 t1
    have hk : ∀ k ∈ (hes c).filterMap (cand sgn), k.isInter = false → sgn k.he.tail = 0 := by
      intro k hk hi
      obtain ⟨h, -, hh⟩ := List.mem_filterMap.1 hk
      unfold cand at hh
      split at hh
      · cases hh; assumption
      · split at hh
        · cases hh; cases hi
        · cases hh
    unfold splitFaceVerts
    rcases scan_two correct c (firstTail c 0) (sgn (firstTail c 0)) [] (by simpa [hes] using hc) with ⟨b, e⟩ | ⟨-, e⟩
    · have eft : firstTail c (firstTail c 0) = firstTail c 0 := by cases c <;> rfl
      rw [eft] at e
      show (match scan sgn correct (path c (firstTail c 0)) (sgn (firstTail c 0)) (sgn (firstTail c 0)) [] with
        | .inl r => r
        | .inr (base, cs) => finish sgn twin correct base cs) = _
      rw [e]
      show finish sgn twin correct b [c0, c1] = _
      rw [finish]
      by_cases hi : (c0.isInter || c1.isInter) = true
      · rw [if_pos hi]
      · rw [if_neg hi]
        simp only [Bool.or_eq_true, not_or, Bool.not_eq_true] at hi
        rw [if_neg, if_neg]
        · intro h
          apply t1; rw [h]; exact hk c0 (by rw [hc]; simp) hi.1
        · intro h
          apply t0; rw [h]; exact hk c1 (by rw [hc]; simp) hi.2
    · have eft : firstTail c (firstTail c 0) = firstTail c 0 := by cases c <;> rfl
      rw [eft] at e
      show (match scan sgn correct (path c (firstTail c 0)) (sgn (firstTail c 0)) (sgn (firstTail c 0)) [] with
        | .inl r => r
        | .inr (base, cs) => finish sgn twin correct base cs) = _
      rw [e]
  have hrot := filterMap_rotated (cand sgn) (hes_rotated hr)
  have : (hes c).filterMap (cand sgn) = [junction Z N (firstTail P 0), junction Z' P (firstTail N 0)] ∨
      (hes c).filterMap (cand sgn) = [junction Z' P (firstTail N 0), junction Z N (firstTail P 0)] := by
    rcases cands_cut h1 h2 hZ hZ' hP hN hP0 hN0 with h | h <;> rw [h] at hrot
    · exact rotated_pair hrot
    · exact (rotated_pair hrot).symm
  rcases this with h | h
  · rw [core _ _ h (by rw [junction_tip, hp]; decide) (by rw [junction_tip, hn]; decide)]
    unfold sortTwo
    rw [junction_tip, hn]
    cases correct <;> rfl
  · rw [core _ _ h (by rw [junction_tip, hn]; decide) (by rw [junction_tip, hp]; decide)]
    unfold sortTwo
    rw [junction_tip, hp]
    cases correct <;> rfl

/-! ### A face on one side -/

theorem breakPos_path : ∀ (A : Cycle) (z : Nat), breakPos (path A z) = none
  | [], _ => rfl
  | [_], _ => rfl
  | a :: a' :: l, z => by
    show (if a'.1 ≠ a'.1 then some 0 else (breakPos (path (a' :: l) z)).map (· + 1)) = none
    rw [if_neg (by simp), breakPos_path (a' :: l) z]; rfl

theorem breakPos_append {b : HE} {B : List HE} {z : Nat} (hb : b.tail ≠ z) : ∀ (A : Cycle), A ≠ [] → breakPos (path A z ++ b :: B) = some (A.length - 1)
  | [], h => absurd rfl h
  | [a], _ => by
    show (if z ≠ b.tail then some 0 else (breakPos (b :: B)).map (· + 1)) = some 0
    rw [if_pos hb.symm]
  | a :: a' :: l, _ => by
    show (if a'.1 ≠ a'.1 then some 0 else (breakPos (path (a' :: l) z ++ b :: B)).map (· + 1)) = some (l.length + 2 - 1)
    rw [if_neg (by simp), breakPos_append hb (a' :: l) (by simp)]
    rfl

/-- Any rotation of the half-edges of a path is brought back. -/
theorem unrotate {Z : Cycle} {v : Nat} (hv : ∀ x ∈ Z, x.1 ≠ v) {l : List HE} (h : l ~r path Z v) :
    (match breakPos l with
      | some pos => l.rotate (pos + 1)
      | none => l) = path Z v := by
  obtain ⟨n, hn⟩ := h.symm
  rw [List.rotate_eq_drop_append_take_mod, path_length] at hn
  generalize n % Z.length = m at hn
  have e : path Z v = path (Z.take m) (firstTail (Z.drop m) v) ++ path (Z.drop m) v := by
    conv_lhs => rw [← List.take_append_drop m Z]
    rw [path_append]
  by_cases hm : m = 0
  · subst hm
    rw [List.drop_zero, List.take_zero, List.append_nil] at hn
    rw [← hn, breakPos_path]
  · by_cases hm' : Z.length ≤ m
    · rw [List.drop_eq_nil_of_le (by rw [path_length]; exact hm'), List.take_of_length_le (by rw [path_length]; exact hm'), List.nil_append] at hn
      rw [← hn, breakPos_path]
    · have l1 : (path (Z.take m) (firstTail (Z.drop m) v)).length = m := by rw [path_length, List.length_take]; omega
      have ed : (path Z v).drop m = path (Z.drop m) v := by rw [e]; exact List.drop_left' l1
      have et : (path Z v).take m = path (Z.take m) (firstTail (Z.drop m) v) := by rw [e]; exact List.take_left' l1
      rw [ed, et] at hn
      have hne : Z.take m ≠ [] := by
        intro h
        have := congrArg List.length h
        rw [List.length_take, List.length_nil] at this
        omega
      obtain ⟨z, T, hT⟩ := List.exists_cons_of_ne_nil hne
      have hd : Z.drop m ≠ [] := by
        intro h
        have := congrArg List.length h
        simp at this
        omega
      have hb : breakPos l = some ((Z.drop m).length - 1) := by
        rw [← hn, hT, path]
        exact breakPos_append (hv z (List.mem_of_mem_take (i := m) (by rw [hT]; simp))) _ hd
      rw [hb]
      show l.rotate ((Z.drop m).length - 1 + 1) = _
      have : (Z.drop m).length - 1 + 1 = (path (Z.drop m) v).length := by
        rw [path_length]
        have := List.length_pos_iff.2 hd
        omega
      rw [this, ← hn, List.rotate_append_length_eq, ← e]

/-- The candidates of vertices in the plane. -/
theorem cands_zero {sgn : Nat → SignType} : ∀ (Z : Cycle) (v : Nat), (∀ x ∈ Z, sgn x.1 = 0) → (path Z v).filterMap (cand sgn) = (path Z v).map .start
  | [], _, _ => rfl
  | x :: l, v, h => by
    have ec : cand sgn ⟨x.1, x.2, firstTail l v⟩ = some (.start ⟨x.1, x.2, firstTail l v⟩) := by simp [cand, h x (by simp)]
    rw [path, List.filterMap_cons_some ec, List.map_cons, cands_zero l v fun y hy => h y (List.mem_cons_of_mem _ hy)]

/-- A face on one side. -/
theorem split_side {sgn : Nat → SignType} (twin : HE → HE) (correct : Bool) {s : SignType} (hs : s ≠ 0) {c Z P : Cycle} (hr : c ~r Z ++ P)
    (hZ : ∀ x ∈ Z, sgn x.1 = 0) (hP : ∀ x ∈ P, sgn x.1 = s) (hP0 : P ≠ []) :
    splitFaceVerts sgn twin correct c = if s = 1 then
        (if Z.length ≤ 1 then .isPos true else .zero (if correct then ((path Z (firstTail P 0)).dropLast.reverse.map twin) else (path Z (firstTail P 0)).dropLast))
      else .isPos false := by
  have hv : sgn (firstTail P 0) = s := by
    cases P with
    | nil => exact absurd rfl hP0
    | cons y l => exact hP y (by simp)
  have hvZ : ∀ x ∈ Z, x.1 ≠ firstTail P 0 := fun x hx h => hs (by rw [← hv, ← h]; exact hZ x hx)
  have hmem : ∀ x ∈ c, sgn x.1 = 0 ∨ sgn x.1 = s := fun x hx => by
    rcases List.mem_append.1 (hr.perm.mem_iff.1 hx) with h | h
    · exact Or.inl (hZ x h)
    · exact Or.inr (hP x h)
  have eft : firstTail c (firstTail c 0) = firstTail c 0 := by cases c <;> rfl
  have hc0 : c ≠ [] := by
    rintro rfl
    have := hr.perm.length_eq
    rw [List.length_append] at this
    have h2 := List.length_pos_iff.2 hP0
    simp at this; omega
  have hf : sgn (firstTail c 0) = 0 ∨ sgn (firstTail c 0) = s := by
    cases c with
    | nil => exact absurd rfl hc0
    | cons x l => exact hmem x (by simp)
  obtain ⟨b, q1, q2, q3, q4, q5⟩ := scan_side hs correct c (firstTail c 0) (sgn (firstTail c 0)) [] hmem hf hf (by rw [eft]; exact id)
  rw [eft, List.nil_append] at q1
  have hrot := filterMap_rotated (cand sgn) (hes_rotated hr)
  have ec : (hes (Z ++ P)).filterMap (cand sgn) = (path Z (firstTail P 0)).map .start := by
    rw [hes_append, List.filterMap_append, cand_none hs P _ hP, List.append_nil, cands_zero _ _ hZ]
    · congr 2
      cases P with
      | nil => exact absurd rfl hP0
      | cons y l => rfl
    · cases Z with
      | nil =>
        right
        show sgn (firstTail P 0) = s
        exact hv
      | cons y l => exact Or.inl (hZ y (by simp))
  rw [ec] at hrot
  -- the base orientation
  have hb : b = s := by
    apply q4
    obtain ⟨p, hp⟩ := List.exists_mem_of_ne_nil P hP0
    have hpc : p ∈ c := hr.perm.mem_iff.2 (List.mem_append_right _ hp)
    have htips : ∃ h ∈ hes c, h.tip = p.1 := by
      obtain ⟨A, B, hAB⟩ := List.append_of_mem hpc
      have hrot : c ~r (p :: B) ++ A := by
        rw [hAB]; exact ⟨A.length, List.rotate_append_length_eq ..⟩
      obtain ⟨Q, x, hQ⟩ := exists_snoc (P := p :: B ++ A) (by simp)
      have : (⟨x.1, x.2, p.1⟩ : HE) ∈ hes (p :: B ++ A) := by
        show _ ∈ path (p :: B ++ A) p.1
        rw [hQ, path_append]
        simp [path, firstTail]
      exact ⟨_, (hes_rotated hrot).perm.mem_iff.2 this, rfl⟩
    obtain ⟨h, h1, h2⟩ := htips
    exact ⟨h, h1, by rw [h2]; exact hP p hp⟩
  subst hb
  have e0 : splitFaceVerts sgn twin correct c = finish sgn twin correct b ((hes c).filterMap (cand sgn)) := by
    unfold splitFaceVerts
    show (match scan sgn correct (path c (firstTail c 0)) (sgn (firstTail c 0)) (sgn (firstTail c 0)) [] with
        | .inl r => r
        | .inr (base, cs) => finish sgn twin correct base cs) = _
    rw [q1]; rfl
  rw [e0]
  -- all candidates are vertices
  obtain ⟨l, hl⟩ : ∃ l : List HE, (hes c).filterMap (cand sgn) = l.map ZeroVert.start := by
    refine ⟨((hes c).filterMap (cand sgn)).map ZeroVert.he, ?_⟩
    rw [List.map_map]
    conv_lhs => rw [← List.map_id ((hes c).filterMap (cand sgn))]
    apply List.map_congr_left
    intro k hk
    obtain ⟨h, rfl⟩ := q5 k hk
    rfl
  rw [hl] at hrot ⊢
  have hrl : l ~r path Z (firstTail P 0) := by
    have := hrot.map ZeroVert.he
    simpa [List.map_map, Function.comp_def, ZeroVert.he] using this
  have hlen : l.length = Z.length := by rw [hrl.perm.length_eq, path_length]
  have hsz : ∀ r : List HE, sortZero twin correct b r =
      if b = 1 then .zero (if correct then r.reverse.map twin else r) else .isPos false := by
    intro r
    unfold sortZero
    by_cases h1 : b = 1
    · subst h1; cases correct <;> simp
    · rw [if_pos h1, if_neg h1]
  by_cases hk : Z.length ≤ 1
  · rw [if_pos hk]
    have : finish sgn twin correct b (l.map ZeroVert.start) = .isPos (decide (b = 1)) := by
      match l, (by omega : l.length ≤ 1) with
      | [], _ => rfl
      | [_], _ => rfl
    rw [this]
    by_cases h1 : b = 1 <;> simp [h1]
  · rw [if_neg hk, ← hsz]
    by_cases hk2 : Z.length = 2
    · match Z, hk2 with
      | [z0, z1], _ =>
        have hne : ¬ (firstTail P 0 = z0.1) := fun h => hvZ z0 (by simp) h.symm
        rcases rotated_pair (a := (⟨z0.1, z0.2, z1.1⟩ : HE)) (b := ⟨z1.1, z1.2, firstTail P 0⟩) hrl with h | h
        · rw [h]
          simp [finish, ZeroVert.isInter, ZeroVert.he, path, firstTail]
        · rw [h]
          simp only [List.map_cons, List.map_nil, finish, ZeroVert.isInter, ZeroVert.he, Bool.or_self]
          rw [if_neg (by simp), if_neg hne, if_pos trivial]
          simp [path, firstTail]
    · have h3 : 3 ≤ l.length := by omega
      have : finish sgn twin correct b (l.map ZeroVert.start) = sortZero twin correct b ((match breakPos l with
          | some pos => l.rotate (pos + 1)
          | none => l).dropLast) := by
        match l, h3 with
        | a :: b' :: c :: l, _ =>
          rw [List.map_cons, List.map_cons, List.map_cons, finish]
          · simp [List.map_map, Function.comp_def, ZeroVert.he]
          · simp
          · simp
          · simp
      rw [this, unrotate hvZ hrl]

/-! ### Half-edges in the plane -/

theorem inPlane_zero {sgn : Nat → SignType} : ∀ (Z : Cycle) (v : Nat), (∀ x ∈ Z, sgn x.1 = 0) → sgn v ≠ 0 → (path Z v).filter (inPlane sgn) = (path Z v).dropLast
  | [], _, _, _ => rfl
  | [x], v, _, hv => by simp [path, firstTail, inPlane, hv]
  | x :: y :: l, v, hZ, hv => by
    have h1 : inPlane sgn ⟨x.1, x.2, y.1⟩ = true := by simp [inPlane, hZ x (by simp), hZ y (by simp)]
    show (⟨x.1, x.2, y.1⟩ :: path (y :: l) v).filter (inPlane sgn) = ⟨x.1, x.2, y.1⟩ :: (path (y :: l) v).dropLast
    rw [List.filter_cons_of_pos h1, inPlane_zero (y :: l) v (fun z hz => hZ z (List.mem_cons_of_mem _ hz)) hv]

theorem inPlane_none {sgn : Nat → SignType} {P : Cycle} {z : Nat} (hP : ∀ x ∈ P, sgn x.1 ≠ 0) : (path P z).filter (inPlane sgn) = [] := by
  rw [List.filter_eq_nil_iff]
  intro h hh
  have := hP _ (path_tail hh)
  simp only at this
  simp [inPlane, this]

/-- The half-edges in the plane of a face on one side. -/
theorem inPlane_side {sgn : Nat → SignType} {s : SignType} (hs : s ≠ 0) {c Z P : Cycle} (hr : c ~r Z ++ P)
    (hZ : ∀ x ∈ Z, sgn x.1 = 0) (hP : ∀ x ∈ P, sgn x.1 = s) (hP0 : P ≠ []) :
    ((hes c).filter (inPlane sgn)).Perm (path Z (firstTail P 0)).dropLast := by
  have hv : sgn (firstTail P 0) = s := by
    cases P with
    | nil => exact absurd rfl hP0
    | cons y l => exact hP y (by simp)
  refine ((hes_rotated hr).perm.filter _).trans ?_
  rw [hes_append, List.filter_append, inPlane_none (P := P) (fun x hx => by rw [hP x hx]; exact hs), List.append_nil]
  have : firstTail P (firstTail Z 0) = firstTail P 0 := by
    cases P with
    | nil => exact absurd rfl hP0
    | cons y l => rfl
  rw [this, inPlane_zero Z _ hZ (by rw [hv]; exact hs)]

theorem path_chain : ∀ (Z : Cycle) (v : Nat), (path Z v).IsChain fun h k => h.tip = k.tail
  | [], _ => by simp [path]
  | [x], _ => by simp [path]
  | x :: y :: l, v => by
    have := path_chain (y :: l) v
    show (⟨x.1, x.2, y.1⟩ :: ⟨y.1, y.2, firstTail l v⟩ :: path l v : List HE).IsChain _
    exact List.IsChain.cons_cons rfl this

theorem junction_enters {sgn : Nat → SignType} {s : SignType} {c Z P Z' N : Cycle} (hr : c ~r (Z ++ P) ++ (Z' ++ N)) (h1 : Z.length ≤ 1)
    (hZ : ∀ x ∈ Z, sgn x.1 = 0) (hP : ∀ x ∈ P, sgn x.1 = s) (hN : ∀ x ∈ N, sgn x.1 = -s) (hP0 : P ≠ []) (hN0 : N ≠ []) :
    (junction Z N (firstTail P 0)).he ∈ hes c ∧ sgn (junction Z N (firstTail P 0)).he.tip = s ∧
      ((∃ h, junction Z N (firstTail P 0) = .start h ∧ sgn h.tail = 0) ∨ (∃ h, junction Z N (firstTail P 0) = .inter h ∧ sgn h.tail = -s)) := by
  have hv : sgn (firstTail P 0) = s := by
    cases P with
    | nil => exact absurd rfl hP0
    | cons y l => exact hP y (by simp)
  refine ⟨(hes_rotated hr).perm.mem_iff.2 ?_, by rw [junction_tip]; exact hv, ?_⟩
  · rw [hes_append]
    match Z, h1 with
    | [], _ =>
      obtain ⟨Q, x, rfl⟩ := exists_snoc hN0
      have e : junction [] (Q ++ [x]) (firstTail P 0) = .inter ⟨x.1, x.2, firstTail P 0⟩ := by simp [junction]
      rw [e]
      apply List.mem_append_right
      rw [← List.append_assoc Z', path_append]
      apply List.mem_append_right
      show _ ∈ [(⟨x.1, x.2, firstTail P _⟩ : HE)]
      cases P with
      | nil => exact absurd rfl hP0
      | cons y l => simp [ZeroVert.he, firstTail]
    | [z], _ =>
      apply List.mem_append_left
      cases P with
      | nil => exact absurd rfl hP0
      | cons y l => simp [ZeroVert.he, junction, path, firstTail]
  · match Z, h1 with
    | [], _ =>
      obtain ⟨Q, x, rfl⟩ := exists_snoc hN0
      right
      exact ⟨_, rfl, by simpa using hN x (by simp)⟩
    | [z], _ => exact Or.inl ⟨_, rfl, hZ z (by simp)⟩

/-- **C74.** What `split_face_verts` returns for a convex face. A face with vertices on both sides: the two points where its boundary crosses the plane, first
the one where it comes to the positive side if the face is oriented like the cell, in the reverse order otherwise. A face on the positive side without
half-edge in the plane: `IsPos(true)`; with half-edges in the plane: exactly these, as a chain, reversed if the face is oriented like the cell. A face on
the negative side: `IsPos(false)`. -/
theorem c74_split_face_verts (sgn : Nat → SignType) (twin : HE → HE) (correct : Bool) (c : Cycle) (hc : Convex sgn c) :
    ((∃ x ∈ c, sgn x.1 = 1) → (∃ x ∈ c, sgn x.1 = -1) → ∃ X Y, Enters sgn c X ∧ Leaves sgn c Y ∧ (∀ X', Enters sgn c X' → X' = X) ∧
      (∀ Y', Leaves sgn c Y' → Y' = Y) ∧ splitFaceVerts sgn twin correct c = if correct then .two X Y else .two Y X) ∧
    ((∃ x ∈ c, sgn x.1 = 1) → (∀ x ∈ c, sgn x.1 ≠ -1) →
      ((∀ h ∈ hes c, inPlane sgn h = false) → splitFaceVerts sgn twin correct c = .isPos true) ∧
      ((∃ h ∈ hes c, inPlane sgn h = true) → ∃ run, run.Perm ((hes c).filter (inPlane sgn)) ∧ run.IsChain (fun h k => h.tip = k.tail) ∧
        splitFaceVerts sgn twin correct c = .zero (if correct then run.reverse.map twin else run))) ∧
    ((∀ x ∈ c, sgn x.1 ≠ 1) → splitFaceVerts sgn twin correct c = .isPos false) := by
  rcases hc.shape with ⟨s, hs, Z, P, hr, hZ, hP, hP0⟩ | ⟨Z, P, Z', N, hr, h1, h2, hZ, hZ', hP, hN, hP0, hN0⟩
  · obtain ⟨p, hp⟩ := List.exists_mem_of_ne_nil P hP0
    have hpc : p ∈ c := hr.perm.mem_iff.2 (List.mem_append_right _ hp)
    have hps := hP p hp
    have hmem : ∀ x ∈ c, sgn x.1 = 0 ∨ sgn x.1 = s := fun x hx => by
      rcases List.mem_append.1 (hr.perm.mem_iff.1 hx) with h | h
      · exact Or.inl (hZ x h)
      · exact Or.inr (hP x h)
    have key := split_side twin correct hs hr hZ hP hP0
    have hpl := inPlane_side hs hr hZ hP hP0
    refine ⟨?_, ?_, ?_⟩
    · rintro ⟨x, hx, e1⟩ ⟨y, hy, e2⟩
      rcases hmem x hx with h | h
      · rw [h] at e1; cases e1
      · rcases hmem y hy with h' | h'
        · rw [h'] at e2; cases e2
        · rw [h] at e1; rw [h', e1] at e2; cases e2
    · intro _ hneg
      have hs1 : s = 1 := by
        have := hneg p hpc
        rw [hps] at this
        revert hs this; cases s <;> decide
      subst hs1
      rw [if_pos rfl] at key
      have hlen : (path Z (firstTail P 0)).dropLast.length = Z.length - 1 := by rw [List.length_dropLast, path_length]
      constructor
      · intro h
        have : (path Z (firstTail P 0)).dropLast = [] := by
          have e : (hes c).filter (inPlane sgn) = [] := List.filter_eq_nil_iff.2 fun x hx => by rw [h x hx]; simp
          rw [e] at hpl
          exact hpl.symm.eq_nil
        rw [this] at hlen
        rw [key, if_pos (by simp at hlen; omega)]
      · rintro ⟨h, hh, ht⟩
        have hm : h ∈ (path Z (firstTail P 0)).dropLast := hpl.mem_iff.1 (List.mem_filter.2 ⟨hh, ht⟩)
        have := List.length_pos_of_mem hm
        rw [if_neg (by omega)] at key
        exact ⟨_, hpl.symm, (path_chain _ _).dropLast, key⟩
    · intro hpos
      have := hpos p hpc
      rw [hps] at this
      rw [key, if_neg this]
  · obtain ⟨p, hp⟩ := List.exists_mem_of_ne_nil P hP0
    have hpc : p ∈ c := hr.perm.mem_iff.2 (List.mem_append_left _ (List.mem_append_right _ hp))
    obtain ⟨n, hn⟩ := List.exists_mem_of_ne_nil N hN0
    have hnc : n ∈ c := hr.perm.mem_iff.2 (List.mem_append_right _ (List.mem_append_right _ hn))
    refine ⟨fun _ _ => ?_, fun _ h => absurd (hN n hn) (h n hnc), fun h => absurd (hP p hp) (h p hpc)⟩
    obtain ⟨a1, a2, a3⟩ := junction_enters (s := 1) hr h1 hZ hP hN hP0 hN0
    have hr' : c ~r (Z' ++ N) ++ (Z ++ P) := hr.trans ⟨_, List.rotate_append_length_eq ..⟩
    obtain ⟨b1, b2, b3⟩ := junction_enters (s := -1) hr' h2 hZ' hN (by simpa using hP) hN0 hP0
    have hrot := filterMap_rotated (cand sgn) (hes_rotated hr)
    have hcs : ∀ k, k ∈ (hes c).filterMap (cand sgn) → k = junction Z N (firstTail P 0) ∨ k = junction Z' P (firstTail N 0) := by
      intro k hk
      have hk := hrot.perm.mem_iff.1 hk
      rcases cands_cut h1 h2 hZ hZ' hP hN hP0 hN0 with h | h <;> rw [h] at hk <;> simp at hk
      · exact hk
      · exact hk.symm
    refine ⟨junction Z N (firstTail P 0), junction Z' P (firstTail N 0), ?_, ?_, ?_, ?_, split_cut twin correct hr h1 h2 hZ hZ' hP hN hP0 hN0⟩
    · rcases a3 with ⟨h, e, q⟩ | ⟨h, e, q⟩ <;> rw [e] at a1 a2 ⊢ <;> exact ⟨a1, q, a2⟩
    · rcases b3 with ⟨h, e, q⟩ | ⟨h, e, q⟩ <;> rw [e] at b1 b2 ⊢ <;> exact ⟨b1, q, b2⟩
    · intro X' hX
      have ht : sgn X'.he.tip = 1 := by cases X' <;> exact hX.2.2
      refine (hcs X' ?_).resolve_right fun h => ?_
      · cases X' with
        | start h => exact List.mem_filterMap.2 ⟨h, hX.1, by simp [cand, hX.2.1]⟩
        | inter h => exact List.mem_filterMap.2 ⟨h, hX.1, by simp [cand, hX.2.1, hX.2.2]⟩
      · rw [h, b2] at ht; cases ht
    · intro Y' hY
      have ht : sgn Y'.he.tip = -1 := by cases Y' <;> exact hY.2.2
      refine (hcs Y' ?_).resolve_left fun h => ?_
      · cases Y' with
        | start h => exact List.mem_filterMap.2 ⟨h, hY.1, by simp [cand, hY.2.1]⟩
        | inter h => exact List.mem_filterMap.2 ⟨h, hY.1, by simp [cand, hY.2.1, hY.2.2]⟩
      · rw [h, a2] at ht; cases ht

/-- The signs of the vertices of a pentagon: it is cut at vertex 3 and inside the edge 14 from 4 to 0. -/
def exSgn (v : Nat) : SignType := if v = 3 then 0 else if v ≤ 2 then 1 else -1
def exFace : Cycle := [(1, 11), (2, 12), (3, 13), (4, 14), (0, 10)]

example : Convex exSgn exFace := by
  refine ⟨by decide, by decide, Or.inr ⟨[], [(0, 10), (1, 11), (2, 12)], [(3, 13)], [(4, 14)], ⟨4, by decide⟩, by decide, by decide, by decide, by decide,
    by decide, by decide, by decide, by decide⟩⟩
example : splitFaceVerts exSgn HE.rev true exFace = .two (.inter ⟨4, 14, 0⟩) (.start ⟨3, 13, 4⟩) := by decide
example : splitFaceVerts exSgn HE.rev false exFace = .two (.start ⟨3, 13, 4⟩) (.inter ⟨4, 14, 0⟩) := by decide
/-- Vertices 3, 0 and 1 in the plane, the list begins in the middle of the run. -/
example : splitFaceVerts (fun v => if v = 2 ∨ v = 4 then 1 else 0) HE.rev false [(0, 10), (1, 11), (2, 12), (4, 13), (3, 14)] =
    .zero [⟨3, 14, 0⟩, ⟨0, 10, 1⟩] := by decide
example : splitFaceVerts (fun v => if v = 2 ∨ v = 4 then 1 else 0) HE.rev true [(0, 10), (1, 11), (2, 12), (4, 13), (3, 14)] =
    .zero [⟨1, 10, 0⟩, ⟨0, 14, 3⟩] := by decide

end Verif.Bsp
