import Mathlib.Data.List.Basic
import Mathlib.Data.List.Nodup
import Mathlib.Data.List.Perm.Basic
import Mathlib.Tactic.Linarith
import Mathlib.Tactic.Ring
import Mathlib.Algebra.BigOperators.Group.List.Basic
import Mathlib.Algebra.Order.BigOperators.Group.List
/-!
# Splitting the cells of the BSP complex: `split_cell`, `separate_out_coplanar_triangles` (`src/polygonlization/bsp_complex.rs` lines 252-576,
1200-1233) and the loop of `make_mesh_for_proper_triangles` (`src/polygonlization/mod.rs` lines 66-77)

The model keeps the links between cells and faces and the triangles stored in both. The outcomes of all geometric tests of one call are
collected in `Tests`, and the theorems hold for every outcome.
-/
namespace Verif.Poly

/-- `struct BSPCellData` (lines 82-95). -/
structure Cell where
  faces : List Nat
  inner : List Nat
deriving Repr, DecidableEq

/-- `struct BSPFaceData` (lines 60-80) without `plane` and `id`; `INVALID_IND` is `none`. -/
structure Face where
  cells : Nat × Option Nat
  tris : List Nat
deriving Repr, DecidableEq

/-- The part of `struct BSPComplex` (lines 101-118) that the model keeps. -/
structure Complex where
  cells : List Cell
  faces : List Face
deriving Repr, DecidableEq

/-- `enum SplitFaceResult` (lines 1520-1560): the face is on one side, has an edge in the plane and is on one side, or is cut. -/
inductive Kind | pos | neg | zero | cut
deriving Repr, DecidableEq

/-- The outcomes of the geometric tests during one call of `split_cell`. -/
structure Tests where
  /-- All corners of the second triangle lie in the plane of the first (lines 1215-1226). -/
  coplanar : Nat → Nat → Bool
  /-- The cell has vertices on both sides of the plane (lines 284-299). -/
  proper : Bool
  /-- `split_face_verts` (lines 329-335). -/
  kind : Nat → Kind
  /-- The order in which `make_loop` puts the faces that are cut (line 318). -/
  order : List Nat → List Nat
  /-- `is_triangle_intersects_poly` (lines 366-372). -/
  meets : Nat → Bool
  /-- The new part of the face is on the positive side (lines 424-426). -/
  newPos : Nat → Bool
  /-- Triangle `tid` of a face has a corner on the positive or the negative side (lines 462-473). -/
  hasPos : Nat → Bool
  hasNeg : Nat → Bool
  /-- `is_triangle_intersects_cell` for the new and for the old cell (lines 546-571). -/
  inPos : Nat → Bool
  inNeg : Nat → Bool

/-- `self.cell_data[nei_cid].faces.push(new_fid)` (line 443). -/
def pushFace (cells : List Cell) (c f : Nat) : Option (List Cell) :=
  if c < cells.length then some (cells.modify c fun C => { C with faces := C.faces ++ [f] }) else none

/-- What the loop over the outlines carries along. -/
structure Acc where
  s : Complex
  pos : List Nat
  neg : List Nat

/-- The result of cutting face `fid`, once the neighbours have been told about the new part. -/
def cutResult (T : Tests) (a : Acc) (fid : Nat) (F : Face) (cells : List Cell) : Acc :=
  let new := a.s.faces.length
  let newPos := T.newPos fid
  let newTris := F.tris.filter fun t => if newPos then T.hasPos t else T.hasNeg t
  let oldTris := F.tris.filter fun t => if newPos then T.hasNeg t else T.hasPos t
  { s := { cells, faces := a.s.faces.set fid { F with tris := oldTris } ++ [{ F with tris := newTris }] },
    pos := a.pos ++ [if newPos then new else fid], neg := a.neg ++ [if newPos then fid else new] }

/-- The body of the loop for a face that is cut (lines 408-494). The mesh appends the new face, so its index is the number of faces. -/
def cutFace (T : Tests) (cid : Nat) (a : Acc) (fid : Nat) : Option Acc := do
  let F ← a.s.faces[fid]?
  let new := a.s.faces.length
  let cells ← (F.cells.1 :: F.cells.2.toList).foldlM (fun cells nei => if nei ≠ cid then pushFace cells nei new else some cells) a.s.cells
  return cutResult T a fid F cells

/-- Replacing a cell of a face (lines 524-528). -/
def Face.rename (F : Face) (old new : Nat) : Face :=
  { F with cells := (if F.cells.1 = old then new else F.cells.1, if F.cells.2 = some old then some new else F.cells.2) }

/-- `split_cell` (lines 252-576). `none` is a panic. Half-edges of faces that only touch the plane (`ZeroHalfedges`) do not matter for the
links, such faces go to the positive side (lines 345-348). The loop over `pos_faces` (lines 523-529) is one pass over all faces. -/
def splitCell (T : Tests) (nOri : Nat) (s : Complex) (cid : Nat) : Option Complex := do
  let C ← s.cells[cid]?
  let pivot ← C.inner.getLast?
  let coplanar := C.inner.filter (T.coplanar pivot)
  let inner := C.inner.filter fun t => !T.coplanar pivot t
  let _ ← coplanar.getLast?
  if !T.proper then none
  else
    let hits := coplanar.filter T.meets
    if hits.isEmpty then some { s with cells := s.cells.set cid { C with inner } }
    else
      let a0 : Acc := { s, pos := C.faces.filter fun f => T.kind f = .pos ∨ T.kind f = .zero, neg := C.faces.filter fun f => T.kind f = .neg }
      let a ← (T.order (C.faces.filter fun f => T.kind f = .cut)).foldlM (cutFace T cid) a0
      let newFid := a.s.faces.length
      let newCid := a.s.cells.length
      let faces := a.s.faces.mapIdx (fun i F => if i ∈ a.pos then F.rename cid newCid else F) ++
        [{ cells := (newCid, some cid), tris := hits.filter (· < nOri) }]
      let cells := a.s.cells.set cid { faces := a.neg ++ [newFid], inner := inner.filter T.inNeg } ++
        [{ faces := a.pos ++ [newFid], inner := inner.filter T.inPos }]
      return { cells, faces }

/-- How the loop ends. -/
inductive Out | done (s : Complex) | panic | running
deriving Repr, DecidableEq

/-- The loop of `make_mesh_for_proper_triangles` (`mod.rs` lines 66-77); `T n` are the outcomes of the tests in round `n`. -/
def subdivide (T : Nat → Tests) (nOri : Nat) : Nat → Nat → Complex → Out
  | 0, _, _ => .running
  | fuel + 1, cid, s =>
    match s.cells[cid]? with
    | none => .done s
    | some C =>
      if C.inner.isEmpty then subdivide T nOri fuel (cid + 1) s
      else match splitCell (T fuel) nOri s cid with
        | none => .panic
        | some s => subdivide T nOri fuel cid s

/-! ### Specification -/

/-- The face bounds the cell. -/
def Face.bounds (F : Face) (c : Nat) : Prop := F.cells.1 = c ∨ F.cells.2 = some c

instance (F : Face) (c : Nat) : Decidable (F.bounds c) := inferInstanceAs (Decidable (_ ∨ _))

/-- Cells and faces refer to each other: a face has two different existing cells (or one), and a cell lists each of its faces once. -/
structure Linked (s : Complex) : Prop where
  cells : ∀ (f : Nat) (F : Face), s.faces[f]? = some F → F.cells.1 < s.cells.length ∧ (∀ c, F.cells.2 = some c → c < s.cells.length ∧ c ≠ F.cells.1)
  nodup : ∀ (c : Nat) (C : Cell), s.cells[c]? = some C → C.faces.Nodup
  link : ∀ (c : Nat) (C : Cell), s.cells[c]? = some C → ∀ f : Nat, f ∈ C.faces ↔ ∃ F : Face, s.faces[f]? = some F ∧ F.bounds c

/-- What is known about the tests: a triangle lies in its own plane, and `make_loop` only reorders. -/
structure Tests.Ok (T : Tests) : Prop where
  self : ∀ t, T.coplanar t t = true
  perm : ∀ l, (T.order l).Perm l

/-! ### Proofs: links -/

theorem pushFace_get {cells cells' : List Cell} {c f : Nat} (h : pushFace cells c f = some cells') :
    c < cells.length ∧ cells'.length = cells.length ∧
      ∀ d : Nat, cells'[d]? = if c = d then (cells[d]?).map fun C => { C with faces := C.faces ++ [f] } else cells[d]? := by
  unfold pushFace at h
  split at h
  · cases h
    refine ⟨‹_›, by simp, fun d => ?_⟩
    rw [List.getElem?_modify]
    split <;> cases cells[d]? <;> rfl
  · cases h

/-- The state of the links while the faces of cell `cid` are being cut: `todo` are the faces still to be cut. -/
structure Mid (cid : Nat) (s0 : Complex) (a : Acc) (todo : List Nat) : Prop where
  len : a.s.cells.length = s0.cells.length
  inner : ∀ c : Nat, (a.s.cells[c]?).map Cell.inner = (s0.cells[c]?).map Cell.inner
  cells : ∀ (f : Nat) (F : Face), a.s.faces[f]? = some F → F.cells.1 < a.s.cells.length ∧ (∀ c, F.cells.2 = some c → c < a.s.cells.length ∧ c ≠ F.cells.1)
  nodup : ∀ (c : Nat) (C : Cell), a.s.cells[c]? = some C → c ≠ cid → C.faces.Nodup
  link : ∀ (c : Nat) (C : Cell), a.s.cells[c]? = some C → c ≠ cid → ∀ f : Nat, f ∈ C.faces ↔ ∃ F : Face, a.s.faces[f]? = some F ∧ F.bounds c
  own : (a.pos ++ a.neg ++ todo).Nodup
  ownLink : ∀ f : Nat, f ∈ a.pos ++ a.neg ++ todo ↔ ∃ F : Face, a.s.faces[f]? = some F ∧ F.bounds cid

theorem bounds_lt {s : Complex} {c : Nat} {F : Face} (hc : F.cells.1 < s.cells.length ∧ (∀ c, F.cells.2 = some c → c < s.cells.length ∧ c ≠ F.cells.1))
    (hb : F.bounds c) : c < s.cells.length := by
  rcases hb with h | h
  · rw [← h]; exact hc.1
  · exact (hc.2 c h).1

/-- The cells of the neighbours of a face that is cut. -/
theorem neighbours {F : Face} {cid new : Nat} {cells : List Cell} (h1 : F.cells.1 < cells.length)
    (h2 : ∀ c, F.cells.2 = some c → c < cells.length ∧ c ≠ F.cells.1) :
    ∃ cells', (F.cells.1 :: F.cells.2.toList).foldlM (fun cells nei => if nei ≠ cid then pushFace cells nei new else some cells) cells = some cells' ∧
      cells'.length = cells.length ∧
      ∀ d : Nat, cells'[d]? = if F.bounds d ∧ d ≠ cid then (cells[d]?).map fun C => { C with faces := C.faces ++ [new] } else cells[d]? := by
  obtain ⟨⟨c1, c2⟩, tris⟩ := F
  simp only at h1 h2
  have one : ∀ (cells : List Cell) c, c < cells.length → ∃ cells', (if c ≠ cid then pushFace cells c new else some cells) = some cells' ∧
      cells'.length = cells.length ∧
      ∀ d : Nat, cells'[d]? = if c = d ∧ d ≠ cid then (cells[d]?).map fun C => { C with faces := C.faces ++ [new] } else cells[d]? := by
    intro cells c hc
    by_cases h : c = cid
    · refine ⟨cells, by rw [if_neg (by simpa using h)], rfl, fun d => ?_⟩
      rw [if_neg]; rintro ⟨rfl, hd⟩; exact hd h
    · have hp : pushFace cells c new = some (cells.modify c fun C => { C with faces := C.faces ++ [new] }) := by
        unfold pushFace; rw [if_pos hc]
      obtain ⟨_, l, g⟩ := pushFace_get hp
      refine ⟨_, by rw [if_pos h]; exact hp, l, fun d => ?_⟩
      rw [g]
      by_cases hd : c = d
      · subst hd; rw [if_pos rfl, if_pos ⟨rfl, h⟩]
      · rw [if_neg hd, if_neg (fun x => hd x.1)]
  obtain ⟨m1, r1, l1, g1⟩ := one cells c1 h1
  cases c2 with
  | none =>
    refine ⟨m1, ?_, l1, fun d => ?_⟩
    · simp only [Option.toList, List.foldlM_cons, List.foldlM_nil]; rw [r1]; rfl
    · rw [g1]; simp only [Face.bounds, reduceCtorEq, or_false]
  | some c2 =>
    obtain ⟨hl2, hne⟩ := h2 c2 rfl
    obtain ⟨m2, r2, l2, g2⟩ := one m1 c2 (by omega)
    refine ⟨m2, ?_, by omega, fun d => ?_⟩
    · simp only [Option.toList, List.foldlM_cons, List.foldlM_nil]; rw [r1]
      show (if c2 ≠ cid then pushFace m1 c2 new else some m1).bind _ = _
      rw [r2]; rfl
    · rw [g2, g1]
      simp only [Face.bounds, Option.some.injEq]
      by_cases e1 : c1 = d
      · have e2 : c2 ≠ d := fun h => hne (h.trans e1.symm)
        simp only [e1, e2, true_or, true_and, false_and, if_false]
      · simp only [e1, false_or, false_and, if_false]

theorem cutFace_mid {T : Tests} {cid : Nat} {s0 : Complex} {a : Acc} {fid : Nat} {todo : List Nat} (h : Mid cid s0 a (fid :: todo)) :
    ∃ a', cutFace T cid a fid = some a' ∧ Mid cid s0 a' todo := by
  obtain ⟨F, hF, hb⟩ := (h.ownLink fid).1 (by simp)
  obtain ⟨hc1, hc2⟩ := h.cells fid F hF
  obtain ⟨cells', r, l, g⟩ := neighbours (F := F) (cid := cid) (new := a.s.faces.length) hc1 hc2
  have hfl : fid < a.s.faces.length := (List.getElem?_eq_some_iff.1 hF).1
  refine ⟨cutResult T a fid F cells', ?_, ?_⟩
  · unfold cutFace
    rw [hF]
    show Option.bind ((F.cells.1 :: F.cells.2.toList).foldlM _ a.s.cells) _ = _
    rw [r]; rfl
  · -- the faces afterwards
    have hget : ∀ (old new : List Nat) (f : Nat) (F' : Face), (a.s.faces.set fid { F with tris := old } ++ [{ F with tris := new }])[f]? = some F' →
        (f < a.s.faces.length ∧ ∃ F0, a.s.faces[f]? = some F0 ∧ F0.cells = F'.cells) ∨ (f = a.s.faces.length ∧ F'.cells = F.cells) := by
      intro old new f F' hf
      rcases lt_trichotomy f a.s.faces.length with hlt | heq | hgt
      · left
        rw [List.getElem?_append_left (by simpa using hlt), List.getElem?_set] at hf
        split at hf
        · subst ‹fid = f›
          cases hf
          exact ⟨hlt, F, hF, rfl⟩
        · exact ⟨hlt, F', hf, rfl⟩
      · right
        subst heq
        rw [List.getElem?_append_right (by simp)] at hf
        simp only [List.length_set, Nat.sub_self, List.getElem?_cons_zero, Option.some.injEq] at hf
        exact ⟨rfl, by rw [← hf]⟩
      · rw [List.getElem?_eq_none (by simp; omega)] at hf; cases hf
    have hput : ∀ (old new : List Nat) (f : Nat) (F0 : Face), a.s.faces[f]? = some F0 →
        ∃ F' : Face, (a.s.faces.set fid { F with tris := old } ++ [{ F with tris := new }])[f]? = some F' ∧ F'.cells = F0.cells := by
      intro old new f F0 hf
      have hlt := (List.getElem?_eq_some_iff.1 hf).1
      rw [List.getElem?_append_left (by simpa using hlt), List.getElem?_set]
      split
      · subst ‹fid = f›
        rw [hF] at hf; cases hf
        exact ⟨_, rfl, rfl⟩
      · exact ⟨F0, hf, rfl⟩
    have hnew : ∀ (old new : List Nat), (a.s.faces.set fid { F with tris := old } ++ [{ F with tris := new }])[a.s.faces.length]? = some { F with tris := new } := by
      intro old new
      rw [List.getElem?_append_right (by simp)]; simp
    have hbc : ∀ {F1 F2 : Face} (c), F1.cells = F2.cells → (F1.bounds c ↔ F2.bounds c) := by
      intro F1 F2 c e; unfold Face.bounds; rw [e]
    have hnotin : ∀ f ∈ a.pos ++ a.neg ++ fid :: todo, f ≠ a.s.faces.length := by
      intro f hf e
      obtain ⟨F1, hF1, _⟩ := (h.ownLink f).1 hf
      rw [e, List.getElem?_eq_none (le_refl _)] at hF1; cases hF1
    refine ⟨l.trans h.len, fun c => ?_, fun f F' hf => ?_, fun c C hC hne => ?_, fun c C hC hne f => ?_, ?_, fun f => ?_⟩
    · show (cells'[c]?).map Cell.inner = _
      rw [g, ← h.inner c]
      split <;> cases a.s.cells[c]? <;> rfl
    · show _ < cells'.length ∧ ∀ c, _ → c < cells'.length ∧ _
      rw [l]
      rcases hget _ _ f F' hf with ⟨_, F0, hF0, e⟩ | ⟨_, e⟩
      · rw [← e]; exact h.cells f F0 hF0
      · rw [e]; exact ⟨hc1, hc2⟩
    · replace hC : cells'[c]? = some C := hC
      rw [g] at hC
      split at hC
      · cases hC0 : a.s.cells[c]? with
        | none => rw [hC0] at hC; cases hC
        | some C0 =>
          rw [hC0] at hC; cases hC
          refine List.Nodup.append (h.nodup c C0 hC0 hne) (by simp) ?_
          intro f hf hf2
          rw [List.mem_singleton] at hf2
          obtain ⟨F1, hF1, _⟩ := (h.link c C0 hC0 hne f).1 hf
          rw [hf2, List.getElem?_eq_none (le_refl _)] at hF1; cases hF1
      · exact h.nodup c C hC hne
    · replace hC : cells'[c]? = some C := hC
      rw [g] at hC
      have key : (∃ F' : Face, (a.s.faces.set fid { F with tris := F.tris.filter fun t => if T.newPos fid then T.hasNeg t else T.hasPos t } ++
          [{ F with tris := F.tris.filter fun t => if T.newPos fid then T.hasPos t else T.hasNeg t }])[f]? = some F' ∧ F'.bounds c) ↔
          (∃ F', a.s.faces[f]? = some F' ∧ F'.bounds c) ∨ (f = a.s.faces.length ∧ F.bounds c) := by
        constructor
        · rintro ⟨F', hf, hb'⟩
          rcases hget _ _ f F' hf with ⟨_, F0, hF0, e⟩ | ⟨e1, e⟩
          · exact .inl ⟨F0, hF0, (hbc c e).2 hb'⟩
          · exact .inr ⟨e1, (hbc c e).1 hb'⟩
        · rintro (⟨F0, hF0, hb0⟩ | ⟨rfl, hb0⟩)
          · obtain ⟨F', hF', e⟩ := hput _ _ f F0 hF0
            exact ⟨F', hF', (hbc c e).2 hb0⟩
          · exact ⟨_, hnew _ _, hb0⟩
      refine Iff.trans ?_ key.symm
      split at hC
      · rename_i hcond
        cases hC0 : a.s.cells[c]? with
        | none => rw [hC0] at hC; cases hC
        | some C0 =>
          rw [hC0] at hC; cases hC
          rw [List.mem_append, List.mem_singleton, h.link c C0 hC0 hne f]
          simp only [hcond.1, and_true]
      · rename_i hcond
        rw [h.link c C hC hne f]
        have : ¬ F.bounds c := fun hb' => hcond ⟨hb', hne⟩
        simp only [this, and_false, or_false]
    · have hperm : (((a.pos ++ [if T.newPos fid then a.s.faces.length else fid]) ++ (a.neg ++ [if T.newPos fid then fid else a.s.faces.length])) ++ todo).Perm
          (a.s.faces.length :: (a.pos ++ a.neg ++ fid :: todo)) := by
        have e : ∀ x y : Nat, (((a.pos ++ [x]) ++ (a.neg ++ [y])) ++ todo).Perm (x :: y :: (a.pos ++ a.neg ++ todo)) := by
          intro x y
          refine List.perm_iff_count.2 fun z => ?_
          simp only [List.count_append, List.count_cons, List.count_nil]; omega
        have e2 : (a.pos ++ a.neg ++ fid :: todo).Perm (fid :: (a.pos ++ a.neg ++ todo)) := List.perm_middle
        cases T.newPos fid with
        | true => exact (e _ _).trans ((e2.symm).cons _)
        | false => exact ((e _ _).trans (List.Perm.swap _ _ _)).trans ((e2.symm).cons _)
      exact hperm.nodup_iff.2 (List.nodup_cons.2 ⟨fun hf => hnotin _ hf rfl, h.own⟩)
    · have hmem : f ∈ ((a.pos ++ [if T.newPos fid then a.s.faces.length else fid]) ++ (a.neg ++ [if T.newPos fid then fid else a.s.faces.length])) ++ todo ↔
          f ∈ a.pos ++ a.neg ++ fid :: todo ∨ f = a.s.faces.length := by
        cases T.newPos fid <;> simp only [List.mem_append, List.mem_cons, List.not_mem_nil, or_false, if_true, if_false, Bool.false_eq_true] <;> tauto
      refine hmem.trans ?_
      rw [h.ownLink f]
      constructor
      · rintro (⟨F0, hF0, hb0⟩ | rfl)
        · obtain ⟨F', hF', e⟩ := hput _ _ f F0 hF0
          exact ⟨F', hF', (hbc cid e).2 hb0⟩
        · exact ⟨_, hnew _ _, hb⟩
      · rintro ⟨F', hf, hb'⟩
        rcases hget _ _ f F' hf with ⟨_, F0, hF0, e⟩ | ⟨e1, e⟩
        · exact .inl ⟨F0, hF0, (hbc cid e).2 hb'⟩
        · exact .inr e1

theorem cutFaces_mid {T : Tests} {cid : Nat} {s0 : Complex} : ∀ (todo : List Nat) {a : Acc}, Mid cid s0 a todo →
    ∃ a', todo.foldlM (cutFace T cid) a = some a' ∧ Mid cid s0 a' []
  | [], a, h => ⟨a, rfl, h⟩
  | f :: todo, a, h => by
    obtain ⟨a1, r1, h1⟩ := cutFace_mid (T := T) h
    obtain ⟨a2, r2, h2⟩ := cutFaces_mid todo h1
    exact ⟨a2, by rw [List.foldlM_cons, r1]; exact r2, h2⟩

theorem rename_bounds {F : Face} {old new c : Nat} (hne : new ≠ old) (h : F.bounds old) (hn : ¬ F.bounds new) :
    (F.rename old new).bounds c ↔ (F.bounds c ∧ c ≠ old) ∨ c = new := by
  obtain ⟨⟨c1, c2⟩, tris⟩ := F
  simp only [Face.bounds, Face.rename] at *
  by_cases h1 : c1 = old
  · by_cases h2 : c2 = some old
    · simp only [h1, h2, if_true, Option.some.injEq, or_self]
      constructor
      · intro e; exact .inr e.symm
      · rintro (⟨e, x⟩ | e)
        · exact absurd e.symm x
        · exact e.symm
    · simp only [h1, h2, if_true, if_false]
      constructor
      · rintro (e | e)
        · exact .inr e.symm
        · refine .inl ⟨.inr e, ?_⟩
          rintro rfl; exact h2 e
      · rintro (⟨e | e, x⟩ | e)
        · exact absurd e.symm x
        · exact .inr e
        · exact .inl e.symm
  · have h2 : c2 = some old := h.resolve_left h1
    simp only [h1, h2, if_true, if_false, Option.some.injEq]
    constructor
    · rintro (e | e)
      · refine .inl ⟨.inl e, ?_⟩
        rintro rfl; exact h1 e
      · exact .inr e.symm
    · rintro (⟨e | e, x⟩ | e)
      · exact .inl e
      · exact absurd e.symm x
      · exact .inr e.symm

/-- The unresolved triangles of the cells after `split_cell`: those in the plane of the pivot are resolved, and if the cell is cut, each half keeps those that meet it. -/
def innersAfter (T : Tests) (cid p : Nat) (C : Cell) (l : List (List Nat)) : List (List Nat) :=
  if ((C.inner.filter (T.coplanar p)).filter T.meets).isEmpty then l.set cid (C.inner.filter fun t => !T.coplanar p t)
  else l.set cid ((C.inner.filter fun t => !T.coplanar p t).filter T.inNeg) ++ [(C.inner.filter fun t => !T.coplanar p t).filter T.inPos]

theorem splitCell_linked {T : Tests} {nOri : Nat} {s : Complex} {cid : Nat} {C : Cell} (h : Linked s) (hT : T.Ok) (hC : s.cells[cid]? = some C)
    (hne : C.inner ≠ []) (hp : T.proper = true) : ∃ s', splitCell T nOri s cid = some s' ∧ Linked s' ∧
      (∀ p, C.inner.getLast? = some p → s'.cells.map Cell.inner = innersAfter T cid p C (s.cells.map Cell.inner)) ∧
      ∃ i1 i2 : List Nat, i1.length < C.inner.length ∧ i2.length < C.inner.length ∧ (∀ t ∈ i1 ++ i2, t ∈ C.inner) ∧
        (s'.cells.map Cell.inner = (s.cells.map Cell.inner).set cid i1 ∨ s'.cells.map Cell.inner = (s.cells.map Cell.inner).set cid i1 ++ [i2]) := by
  have hcl : cid < s.cells.length := (List.getElem?_eq_some_iff.1 hC).1
  have hpiv : C.inner.getLast? = some (C.inner.getLast hne) := List.getLast?_eq_some_getLast hne
  generalize C.inner.getLast hne = p at hpiv
  have hpm : p ∈ C.inner := List.mem_of_getLast? hpiv
  have hcop : p ∈ C.inner.filter (T.coplanar p) := List.mem_filter.2 ⟨hpm, hT.self p⟩
  obtain ⟨q, hq⟩ : ∃ q, (C.inner.filter (T.coplanar p)).getLast? = some q := by
    rw [← Option.isSome_iff_exists]; simpa using List.ne_nil_of_mem hcop
  have hlt : (C.inner.filter fun t => !T.coplanar p t).length < C.inner.length := by
    refine lt_of_le_of_ne (List.length_filter_le _ _) fun e => ?_
    rw [List.length_filter_eq_length_iff] at e
    have := e p hpm
    rw [hT.self p] at this; simp at this
  have hmi : ∀ t ∈ C.inner.filter (fun t => !T.coplanar p t), t ∈ C.inner := fun t ht => (List.mem_filter.1 ht).1
  unfold splitCell
  rw [hC]
  simp only [Option.bind_eq_bind, Option.bind_some, hpiv, hq, hp, Bool.not_true, Bool.false_eq_true, if_false]
  have hia : ∀ p', some p = some p' → p' = p := fun p' e => (Option.some.inj e).symm
  have hin' := fun l => innersAfter.eq_1 T cid p C l
  generalize hin : C.inner.filter (fun t => !T.coplanar p t) = inner at *
  split
  · -- no triangle reaches the cell
    rename_i hh
    refine ⟨_, rfl, ⟨?_, ?_, ?_⟩, fun p' e => by rw [hia p' e, hin', if_pos hh, List.map_set], inner, [], hlt, ?_, ?_, .inl ?_⟩
    · intro f F hf
      simp only [List.length_set]
      exact h.cells f F hf
    · intro c C' hc
      rw [List.getElem?_set] at hc
      split at hc
      · subst ‹cid = c›; cases hc
        exact h.nodup cid C hC
      · exact h.nodup c C' hc
    · intro c C' hc f
      rw [List.getElem?_set] at hc
      split at hc
      · subst ‹cid = c›; cases hc
        exact h.link cid C hC f
      · exact h.link c C' hc f
    · exact lt_of_le_of_lt (Nat.zero_le _) hlt
    · simpa using hmi
    · simp only [List.map_set]
  · rename_i hh
    have hkind : ∀ f, f ∈ C.faces ↔ f ∈ (C.faces.filter fun f => decide (T.kind f = .pos ∨ T.kind f = .zero)) ++ (C.faces.filter fun f => decide (T.kind f = .neg)) ++
        (C.faces.filter fun f => decide (T.kind f = .cut)) := by
      intro f
      simp only [List.mem_append, List.mem_filter, decide_eq_true_eq]
      cases T.kind f <;> simp
    have hnd := h.nodup cid C hC
    have m0 : Mid cid s { s, pos := C.faces.filter fun f => decide (T.kind f = .pos ∨ T.kind f = .zero), neg := C.faces.filter fun f => decide (T.kind f = .neg) }
        (T.order (C.faces.filter fun f => decide (T.kind f = .cut))) := by
      have hperm := hT.perm (C.faces.filter fun f => decide (T.kind f = .cut))
      refine ⟨rfl, fun _ => rfl, h.cells, fun c C' hc _ => h.nodup c C' hc, fun c C' hc _ => h.link c C' hc, ?_, fun f => ?_⟩
      · refine (List.Perm.append_left _ hperm).nodup_iff.2 ?_
        have dj : ∀ (P Q : Nat → Bool), (∀ f, P f = true → Q f = true → False) → (C.faces.filter P).Disjoint (C.faces.filter Q) :=
          fun P Q hPQ f h1 h2 => hPQ f (List.mem_filter.1 h1).2 (List.mem_filter.1 h2).2
        refine List.Nodup.append (List.Nodup.append (hnd.filter _) (hnd.filter _) (dj _ _ ?_)) (hnd.filter _) ?_
        · intro f h1 h2
          simp only [decide_eq_true_eq] at h1 h2
          rw [h2] at h1; simp at h1
        · refine List.disjoint_append_left.2 ⟨dj _ _ ?_, dj _ _ ?_⟩ <;> intro f h1 h2 <;> simp only [decide_eq_true_eq] at h1 h2 <;> rw [h2] at h1 <;> simp at h1
      · refine ((List.Perm.append_left _ hperm).mem_iff).trans ((hkind f).symm.trans (h.link cid C hC f))
    obtain ⟨a, r, m⟩ := cutFaces_mid (T := T) _ m0
    rw [r]
    have hinn : (a.s.cells.set cid { faces := a.neg ++ [a.s.faces.length], inner := inner.filter T.inNeg } ++ [({ faces := a.pos ++ [a.s.faces.length], inner := inner.filter T.inPos } : Cell)]).map Cell.inner =
        (s.cells.map Cell.inner).set cid (inner.filter T.inNeg) ++ [inner.filter T.inPos] := by
      simp only [List.map_append, List.map_set, List.map_cons, List.map_nil]
      congr 2
      refine List.ext_getElem? fun c => ?_
      rw [List.getElem?_map, List.getElem?_map]
      exact m.inner c
    refine ⟨_, rfl, ?_, fun p' e => by rw [hia p' e, hin', if_neg hh]; exact hinn, inner.filter T.inNeg, inner.filter T.inPos, lt_of_le_of_lt (List.length_filter_le _ _) hlt, lt_of_le_of_lt (List.length_filter_le _ _) hlt, ?_, .inr ?_⟩
    · have hown := m.own
      have hol := m.ownLink
      simp only [List.append_nil] at hown hol
      have hnc : a.s.cells.length ≠ cid := by have := m.len; omega
      have hnb : ∀ (f : Nat) (F : Face), a.s.faces[f]? = some F → ¬ F.bounds a.s.cells.length := fun f F hf hb => lt_irrefl _ (bounds_lt (m.cells f F hf) hb)
      have hnf : ∀ (f : Nat) (F : Face), a.s.faces[f]? = some F → f ≠ a.s.faces.length := fun f F hf e => by
        rw [e, List.getElem?_eq_none (le_refl _)] at hf; cases hf
      -- the faces afterwards
      have hfaces : ∀ (x : Face) (f : Nat), (a.s.faces.mapIdx (fun i F => if i ∈ a.pos then F.rename cid a.s.cells.length else F) ++ [x])[f]? =
          if f = a.s.faces.length then some x else (a.s.faces[f]?).map fun F => if f ∈ a.pos then F.rename cid a.s.cells.length else F := by
        intro x f
        by_cases e : f = a.s.faces.length
        · subst e
          rw [if_pos rfl, List.getElem?_append_right (by simp)]; simp
        · rw [if_neg e]
          rcases lt_or_gt_of_ne e with hlt | hgt
          · rw [List.getElem?_append_left (by simpa using hlt), List.getElem?_mapIdx]
          · rw [List.getElem?_eq_none (by simp; omega), List.getElem?_eq_none (by omega)]; rfl
      have hcells : ∀ (x y : Cell) (c : Nat), (a.s.cells.set cid x ++ [y])[c]? = if c = a.s.cells.length then some y else if c = cid then some x else a.s.cells[c]? := by
        intro x y c
        by_cases e : c = a.s.cells.length
        · subst e
          rw [if_pos rfl, List.getElem?_append_right (by simp)]; simp
        · rw [if_neg e]
          rcases lt_or_gt_of_ne e with hlt | hgt
          · rw [List.getElem?_append_left (by simpa using hlt), List.getElem?_set]
            by_cases e2 : c = cid
            · rw [if_pos e2.symm, if_pos e2, if_pos (by omega)]
            · rw [if_neg (Ne.symm e2), if_neg e2]
          · rw [List.getElem?_eq_none (by simp; omega), if_neg (by have := m.len; omega), List.getElem?_eq_none (by omega)]
      -- which cells a face bounds afterwards
      have hbnd : ∀ (f c : Nat), (∃ F, (a.s.faces.mapIdx (fun i F => if i ∈ a.pos then F.rename cid a.s.cells.length else F) ++
          [{ cells := (a.s.cells.length, some cid), tris := ((C.inner.filter (T.coplanar p)).filter T.meets).filter (· < nOri) }])[f]? = some F ∧ F.bounds c) ↔
          (f = a.s.faces.length ∧ (c = a.s.cells.length ∨ c = cid)) ∨
          (∃ F, a.s.faces[f]? = some F ∧ F.bounds c ∧ (f ∈ a.pos → c ≠ cid)) ∨ (f ∈ a.pos ∧ c = a.s.cells.length) := by
        intro f c
        rw [hfaces]
        by_cases e : f = a.s.faces.length
        · rw [if_pos e]
          have hno : f ∉ a.pos := fun hf => by
            obtain ⟨F, hF, _⟩ := (hol f).1 (List.mem_append_left _ hf)
            exact hnf f F hF e
          have hno2 : ∀ F, a.s.faces[f]? ≠ some F := fun F hF => hnf f F hF e
          simp only [Option.some.injEq, e, true_and, exists_eq_left', Face.bounds]
          constructor
          · rintro (h1 | h1)
            · exact .inl (.inl h1.symm)
            · exact .inl (.inr h1.symm)
          · rintro ((h1 | h1) | ⟨F, hF, _⟩ | ⟨h1, _⟩)
            · exact .inl h1.symm
            · exact .inr h1.symm
            · exact absurd hF (e ▸ hno2 F)
            · exact absurd h1 (e ▸ hno)
        · rw [if_neg e]
          simp only [e, false_and, false_or]
          by_cases hpos : f ∈ a.pos
          · obtain ⟨F, hF, hb⟩ := (hol f).1 (List.mem_append_left _ hpos)
            rw [hF]
            simp only [Option.map_some, if_true, Option.some.injEq, exists_eq_left', hpos, true_and, forall_const]
            rw [rename_bounds hnc hb (hnb f F hF)]
          · simp only [hpos, if_false, false_and, or_false, false_imp_iff, and_true]
            cases a.s.faces[f]? <;> simp
      refine ⟨fun f F hf => ?_, fun c C' hc => ?_, fun c C' hc f => ?_⟩
      · rw [hfaces] at hf
        simp only [List.length_append, List.length_set, List.length_singleton]
        split at hf
        · cases hf
          exact ⟨by simp, fun c e => by cases e; exact ⟨by have := m.len; omega, fun e => hnc e.symm⟩⟩
        · cases hF0 : a.s.faces[f]? with
          | none => rw [hF0] at hf; cases hf
          | some F0 =>
            obtain ⟨q1, q2⟩ := m.cells f F0 hF0
            rw [hF0] at hf
            simp only [Option.map_some, Option.some.injEq] at hf
            split at hf
            · subst hf
              simp only [Face.rename]
              refine ⟨by split <;> omega, fun c e => ?_⟩
              split at e
              · cases e
                refine ⟨by omega, ?_⟩
                rw [if_neg]
                · omega
                · rename_i hs
                  exact fun e => (q2 cid hs).2 e.symm
              · obtain ⟨q3, q4⟩ := q2 c e
                refine ⟨by omega, ?_⟩
                split
                · omega
                · exact q4
            · subst hf
              exact ⟨by omega, fun c e => ⟨by have := (q2 c e).1; omega, (q2 c e).2⟩⟩
      · rw [hcells] at hc
        have hfresh : ∀ f ∈ a.pos ++ a.neg, f ≠ a.s.faces.length := fun f hf => by
          obtain ⟨F, hF, _⟩ := (hol f).1 hf
          exact hnf f F hF
        have hsep := List.nodup_append.1 hown
        split at hc
        · cases hc
          exact List.Nodup.append hsep.1 (by simp) (by
            intro f h1 h2; exact hfresh f (List.mem_append_left _ h1) (List.mem_singleton.1 h2))
        · split at hc
          · cases hc
            exact List.Nodup.append hsep.2.1 (by simp) (by
              intro f h1 h2; exact hfresh f (List.mem_append_right _ h1) (List.mem_singleton.1 h2))
          · exact m.nodup c C' hc ‹_›
      · rw [hbnd]
        rw [hcells] at hc
        split at hc
        · rename_i e
          cases hc
          rw [List.mem_append, List.mem_singleton]
          constructor
          · rintro (h1 | h1)
            · exact .inr (.inr ⟨h1, e⟩)
            · exact .inl ⟨h1, .inl e⟩
          · rintro (⟨h1, _⟩ | ⟨F, hF, hb, _⟩ | ⟨h1, _⟩)
            · exact .inr h1
            · exact absurd (e ▸ hb) (hnb f F hF)
            · exact .inl h1
        · rename_i e
          split at hc
          · rename_i e2
            cases hc
            rw [List.mem_append, List.mem_singleton]
            have hdis := (List.nodup_append.1 hown).2.2
            constructor
            · rintro (h1 | h1)
              · obtain ⟨F, hF, hb⟩ := (hol f).1 (List.mem_append_right _ h1)
                exact .inr (.inl ⟨F, hF, e2 ▸ hb, fun hpos => absurd rfl (hdis f hpos f h1)⟩)
              · exact .inl ⟨h1, .inr e2⟩
            · rintro (⟨h1, _⟩ | ⟨F, hF, hb, hpos⟩ | ⟨_, h1⟩)
              · exact .inr h1
              · have := (hol f).2 ⟨F, hF, e2 ▸ hb⟩
                rcases List.mem_append.1 this with h2 | h2
                · exact absurd e2 (hpos h2)
                · exact .inl h2
              · exact absurd h1 e
          · rename_i e2
            rw [m.link c C' hc e2 f]
            constructor
            · rintro ⟨F, hF, hb⟩; exact .inr (.inl ⟨F, hF, hb, fun _ => e2⟩)
            · rintro (⟨_, h1 | h1⟩ | ⟨F, hF, hb, _⟩ | ⟨_, h1⟩)
              · exact absurd h1 e
              · exact absurd h1 e2
              · exact ⟨F, hF, hb⟩
              · exact absurd h1 e
    · intro t ht
      rcases List.mem_append.1 ht with ht | ht <;> exact hmi t (List.mem_filter.1 ht).1
    · simp only [List.map_append, List.map_set, List.map_cons, List.map_nil]
      congr 2
      refine List.ext_getElem? fun c => ?_
      rw [List.getElem?_map, List.getElem?_map]
      exact m.inner c

/-! ### Proofs: termination -/

/-- The weight of a complex: a cell with `k` unresolved triangles weighs `3 ^ k`. -/
def weight (l : List (List Nat)) : Nat := (l.map fun i => 3 ^ i.length).sum

theorem weight_set : ∀ (l : List (List Nat)) (i : Nat) (x y : List Nat), l[i]? = some y → weight (l.set i x) + 3 ^ y.length = weight l + 3 ^ x.length
  | [], i, x, y, h => by simp at h
  | z :: l, 0, x, y, h => by
    simp only [List.getElem?_cons_zero, Option.some.injEq] at h
    subst h
    simp only [weight, List.set_cons_zero, List.map_cons, List.sum_cons]; omega
  | z :: l, i + 1, x, y, h => by
    have := weight_set l i x y (by simpa using h)
    simp only [weight, List.set_cons_succ, List.map_cons, List.sum_cons] at *
    omega

/-- The rounds still needed. -/
def rounds (s : Complex) (cid : Nat) : Nat := 2 * weight (s.cells.map Cell.inner) + s.cells.length - cid

/-- A call of `split_cell` reduces the weight by more than the number of new cells. -/
theorem splitCell_weight {T : Tests} {nOri : Nat} {s s' : Complex} {cid : Nat} {C : Cell} (h : Linked s) (hT : T.Ok) (hC : s.cells[cid]? = some C)
    (hne : C.inner ≠ []) (hp : T.proper = true) (hs : splitCell T nOri s cid = some s') :
    weight (s'.cells.map Cell.inner) + 1 ≤ weight (s.cells.map Cell.inner) ∧ s'.cells.length ≤ s.cells.length + 1 ∧ s.cells.length ≤ s'.cells.length := by
  obtain ⟨s'', r, _, _, i1, i2, l1, l2, _, e⟩ := splitCell_linked (nOri := nOri) h hT hC hne hp
  rw [hs] at r; cases r
  have hy : (s.cells.map Cell.inner)[cid]? = some C.inner := by rw [List.getElem?_map, hC]; rfl
  have w := weight_set _ cid i1 _ hy
  have p1 : 3 * 3 ^ i1.length ≤ 3 ^ C.inner.length := by
    rw [← pow_succ']; exact Nat.pow_le_pow_right (by norm_num) l1
  have p2 : 3 * 3 ^ i2.length ≤ 3 ^ C.inner.length := by
    rw [← pow_succ']; exact Nat.pow_le_pow_right (by norm_num) l2
  have q1 : 0 < 3 ^ i1.length := by positivity
  have q2 : 0 < 3 ^ i2.length := by positivity
  rcases e with e | e
  · have hl : s'.cells.length = s.cells.length := by simpa using congrArg List.length e
    rw [e]; exact ⟨by omega, by omega, by omega⟩
  · have hl : s'.cells.length = s.cells.length + 1 := by simpa using congrArg List.length e
    rw [e]
    refine ⟨?_, by omega, by omega⟩
    have : weight ((s.cells.map Cell.inner).set cid i1 ++ [i2]) = weight ((s.cells.map Cell.inner).set cid i1) + 3 ^ i2.length := by
      simp [weight]
    omega

theorem subdivide_spec {T : Nat → Tests} {nOri : Nat} (hT : ∀ n, (T n).Ok) : ∀ (fuel cid : Nat) (s : Complex), Linked s → rounds s cid < fuel →
    (∀ c C, s.cells[c]? = some C → c < cid → C.inner = []) →
    (∃ s', subdivide T nOri fuel cid s = .done s' ∧ Linked s' ∧ (∀ C ∈ s'.cells, C.inner = []) ∧
      s'.cells.length + weight (s'.cells.map Cell.inner) ≤ s.cells.length + weight (s.cells.map Cell.inner)) ∨
    (subdivide T nOri fuel cid s = .panic ∧ ∃ n, (T n).proper = false)
  | 0, _, _, _, hf, _ => by omega
  | fuel + 1, cid, s, h, hf, hd => by
    unfold subdivide
    cases hC : s.cells[cid]? with
    | none =>
      refine .inl ⟨s, rfl, h, fun C hm => ?_, le_refl _⟩
      obtain ⟨c, hc⟩ := List.getElem?_of_mem hm
      refine hd c C hc ?_
      have h1 := (List.getElem?_eq_some_iff.1 hc).1
      have h2 := List.getElem?_eq_none_iff.1 hC
      omega
    | some C =>
      have hcl := (List.getElem?_eq_some_iff.1 hC).1
      simp only
      by_cases he : C.inner = []
      · rw [if_pos (by simp [he])]
        refine subdivide_spec hT fuel (cid + 1) s h (by unfold rounds at *; omega) fun c C' hc hlt => ?_
        rcases Nat.lt_or_eq_of_le (Nat.le_of_lt_succ hlt) with h1 | h1
        · exact hd c C' hc h1
        · rw [h1, hC] at hc; cases hc; exact he
      · rw [if_neg (by simpa using he)]
        cases hp : (T fuel).proper with
        | false =>
          right
          refine ⟨?_, fuel, hp⟩
          have : splitCell (T fuel) nOri s cid = none := by
            unfold splitCell
            rw [hC]
            simp only [Option.bind_eq_bind, Option.bind_some, hp, Bool.not_false, if_true]
            cases C.inner.getLast? with
            | none => rfl
            | some p => simp only [Option.bind_some]; cases (C.inner.filter ((T fuel).coplanar p)).getLast? <;> rfl
          rw [this]
        | true =>
          obtain ⟨s', r, h', _, i1, i2, l1, l2, _, e⟩ := splitCell_linked (nOri := nOri) h (hT fuel) hC he hp
          obtain ⟨w1, w2, w3⟩ := splitCell_weight h (hT fuel) hC he hp r
          rw [r]
          have hd' : ∀ (c : Nat) (C : Cell), s'.cells[c]? = some C → c < cid → C.inner = [] := by
            intro c C' hc hlt
            have hc2 : (s'.cells.map Cell.inner)[c]? = some C'.inner := by rw [List.getElem?_map, hc]; rfl
            have hc3 : (s.cells.map Cell.inner)[c]? = some C'.inner := by
              rcases e with e | e <;> rw [e] at hc2
              · rwa [List.getElem?_set_ne (by omega)] at hc2
              · rwa [List.getElem?_append_left (by simp; omega), List.getElem?_set_ne (by omega)] at hc2
            rw [List.getElem?_map] at hc3
            obtain ⟨C0, hC0, e0⟩ := Option.map_eq_some_iff.1 hc3
            rw [← e0]; exact hd c C0 hC0 hlt
          rcases subdivide_spec hT fuel cid s' h' (by unfold rounds at *; omega) hd' with ⟨s2, r2, q1, q2, q3⟩ | hpanic
          · exact .inl ⟨s2, r2, q1, q2, by omega⟩
          · exact .inr hpanic

/-! ### The properties -/

/-- C51. From every complex with consistent links and for all outcomes of the geometric tests, the subdivision loop ends within
`2 * weight + n + 1` rounds, and then no cell has an unresolved triangle and there are at most `n + weight` cells, where `n` is the number of
cells in the beginning and a cell with `k` unresolved triangles weighs `3 ^ k`. It panics only if in some round no vertices of the cell are
found on both sides of the plane of one of its triangles. -/
theorem c51_subdivide (T : Nat → Tests) (hT : ∀ n, (T n).Ok) (nOri : Nat) (s : Complex) (h : Linked s) :
    (∃ s', subdivide T nOri (2 * weight (s.cells.map Cell.inner) + s.cells.length + 1) 0 s = .done s' ∧ (∀ C ∈ s'.cells, C.inner = []) ∧
      s'.cells.length ≤ s.cells.length + weight (s.cells.map Cell.inner)) ∨
    (subdivide T nOri (2 * weight (s.cells.map Cell.inner) + s.cells.length + 1) 0 s = .panic ∧ ∃ n, (T n).proper = false) := by
  rcases subdivide_spec hT (nOri := nOri) (2 * weight (s.cells.map Cell.inner) + s.cells.length + 1) 0 s h (by unfold rounds; omega) (fun _ _ _ h => absurd h (by omega)) with
    ⟨s', r, _, q, l⟩ | hp
  · exact .inl ⟨s', r, q, by omega⟩
  · exact .inr hp

/-- C51. More rounds do not change the result. -/
theorem c51_fuel (T : Nat → Tests) (nOri : Nat) (s : Complex) (cid fuel : Nat) (h : subdivide T nOri fuel cid s ≠ .running) (k : Nat) :
    subdivide (fun n => T (n - k)) nOri (fuel + k) cid s = subdivide T nOri fuel cid s := by
  induction fuel generalizing s cid with
  | zero => exact absurd rfl h
  | succ fuel ih =>
    rw [show fuel + 1 + k = (fuel + k) + 1 by omega]
    unfold subdivide at h ⊢
    cases hC : s.cells[cid]? with
    | none => rfl
    | some C =>
      rw [hC] at h
      simp only [Nat.add_sub_cancel] at h ⊢
      split
      · rename_i hi
        rw [if_pos hi] at h
        exact ih _ _ h
      · rename_i hi
        rw [if_neg hi] at h
        cases hsp : splitCell (T fuel) nOri s cid with
        | none => rfl
        | some s' => rw [hsp] at h; exact ih _ _ h

/-- C52. `split_cell` does not panic if the cell has an unresolved triangle whose plane has vertices of the cell on both sides, and keeps the
links between cells and faces consistent, for all outcomes of the other tests. -/
theorem c52_split_cell (T : Tests) (hT : T.Ok) (nOri : Nat) (s : Complex) (h : Linked s) (cid : Nat) (C : Cell) (hC : s.cells[cid]? = some C)
    (hne : C.inner ≠ []) (hp : T.proper = true) : ∃ s', splitCell T nOri s cid = some s' ∧ Linked s' := by
  obtain ⟨s', r, l, _⟩ := splitCell_linked (nOri := nOri) h hT hC hne hp
  exact ⟨s', r, l⟩

/-- C52. The whole subdivision keeps the links consistent. -/
theorem c52_subdivide (T : Nat → Tests) (hT : ∀ n, (T n).Ok) (nOri : Nat) (s : Complex) (h : Linked s) (fuel : Nat)
    (hf : 2 * weight (s.cells.map Cell.inner) + s.cells.length < fuel) (s' : Complex) (r : subdivide T nOri fuel 0 s = .done s') : Linked s' := by
  rcases subdivide_spec hT (nOri := nOri) fuel 0 s h (by unfold rounds; omega) (fun _ _ _ h => absurd h (by omega)) with ⟨s2, r2, q, _⟩ | ⟨hp, _⟩
  · rw [r] at r2; cases r2; exact q
  · rw [r] at hp; cases hp

/-- Only original triangles are stored on faces, never virtual ones. -/
def OnlyOriginal (nOri : Nat) (faces : List Face) : Prop := ∀ F ∈ faces, ∀ t ∈ F.tris, t < nOri

theorem cutFaces_original {T : Tests} {cid nOri : Nat} : ∀ (todo : List Nat) {a a' : Acc}, todo.foldlM (cutFace T cid) a = some a' →
    OnlyOriginal nOri a.s.faces → OnlyOriginal nOri a'.s.faces
  | [], a, a', h, ho => by cases h; exact ho
  | f :: todo, a, a', h, ho => by
    rw [List.foldlM_cons] at h
    obtain ⟨a1, h1, h2⟩ := Option.bind_eq_some_iff.1 h
    refine cutFaces_original todo h2 ?_
    unfold cutFace at h1
    obtain ⟨F, hF, h3⟩ := Option.bind_eq_some_iff.1 h1
    obtain ⟨cells, _, h4⟩ := Option.bind_eq_some_iff.1 h3
    cases h4
    have hm := List.mem_of_getElem? hF
    intro G hG t ht
    simp only [cutResult, List.mem_append, List.mem_singleton] at hG
    rcases hG with hG | rfl
    · rcases List.mem_or_eq_of_mem_set hG with hG | rfl
      · exact ho G hG t ht
      · exact ho F hm t (List.mem_filter.1 ht).1
    · exact ho F hm t (List.mem_filter.1 ht).1

/-- C67. `split_cell` never records a virtual triangle on a face, so `tri_in_shell[tid]` in `complex_partition` is in range. -/
theorem c67_original (T : Tests) (nOri : Nat) (s s' : Complex) (cid : Nat) (h : splitCell T nOri s cid = some s') (ho : OnlyOriginal nOri s.faces) :
    OnlyOriginal nOri s'.faces := by
  unfold splitCell at h
  obtain ⟨C, _, h⟩ := Option.bind_eq_some_iff.1 h
  obtain ⟨p, _, h⟩ := Option.bind_eq_some_iff.1 h
  obtain ⟨q, _, h⟩ := Option.bind_eq_some_iff.1 h
  split at h
  · cases h
  · extract_lets hits at h
    split at h
    · cases h; exact ho
    · obtain ⟨a, ha, h⟩ := Option.bind_eq_some_iff.1 h
      cases h
      have h0 := cutFaces_original (nOri := nOri) _ ha ho
      intro G hG t ht
      simp only [List.mem_append, List.mem_singleton] at hG
      rcases hG with hG | rfl
      · obtain ⟨i, hi, rfl⟩ := List.mem_mapIdx.1 hG
        split at ht
        · exact h0 _ (List.getElem_mem hi) t ht
        · exact h0 _ (List.getElem_mem hi) t ht
      · simpa using (List.mem_filter.1 ht).2

/-- C67. When a face is cut, its positive part keeps exactly the triangles with a corner on the positive side and its negative part exactly
those with a corner on the negative side. -/
theorem c67_parts (T : Tests) (cid : Nat) (a a' : Acc) (fid : Nat) (F : Face) (hF : a.s.faces[fid]? = some F) (h : cutFace T cid a fid = some a') :
    ∃ fp fn P N, a'.pos = a.pos ++ [fp] ∧ a'.neg = a.neg ++ [fn] ∧ fp ≠ fn ∧ a'.s.faces[fp]? = some P ∧ a'.s.faces[fn]? = some N ∧
      P.tris = F.tris.filter T.hasPos ∧ N.tris = F.tris.filter T.hasNeg ∧ P.cells = F.cells ∧ N.cells = F.cells := by
  have hlt := (List.getElem?_eq_some_iff.1 hF).1
  unfold cutFace at h
  obtain ⟨F', hF', h⟩ := Option.bind_eq_some_iff.1 h
  rw [hF] at hF'; cases hF'
  obtain ⟨cells, _, h⟩ := Option.bind_eq_some_iff.1 h
  cases h
  have e1 : ∀ x y : Face, (a.s.faces.set fid x ++ [y])[fid]? = some x := by
    intro x y
    rw [List.getElem?_append_left (by simpa using hlt), List.getElem?_set_self hlt]
  have e2 : ∀ x y : Face, (a.s.faces.set fid x ++ [y])[a.s.faces.length]? = some y := by
    intro x y
    rw [List.getElem?_append_right (by simp)]; simp
  unfold cutResult
  cases T.newPos fid with
  | true => exact ⟨a.s.faces.length, fid, _, _, rfl, rfl, by omega, e2 _ _, e1 _ _, rfl, rfl, rfl, rfl⟩
  | false => exact ⟨fid, a.s.faces.length, _, _, rfl, rfl, by omega, e1 _ _, e2 _ _, rfl, rfl, rfl, rfl⟩

/-! ### Examples -/

/-- Two cells with a common face 0; the first has faces 0 to 3, the second 0 and 4 to 6. Triangles 0, 1, 2 are unresolved, 2 is virtual. -/
def exComplex : Complex where
  cells := [⟨[0, 1, 2, 3], [1, 0, 2]⟩, ⟨[0, 4, 5, 6], [1]⟩]
  faces := [⟨(0, some 1), [0]⟩, ⟨(0, none), []⟩, ⟨(0, none), []⟩, ⟨(0, none), []⟩, ⟨(1, none), []⟩, ⟨(1, none), []⟩, ⟨(1, none), []⟩]

/-- Face 0 is cut, triangles 0 and 2 are coplanar. -/
def exTests : Tests where
  coplanar := fun a b => a = b || (a = 2 && b = 0)
  proper := true
  kind := fun f => if f = 0 then .cut else if f = 1 then .pos else if f = 2 then .neg else .zero
  order := id
  meets := fun _ => true
  newPos := fun _ => true
  hasPos := fun _ => true
  hasNeg := fun _ => false
  inPos := fun _ => true
  inNeg := fun t => t = 1

/-- A test for `Linked`. -/
def linkedTest (s : Complex) : Bool :=
  (List.range s.faces.length).all (fun f => (s.faces[f]?).all fun F => decide (F.cells.1 < s.cells.length) &&
    F.cells.2.all fun c => decide (c < s.cells.length) && decide (c ≠ F.cells.1)) &&
  (List.range s.cells.length).all fun c => (s.cells[c]?).all fun C => decide C.faces.Nodup &&
    C.faces.all (fun f => (s.faces[f]?).any fun F => F.bounds c) &&
    (List.range s.faces.length).all fun f => (s.faces[f]?).all fun F => !decide (F.bounds c) || decide (f ∈ C.faces)

theorem linked_of_test {s : Complex} (h : linkedTest s = true) : Linked s := by
  simp only [linkedTest, Bool.and_eq_true, List.all_eq_true, List.mem_range, Option.all_eq_true, Option.any_eq_true, decide_eq_true_eq, Bool.or_eq_true,
    Bool.not_eq_true', decide_eq_false_iff_not] at h
  obtain ⟨h1, h2⟩ := h
  refine ⟨fun f F hf => ?_, fun c C hc => ?_, fun c C hc f => ?_⟩
  · exact h1 f (List.getElem?_eq_some_iff.1 hf).1 F hf
  · exact (h2 c (List.getElem?_eq_some_iff.1 hc).1 C hc).1.1
  · obtain ⟨⟨_, q⟩, r⟩ := h2 c (List.getElem?_eq_some_iff.1 hc).1 C hc
    refine ⟨fun hf => q f hf, fun ⟨F, hF, hb⟩ => ?_⟩
    exact (r f (List.getElem?_eq_some_iff.1 hF).1 F hF).resolve_left (fun n => n hb)

theorem exTests_ok : exTests.Ok := ⟨fun t => by simp [exTests], fun _ => List.Perm.refl _⟩

example : Linked exComplex := linked_of_test (by decide +kernel)

/-- The first call cuts the first cell; the virtual triangle 2 does not appear on the new face 8. -/
example : splitCell exTests 2 exComplex 0 = some
    { cells := [⟨[2, 0, 8], [1]⟩, ⟨[0, 4, 5, 6, 7], [1]⟩, ⟨[1, 3, 7, 8], [1]⟩]
      faces := [⟨(0, some 1), []⟩, ⟨(2, none), []⟩, ⟨(0, none), []⟩, ⟨(2, none), []⟩, ⟨(1, none), []⟩, ⟨(1, none), []⟩, ⟨(1, none), []⟩,
        ⟨(2, some 1), [0]⟩, ⟨(2, some 0), [0]⟩] } := by decide +kernel

/-- The loop runs to the end and leaves six cells. -/
example : (match subdivide (fun _ => exTests) 2 100 0 exComplex with | .done s => s.cells.length | _ => 0) = 6 := by decide +kernel

end Verif.Poly
