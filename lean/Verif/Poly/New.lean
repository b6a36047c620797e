import Verif.Poly.Cells
import Verif.Poly.Lists
import Verif.Tet.Lemmas
import Verif.Tet.Finish
import Mathlib.GroupTheory.Perm.Sign
import Mathlib.Data.Fintype.Perm
import Mathlib.Tactic.FinCases
/-!
# The initial complex: `BSPComplex::new` (`src/polygonlization/bsp_complex.rs` lines 121-187), `remove_ghost_tets` (1406-1417)

The tetrahedral mesh is that of `Verif.Tet`. The vertex, edge and axis data (lines 189-235) are not modelled.
-/
namespace Verif.Poly
open Tet (Mesh TriFace face verOfFace)

/-- `remove_ghost_tets` (lines 1406-1417): solid tetrahedra are numbered in order; `INVALID_IND` is `none`. -/
def newOrders (nPoints : Nat) : List Tet.Tet → Nat → List (Option Nat)
  | [], _ => []
  | x :: l, k => if x.data 3 = nPoints then none :: newOrders nPoints l k else some k :: newOrders nPoints l (k + 1)

/-- The vectors under construction: `face_positions`, `face_data` with `faces`, `cell_data`. -/
structure Build where
  pos : List (Option Nat)
  faces : List (Face × List Nat)
  cells : List Cell

/-- `tet_face_is_new` (lines 120-123). -/
def faceIsNew (tid adjTid : Nat) (adjCid : Option Nat) : Bool := decide (adjTid > tid) || adjCid.isNone

/-- The body of the loop over the neighbours (lines 149-183). `marks k` is `tet_mark[k]`. -/
def faceStep (m : Mesh) (orders : List (Option Nat)) (marks : Nat → Nat → List Nat) (nOri tid cell : Nat) (st : Build × List Nat) (i : Fin 4) :
    Option (Build × List Nat) := do
  let x ← m.tets[tid]?
  let nei ← x.nei i
  let adj ← orders[nei.tet]?
  if faceIsNew tid nei.tet adj then
    let tri := [← m.org nei, ← m.apex nei, ← m.dest nei]
    let F : Face := { cells := (cell, adj), tris := insertCoplanar (marks i tid) [] nOri }
    let fid := st.1.faces.length
    return ({ st.1 with pos := st.1.pos.set (tid * 4 + i) (some fid), faces := st.1.faces ++ [(F, tri)] }, st.2 ++ [fid])
  else
    let j := face nei.ver
    let fid ← (← st.1.pos[nei.tet * 4 + j]?)
    let F ← st.1.faces[fid]?
    let F' : Face := { F.1 with tris := insertCoplanar (marks j nei.tet) F.1.tris nOri }
    return ({ st.1 with faces := st.1.faces.set fid (F', F.2) }, st.2 ++ [fid])

/-- The body of the loop over the tetrahedra (lines 141-187). -/
def tetStep (m : Mesh) (orders : List (Option Nat)) (marks : Nat → Nat → List Nat) (nOri : Nat) (b : Build) (tid : Nat) : Option Build := do
  match ← orders[tid]? with
  | none => return b
  | some cell =>
    let (b, fs) ← [0, 1, 2, 3].foldlM (faceStep m orders marks nOri tid cell) (b, [])
    return { b with cells := b.cells ++ [⟨fs, marks 4 tid⟩] }

/-- `BSPComplex::new` (lines 126-187). -/
def newComplex (m : Mesh) (marks : Nat → Nat → List Nat) (nOri : Nat) : Option Build :=
  let orders := newOrders m.nPoints m.tets 0
  (List.range m.tets.length).foldlM (tetStep m orders marks nOri) { pos := List.replicate (m.tets.length * 4) none, faces := [], cells := [] }

/-- The links of the built complex. -/
def Build.complex (b : Build) : Complex := { cells := b.cells, faces := b.faces.map Prod.fst }

/-! ### Sorted insertion -/

/-- Inserting what is already there changes nothing. -/
theorem insertCoplanar_noop (n : Nat) : ∀ (src dest : List Nat), (∀ x ∈ src, x < n → x ∈ dest) → insertCoplanar src dest n = dest
  | [], _, _ => rfl
  | a :: src, dest, h => by
    have e : insertStep n dest a = dest := by
      unfold insertStep searchErr
      split
      · rw [if_pos (h a (by simp) ‹_›)]
      · rfl
    show insertCoplanar src (insertStep n dest a) n = dest
    rw [e]
    exact insertCoplanar_noop n src dest fun x hx => h x (List.mem_cons_of_mem _ hx)

/-! ### Numbering of the solid tetrahedra -/

/-- The number of solid tetrahedra among the first `t`. -/
def solidBefore (nPoints : Nat) (l : List Tet.Tet) (t : Nat) : Nat := ((l.take t).filter fun x => x.data 3 ≠ nPoints).length

theorem newOrders_get (nPoints : Nat) : ∀ (l : List Tet.Tet) (k t : Nat), (newOrders nPoints l k)[t]? =
    (l[t]?).map fun x => if x.data 3 = nPoints then none else some (k + solidBefore nPoints l t)
  | [], k, t => by simp [newOrders]
  | x :: l, k, 0 => by
    by_cases h : x.data 3 = nPoints <;> simp [newOrders, h, solidBefore]
  | x :: l, k, t + 1 => by
    by_cases h : x.data 3 = nPoints
    · simp only [newOrders, h, if_true, List.getElem?_cons_succ]
      rw [newOrders_get nPoints l k t]
      simp [solidBefore, h]
    · simp only [newOrders, h, if_false, List.getElem?_cons_succ]
      rw [newOrders_get nPoints l (k + 1) t]
      cases l[t]? with
      | none => rfl
      | some y =>
        simp only [Option.map_some, solidBefore, List.take_succ_cons, ne_eq, h, not_false_eq_true, decide_true, List.filter_cons_of_pos, List.length_cons]
        simp only [Nat.add_assoc, Nat.add_comm 1]

/-- The number of a tetrahedron. -/
def ordOf (m : Mesh) (t : Nat) : Option Nat := ((newOrders m.nPoints m.tets 0)[t]?).join

theorem ordOf_get {m : Mesh} {t : Nat} (h : t < m.tets.length) : (newOrders m.nPoints m.tets 0)[t]? = some (ordOf m t) := by
  unfold ordOf
  rw [newOrders_get, List.getElem?_eq_getElem h]; rfl

theorem ordOf_eq {m : Mesh} {t : Nat} {x : Tet.Tet} (h : m.tets[t]? = some x) :
    ordOf m t = if x.data 3 = m.nPoints then none else some (solidBefore m.nPoints m.tets t) := by
  unfold ordOf
  rw [newOrders_get, h]; simp

theorem ordOf_lt {m : Mesh} {t k : Nat} (h : ordOf m t = some k) : t < m.tets.length := by
  by_contra hn
  unfold ordOf at h
  rw [newOrders_get, List.getElem?_eq_none (by omega)] at h
  cases h

theorem solidBefore_succ (nPoints : Nat) (l : List Tet.Tet) (t : Nat) {x : Tet.Tet} (h : l[t]? = some x) :
    solidBefore nPoints l (t + 1) = solidBefore nPoints l t + if x.data 3 = nPoints then 0 else 1 := by
  unfold solidBefore
  rw [List.take_add_one, h]
  by_cases hx : x.data 3 = nPoints <;> simp [List.filter_append, hx]

theorem solidBefore_mono (nPoints : Nat) (l : List Tet.Tet) {t u : Nat} (h : t ≤ u) : solidBefore nPoints l t ≤ solidBefore nPoints l u := by
  unfold solidBefore
  refine ((List.take_prefix_take_left h).sublist.filter _).length_le

theorem ordOf_strict {m : Mesh} {t u k l : Nat} (h1 : ordOf m t = some k) (h2 : ordOf m u = some l) (h : t < u) : k < l := by
  have ht := List.getElem?_eq_getElem (ordOf_lt h1)
  have hu := List.getElem?_eq_getElem (ordOf_lt h2)
  rw [ordOf_eq ht] at h1
  rw [ordOf_eq hu] at h2
  split at h1
  · cases h1
  · rename_i hs
    split at h2
    · cases h2
    · cases h1; cases h2
      have := solidBefore_succ m.nPoints m.tets t ht
      rw [if_neg hs] at this
      have := solidBefore_mono m.nPoints m.tets (Nat.succ_le_of_lt h)
      simp only [Nat.succ_eq_add_one] at this
      omega

theorem ordOf_inj {m : Mesh} {t u k : Nat} (h1 : ordOf m t = some k) (h2 : ordOf m u = some k) : t = u := by
  rcases lt_trichotomy t u with h | h | h
  · exact absurd (ordOf_strict h1 h2 h) (lt_irrefl _)
  · exact h
  · exact absurd (ordOf_strict h2 h1 h) (lt_irrefl _)

/-! ### Faces shared by two tetrahedra -/

/-- All tetrahedra of the mesh are live. -/
abbrev Whole (m : Mesh) : Prop := Tet.Consistent m (· < m.tets.length)

/-- The slot on the other side of face `i` of tetrahedron `t`. -/
def mate (m : Mesh) (s : Nat × Fin 4) : Nat × Fin 4 := ((m.slot s.1 s.2).map fun h => (h.tet, face h.ver)).getD s

/-- The corners of face `i` in the order in which the code stores them. -/
def faceVerts (x : Tet.Tet) (i : Fin 4) : List Nat := [x.data (Tet.destPivot (verOfFace i)), x.data (Tet.apexPivot (verOfFace i)), x.data (Tet.orgPivot (verOfFace i))]

theorem fsymTbl_face : ∀ (i : Fin 4) (w : Tet.Ver), Tet.fsymTbl (verOfFace i) w = w := by decide +kernel

/-- What a consistent mesh says about a slot. -/
structure SlotFacts (m : Mesh) (t : Nat) (i : Fin 4) (x : Tet.Tet) (h : TriFace) : Prop where
  nei : x.nei i = some h
  lt : h.tet < m.tets.length
  ne : h.tet ≠ t
  mate : mate m (t, i) = (h.tet, face h.ver)
  back : Poly.mate m (h.tet, face h.ver) = (t, i)
  verts : [m.org h, m.apex h, m.dest h] = (faceVerts x i).map some

theorem corner_sets : ∀ (v w : Tet.Ver), (Tet.orgPivot w = Tet.destPivot v ∧ Tet.destPivot w = Tet.orgPivot v ∧ Tet.apexPivot w = Tet.apexPivot v) → False := by
  decide +kernel

theorem slot_facts {m : Mesh} (hm : Whole m) {t : Nat} {x : Tet.Tet} (hx : m.tets[t]? = some x) (i : Fin 4) : ∃ h, SlotFacts m t i x h := by
  have ht : t < m.tets.length := (List.getElem?_eq_some_iff.1 hx).1
  obtain ⟨h, hl, g⟩ := hm.glued t ht (verOfFace i)
  have hslot : m.slot t i = some h := by
    have := g.fwd
    rw [Mesh.fsym_eq] at this
    simp only [Tet.face_verOfFace, fsymTbl_face] at this
    obtain ⟨h', e1, e2⟩ := Option.map_eq_some_iff.1 this
    rw [e1, ← e2]
  have hnei : x.nei i = some h := by
    unfold Mesh.slot at hslot
    rw [hx] at hslot; exact hslot
  have hback : mate m (h.tet, face h.ver) = (t, i) := by
    have := g.bwd
    rw [Mesh.fsym_eq] at this
    obtain ⟨h', e1, e2⟩ := Option.map_eq_some_iff.1 this
    unfold mate
    simp only [e1, Option.map_some, Option.getD_some]
    have e3 := congrArg TriFace.tet e2
    have e4 := congrArg (fun q : TriFace => face q.ver) e2
    simp only [Tet.face_fsym, Tet.face_verOfFace] at e3 e4
    rw [e3, e4]
  have ho := g.org
  have hd := g.dest
  have ha := g.apex
  refine ⟨h, hnei, hl, fun e => ?_, by unfold mate; rw [hslot]; rfl, hback, ?_⟩
  · obtain ⟨x', hx', hinj⟩ := hm.corners t ht
    rw [hx] at hx'; cases hx'
    unfold Mesh.org Mesh.dest at ho hd
    unfold Mesh.apex at ha
    simp only [e, hx, Option.map_some, Option.some.injEq] at ho hd ha
    exact corner_sets _ _ ⟨hinj ho, hinj hd, hinj ha⟩
  · rw [ho, hd, ha]
    simp only [Mesh.org, Mesh.dest, Mesh.apex, hx, Option.map_some, faceVerts, List.map_cons, List.map_nil]

/-- The code creates the face when it visits this slot. -/
def Owns (m : Mesh) (s : Nat × Fin 4) : Prop := s.1 < (mate m s).1 ∨ ordOf m (mate m s).1 = none

instance (m : Mesh) : DecidablePred (Owns m) := fun _ => inferInstanceAs (Decidable (_ ∨ _))

/-- The slot at which the face of a slot was created. -/
def rep (m : Mesh) (s : Nat × Fin 4) : Nat × Fin 4 := if Owns m s then s else mate m s

/-- The faces created while visiting the slots of `L`. -/
def owned (m : Mesh) (L : List (Nat × Fin 4)) : List (Nat × Fin 4) := L.filter fun s => decide (Owns m s)

/-- What is known after the slots of `L` have been visited. -/
structure Visited (m : Mesh) (marks : Nat → Nat → List Nat) (nOri : Nat) (L : List (Nat × Fin 4)) (b : Build) : Prop where
  nodup : L.Nodup
  solid : ∀ s ∈ L, ∃ k, ordOf m s.1 = some k
  plen : b.pos.length = m.tets.length * 4
  len : b.faces.length = (owned m L).length
  pos : ∀ s ∈ owned m L, ∃ f, b.pos[s.1 * 4 + s.2]? = some (some f) ∧ (owned m L)[f]? = some s
  faces : ∀ (f : Nat) (s : Nat × Fin 4), (owned m L)[f]? = some s → ∃ (k : Nat) (x : Tet.Tet) (F : Face), ordOf m s.1 = some k ∧ m.tets[s.1]? = some x ∧
    b.faces[f]? = some (F, faceVerts x s.2) ∧ F.cells = (k, ordOf m (mate m s).1) ∧ F.tris = insertCoplanar (marks s.2 s.1) [] nOri

theorem owned_snoc (m : Mesh) (L : List (Nat × Fin 4)) (s : Nat × Fin 4) : owned m (L ++ [s]) = if Owns m s then owned m L ++ [s] else owned m L := by
  unfold owned
  rw [List.filter_append]
  by_cases h : Owns m s <;> simp [h]

theorem index_inj {t u : Nat} {i j : Fin 4} (h : t * 4 + i.1 = u * 4 + j.1) : t = u ∧ i = j := by
  have hi := i.2
  have hj := j.2
  exact ⟨by omega, Fin.ext (by omega)⟩

theorem faceStep_visited {m : Mesh} (hm : Whole m) {marks : Nat → Nat → List Nat} {nOri : Nat} {L : List (Nat × Fin 4)} {b : Build} {fs : List Nat}
    (hv : Visited m marks nOri L b) {t k : Nat} {i : Fin 4} (hk : ordOf m t = some k) (hn : (t, i) ∉ L)
    (hdone : ¬ Owns m (t, i) → mate m (t, i) ∈ L) :
    ∃ b' f, faceStep m (newOrders m.nPoints m.tets 0) marks nOri t k (b, fs) i = some (b', fs ++ [f]) ∧ b'.cells = b.cells ∧
      Visited m marks nOri (L ++ [(t, i)]) b' ∧ (owned m (L ++ [(t, i)]))[f]? = some (rep m (t, i)) := by
  have ht := ordOf_lt hk
  have hx := List.getElem?_eq_getElem ht
  obtain ⟨h, sf⟩ := slot_facts hm hx i
  have hadj := ordOf_get sf.lt
  have hnew : faceIsNew t h.tet (ordOf m h.tet) = decide (Owns m (t, i)) := by
    rw [Bool.eq_iff_iff]
    unfold faceIsNew
    rw [decide_eq_true_eq, Owns, sf.mate]
    cases ordOf m h.tet <;> simp
  have hverts := sf.verts
  simp only [faceVerts, List.map_cons, List.map_nil, List.cons.injEq, and_true] at hverts
  obtain ⟨v1, v2, v3⟩ := hverts
  have hsolid : ∀ s ∈ L ++ [(t, i)], ∃ k, ordOf m s.1 = some k := by
    intro s hs
    rcases List.mem_append.1 hs with hs | hs
    · exact hv.solid s hs
    · rw [List.mem_singleton.1 hs]; exact ⟨k, hk⟩
  have hnd : (L ++ [(t, i)]).Nodup := by
    refine List.Nodup.append hv.nodup (by simp) ?_
    intro s h1 h2
    rw [List.mem_singleton.1 h2] at h1; exact hn h1
  by_cases ho : Owns m (t, i)
  · refine ⟨⟨b.pos.set (t * 4 + i) (some b.faces.length),
        b.faces ++ [({ cells := (k, ordOf m h.tet), tris := insertCoplanar (marks i t) [] nOri }, faceVerts m.tets[t] i)], b.cells⟩,
      b.faces.length, ?_, rfl, ⟨hnd, hsolid, by simpa using hv.plen, ?_, ?_, ?_⟩, ?_⟩
    · unfold faceStep
      rw [hx]
      simp only [Option.bind_eq_bind, Option.bind_some, sf.nei, hadj, hnew, ho, decide_true, if_true, v1, v2, v3]
      rfl
    · rw [owned_snoc, if_pos ho]; simp [hv.len]
    · rw [owned_snoc, if_pos ho]
      intro s hs
      rcases List.mem_append.1 hs with hs | hs
      · obtain ⟨f, p1, p2⟩ := hv.pos s hs
        refine ⟨f, ?_, by rw [List.getElem?_append_left (List.getElem?_eq_some_iff.1 p2).1]; exact p2⟩
        rw [List.getElem?_set_ne]
        · exact p1
        · intro e
          obtain ⟨e1, e2⟩ := index_inj e
          have : s = (t, i) := Prod.ext e1.symm e2.symm
          exact hn (this ▸ (List.mem_filter.1 hs).1)
      · rw [List.mem_singleton.1 hs]
        refine ⟨b.faces.length, ?_, ?_⟩
        · rw [List.getElem?_set_self]
          rw [hv.plen]
          have := i.2
          omega
        · rw [hv.len, List.getElem?_append_right (le_refl _)]; simp
    · rw [owned_snoc, if_pos ho]
      intro f s hs
      rcases Nat.lt_or_ge f (owned m L).length with hlt | hge
      · rw [List.getElem?_append_left hlt] at hs
        obtain ⟨k', x', F, q1, q2, q3, q4, q5⟩ := hv.faces f s hs
        exact ⟨k', x', F, q1, q2, by simp only; rw [List.getElem?_append_left (List.getElem?_eq_some_iff.1 q3).1]; exact q3, q4, q5⟩
      · have hf : f = (owned m L).length := by
          have := (List.getElem?_eq_some_iff.1 hs).1
          simp only [List.length_append, List.length_singleton] at this
          omega
        rw [hf, List.getElem?_append_right (le_refl _)] at hs
        simp only [Nat.sub_self, List.getElem?_cons_zero, Option.some.injEq] at hs
        subst hs
        refine ⟨k, m.tets[t], { cells := (k, ordOf m h.tet), tris := insertCoplanar (marks i t) [] nOri }, hk, hx, ?_, ?_, rfl⟩
        · simp only; rw [hf, ← hv.len, List.getElem?_append_right (le_refl _)]; simp
        · rw [sf.mate]
    · rw [owned_snoc, if_pos ho, hv.len, List.getElem?_append_right (le_refl _)]; simp [rep, ho]
  · have hin : mate m (t, i) ∈ owned m L := by
      refine List.mem_filter.2 ⟨hdone ho, decide_eq_true ?_⟩
      unfold Owns at ho ⊢
      rw [sf.mate] at ho ⊢
      rw [sf.back]
      have := sf.ne
      simp only [not_or, not_lt] at ho
      simp only
      left; omega
    obtain ⟨f, p1, p2⟩ := hv.pos _ hin
    obtain ⟨k', x', F, q1, q2, q3, q4, q5⟩ := hv.faces f _ p2
    rw [sf.mate] at p1 p2 q1 q2 q3 q4 q5
    simp only at p1 p2 q1 q2 q3 q4 q5
    have hnoop : insertCoplanar (marks (face h.ver) h.tet) F.tris nOri = F.tris := by
      refine insertCoplanar_noop nOri _ _ fun x hxm hxl => ?_
      rw [q5]
      exact ((c57_insert_coplanar nOri _ [] List.Pairwise.nil).2 x).2 (.inr ⟨hxm, hxl⟩)
    have hset : b.faces.set f ({ F with tris := insertCoplanar (marks (face h.ver) h.tet) F.tris nOri }, faceVerts x' (face h.ver)) = b.faces := by
      rw [hnoop]
      obtain ⟨hl, he⟩ := List.getElem?_eq_some_iff.1 q3
      rw [← he]
      exact List.set_getElem_self hl
    refine ⟨b, f, ?_, rfl, ⟨hnd, hsolid, hv.plen, ?_, ?_, ?_⟩, ?_⟩
    · unfold faceStep
      rw [hx]
      simp only [Option.bind_eq_bind, Option.bind_some, sf.nei, hadj, hnew, ho, decide_false, Bool.false_eq_true, if_false, p1, q3]
      rw [hset]; rfl
    · rw [owned_snoc, if_neg ho]; exact hv.len
    · rw [owned_snoc, if_neg ho]; exact hv.pos
    · rw [owned_snoc, if_neg ho]; exact hv.faces
    · rw [owned_snoc, if_neg ho, p2, rep, if_neg ho, sf.mate]

/-! ### All tetrahedra -/

/-- The four slots of a tetrahedron. -/
def slots4 (t : Nat) : List (Nat × Fin 4) := [(t, 0), (t, 1), (t, 2), (t, 3)]

/-- The slots of the solid tetrahedra among the first `t`. -/
def slotsUpTo (m : Mesh) : Nat → List (Nat × Fin 4)
  | 0 => []
  | t + 1 => slotsUpTo m t ++ if (ordOf m t).isSome then slots4 t else []

theorem mem_slotsUpTo {m : Mesh} {s : Nat × Fin 4} : ∀ {t : Nat}, s ∈ slotsUpTo m t ↔ s.1 < t ∧ (ordOf m s.1).isSome = true
  | 0 => by simp [slotsUpTo]
  | t + 1 => by
    rw [slotsUpTo, List.mem_append, mem_slotsUpTo]
    obtain ⟨u, i⟩ := s
    have h4 : (u, i) ∈ slots4 t ↔ u = t := by
      fin_cases i <;> simp [slots4]
    constructor
    · rintro (⟨h1, h2⟩ | h)
      · exact ⟨Nat.lt_succ_of_lt h1, h2⟩
      · split at h
        · rw [h4] at h; subst h; exact ⟨Nat.lt_succ_self _, ‹_›⟩
        · cases h
    · rintro ⟨h1, h2⟩
      rcases Nat.lt_or_eq_of_le (Nat.le_of_lt_succ h1) with h | h
      · exact .inl ⟨h, h2⟩
      · simp only at h; subst h
        exact .inr (by rw [if_pos h2, h4])

theorem owned_append (m : Mesh) (L L' : List (Nat × Fin 4)) : owned m (L ++ L') = owned m L ++ owned m L' := List.filter_append ..

theorem owned_mono {m : Mesh} {L : List (Nat × Fin 4)} (L' : List (Nat × Fin 4)) {f : Nat} {s : Nat × Fin 4} (h : (owned m L)[f]? = some s) :
    (owned m (L ++ L'))[f]? = some s := by
  rw [owned_append, List.getElem?_append_left (List.getElem?_eq_some_iff.1 h).1]; exact h

theorem tet_visited {m : Mesh} (hm : Whole m) {marks : Nat → Nat → List Nat} {nOri : Nat} {b : Build} {t k : Nat}
    (hv : Visited m marks nOri (slotsUpTo m t) b) (hk : ordOf m t = some k) :
    ∃ b' f0 f1 f2 f3, [0, 1, 2, 3].foldlM (faceStep m (newOrders m.nPoints m.tets 0) marks nOri t k) (b, []) = some (b', [f0, f1, f2, f3]) ∧ b'.cells = b.cells ∧
      Visited m marks nOri (slotsUpTo m (t + 1)) b' ∧ ∀ i f, [f0, f1, f2, f3][(i : Fin 4)] = f → (owned m (slotsUpTo m (t + 1)))[f]? = some (rep m (t, i)) := by
  have hx := List.getElem?_eq_getElem (ordOf_lt hk)
  have hdone : ∀ (L' : List (Nat × Fin 4)) (i : Fin 4), ¬ Owns m (t, i) → mate m (t, i) ∈ slotsUpTo m t ++ L' := by
    intro L' i ho
    obtain ⟨h, sf⟩ := slot_facts hm hx i
    refine List.mem_append_left _ (mem_slotsUpTo.2 ?_)
    unfold Owns at ho
    rw [sf.mate] at ho ⊢
    simp only [not_or, not_lt] at ho
    have := sf.ne
    exact ⟨by simp only; omega, Option.isSome_iff_ne_none.2 ho.2⟩
  have hno : ∀ i : Fin 4, (t, i) ∉ slotsUpTo m t := fun i hi => absurd (mem_slotsUpTo.1 hi).1 (lt_irrefl _)
  obtain ⟨b0, f0, r0, c0, v0, o0⟩ := faceStep_visited (fs := []) hm hv hk (i := 0) (hno 0) (fun ho => by simpa using hdone [] 0 ho)
  obtain ⟨b1, f1, r1, c1, v1, o1⟩ := faceStep_visited (fs := [f0]) hm v0 hk (i := 1) (by simp [hno]) (hdone _ 1)
  rw [List.append_assoc] at v1 o1
  obtain ⟨b2, f2, r2, c2, v2, o2⟩ := faceStep_visited (fs := [f0, f1]) hm v1 hk (i := 2) (by simp [hno]) (hdone _ 2)
  rw [List.append_assoc] at v2 o2
  obtain ⟨b3, f3, r3, c3, v3, o3⟩ := faceStep_visited (fs := [f0, f1, f2]) hm v2 hk (i := 3) (by simp [hno]) (hdone _ 3)
  rw [List.append_assoc] at v3 o3
  have hs : slotsUpTo m (t + 1) = slotsUpTo m t ++ [(t, 0), (t, 1), (t, 2), (t, 3)] := by
    rw [slotsUpTo, hk]; rfl
  refine ⟨b3, f0, f1, f2, f3, ?_, by rw [c3, c2, c1, c0], by rw [hs]; exact v3, fun i f hf => ?_⟩
  · simp only [List.foldlM_cons, List.foldlM_nil, Option.bind_eq_bind]
    simp only [List.nil_append, List.cons_append] at r0 r1 r2 r3
    rw [r0, Option.bind_some, r1, Option.bind_some, r2, Option.bind_some, r3]; rfl
  · rw [hs]
    fin_cases i <;> simp at hf <;> subst hf
    · have := owned_mono [(t, 1), (t, 2), (t, 3)] o0
      rwa [List.append_assoc] at this
    · have := owned_mono [(t, 2), (t, 3)] o1
      rwa [List.append_assoc] at this
    · have := owned_mono [(t, 3)] o2
      rwa [List.append_assoc] at this
    · exact o3

/-- What is known after the first `t` tetrahedra. -/
structure Upto (m : Mesh) (marks : Nat → Nat → List Nat) (nOri t : Nat) (b : Build) : Prop where
  visited : Visited m marks nOri (slotsUpTo m t) b
  ncells : b.cells.length = solidBefore m.nPoints m.tets t
  cells : ∀ u k, u < t → ordOf m u = some k → ∃ f0 f1 f2 f3, b.cells[k]? = some ⟨[f0, f1, f2, f3], marks 4 u⟩ ∧
    ∀ i f, [f0, f1, f2, f3][(i : Fin 4)] = f → (owned m (slotsUpTo m t))[f]? = some (rep m (u, i))

theorem newComplex_upto {m : Mesh} (hm : Whole m) (marks : Nat → Nat → List Nat) (nOri : Nat) : ∀ t, t ≤ m.tets.length →
    ∃ b, (List.range t).foldlM (tetStep m (newOrders m.nPoints m.tets 0) marks nOri) { pos := List.replicate (m.tets.length * 4) none, faces := [], cells := [] } = some b ∧
      Upto m marks nOri t b
  | 0, _ => by
    refine ⟨_, rfl, ⟨by simp [slotsUpTo], by simp [slotsUpTo], by simp, by simp [slotsUpTo, owned], by simp [slotsUpTo, owned], by simp [slotsUpTo, owned]⟩,
      by simp [solidBefore], fun u k hu => absurd hu (by omega)⟩
  | t + 1, ht => by
    obtain ⟨b, r, h⟩ := newComplex_upto hm marks nOri t (by omega)
    rw [List.range_succ, List.foldlM_append, r]
    have htl : t < m.tets.length := by omega
    have hx := List.getElem?_eq_getElem htl
    have hord := ordOf_get htl
    have hsb := solidBefore_succ m.nPoints m.tets t hx
    cases hk : ordOf m t with
    | none =>
      refine ⟨b, ?_, ?_, ?_, ?_⟩
      · simp [tetStep, hord, hk]
      · rw [slotsUpTo, hk]; simpa using h.visited
      · rw [h.ncells, hsb, if_pos]
        · rfl
        · rw [ordOf_eq hx] at hk
          split at hk
          · assumption
          · cases hk
      · intro u k hu hku
        have hut : u < t := by
          rcases Nat.lt_or_eq_of_le (Nat.le_of_lt_succ hu) with h1 | h1
          · exact h1
          · rw [h1, hk] at hku; cases hku
        have hs : slotsUpTo m (t + 1) = slotsUpTo m t := by rw [slotsUpTo, hk]; simp
        rw [hs]
        exact h.cells u k hut hku
    | some k =>
      obtain ⟨b', f0, f1, f2, f3, r', hc, hv, ho⟩ := tet_visited hm h.visited hk
      have hk2 : k = solidBefore m.nPoints m.tets t := by
        rw [ordOf_eq hx] at hk
        split at hk
        · cases hk
        · cases hk; rfl
      refine ⟨{ b' with cells := b'.cells ++ [⟨[f0, f1, f2, f3], marks 4 t⟩] }, ?_, ?_, ?_, ?_⟩
      · have : tetStep m (newOrders m.nPoints m.tets 0) marks nOri b t = some { b' with cells := b'.cells ++ [⟨[f0, f1, f2, f3], marks 4 t⟩] } := by
          unfold tetStep
          rw [hord, hk]
          show Option.bind ([0, 1, 2, 3].foldlM (faceStep m (newOrders m.nPoints m.tets 0) marks nOri t k) (b, [])) _ = _
          rw [r']; rfl
        simp [this]
      · exact ⟨hv.nodup, hv.solid, hv.plen, hv.len, hv.pos, hv.faces⟩
      · simp only [List.length_append, List.length_singleton, hc, h.ncells]
        rw [hsb, if_neg]
        rw [ordOf_eq hx] at hk
        split at hk
        · cases hk
        · assumption
      · intro u k' hu hku
        rcases Nat.lt_or_eq_of_le (Nat.le_of_lt_succ hu) with h1 | h1
        · obtain ⟨g0, g1, g2, g3, p1, p2⟩ := h.cells u k' h1 hku
          refine ⟨g0, g1, g2, g3, ?_, fun i f hf => owned_mono _ (p2 i f hf)⟩
          simp only
          rw [List.getElem?_append_left (by rw [hc]; exact (List.getElem?_eq_some_iff.1 p1).1), hc]
          exact p1
        · subst h1
          rw [hk] at hku; cases hku
          refine ⟨f0, f1, f2, f3, ?_, ho⟩
          simp only
          rw [List.getElem?_append_right (by rw [hc, h.ncells, hk2]), hc, h.ncells, hk2]; simp

/-! ### The properties -/

theorem pivots_even : ∀ v : Tet.Ver, ∃ σ : Equiv.Perm (Fin 4), Equiv.Perm.sign σ = 1 ∧ σ 3 = face v ∧ σ 0 = Tet.destPivot v ∧ σ 1 = Tet.apexPivot v ∧ σ 2 = Tet.orgPivot v := by
  decide +kernel

theorem pivots_odd : ∀ v : Tet.Ver, ∃ σ : Equiv.Perm (Fin 4), Equiv.Perm.sign σ = -1 ∧ σ 3 = face v ∧ σ 0 = Tet.orgPivot v ∧ σ 1 = Tet.apexPivot v ∧ σ 2 = Tet.destPivot v := by
  decide +kernel

theorem mate_mate {m : Mesh} (hm : Whole m) {s : Nat × Fin 4} (h : s.1 < m.tets.length) :
    mate m (mate m s) = s ∧ (mate m s).1 < m.tets.length ∧ (mate m s).1 ≠ s.1 := by
  obtain ⟨h', sf⟩ := slot_facts hm (List.getElem?_eq_getElem h) s.2
  have := sf.mate
  rw [this]
  exact ⟨sf.back, sf.lt, sf.ne⟩

/-- Face `i` of the solid tetrahedron `x`, which has become cell `k`: the vertices `vs` are the three corners other than corner `i`, in an even
permutation of the corners if the face belongs to the cell in the first place and in an odd one otherwise. -/
def FaceOf (x : Tet.Tet) (i : Fin 4) (k : Nat) (F : Face) (vs : List Nat) : Prop :=
  ∃ σ : Equiv.Perm (Fin 4), σ 3 = i ∧ vs = [x.data (σ 0), x.data (σ 1), x.data (σ 2)] ∧ Equiv.Perm.sign σ = if F.cells.1 = k then 1 else -1

/-- The cells of face `i` of cell `k`: a ghost neighbour counts as no cell. -/
def CellsOf (m : Mesh) (x : Tet.Tet) (i : Fin 4) (k : Nat) (F : Face) : Prop :=
  ∃ h y, x.nei i = some h ∧ m.tets[h.tet]? = some y ∧ (y.data 3 = m.nPoints → F.cells = (k, none)) ∧
    (y.data 3 ≠ m.nPoints → F.cells = (k, some (solidBefore m.nPoints m.tets h.tet)) ∨ F.cells = (solidBefore m.nPoints m.tets h.tet, some k))

theorem face_of_rep {m : Mesh} (hm : Whole m) {marks : Nat → Nat → List Nat} {nOri : Nat} {L : List (Nat × Fin 4)} {b : Build} (hv : Visited m marks nOri L b)
    {t k f : Nat} {i : Fin 4} {x : Tet.Tet} (hx : m.tets[t]? = some x) (hk : ordOf m t = some k) (hf : (owned m L)[f]? = some (rep m (t, i))) :
    ∃ F vs, b.faces[f]? = some (F, vs) ∧ FaceOf x i k F vs ∧ CellsOf m x i k F ∧
      F.tris = insertCoplanar (marks (rep m (t, i)).2 (rep m (t, i)).1) [] nOri := by
  obtain ⟨k', x', F, q1, q2, q3, q4, q5⟩ := hv.faces f _ hf
  obtain ⟨h, sf⟩ := slot_facts hm hx i
  have hy := List.getElem?_eq_getElem sf.lt
  refine ⟨F, _, q3, ?_, ?_, q5⟩
  · by_cases ho : Owns m (t, i)
    · rw [rep, if_pos ho] at q1 q2 q4 ⊢
      rw [hx] at q2; cases q2
      rw [hk] at q1; cases q1
      obtain ⟨σ, s1, s2, s3, s4, s5⟩ := pivots_even (verOfFace i)
      refine ⟨σ, by rw [s2, Tet.face_verOfFace], by rw [s3, s4, s5]; rfl, ?_⟩
      rw [s1, q4, if_pos rfl]
    · rw [rep, if_neg ho, sf.mate] at q1 q2 q4 ⊢
      have hne : F.cells.1 ≠ k := by
        rw [q4]
        intro e
        simp only at e q1
        exact sf.ne (ordOf_inj q1 (e ▸ hk))
      obtain ⟨h', sf'⟩ := slot_facts hm q2 (face h.ver)
      have hb := sf'.mate
      rw [sf.back] at hb
      have ht : t = h'.tet := congrArg Prod.fst hb
      have hi : i = face h'.ver := congrArg Prod.snd hb
      obtain ⟨σ, s1, s2, s3, s4, s5⟩ := pivots_odd h'.ver
      refine ⟨σ, by rw [s2, hi], ?_, by rw [s1, if_neg hne]⟩
      have hvs := sf'.verts
      simp only [Mesh.org, Mesh.apex, Mesh.dest, ← ht, hx, Option.map_some] at hvs
      have : ([x.data (Tet.orgPivot h'.ver), x.data (Tet.apexPivot h'.ver), x.data (Tet.destPivot h'.ver)]).map some = (faceVerts x' (face h.ver)).map some := hvs
      rw [s3, s4, s5]
      exact (List.map_injective_iff.2 (Option.some_injective _) this).symm
  · refine ⟨h, _, sf.nei, hy, fun hg => ?_, fun hs => ?_⟩
    · have hord : ordOf m h.tet = none := by rw [ordOf_eq hy, if_pos hg]
      have ho : Owns m (t, i) := by
        unfold Owns; rw [sf.mate]; exact .inr hord
      rw [rep, if_pos ho] at q1 q4
      rw [hk] at q1; cases q1
      rw [q4, sf.mate, hord]
    · have hord : ordOf m h.tet = some (solidBefore m.nPoints m.tets h.tet) := by rw [ordOf_eq hy, if_neg hs]
      by_cases ho : Owns m (t, i)
      · left
        rw [rep, if_pos ho] at q1 q4
        rw [hk] at q1; cases q1
        rw [q4, sf.mate, hord]
      · right
        rw [rep, if_neg ho, sf.mate] at q1 q4
        rw [hord] at q1; cases q1
        rw [q4, sf.back, hk]

theorem upto_linked {m : Mesh} (hm : Whole m) {marks : Nat → Nat → List Nat} {nOri : Nat} {b : Build} (h : Upto m marks nOri m.tets.length b) : Linked b.complex := by
  have hv := h.visited
  -- every cell comes from a tetrahedron
  have hcell : ∀ (c : Nat) (C : Cell), b.cells[c]? = some C → ∃ t, ordOf m t = some c := by
    intro c C hC
    have hc : c < solidBefore m.nPoints m.tets m.tets.length := by rw [← h.ncells]; exact (List.getElem?_eq_some_iff.1 hC).1
    have key : ∀ n, n ≤ m.tets.length → c < solidBefore m.nPoints m.tets n → ∃ t, ordOf m t = some c := by
      intro n
      induction n with
      | zero => intro _ h0; simp [solidBefore] at h0
      | succ n ih =>
        intro hn h0
        have hx := List.getElem?_eq_getElem (l := m.tets) (i := n) (by omega)
        rw [solidBefore_succ _ _ _ hx] at h0
        by_cases hg : m.tets[n].data 3 = m.nPoints
        · rw [if_pos hg] at h0; exact ih (by omega) (by omega)
        · rw [if_neg hg] at h0
          by_cases h1 : c < solidBefore m.nPoints m.tets n
          · exact ih (by omega) h1
          · exact ⟨n, by rw [ordOf_eq hx, if_neg hg]; congr 1; omega⟩
    exact key _ (le_refl _) hc
  have hlt : ∀ t k, ordOf m t = some k → k < b.cells.length := by
    intro t k hk
    obtain ⟨f0, f1, f2, f3, hC, _⟩ := h.cells t k (ordOf_lt hk) hk
    exact (List.getElem?_eq_some_iff.1 hC).1
  have hface : ∀ (f : Nat) (F : Face), b.complex.faces[f]? = some F → ∃ s, (owned m (slotsUpTo m m.tets.length))[f]? = some s ∧ ∃ k, ordOf m s.1 = some k ∧
      F.cells = (k, ordOf m (mate m s).1) := by
    intro f F hF
    have hfl : f < (owned m (slotsUpTo m m.tets.length)).length := by
      rw [← hv.len]
      have := (List.getElem?_eq_some_iff.1 hF).1
      simpa [Build.complex] using this
    have hs := List.getElem?_eq_getElem hfl
    obtain ⟨k, x, F', q1, q2, q3, q4, q5⟩ := hv.faces f _ hs
    refine ⟨_, hs, k, q1, ?_⟩
    have : b.complex.faces[f]? = some F' := by simp [Build.complex, q3]
    rw [hF] at this; cases this; exact q4
  have hown : ∀ (f : Nat) (s : Nat × Fin 4), (owned m (slotsUpTo m m.tets.length))[f]? = some s → Owns m s := by
    intro f s hs
    exact of_decide_eq_true (List.mem_filter.1 (List.mem_of_getElem? hs)).2
  have hnd : (owned m (slotsUpTo m m.tets.length)).Nodup := hv.nodup.filter _
  have huniq : ∀ (f g : Nat) (s : Nat × Fin 4), (owned m (slotsUpTo m m.tets.length))[f]? = some s → (owned m (slotsUpTo m m.tets.length))[g]? = some s → f = g := by
    intro f g s h1 h2
    obtain ⟨l1, e1⟩ := List.getElem?_eq_some_iff.1 h1
    obtain ⟨l2, e2⟩ := List.getElem?_eq_some_iff.1 h2
    exact (hnd.getElem_inj_iff).1 (e1.trans e2.symm)
  refine ⟨fun f F hF => ?_, fun c C hC => ?_, fun c C hC f => ?_⟩
  · obtain ⟨s, hs, k, hk, hc⟩ := hface f F hF
    rw [hc]
    refine ⟨hlt _ _ hk, fun c e => ⟨hlt _ _ e, fun e2 => ?_⟩⟩
    simp only at e e2
    rw [e2] at e
    exact (mate_mate hm (ordOf_lt hk)).2.2 (ordOf_inj e hk)
  · obtain ⟨t, ht⟩ := hcell c C hC
    obtain ⟨f0, f1, f2, f3, hC', ho⟩ := h.cells t c (ordOf_lt ht) ht
    have : b.complex.cells[c]? = b.cells[c]? := rfl
    rw [this, hC'] at hC; cases hC
    have hrep : ∀ i j : Fin 4, rep m (t, i) = rep m (t, j) → i = j := by
      intro i j e
      obtain ⟨m1, m2, m3⟩ := mate_mate (s := (t, i)) hm (ordOf_lt ht)
      obtain ⟨n1, n2, n3⟩ := mate_mate (s := (t, j)) hm (ordOf_lt ht)
      unfold rep at e
      split at e <;> split at e
      · exact congrArg Prod.snd e
      · exact absurd (congrArg Prod.fst e).symm n3
      · exact absurd (congrArg Prod.fst e) m3
      · have e2 := congrArg (mate m) e
        rw [m1, n1] at e2
        exact congrArg Prod.snd e2
    have hne : ∀ i j : Fin 4, [f0, f1, f2, f3][i] = [f0, f1, f2, f3][j] → i = j := by
      intro i j e
      have h1 := ho i _ rfl
      have h2 := ho j _ rfl
      rw [e, h2] at h1
      exact (hrep j i (Option.some.inj h1)).symm
    have h01 := hne 0 1
    have h02 := hne 0 2
    have h03 := hne 0 3
    have h12 := hne 1 2
    have h13 := hne 1 3
    have h23 := hne 2 3
    simp at h01 h02 h03 h12 h13 h23
    simp [h01, h02, h03, h12, h13, h23]
  · obtain ⟨t, ht⟩ := hcell c C hC
    obtain ⟨f0, f1, f2, f3, hC', ho⟩ := h.cells t c (ordOf_lt ht) ht
    have : b.complex.cells[c]? = b.cells[c]? := rfl
    rw [this, hC'] at hC; cases hC
    have hmem : f ∈ [f0, f1, f2, f3] ↔ ∃ i : Fin 4, [f0, f1, f2, f3][i] = f := by
      constructor
      · intro hf
        simp only [List.mem_cons, List.not_mem_nil, or_false] at hf
        rcases hf with h1 | h1 | h1 | h1
        · exact ⟨0, h1.symm⟩
        · exact ⟨1, h1.symm⟩
        · exact ⟨2, h1.symm⟩
        · exact ⟨3, h1.symm⟩
      · rintro ⟨i, hi⟩
        rw [← hi]; exact List.getElem_mem _
    simp only
    rw [hmem]
    constructor
    · rintro ⟨i, hi⟩
      have hs := ho i f hi
      obtain ⟨k, x, F, q1, q2, q3, q4, q5⟩ := hv.faces f _ hs
      refine ⟨F, by simp [Build.complex, q3], ?_⟩
      unfold Face.bounds
      rw [q4]
      unfold rep at q1 ⊢
      split at q1
      · rename_i hO
        rw [if_pos hO]
        left; rw [ht] at q1; cases q1; rfl
      · rename_i hO
        rw [if_neg hO, (mate_mate (s := (t, i)) hm (ordOf_lt ht)).1]
        exact .inr ht
    · rintro ⟨F, hF, hb⟩
      obtain ⟨s, hs, k, hk, hc⟩ := hface f F hF
      have hOs := hown f s hs
      unfold Face.bounds at hb
      rw [hc] at hb
      rcases hb with hb | hb
      · simp only at hb
        subst hb
        have est : s.1 = t := ordOf_inj hk ht
        refine ⟨s.2, huniq _ f s ?_ hs⟩
        rw [ho s.2 _ rfl, ← est]
        show some (rep m s) = some s
        rw [rep, if_pos hOs]
      · simp only at hb
        obtain ⟨m1, m2, m3⟩ := mate_mate hm (ordOf_lt hk)
        have est : (mate m s).1 = t := ordOf_inj hb ht
        refine ⟨(mate m s).2, huniq _ f s ?_ hs⟩
        rw [ho (mate m s).2 _ rfl, ← est]
        show some (rep m (mate m s)) = some s
        have hno : ¬ Owns m (mate m s) := by
          unfold Owns at hOs ⊢
          rw [m1]
          rw [hb] at hOs
          simp only [reduceCtorEq, or_false] at hOs
          rw [hk]
          simp only [reduceCtorEq, or_false, not_lt]
          omega
        rw [rep, if_neg hno, m1]

/-- C52. For every consistent tetrahedral mesh the initial complex has consistent links, one cell for each solid tetrahedron in order, with
its four faces and the triangles marked inside it. Each face is stored once, lists the cells on its two sides and has the three corners that
the tetrahedra share, oriented as seen from its first cell. -/
theorem c52_new (m : Mesh) (hm : Whole m) (marks : Nat → Nat → List Nat) (nOri : Nat) :
    ∃ b, newComplex m marks nOri = some b ∧ Linked b.complex ∧ b.cells.length = (m.tets.filter fun x => x.data 3 ≠ m.nPoints).length ∧
      ∀ t x, m.tets[t]? = some x → x.data 3 ≠ m.nPoints → ∃ fs, b.cells[solidBefore m.nPoints m.tets t]? = some ⟨fs, marks 4 t⟩ ∧ fs.length = 4 ∧
        ∀ i : Fin 4, ∃ f F vs, fs[i.1]? = some f ∧ b.faces[f]? = some (F, vs) ∧ FaceOf x i (solidBefore m.nPoints m.tets t) F vs ∧
          CellsOf m x i (solidBefore m.nPoints m.tets t) F := by
  obtain ⟨b, r, h⟩ := newComplex_upto hm marks nOri m.tets.length (le_refl _)
  refine ⟨b, r, upto_linked hm h, by rw [h.ncells]; simp [solidBefore], fun t x hx hs => ?_⟩
  have hk : ordOf m t = some (solidBefore m.nPoints m.tets t) := by rw [ordOf_eq hx, if_neg hs]
  obtain ⟨f0, f1, f2, f3, hC, ho⟩ := h.cells t _ (ordOf_lt hk) hk
  refine ⟨_, hC, rfl, fun i => ?_⟩
  obtain ⟨F, vs, q1, q2, q3, _⟩ := face_of_rep hm h.visited hx hk (ho i _ rfl)
  exact ⟨_, F, vs, List.getElem?_eq_getElem (by simp), q1, q2, q3⟩

/-- C67 (partial). Full statement: "a face of the initial complex lists, in increasing order and without repetition, the original triangles marked
on it from either side". It holds if the marks of both sides agree; otherwise the marks of the second side are lost
(`c67_marks_refuted`). -/
theorem c67_new_partial (m : Mesh) (hm : Whole m) (marks : Nat → Nat → List Nat) (nOri : Nat)
    (hsym : ∀ (t : Nat) (x : Tet.Tet) (i : Fin 4) (h : Tet.TriFace), m.tets[t]? = some x → x.data 3 ≠ m.nPoints → x.nei i = some h → ∀ a, a < nOri → (a ∈ marks i t ↔ a ∈ marks (face h.ver) h.tet)) :
    ∃ b, newComplex m marks nOri = some b ∧ OnlyOriginal nOri b.complex.faces ∧
      ∀ t x, m.tets[t]? = some x → x.data 3 ≠ m.nPoints → ∃ fs, b.cells[solidBefore m.nPoints m.tets t]? = some ⟨fs, marks 4 t⟩ ∧
        ∀ i : Fin 4, ∃ f F vs, fs[i.1]? = some f ∧ b.faces[f]? = some (F, vs) ∧ F.tris.Pairwise (· < ·) ∧
          ∀ a, a ∈ F.tris ↔ a < nOri ∧ a ∈ marks i t := by
  obtain ⟨b, r, h⟩ := newComplex_upto hm marks nOri m.tets.length (le_refl _)
  refine ⟨b, r, fun F hF a ha => ?_, fun t x hx hs => ?_⟩
  · obtain ⟨f, hf⟩ := List.getElem?_of_mem hF
    have hfl : f < (owned m (slotsUpTo m m.tets.length)).length := by
      rw [← h.visited.len]
      have := (List.getElem?_eq_some_iff.1 hf).1
      simpa [Build.complex] using this
    obtain ⟨k, x, F', q1, q2, q3, q4, q5⟩ := h.visited.faces f _ (List.getElem?_eq_getElem hfl)
    have : b.complex.faces[f]? = some F' := by simp [Build.complex, q3]
    rw [hf] at this; cases this
    rw [q5] at ha
    have := ((c57_insert_coplanar nOri _ [] List.Pairwise.nil).2 a).1 ha
    simpa using (this.resolve_left (by simp)).2
  · have hk : ordOf m t = some (solidBefore m.nPoints m.tets t) := by rw [ordOf_eq hx, if_neg hs]
    obtain ⟨f0, f1, f2, f3, hC, ho⟩ := h.cells t _ (ordOf_lt hk) hk
    refine ⟨_, hC, fun i => ?_⟩
    obtain ⟨F, vs, q1, q2, q3, q4⟩ := face_of_rep hm h.visited hx hk (ho i _ rfl)
    refine ⟨_, F, vs, List.getElem?_eq_getElem (by simp), q1, ?_⟩
    obtain ⟨p1, p2⟩ := c57_insert_coplanar nOri (marks (rep m (t, i)).2 (rep m (t, i)).1) [] List.Pairwise.nil
    rw [q4]
    refine ⟨p1, fun a => ?_⟩
    rw [p2]
    simp only [List.not_mem_nil, false_or]
    rw [and_comm]
    refine and_congr_right fun ha => ?_
    unfold rep
    split
    · rfl
    · obtain ⟨h', sf⟩ := slot_facts hm hx i
      rw [sf.mate]
      exact (hsym t x i h' hx hs sf.nei a ha).symm

/-! ### Examples -/

/-- A test for `Whole`. -/
def wholeTest (m : Mesh) : Bool :=
  (List.range m.tets.length).all fun t => (m.tets[t]?).all fun x => decide (Function.Injective x.data) &&
    (List.finRange 12).all fun v => (m.fsym ⟨t, v⟩).any fun h => decide (h.tet < m.tets.length) && decide (m.fsym h = some ⟨t, v⟩) &&
      decide (m.org h = m.dest ⟨t, v⟩) && decide (m.dest h = m.org ⟨t, v⟩) && decide (m.apex h = m.apex ⟨t, v⟩)

theorem whole_of_test {m : Mesh} (h : wholeTest m = true) : Whole m := by
  simp only [wholeTest, Bool.and_eq_true, List.all_eq_true, List.mem_range, Option.all_eq_true, Option.any_eq_true, decide_eq_true_eq] at h
  refine ⟨fun t ht => ?_, fun t ht v => ?_⟩
  · have hx := List.getElem?_eq_getElem ht
    exact ⟨_, hx, (h t ht _ hx).1⟩
  · have hx := List.getElem?_eq_getElem ht
    obtain ⟨h', e, ⟨⟨⟨⟨a1, a2⟩, a3⟩, a4⟩, a5⟩⟩ := (h t ht _ hx).2 v (List.mem_finRange v)
    exact ⟨h', a1, e, a2, a3, a4, a5⟩

/-- The Delaunay tetrahedralization of a tetrahedron with a point inside: four ghosts 0 to 3 and four solid tetrahedra 4 to 7. -/
def exMesh5 : Mesh := (Tet.tetrahedralizeFrom Tet.goodPts 50 [0, 1, 2, 3, 4]).getD (Mesh.new 0)

theorem exMesh5_whole : Whole exMesh5 := whole_of_test (by decide +kernel)

/-- Triangle 0 is marked on face 2 of tetrahedron 4 (a hull face), triangle 1 on the face between 4 and 5, from both sides, triangle 2
inside tetrahedron 6. -/
def exMarks (k t : Nat) : List Nat :=
  if k = 2 ∧ t = 4 then [0] else if k = 3 ∧ t = 4 then [1] else if k = 0 ∧ t = 5 then [1] else if k = 4 ∧ t = 6 then [2] else []

example : (newComplex exMesh5 exMarks 2).map (fun b => (b.cells, b.faces)) = some
    ([⟨[0, 1, 2, 3], []⟩, ⟨[3, 4, 5, 6], []⟩, ⟨[0, 6, 7, 8], [2]⟩, ⟨[8, 4, 9, 1], []⟩],
     [(⟨(0, some 2), []⟩, [4, 3, 1]), (⟨(0, some 3), []⟩, [2, 4, 1]), (⟨(0, none), [0]⟩, [2, 1, 3]), (⟨(0, some 1), [1]⟩, [4, 2, 3]),
      (⟨(1, some 3), []⟩, [0, 4, 2]), (⟨(1, none), []⟩, [0, 2, 3]), (⟨(1, some 2), []⟩, [4, 0, 3]), (⟨(2, none), []⟩, [0, 3, 1]),
      (⟨(2, some 3), []⟩, [4, 0, 1]), (⟨(3, none), []⟩, [2, 0, 1])]) := by decide +kernel

/-- C67 fails for the initial complex: triangle 1 is marked on face 0 of tetrahedron 5 only, and the face between the tetrahedra 4 and 5 does
not get it, because the marks of the neighbour are inserted once more instead of those of tetrahedron 5 (lines 174-179). -/
theorem c67_marks_refuted : ∃ b, newComplex exMesh5 (fun k t => if k = 0 ∧ t = 5 then [1] else []) 2 = some b ∧ ∀ F ∈ b.complex.faces, 1 ∉ F.tris := by
  refine ⟨(newComplex exMesh5 (fun k t => if k = 0 ∧ t = 5 then [1] else []) 2).getD ⟨[], [], []⟩, ?_, by decide +kernel⟩
  have : (newComplex exMesh5 (fun k t => if k = 0 ∧ t = 5 then [1] else []) 2).isSome = true := by decide +kernel
  obtain ⟨b, hb⟩ := Option.isSome_iff_exists.1 this
  rw [hb]; rfl

end Verif.Poly
