import Verif.Bsp.Kept
import Verif.Bsp.Outlines
import Verif.DisjointSet.Props
import Mathlib.Logic.Relation
/-!
# C80: the groups of faces that `merge_faces` joins (`src/polygonlization/bsp_complex.rs` lines 842-925, 1380-1398)
-/
namespace Verif.Bsp
open Verif.DisjointSet (Op Conn mergedPairs InRange)

/-- `on_the_same_plane` (lines 1380-1398): `id` and `triangles` of the faces are inputs. -/
def samePlane (ids : List Nat) (tris : List (List Nat)) (f g : Nat) : Bool :=
  ids[f]? == ids[g]? || (tris.getD f []).any fun t => (tris.getD g []).contains t

/-- `f_new_to_old` (lines 845-855): the faces with a sign. -/
def usedFaces (m : PMesh) (w : List Int) : List Nat := (List.range m.faces.length).filter fun f => w.getD f 0 ≠ 0

/-- `edge_faces[eid]` (line 850). -/
def edgeFaces (m : PMesh) (w : List Int) (e : Nat) : List Nat :=
  (usedFaces m w).flatMap fun f => ((m.faces.getD f []).filter fun x => x.2 = e).map fun _ => f

/-- The calls of `ds.merge` (lines 857-865); `f_old_to_new[fid]` is the place of `fid` in `f_new_to_old`. -/
def mergeOps (sp : Nat → Nat → Bool) (m : PMesh) (w : List Int) : List Op :=
  (List.range m.nE).filterMap fun e => match edgeFaces m w e with
    | [f, g] => if sp f g then some (.merge ((usedFaces m w).idxOf f) ((usedFaces m w).idxOf g)) else none
    | _ => none

/-- `group_map` (line 871) with the numbers of the faces put back (lines 889-898). The fuel is that of `find_set`. -/
def mergeGroups (fuel : Nat) (sp : Nat → Nat → Bool) (m : PMesh) (w : List Int) : Option (List (Nat × List Nat)) := do
  let s ← DisjointSet.run fuel (DisjointSet.new (usedFaces m w).length) (mergeOps sp m w)
  let r ← DisjointSet.output fuel s
  some (r.2.map fun kv => (kv.1, kv.2.map fun i => (usedFaces m w).getD i 0))

/-! ### Specification -/

/-- How often a face passes an edge. -/
def passes (m : PMesh) (f e : Nat) : Nat := ((m.faces.getD f []).map Prod.snd).count e

/-- The face exists and has a sign. -/
def Used (m : PMesh) (w : List Int) (f : Nat) : Prop := f < m.faces.length ∧ w.getD f 0 ≠ 0

/-- Two faces have an edge that both pass once and no other face with a sign passes. -/
def ShareEdge (m : PMesh) (w : List Int) (f g e : Nat) : Prop :=
  f ≠ g ∧ Used m w f ∧ Used m w g ∧ passes m f e = 1 ∧ passes m g e = 1 ∧ ∀ h, Used m w h → h ≠ f → h ≠ g → passes m h e = 0

/-- They can be joined along an edge. -/
def Adjacent (sp : Nat → Nat → Bool) (m : PMesh) (w : List Int) (f g : Nat) : Prop := sp f g = true ∧ ∃ e, ShareEdge m w f g e

/-! ### Lists -/

theorem mem_usedFaces {m : PMesh} {w : List Int} {f : Nat} : f ∈ usedFaces m w ↔ Used m w f := by
  simp [usedFaces, Used]

theorem usedFaces_nodup (m : PMesh) (w : List Int) : (usedFaces m w).Nodup := List.nodup_range.filter _

theorem count_map_const {α : Type} (l : List α) (f h : Nat) : (l.map fun _ => f).count h = if h = f then l.length else 0 := by
  rw [List.map_const', List.count_replicate]
  by_cases e : h = f
  · subst e; simp
  · rw [if_neg e, if_neg]; simpa using fun x => e x.symm

theorem passes_eq (m : PMesh) (f e : Nat) : passes m f e = ((m.faces.getD f []).filter fun x => x.2 = e).length := by
  unfold passes
  rw [List.count_eq_countP, List.countP_map, List.countP_eq_length_filter]
  rfl

theorem count_edgeFaces (m : PMesh) (w : List Int) (e h : Nat) : (edgeFaces m w e).count h = if h ∈ usedFaces m w then passes m h e else 0 := by
  unfold edgeFaces
  have key : ∀ K : List Nat, K.Nodup → (K.flatMap fun f => ((m.faces.getD f []).filter fun x => x.2 = e).map fun _ => f).count h = if h ∈ K then passes m h e else 0 := by
    intro K
    induction K with
    | nil => intro _; simp
    | cons f K ih =>
      intro hK
      rw [List.flatMap_cons, List.count_append, ih hK.of_cons, count_map_const]
      by_cases e1 : h = f
      · subst e1
        have : h ∉ K := (List.nodup_cons.1 hK).1
        simp only [if_true, this, if_false, List.mem_cons, true_or, passes_eq]
        rfl
      · rw [if_neg e1]
        simp [e1]
  exact key _ (usedFaces_nodup m w)

theorem edgeFaces_pair {m : PMesh} {w : List Int} {f g e : Nat} (hne : f ≠ g) : edgeFaces m w e = [f, g] ∨ edgeFaces m w e = [g, f] ↔ ShareEdge m w f g e := by
  constructor
  · intro h
    have hp : (edgeFaces m w e).Perm [f, g] := by
      rcases h with h | h
      · rw [h]
      · rw [h]; exact List.Perm.swap ..
    have hc : ∀ x, (if x ∈ usedFaces m w then passes m x e else 0) = [f, g].count x := fun x => by rw [← count_edgeFaces, hp.count_eq]
    have hf := hc f
    have hg := hc g
    have e1 : [f, g].count f = 1 := by simp [List.count_cons, hne.symm]
    have e2 : [f, g].count g = 1 := by simp [List.count_cons, hne]
    rw [e1] at hf
    rw [e2] at hg
    split at hf
    · split at hg
      · rename_i a b
        refine ⟨hne, mem_usedFaces.1 a, mem_usedFaces.1 b, hf, hg, fun x hx h1 h2 => ?_⟩
        have := hc x
        rw [if_pos (mem_usedFaces.2 hx)] at this
        rw [this]; simp [List.count_cons, Ne.symm h1, Ne.symm h2]
      · cases hg
    · cases hf
  · rintro ⟨-, h1, h2, h3, h4, h5⟩
    have hp : (edgeFaces m w e).Perm [f, g] := by
      rw [List.perm_iff_count]
      intro x
      rw [count_edgeFaces]
      by_cases a : x = f
      · subst a; rw [if_pos (mem_usedFaces.2 h1), h3]; simp [List.count_cons, hne.symm]
      · by_cases b : x = g
        · subst b; rw [if_pos (mem_usedFaces.2 h2), h4]; simp [List.count_cons, hne]
        · have : [f, g].count x = 0 := by simp [List.count_cons, Ne.symm a, Ne.symm b]
          rw [this]
          split
          · rename_i hx; exact h5 x (mem_usedFaces.1 hx) a b
          · rfl
    match hl : edgeFaces m w e with
    | [] => rw [hl] at hp; simpa using hp.length_eq
    | [a] => rw [hl] at hp; simpa using hp.length_eq
    | a :: b :: c :: l => rw [hl] at hp; simpa using hp.length_eq
    | [a, b] =>
      rw [hl] at hp
      have h1 : a = f ∨ a = g := by simpa using hp.mem_iff.1 (show a ∈ [a, b] by simp)
      rcases h1 with rfl | rfl
      · left
        have := (List.perm_cons _).1 hp
        rw [List.perm_singleton] at this; rw [this]
      · right
        have := (List.perm_cons a).1 (hp.trans (List.Perm.swap a f []))
        rw [List.perm_singleton] at this; rw [this]

theorem edgeFaces_lt {m : PMesh} {w : List Int} (hlt : ∀ c ∈ m.faces, ∀ x ∈ c, x.2 < m.nE) {f g e : Nat} (h : ShareEdge m w f g e) : e < m.nE := by
  have h1 : e ∈ (m.faces.getD f []).map Prod.snd := List.count_pos_iff.1 (by have := h.2.2.2.1; unfold passes at this; omega)
  obtain ⟨x, hx, rfl⟩ := List.mem_map.1 h1
  have hf := h.2.1.1
  rw [List.getD_eq_getElem?_getD, List.getElem?_eq_getElem hf] at hx
  exact hlt _ (List.getElem_mem hf) x hx

theorem mem_mergedPairs {ops : List Op} {x y : Nat} : (x, y) ∈ mergedPairs ops ↔ Op.merge x y ∈ ops := by
  induction ops with
  | nil => simp [mergedPairs]
  | cons o ops ih =>
    cases o <;> simp [mergedPairs, ih]

theorem mem_mergeOps {sp : Nat → Nat → Bool} {m : PMesh} {w : List Int} {x y : Nat} : Op.merge x y ∈ mergeOps sp m w ↔
    ∃ e < m.nE, ∃ f g, edgeFaces m w e = [f, g] ∧ sp f g = true ∧ x = (usedFaces m w).idxOf f ∧ y = (usedFaces m w).idxOf g := by
  unfold mergeOps
  rw [List.mem_filterMap]
  constructor
  · rintro ⟨e, he, h⟩
    match hl : edgeFaces m w e with
    | [] => rw [hl] at h; cases h
    | [a] => rw [hl] at h; cases h
    | a :: b :: c :: l => rw [hl] at h; cases h
    | [f, g] =>
      rw [hl] at h
      simp only at h
      split at h
      · cases h; exact ⟨e, List.mem_range.1 he, f, g, hl, ‹_›, rfl, rfl⟩
      · cases h
  · rintro ⟨e, he, f, g, hl, hs, rfl, rfl⟩
    refine ⟨e, List.mem_range.2 he, ?_⟩
    rw [hl]; simp only [hs, if_true]

theorem mergeOps_only {sp : Nat → Nat → Bool} {m : PMesh} {w : List Int} {o : Op} (h : o ∈ mergeOps sp m w) : ∃ x y, o = .merge x y := by
  unfold mergeOps at h
  obtain ⟨e, _, h⟩ := List.mem_filterMap.1 h
  split at h
  · split at h
    · cases h; exact ⟨_, _, rfl⟩
    · cases h
  · cases h

theorem edgeFaces_mem {m : PMesh} {w : List Int} {e f : Nat} (h : f ∈ edgeFaces m w e) : f ∈ usedFaces m w := by
  obtain ⟨g, hg, hf⟩ := List.mem_flatMap.1 h
  obtain ⟨_, _, rfl⟩ := List.mem_map.1 hf
  exact hg

theorem getD_idxOf {l : List Nat} {f : Nat} (h : f ∈ l) : l.getD (l.idxOf f) 0 = f := by
  rw [List.getD_eq_getElem?_getD, List.getElem?_eq_getElem (List.idxOf_lt_length_iff.2 h)]
  simp

theorem conn_iff {sp : Nat → Nat → Bool} (hsym : ∀ f g, sp f g = sp g f) {m : PMesh} {w : List Int} (hlt : ∀ c ∈ m.faces, ∀ x ∈ c, x.2 < m.nE) {f g : Nat} (hf : f ∈ usedFaces m w) (hg : g ∈ usedFaces m w) :
    Conn (mergedPairs (mergeOps sp m w)) ((usedFaces m w).idxOf f) ((usedFaces m w).idxOf g) ↔ Relation.EqvGen (Adjacent sp m w) f g := by
  constructor
  · have key : ∀ {x y}, Conn (mergedPairs (mergeOps sp m w)) x y → Relation.EqvGen (Adjacent sp m w) ((usedFaces m w).getD x 0) ((usedFaces m w).getD y 0) := by
      intro x y h
      induction h with
      | pair h =>
        obtain ⟨e, _, a, b, hl, hs, rfl, rfl⟩ := mem_mergeOps.1 (mem_mergedPairs.1 h)
        rw [getD_idxOf (edgeFaces_mem (e := e) (by rw [hl]; simp)), getD_idxOf (edgeFaces_mem (e := e) (by rw [hl]; simp))]
        by_cases hab : a = b
        · subst hab; exact .refl _
        · exact .rel _ _ ⟨hs, e, (edgeFaces_pair hab).1 (Or.inl hl)⟩
      | refl => exact .refl _
      | symm _ ih => exact .symm _ _ ih
      | trans _ _ ih ih' => exact .trans _ _ _ ih ih'
    intro h
    have := key h
    rwa [getD_idxOf hf, getD_idxOf hg] at this
  · intro h
    clear hf hg
    induction h with
    | rel f g h =>
      obtain ⟨hs, e, he⟩ := h
      have hl := edgeFaces_lt hlt he
      rcases (edgeFaces_pair he.1).2 he with h1 | h1
      · exact .pair (mem_mergedPairs.2 (mem_mergeOps.2 ⟨e, hl, f, g, h1, hs, rfl, rfl⟩))
      · exact .symm (.pair (mem_mergedPairs.2 (mem_mergeOps.2 ⟨e, hl, g, f, h1, (hsym g f).trans hs, rfl, rfl⟩)))
    | refl => exact .refl _
    | symm _ _ _ ih => exact .symm ih
    | trans _ _ _ _ _ ih ih' => exact .trans ih ih'

/-- The test is symmetric. -/
theorem samePlane_symm (ids : List Nat) (tris : List (List Nat)) (f g : Nat) : samePlane ids tris f g = samePlane ids tris g f := by
  unfold samePlane
  congr 1
  · rw [Bool.eq_iff_iff, beq_iff_eq, beq_iff_eq]; exact eq_comm
  · rw [Bool.eq_iff_iff]
    simp only [List.any_eq_true, List.contains_iff_mem]
    exact ⟨fun ⟨t, a, b⟩ => ⟨t, b, a⟩, fun ⟨t, a, b⟩ => ⟨t, b, a⟩⟩

/-- **C80.** `merge_faces` does not panic when it forms the groups. Each face with a sign is in exactly one group, no other face is in a group, and two faces are in the same group iff
they are connected by steps from a face to a face of the same plane over an edge that these two faces alone pass. If the faces with the same `id` and the
faces with a common triangle lie in one plane, all faces of a group do. -/
theorem c80_groups (ids : List Nat) (tris : List (List Nat)) (m : PMesh) (w : List Int) (hlt : ∀ c ∈ m.faces, ∀ x ∈ c, x.2 < m.nE) (fuel : Nat) (hf : Nat.log 2 (usedFaces m w).length < fuel) :
    ∃ gs, mergeGroups fuel (samePlane ids tris) m w = some gs ∧ (∀ f, Used m w f → ∃! kv, kv ∈ gs ∧ f ∈ kv.2) ∧
      (∀ kv ∈ gs, kv.2 ≠ [] ∧ kv.2.Nodup ∧ ∀ f ∈ kv.2, Used m w f ∧ ∀ g, g ∈ kv.2 ↔ Used m w g ∧ Relation.EqvGen (Adjacent (samePlane ids tris) m w) f g) ∧
      ∀ {P : Type} (plane : Nat → P) (on : Nat → P), (∀ f g, Used m w f → Used m w g → ids[f]? = ids[g]? → plane f = plane g) →
        (∀ f, Used m w f → ∀ t ∈ tris.getD f [], on t = plane f) → ∀ kv ∈ gs, ∀ f ∈ kv.2, ∀ g ∈ kv.2, plane f = plane g := by
  have hr : InRange (usedFaces m w).length (mergeOps (samePlane ids tris) m w) := by
    intro o ho
    obtain ⟨x, y, rfl⟩ := mergeOps_only ho
    obtain ⟨e, _, f, g, hl, _, rfl, rfl⟩ := mem_mergeOps.1 ho
    exact ⟨List.idxOf_lt_length_iff.2 (edgeFaces_mem (e := e) (by rw [hl]; simp)), List.idxOf_lt_length_iff.2 (edgeFaces_mem (e := e) (by rw [hl]; simp))⟩
  obtain ⟨s, s', mp, e1, e2, h1, -, h2, h3⟩ := DisjointSet.c03_output_partition _ fuel hf _ hr
  have hK := usedFaces_nodup m w
  have hidx : ∀ i < (usedFaces m w).length, (usedFaces m w).getD i 0 ∈ usedFaces m w ∧ (usedFaces m w).idxOf ((usedFaces m w).getD i 0) = i := by
    intro i hi
    rw [List.getD_eq_getElem?_getD, List.getElem?_eq_getElem hi]
    exact ⟨List.getElem_mem hi, hK.idxOf_getElem i hi⟩
  -- membership in the renumbered class
  have hmem : ∀ k v, (k, v) ∈ mp → ∀ f, f ∈ (v.map fun i => (usedFaces m w).getD i 0) ↔ f ∈ usedFaces m w ∧ (usedFaces m w).idxOf f ∈ v := by
    intro k v hv f
    rw [List.mem_map]
    constructor
    · rintro ⟨i, hi, rfl⟩
      obtain ⟨a, b⟩ := hidx i ((h2 k v hv).2.2 i hi).1
      exact ⟨a, by rw [b]; exact hi⟩
    · rintro ⟨a, b⟩
      exact ⟨_, b, getD_idxOf a⟩
  have hgroups : ∀ kv ∈ mp.map (fun kv => (kv.1, kv.2.map fun i => (usedFaces m w).getD i 0)), kv.2 ≠ [] ∧ kv.2.Nodup ∧ ∀ f ∈ kv.2, Used m w f ∧
      ∀ g, g ∈ kv.2 ↔ Used m w g ∧ Relation.EqvGen (Adjacent (samePlane ids tris) m w) f g := by
    intro kv' hkv'
    obtain ⟨⟨k, v⟩, hv, rfl⟩ := List.mem_map.1 hkv'
    obtain ⟨a, b, c⟩ := h2 k v hv
    refine ⟨?_, ?_, fun f hf => ?_⟩
    · intro h
      have : v = [] := List.map_eq_nil_iff.1 h
      rw [this] at a; cases a
    · refine List.Nodup.map_on (fun x hx y hy e => ?_) (b.imp fun h => Nat.ne_of_lt h)
      have := congrArg ((usedFaces m w).idxOf) e
      rwa [(hidx x (c x hx).1).2, (hidx y (c y hy).1).2] at this
    · rw [hmem k v hv] at hf
      refine ⟨mem_usedFaces.1 hf.1, fun g => ?_⟩
      rw [hmem k v hv, ← mem_usedFaces]
      refine and_congr_right fun hg => ?_
      rw [(c _ hf.2).2.2 _ (List.idxOf_lt_length_iff.2 hg), conn_iff (samePlane_symm ids tris) hlt hf.1 hg]
  refine ⟨mp.map fun kv => (kv.1, kv.2.map fun i => (usedFaces m w).getD i 0), ?_, fun f hf => ?_, hgroups, ?_⟩
  · unfold mergeGroups
    rw [e1]
    simp only [Option.bind_eq_bind, Option.bind_some, e2]
  · have hf' := mem_usedFaces.2 hf
    obtain ⟨⟨k, v⟩, ⟨hv, hv'⟩, hu⟩ := h3 _ (List.idxOf_lt_length_iff.2 hf')
    refine ⟨_, ⟨List.mem_map.2 ⟨_, hv, rfl⟩, (hmem k v hv f).2 ⟨hf', hv'⟩⟩, ?_⟩
    rintro kv' ⟨hkv', hfk⟩
    obtain ⟨⟨k', v'⟩, hv2, rfl⟩ := List.mem_map.1 hkv'
    have := hu _ ⟨hv2, ((hmem k' v' hv2 f).1 hfk).2⟩
    simp only [Prod.mk.injEq] at this
    obtain ⟨rfl, rfl⟩ := this
    rfl
  · intro P plane on hid hon kv hkv f hf g hg
    obtain ⟨-, -, h⟩ := hgroups kv hkv
    have hfg := (((h f hf).2 g).1 hg).2
    clear hf hg
    induction hfg with
    | rel f g h =>
      obtain ⟨hs, e, -, hf, hg, -⟩ := h
      unfold samePlane at hs
      rw [Bool.or_eq_true] at hs
      rcases hs with hs | hs
      · exact hid f g hf hg (by simpa using hs)
      · obtain ⟨t, ht, ht'⟩ := List.any_eq_true.1 hs
        rw [← hon f hf t ht, hon g hg t (by simpa using ht')]
    | refl => rfl
    | symm _ _ _ ih => exact ih.symm
    | trans _ _ _ _ _ ih ih' => exact ih.trans ih'

/-! ### The faces of a group as input of `extract_faces_outlines` -/

theorem hes_edge_count (c : Cycle) (e : Nat) : ((hes c).map HE.edge).count e = (c.map Prod.snd).count e := by
  have h : ∀ (l : Cycle) (z : Nat), (path l z).map HE.edge = l.map Prod.snd := by
    intro l
    induction l with
    | nil => intro _; rfl
    | cons x l ih => intro z; rw [path, List.map_cons, List.map_cons, ih]
  rw [hes, h]

theorem bd_none {l : List HE} {e : Nat} (h : (l.map HE.edge).count e = 0) (u : Nat) : bd l e u = 0 := by
  have h' : ∀ k ∈ l, k.edge ≠ e := fun k hk he => by
    have := List.count_eq_zero.1 h
    exact this (List.mem_map.2 ⟨k, hk, he⟩)
  unfold bd
  refine List.sum_eq_zero fun x hx => ?_
  obtain ⟨k, hk, rfl⟩ := List.mem_map.1 hx
  unfold inc
  rw [if_neg (h' k hk)]

theorem bd_one {l : List HE} {e : Nat} (h : (l.map HE.edge).count e = 1) : ∃ k ∈ l, k.edge = e ∧ ∀ u, bd l e u = inc k e u := by
  induction l with
  | nil => simp at h
  | cons a l ih =>
    rw [List.map_cons, List.count_cons] at h
    by_cases ha : a.edge = e
    · have h0 : (l.map HE.edge).count e = 0 := by simpa [ha] using h
      exact ⟨a, by simp, ha, fun u => by rw [bd_cons, bd_none h0, add_zero]⟩
    · obtain ⟨k, hk, hke, h1⟩ := ih (by simpa [ha] using h)
      refine ⟨k, by simp [hk], hke, fun u => ?_⟩
      rw [bd_cons, h1]
      unfold inc
      rw [if_neg ha, zero_add]

theorem sum_two {n f g : Nat} (hf : f < n) (hg : g < n) (hne : f ≠ g) (t : Nat → Int) (h : ∀ i < n, i ≠ f → i ≠ g → t i = 0) : ((List.range n).map t).sum = t f + t g := by
  have e : (List.range n).map t = (List.range n).map fun i => (if i = f then t f else 0) + if i = g then t g else 0 := by
    apply List.map_congr_left
    intro i hi
    by_cases a : i = f
    · subst a; simp [hne]
    · by_cases b : i = g
      · subst b; simp [a]
      · rw [h i (List.mem_range.1 hi) a b]; simp [a, b]
  have one : ∀ (n f : Nat) (x : Int), f < n → ((List.range n).map fun i => if i = f then x else 0).sum = x := by
    intro n f x
    induction n with
    | zero => intro h; omega
    | succ n ih =>
      intro h
      rw [List.range_succ, List.map_append, List.sum_append]
      by_cases hn : f = n
      · subst hn
        have : (List.range f).map (fun i => if i = f then x else 0) = (List.range f).map fun _ => 0 := by
          apply List.map_congr_left
          intro k hk
          have := List.mem_range.1 hk
          rw [if_neg (by omega)]
        rw [this]; simp
      · rw [ih (by omega)]
        simp [Ne.symm hn]
  have add : ∀ (l : List Nat) (p q : Nat → Int), (l.map fun i => p i + q i).sum = (l.map p).sum + (l.map q).sum := by
    intro l p q
    induction l with
    | nil => rfl
    | cons a l ih => simp only [List.map_cons, List.sum_cons, ih]; ring
  rw [e, add, one n f _ hf, one n g _ hg]

theorem balance_range (m : PMesh) (w : List Int) (hl : w.length = m.faces.length) (e u : Nat) :
    balance m w e u = ((List.range m.faces.length).map fun i => w.getD i 0 * bd (hes (m.faces.getD i [])) e u).sum := by
  unfold balance
  congr 1
  apply List.ext_getElem
  · simp [hl]
  · intro i h1 h2
    have h3 : i < w.length := by simp at h1; omega
    have h4 : i < m.faces.length := by omega
    simp [List.getElem?_eq_getElem h3, List.getElem?_eq_getElem h4]

theorem mem_oriented_iff {p : Int × Cycle} (hp : p.1 = 1 ∨ p.1 = -1) {h : HE} : h ∈ oriented p ↔ if p.1 = 1 then h ∈ hes p.2 else h.rev ∈ hes p.2 := by
  unfold oriented
  rcases hp with e | e
  · rw [if_pos (by omega), if_pos e]
  · rw [if_neg (by omega), if_neg (by omega), List.mem_map]
    constructor
    · rintro ⟨k, hk, rfl⟩
      exact List.mem_reverse.1 hk
    · intro hk
      exact ⟨h.rev, List.mem_reverse.2 hk, rfl⟩

/-- Two faces alone at an edge pass it in opposite directions. -/
theorem share_opposite {m : PMesh} {cl : List (Nat × Option Nat)} {w : List Int} (hm : MGood cl m) (hl : w.length = m.faces.length) (hw : ∀ x ∈ w, x = -1 ∨ x = 0 ∨ x = 1) (hb : ∀ e u, balance m w e u = 0) {f g e : Nat}
    (h : ShareEdge m w f g e) : ∃ k, k.edge = e ∧ k ∈ oriented (w.getD f 0, m.faces.getD f []) ∧ k.rev ∈ oriented (w.getD g 0, m.faces.getD g []) := by
  obtain ⟨hne, ⟨f1, f2⟩, ⟨g1, g2⟩, h1, h2, h3⟩ := h
  unfold passes at h1 h2
  rw [← hes_edge_count] at h1 h2
  obtain ⟨a, ha, hae, ha'⟩ := bd_one h1
  obtain ⟨b, hbm, hbe, hb'⟩ := bd_one h2
  have hall : ∀ i < m.faces.length, ∀ k ∈ hes (m.faces.getD i []), k ∈ m.all := by
    intro i hi k hk
    rw [List.getD_eq_getElem?_getD, List.getElem?_eq_getElem hi] at hk
    exact List.mem_flatMap.2 ⟨_, List.getElem_mem hi, hk⟩
  have hsum := hb e a.tail
  rw [balance_range m w hl, sum_two f1 g1 hne, ha', hb'] at hsum
  · have hprop := hm.proper a (hall f f1 a ha)
    have hwf : w.getD f 0 = 1 ∨ w.getD f 0 = -1 := by
      have : w.getD f 0 ∈ w := by rw [List.getD_eq_getElem?_getD, List.getElem?_eq_getElem (by omega)]; exact List.getElem_mem _
      rcases hw _ this with e | e | e
      · exact Or.inr e
      · exact absurd e f2
      · exact Or.inl e
    have hwg : w.getD g 0 = 1 ∨ w.getD g 0 = -1 := by
      have : w.getD g 0 ∈ w := by rw [List.getD_eq_getElem?_getD, List.getElem?_eq_getElem (by omega)]; exact List.getElem_mem _
      rcases hw _ this with e | e | e
      · exact Or.inr e
      · exact absurd e g2
      · exact Or.inl e
    have i1 : inc a e a.tail = 1 := by unfold inc; rw [if_pos hae, if_pos rfl, if_neg (Ne.symm hprop)]; ring
    have i2 : inc a.rev e a.tail = -1 := by rw [inc_rev, i1]
    have key : (b = a ∧ w.getD g 0 = - w.getD f 0) ∨ (b = a.rev ∧ w.getD g 0 = w.getD f 0) := by
      rcases hm.ends a (hall f f1 a ha) b (hall g g1 b hbm) (hae.trans hbe.symm) with e | e
      · left
        rw [e, i1] at hsum
        exact ⟨e, by linarith⟩
      · right
        rw [e, i2, i1] at hsum
        exact ⟨e, by linarith⟩
    rcases hwf with wf | wf
    · refine ⟨a, hae, (mem_oriented_iff (Or.inl wf)).2 (by rw [if_pos wf]; exact ha), (mem_oriented_iff hwg).2 ?_⟩
      rcases key with ⟨e1, e2⟩ | ⟨e1, e2⟩
      · rw [if_neg (by show ¬ w.getD g 0 = 1; omega)]; rw [e1] at hbm; exact hbm
      · rw [if_pos (by show w.getD g 0 = 1; omega)]; rw [e1] at hbm; exact hbm
    · refine ⟨a.rev, hae, (mem_oriented_iff (Or.inr wf)).2 (by rw [if_neg (by show ¬ w.getD f 0 = 1; omega)]; exact ha), (mem_oriented_iff hwg).2 ?_⟩
      rcases key with ⟨e1, e2⟩ | ⟨e1, e2⟩
      · rw [if_pos (by show w.getD g 0 = 1; omega)]; rw [e1] at hbm; exact hbm
      · rw [if_neg (by show ¬ w.getD g 0 = 1; omega)]; rw [e1] at hbm; exact hbm
  · intro i hi hif hig
    by_cases hwi : w.getD i 0 = 0
    · rw [hwi, zero_mul]
    · have := h3 i ⟨hi, hwi⟩ hif hig
      unfold passes at this
      rw [← hes_edge_count] at this
      rw [bd_none this, mul_zero]

/-- `e_halfedge` for the edges of the mesh. -/
def PMesh.canon (m : PMesh) (e : Nat) : HE := (m.all.find? fun h => h.edge = e).getD ⟨0, e, 0⟩

theorem canon_edge (m : PMesh) (e : Nat) : (m.canon e).edge = e := by
  unfold PMesh.canon
  cases h : m.all.find? fun h => h.edge = e with
  | none => rfl
  | some k => simpa using List.find?_some h

/-- **C80.** If a set of faces between kept and other cells has no edge that two of its faces and a third one pass, no two of its faces pass an edge in the same direction: it is
an input of `extract_faces_outlines` to which C79 applies. Here the signs are those of `kept_faces`, for any set of kept cells. -/
theorem c80_mergeable (s : St) (h : Good s) (kept : Nat → Bool) (fs : List Nat) (hnd : fs.Nodup) (hu : ∀ f ∈ fs, Used s.mesh (keptFaces kept s) f) (h1 : ∀ f ∈ fs, ∀ e, passes s.mesh f e ≤ 1)
    (h2 : ∀ f ∈ fs, ∀ g ∈ fs, f ≠ g → ∀ e, passes s.mesh f e = 1 → passes s.mesh g e = 1 → ∀ k, Used s.mesh (keptFaces kept s) k → k ≠ f → k ≠ g → passes s.mesh k e = 0) :
    Mergeable s.mesh.canon (fs.map fun f => ((keptFaces kept s).getD f 0, s.mesh.faces.getD f [])) := by
  obtain ⟨hb, hk⟩ := c76_kept_faces s h kept
  have hlen : (keptFaces kept s).length = s.mesh.faces.length := by rw [keptFaces, List.length_map, ← h.mesh.len, List.length_map]
  have hw : ∀ x ∈ keptFaces kept s, x = -1 ∨ x = 0 ∨ x = 1 := by
    intro x hx
    obtain ⟨i, hi, rfl⟩ := List.getElem_of_mem hx
    have hi' : i < s.cx.faces.length := by simpa [keptFaces] using hi
    obtain ⟨w, hw, -, -, h3⟩ := hk i _ (List.getElem?_eq_getElem hi')
    rw [List.getElem?_eq_getElem hi] at hw
    cases hw; exact h3
  have hall : ∀ f ∈ fs, ∀ k ∈ hes (s.mesh.faces.getD f []), k ∈ s.mesh.all := by
    intro f hf k hk
    have hi := (hu f hf).1
    rw [List.getD_eq_getElem?_getD, List.getElem?_eq_getElem hi] at hk
    exact List.mem_flatMap.2 ⟨_, List.getElem_mem hi, hk⟩
  have hsign : ∀ f ∈ fs, (keptFaces kept s).getD f 0 = 1 ∨ (keptFaces kept s).getD f 0 = -1 := by
    intro f hf
    have : (keptFaces kept s).getD f 0 ∈ keptFaces kept s := by
      have := (hu f hf).1
      rw [List.getD_eq_getElem?_getD, List.getElem?_eq_getElem (by omega)]; exact List.getElem_mem _
    rcases hw _ this with e | e | e
    · exact Or.inr e
    · exact absurd e (hu f hf).2
    · exact Or.inl e
  have hpass : ∀ f k, k ∈ hes (s.mesh.faces.getD f []) → 1 ≤ passes s.mesh f k.edge := by
    intro f k hk
    unfold passes
    rw [← hes_edge_count]
    exact List.count_pos_iff.2 (List.mem_map.2 ⟨k, hk, rfl⟩)
  have hor : ∀ f ∈ fs, ∀ k ∈ oriented ((keptFaces kept s).getD f 0, s.mesh.faces.getD f []), k ∈ hes (s.mesh.faces.getD f []) ∨ k.rev ∈ hes (s.mesh.faces.getD f []) := by
    intro f hf k hk
    have := (mem_oriented_iff (hsign f hf)).1 hk
    split at this
    · exact Or.inl this
    · exact Or.inr this
  refine ⟨fun p hp => ?_, fun p hp k hk => ?_, fun p hp k hk => ?_, ?_⟩
  · obtain ⟨f, hf, rfl⟩ := List.mem_map.1 hp
    exact (hu f hf).2
  · obtain ⟨f, hf, rfl⟩ := List.mem_map.1 hp
    have hka := hall f hf k hk
    unfold PMesh.canon
    cases hfi : s.mesh.all.find? fun x => x.edge = k.edge with
    | none =>
      rw [List.find?_eq_none] at hfi
      exact absurd (by simp) (hfi k hka)
    | some c =>
      have h3 : c.edge = k.edge := by simpa using List.find?_some hfi
      exact h.mesh.ends c (List.mem_of_find?_eq_some hfi) k hka h3
  · obtain ⟨f, hf, rfl⟩ := List.mem_map.1 hp
    exact h.mesh.proper k (hall f hf k hk)
  · unfold allOriented
    rw [List.flatMap_map, List.nodup_flatMap]
    refine ⟨fun f hf => ?_, ?_⟩
    · have hn : (hes (s.mesh.faces.getD f [])).Nodup := by
        refine List.Nodup.of_map HE.edge (List.nodup_iff_count_le_one.2 fun e => ?_)
        rw [hes_edge_count]; exact h1 f hf e
      unfold oriented
      split
      · exact hn
      · refine List.Nodup.map (fun a b e => ?_) (List.nodup_reverse.2 hn)
        have := congrArg HE.rev e
        exact this
    · refine hnd.imp_of_mem fun {f g} hf hg hne => ?_
      intro k hkf hkg
      have pf : passes s.mesh f k.edge = 1 := by
        refine le_antisymm (h1 f hf _) ?_
        rcases hor f hf k hkf with e | e
        · exact hpass f k e
        · exact hpass f k.rev e
      have pg : passes s.mesh g k.edge = 1 := by
        refine le_antisymm (h1 g hg _) ?_
        rcases hor g hg k hkg with e | e
        · exact hpass g k e
        · exact hpass g k.rev e
      obtain ⟨x, hx, x1, x2⟩ := share_opposite h.mesh hlen hw hb ⟨hne, hu f hf, hu g hg, pf, pg, h2 f hf g hg hne _ pf pg⟩
      -- each face has only one half-edge on the edge
      have uniq1 : ∀ f ∈ fs, ∀ a b : HE, a ∈ oriented ((keptFaces kept s).getD f 0, s.mesh.faces.getD f []) → b ∈ oriented ((keptFaces kept s).getD f 0, s.mesh.faces.getD f []) → a.edge = b.edge → a = b := by
        intro f hf a b ha hb hab
        have hn : ((hes (s.mesh.faces.getD f [])).map HE.edge).Nodup := List.nodup_iff_count_le_one.2 fun e => by rw [hes_edge_count]; exact h1 f hf e
        rw [mem_oriented_iff (hsign f hf)] at ha hb
        split at ha
        · rw [if_pos ‹_›] at hb
          exact List.inj_on_of_nodup_map hn ha hb hab
        · rw [if_neg ‹_›] at hb
          have := List.inj_on_of_nodup_map hn ha hb hab
          exact congrArg HE.rev this
      have e1 : x = k := uniq1 f hf x k x1 hkf hx
      have e2 : x.rev = k := uniq1 g hg x.rev k x2 hkg hx
      have : k.rev = k := (congrArg HE.rev e1).symm.trans e2
      have hp : k.tail ≠ k.tip := by
        rcases hor f hf k hkf with e | e
        · exact h.mesh.proper k (hall f hf k e)
        · exact (h.mesh.proper k.rev (hall f hf _ e)).symm
      exact hp (congrArg HE.tail this).symm

/-! ### Example: both tetrahedra of `exSt` are kept; the faces 1 and 4 have the same `id`, the faces 2 and 5 have a common triangle -/

example : mergeGroups 4 (samePlane [0, 1, 2, 3, 1, 5, 6] [[], [], [7, 8], [], [], [8], []]) exSt.mesh (keptFaces (fun _ => true) exSt) =
    some [(3, [1, 4]), (4, [2, 5]), (2, [3]), (5, [6])] := by decide +kernel

example : (∀ c ∈ exSt.mesh.faces, ∀ x ∈ c, x.2 < exSt.mesh.nE) ∧ Nat.log 2 (usedFaces exSt.mesh (keptFaces (fun _ => true) exSt)).length < 4 := by decide +kernel

example : Mergeable exSt.mesh.canon [(-1, exSt.mesh.faces.getD 1 []), (-1, exSt.mesh.faces.getD 4 [])] :=
  have hcheck : (∀ f ∈ [1, 4], passes exSt.mesh f 0 = 1) ∧ ∀ e < 9, e ≠ 0 → passes exSt.mesh 1 e = 0 ∨ passes exSt.mesh 4 e = 0 := by decide +kernel
  have hbig : ∀ f ∈ [1, 4], ∀ e, passes exSt.mesh f e ≤ 1 := by
    intro f hf e
    simp only [List.mem_cons, List.not_mem_nil, or_false] at hf
    unfold passes
    refine List.nodup_iff_count_le_one.1 ?_ e
    rcases hf with rfl | rfl <;> decide +kernel
  have hzero : ∀ e, e ≠ 0 → passes exSt.mesh 1 e = 0 ∨ passes exSt.mesh 4 e = 0 := by
    intro e he
    by_cases h : e < 9
    · exact hcheck.2 e h he
    · left
      refine List.count_eq_zero.2 fun hm => ?_
      have : ∀ x ∈ (exSt.mesh.faces.getD 1 []).map Prod.snd, x < 9 := by decide +kernel
      exact h (this e hm)
  have hother : ∀ k < 7, Used exSt.mesh (keptFaces (fun _ => true) exSt) k → k ≠ 1 → k ≠ 4 → passes exSt.mesh k 0 = 0 := by
    unfold Used; decide +kernel
  c80_mergeable exSt exSt_good (fun _ => true) [1, 4] (by decide) (by unfold Used; decide +kernel) hbig (by
    intro f hf g hg hne e h1 h2 k hk k1 k2
    have he : e = 0 := by
      by_contra he
      simp only [List.mem_cons, List.not_mem_nil, or_false] at hf hg
      rcases hf with rfl | rfl <;> rcases hg with rfl | rfl <;> rcases hzero e he with h | h <;> omega
    subst he
    simp only [List.mem_cons, List.not_mem_nil, or_false] at hf hg
    have hk7 : k < 7 := hk.1
    rcases hf with rfl | rfl <;> rcases hg with rfl | rfl
    · exact absurd rfl hne
    · exact hother k hk7 hk k1 k2
    · exact hother k hk7 hk k2 k1
    · exact absurd rfl hne)

end Verif.Bsp
