import Verif.Geom.Axis
import Mathlib.Tactic.LinearCombination
import Mathlib.Tactic.Linarith
import Mathlib.Data.List.Perm.Basic
import Mathlib.Data.List.Induction
import Mathlib.Data.List.Nodup
import Mathlib.Data.Fin.VecNotation
import Mathlib.Algebra.Order.Ring.Rat
/-!
# Virtual constraints: `place_virtual_constraints`, `add_virtual_constraint` (`src/polygonlization/conforming_mesh.rs` lines 39-130)

Coordinates live in a linearly ordered field and `orient2d`, `orient3d` have exact signs. All vertex indices are in range, so points are a
function. `corners v` are the corners of the tetrahedron `p2t[v]`. A triangle is a function `Fin 3 → Nat`, with indices modulo 3.
`axis` is `max_comp_in_tri_normal`.
-/
namespace Verif.Poly
open InSphere (Pt Ori orient3d doubleToSign)
open Geom (orient2dByAxis)

abbrev Triangle := Fin 3 → Nat
/-- A pair `(tid, hid)`. -/
abbrev HE := Nat × Fin 3

/-- The undirected edge used as key (line 44): edge `i` goes from corner `i` to corner `i + 1`. -/
def edgeKey (t : Triangle) (i : Fin 3) : Nat × Nat := if t i < t (i + 1) then (t i, t (i + 1)) else (t (i + 1), t i)

/-- Insertion into the hash map (lines 45-49). -/
def addToGroup (key : Nat × Nat) (h : HE) : List ((Nat × Nat) × List HE) → List ((Nat × Nat) × List HE)
  | [] => [(key, [h])]
  | (k, l) :: g => if k = key then (k, l ++ [h]) :: g else (k, l) :: addToGroup key h g

/-- The loops that fill `edge_map` (lines 41-51). -/
def edgeMap (tris : List Triangle) : List ((Nat × Nat) × List HE) :=
  (tris.zipIdx.flatMap fun ti => [0, 1, 2].map fun i => (edgeKey ti.1 i, (ti.2, i))).foldl (fun g kh => addToGroup kh.1 kh.2 g) []

section
variable {K : Type} [Field K] [LinearOrder K]

/-- The choice of the apex off the plane of the triangle (lines 102-117). -/
def pickApex (pt : Nat → Pt K) (t : Triangle) (x : Fin 4 → Nat) : Nat :=
  let bad v := v = t 0 ∨ v = t 1 ∨ v = t 2 ∨ orient3d (pt v) (pt (t 0)) (pt (t 1)) (pt (t 2)) = 0
  if bad (x 0) then if bad (x 1) then if bad (x 2) then x 3 else x 2 else x 1 else x 0

/-- `add_virtual_constraint` (lines 58-130). `none` is a panic (no half edge, or a triangle index out of range). -/
def addVirtual (pt : Nat → Pt K) (axis : Pt K → Pt K → Pt K → Nat) (corners : Nat → Fin 4 → Nat) (tris : List Triangle) : List HE → Option (List Triangle)
  | [] => none
  | (tid0, hid0) :: rest => do
    let t0 ← tris[tid0]?
    let others : List (Triangle × Fin 3) ← rest.mapM fun h => (tris[h.1]?).map fun t => (t, h.2)
    -- "unplannar: return"
    if others.any fun (o : Triangle × Fin 3) => decide (orient3d (pt (t0 hid0)) (pt (o.1 0)) (pt (o.1 1)) (pt (o.1 2)) ≠ 0) then return tris
    -- "all triangles on the same plane"
    let ax := axis (pt (t0 0)) (pt (t0 1)) (pt (t0 2))
    let pa := pt (t0 (hid0 + 1))
    let pb := pt (t0 (hid0 + 2))
    let base := orient2dByAxis pa pb (pt (t0 hid0)) ax
    if others.any fun (o : Triangle × Fin 3) => decide (orient2dByAxis pa pb (pt (o.1 o.2)) ax ≠ base) then return tris
    return tris ++ [(![t0 (hid0 + 1), t0 (hid0 + 2), pickApex pt t0 (corners (t0 0))] : Triangle)]

/-- `place_virtual_constraints` (lines 39-56). The map is visited in any order: `order` is a rearrangement of its values. -/
def placeVirtual (pt : Nat → Pt K) (axis : Pt K → Pt K → Pt K → Nat) (corners : Nat → Fin 4 → Nat) (tris : List Triangle) (order : List (List HE)) :
    Option (List Triangle) := order.foldlM (addVirtual pt axis corners) tris

/-! ### Specification -/

/-- The cross product of the edge from `u` to `v` and the vector from `u` to `w`. -/
def edgeNormal (u v w : Pt K) : K × K × K :=
  ((v.y - u.y) * (w.z - u.z) - (v.z - u.z) * (w.y - u.y), (v.z - u.z) * (w.x - u.x) - (v.x - u.x) * (w.z - u.z), (v.x - u.x) * (w.y - u.y) - (v.y - u.y) * (w.x - u.x))

/-- The triangles `u v w` and `u v w'` are coplanar and on the same side of the edge `u v`: their normals have the same direction. -/
def SameFlatSide (u v w w' : Pt K) : Prop :=
  let n := edgeNormal u v w
  let n' := edgeNormal u v w'
  (n.2.1 * n'.2.2 = n.2.2 * n'.2.1 ∧ n.2.2 * n'.1 = n.1 * n'.2.2 ∧ n.1 * n'.2.1 = n.2.1 * n'.1) ∧ 0 < n.1 * n'.1 + n.2.1 * n'.2.1 + n.2.2 * n'.2.2

/-- All triangles at the edge of the first half edge are coplanar and on the same side of it. -/
def FlatBoundary (pt : Nat → Pt K) (tris : List Triangle) (h0 : HE) (rest : List HE) : Prop :=
  ∀ t0, tris[h0.1]? = some t0 → ∀ h ∈ rest, ∀ t, tris[h.1]? = some t →
    SameFlatSide (pt (t0 h0.2)) (pt (t0 (h0.2 + 1))) (pt (t0 (h0.2 + 2))) (pt (t (h.2 + 2)))

end

/-- The half edges of `hs` exist and share one undirected edge with distinct ends. -/
def Group (tris : List Triangle) (hs : List HE) : Prop :=
  ∃ u v, u ≠ v ∧ ∀ h ∈ hs, ∃ t, tris[h.1]? = some t ∧ ((t h.2 = u ∧ t (h.2 + 1) = v) ∨ (t h.2 = v ∧ t (h.2 + 1) = u))

/-! ### The edge map -/

theorem addToGroup_get (key : Nat × Nat) (h : HE) : ∀ (g : List ((Nat × Nat) × List HE)), (g.map Prod.fst).Nodup →
    ((addToGroup key h g).map Prod.fst).Nodup ∧ (∀ k ∈ (addToGroup key h g).map Prod.fst, k = key ∨ k ∈ g.map Prod.fst) ∧
    ∀ k l, (k, l) ∈ addToGroup key h g ↔ (k ≠ key ∧ (k, l) ∈ g) ∨ (k = key ∧ ((∃ l', (k, l') ∈ g ∧ l = l' ++ [h]) ∨ (key ∉ g.map Prod.fst ∧ l = [h])))
  | [], _ => by
    refine ⟨by simp [addToGroup], by simp [addToGroup], fun k l => ?_⟩
    simp only [addToGroup, List.mem_singleton, Prod.mk.injEq, List.not_mem_nil, and_false, false_or, false_and, exists_false, List.map_nil, not_false_eq_true, true_and]
  | (k0, l0) :: g, hnd => by
    obtain ⟨h1, h2⟩ := List.nodup_cons.1 hnd
    unfold addToGroup
    by_cases hk : k0 = key
    · subst hk
      rw [if_pos rfl]
      refine ⟨by simpa using hnd, by simp, fun k l => ?_⟩
      simp only [List.mem_cons, Prod.mk.injEq, List.map_cons, true_or, not_true_eq_false, false_and, or_false]
      constructor
      · rintro (⟨rfl, rfl⟩ | hm)
        · exact .inr ⟨rfl, l0, .inl ⟨rfl, rfl⟩, rfl⟩
        · refine .inl ⟨?_, .inr hm⟩
          rintro rfl; exact h1 (List.mem_map.2 ⟨_, hm, rfl⟩)
      · rintro (⟨hne, ⟨rfl, rfl⟩ | hm⟩ | ⟨rfl, l', ⟨_, rfl⟩ | hm, rfl⟩)
        · exact absurd rfl hne
        · exact .inr hm
        · exact .inl ⟨rfl, rfl⟩
        · exact absurd (List.mem_map.2 ⟨_, hm, rfl⟩) h1
    · rw [if_neg hk]
      obtain ⟨i1, i2, i3⟩ := addToGroup_get key h g h2
      refine ⟨?_, ?_, fun k l => ?_⟩
      · rw [List.map_cons, List.nodup_cons]
        refine ⟨fun hm => ?_, i1⟩
        rcases i2 _ hm with e | e
        · exact hk e
        · exact h1 e
      · intro k hm
        rcases List.mem_cons.1 hm with rfl | hm
        · exact .inr (by simp)
        · exact (i2 k hm).imp_right (List.mem_cons_of_mem _)
      · simp only [List.mem_cons, i3, Prod.mk.injEq, List.map_cons, not_or]
        have hk' : ¬ key = k0 := Ne.symm hk
        constructor
        · rintro (⟨rfl, rfl⟩ | ⟨hne, hm⟩ | ⟨rfl, ⟨l', hm, rfl⟩ | ⟨hn, rfl⟩⟩)
          · exact .inl ⟨hk, .inl ⟨rfl, rfl⟩⟩
          · exact .inl ⟨hne, .inr hm⟩
          · exact .inr ⟨rfl, .inl ⟨l', .inr hm, rfl⟩⟩
          · exact .inr ⟨rfl, .inr ⟨⟨hk', hn⟩, rfl⟩⟩
        · rintro (⟨hne, ⟨rfl, rfl⟩ | hm⟩ | ⟨rfl, ⟨l', ⟨rfl, rfl⟩ | hm, rfl⟩ | ⟨⟨_, hn⟩, rfl⟩⟩)
          · exact .inl ⟨rfl, rfl⟩
          · exact .inr (.inl ⟨hne, hm⟩)
          · exact absurd rfl hk
          · exact .inr (.inr ⟨rfl, .inl ⟨l', hm, rfl⟩⟩)
          · exact .inr (.inr ⟨rfl, .inr ⟨hn, rfl⟩⟩)

/-- After inserting the pairs `ps`, every key has exactly one entry, with its values in order. -/
theorem group_fold : ∀ (ps : List ((Nat × Nat) × HE)), ((ps.foldl (fun g kh => addToGroup kh.1 kh.2 g) []).map Prod.fst).Nodup ∧
    ∀ k l, (k, l) ∈ ps.foldl (fun g kh => addToGroup kh.1 kh.2 g) [] ↔ l ≠ [] ∧ l = (ps.filter fun p => p.1 = k).map Prod.snd := by
  intro ps
  induction ps using List.reverseRecOn with
  | nil => exact ⟨by simp, fun k l => by simp⟩
  | append_singleton ps p ih =>
    obtain ⟨key, h⟩ := p
    obtain ⟨i1, i2⟩ := ih
    rw [List.foldl_append]
    simp only [List.foldl_cons, List.foldl_nil]
    obtain ⟨q1, _, q3⟩ := addToGroup_get key h _ i1
    refine ⟨q1, fun k l => ?_⟩
    rw [q3]
    have hkeys : key ∉ (ps.foldl (fun g kh => addToGroup kh.1 kh.2 g) []).map Prod.fst ↔ (ps.filter fun p => p.1 = key).map Prod.snd = [] := by
      constructor
      · intro hn
        by_contra hne
        exact hn (List.mem_map.2 ⟨(key, _), (i2 _ _).2 ⟨hne, rfl⟩, rfl⟩)
      · intro he hn
        obtain ⟨⟨k', l'⟩, hm, rfl⟩ := List.mem_map.1 hn
        obtain ⟨a, b⟩ := (i2 _ _).1 hm
        exact a (b.trans he)
    rw [hkeys]
    simp only [i2, List.filter_append, List.map_append]
    by_cases hk : k = key
    · subst hk
      simp only [ne_eq, not_true_eq_false, false_and, true_and, false_or, decide_true, List.filter_cons_of_pos, List.filter_nil, List.map_cons, List.map_nil]
      constructor
      · rintro (⟨l', ⟨_, rfl⟩, rfl⟩ | ⟨e, rfl⟩)
        · simp
        · simp [e]
      · rintro ⟨_, rfl⟩
        by_cases e : (ps.filter fun p => p.1 = k).map Prod.snd = []
        · exact .inr ⟨e, by rw [e]; rfl⟩
        · exact .inl ⟨_, ⟨e, rfl⟩, rfl⟩
    · have : ¬ key = k := Ne.symm hk
      simp [hk, this]

/-- C55. The edge map: each undirected edge occurs once, with the half edges of all triangles that have it, in order. -/
theorem c55_edge_map (tris : List Triangle) : ((edgeMap tris).map Prod.fst).Nodup ∧
    ∀ k l, (k, l) ∈ edgeMap tris → l ≠ [] ∧ l.Nodup ∧ ∀ h : HE, h ∈ l ↔ ∃ t, tris[h.1]? = some t ∧ edgeKey t h.2 = k := by
  obtain ⟨h1, h2⟩ := group_fold (tris.zipIdx.flatMap fun ti => [0, 1, 2].map fun i => (edgeKey ti.1 i, (ti.2, i)))
  refine ⟨h1, fun k l hm => ?_⟩
  obtain ⟨q1, q2⟩ := (h2 k l).1 hm
  refine ⟨q1, ?_, fun h => ?_⟩
  · rw [q2]
    have hnd : ((tris.zipIdx.flatMap fun ti => ([0, 1, 2] : List (Fin 3)).map fun i => (edgeKey ti.1 i, (ti.2, i))).map Prod.snd).Nodup := by
      rw [List.map_flatMap]
      rw [List.nodup_flatMap]
      refine ⟨fun ti _ => by simp, ?_⟩
      have : (tris.zipIdx.map Prod.snd).Nodup := by rw [List.zipIdx_map_snd]; exact List.nodup_range'
      rw [List.Nodup, List.pairwise_map] at this
      refine this.imp fun {a b} hab => ?_
      simp only [Function.onFun, List.disjoint_left, List.mem_map]
      rintro x ⟨y, ⟨i, _, rfl⟩, rfl⟩ ⟨z, ⟨j, _, rfl⟩, e⟩
      simp only [Prod.mk.injEq] at e
      exact hab e.1.symm
    exact hnd.sublist (List.filter_sublist.map _)
  · rw [q2]
    simp only [List.mem_map, List.mem_filter, List.mem_flatMap, decide_eq_true_eq]
    constructor
    · rintro ⟨p, ⟨⟨ti, hti, i, _, rfl⟩, rfl⟩, rfl⟩
      obtain ⟨t, n⟩ := ti
      exact ⟨t, by simpa [List.mem_zipIdx_iff_getElem?] using hti, rfl⟩
    · rintro ⟨t, ht, rfl⟩
      refine ⟨_, ⟨⟨(t, h.1), by simpa [List.mem_zipIdx_iff_getElem?] using ht, h.2, ?_, rfl⟩, rfl⟩, rfl⟩
      have : ∀ i : Fin 3, i ∈ ([0, 1, 2] : List (Fin 3)) := by decide
      exact this _

/-- The values of the map are groups. -/
theorem edgeMap_group (tris : List Triangle) (hd : ∀ t ∈ tris, Function.Injective t) (k : Nat × Nat) (l : List HE) (h : (k, l) ∈ edgeMap tris) : Group tris l := by
  obtain ⟨q1, _, q2⟩ := (c55_edge_map tris).2 k l h
  obtain ⟨h0, hh0⟩ := List.exists_mem_of_ne_nil l q1
  obtain ⟨t0, ht0, e0⟩ := (q2 h0).1 hh0
  have hne : t0 h0.2 ≠ t0 (h0.2 + 1) := fun e => by
    have := hd t0 (List.mem_of_getElem? ht0) e
    have h3 : ∀ i : Fin 3, i ≠ i + 1 := by decide
    exact h3 _ this
  refine ⟨t0 h0.2, t0 (h0.2 + 1), hne, fun h hh => ?_⟩
  obtain ⟨t, ht, e⟩ := (q2 h).1 hh
  refine ⟨t, ht, ?_⟩
  rw [← e0] at e
  unfold edgeKey at e
  split at e <;> split at e <;> simp only [Prod.mk.injEq] at e
  · exact .inl e
  · exact .inr e
  · exact .inr ⟨e.2, e.1⟩
  · exact .inl ⟨e.2, e.1⟩

/-! ### What `add_virtual_constraint` does -/

section
variable {K : Type} [Field K] [LinearOrder K] [IsStrictOrderedRing K]

theorem orient3d_coincide (a b c d : Pt K) (h : a = b ∨ a = c ∨ a = d) : orient3d a b c d = 0 := by
  rcases h with rfl | rfl | rfl <;> unfold orient3d <;> ring

theorem orient2d_coincide (a b : Pt K) (ax : Nat) : orient2dByAxis a b a ax = .zero := by
  unfold orient2dByAxis Geom.orient2d doubleToSign
  split_ifs <;> first | rfl | (exfalso; simp at *)

/-- The projected orientation of a triangle does not vanish when the corners are rotated. -/
theorem byAxis_rotate (p : Fin 3 → Pt K) (i : Fin 3) (ax : Nat) : orient2dByAxis (p (i + 1)) (p (i + 2)) (p i) ax = orient2dByAxis (p 0) (p 1) (p 2) ax := by
  have key : ∀ a b c : Pt K, orient2dByAxis b c a ax = orient2dByAxis a b c ax := by
    intro a b c
    unfold orient2dByAxis
    split_ifs <;> (congr 1; unfold Geom.orient2d; ring)
  have hi : i = 0 ∨ i = 1 ∨ i = 2 := by revert i; decide
  rcases hi with rfl | rfl | rfl
  · exact key _ _ _
  · show orient2dByAxis (p 2) (p 0) (p 1) ax = _
    rw [key, key]
  · rfl

theorem mapM_some {α β : Type} (f : α → Option β) : ∀ (l : List α), (∀ x ∈ l, ∃ y, f x = some y) → ∃ r, l.mapM f = some r ∧ (∀ y, y ∈ r ↔ ∃ x ∈ l, f x = some y)
  | [], _ => ⟨[], rfl, by simp⟩
  | x :: l, h => by
    obtain ⟨y, hy⟩ := h x (by simp)
    obtain ⟨r, hr, hm⟩ := mapM_some f l fun z hz => h z (List.mem_cons_of_mem _ hz)
    refine ⟨y :: r, by simp [hy, hr], fun z => ?_⟩
    simp only [List.mem_cons, hm, exists_eq_or_imp, hy, Option.some.injEq, eq_comm (a := z)]

/-- What `add_virtual_constraint` really decides: the triangle is added iff all triangles run through the edge in the same direction as the first
one. The test for coplanarity is void, because it is made for an end of the common edge. -/
theorem c55_actual (pt : Nat → Pt K) (axis : Pt K → Pt K → Pt K → Nat) (corners : Nat → Fin 4 → Nat) (tris : List Triangle) (h0 : HE) (rest : List HE)
    (hg : Group tris (h0 :: rest)) (t0 : Triangle) (ht0 : tris[h0.1]? = some t0)
    (hax : orient2dByAxis (pt (t0 0)) (pt (t0 1)) (pt (t0 2)) (axis (pt (t0 0)) (pt (t0 1)) (pt (t0 2))) ≠ .zero) :
    ((∀ h ∈ rest, ∀ t, tris[h.1]? = some t → t h.2 = t0 h0.2) ∧
      addVirtual pt axis corners tris (h0 :: rest) = some (tris ++ [(![t0 (h0.2 + 1), t0 (h0.2 + 2), pickApex pt t0 (corners (t0 0))] : Triangle)])) ∨
    ((∃ h ∈ rest, ∃ t, tris[h.1]? = some t ∧ t h.2 = t0 (h0.2 + 1) ∧ t (h.2 + 1) = t0 h0.2) ∧ addVirtual pt axis corners tris (h0 :: rest) = some tris) := by
  obtain ⟨u, v, huv, hall⟩ := hg
  obtain ⟨o, ho, hmem⟩ := mapM_some (fun h : HE => (tris[h.1]?).map fun t => (t, h.2)) rest (fun h hh => by
    obtain ⟨t, ht, _⟩ := hall h (List.mem_cons_of_mem _ hh)
    exact ⟨(t, h.2), by simp [ht]⟩)
  have hmem' : ∀ y : Triangle × Fin 3, y ∈ o ↔ ∃ h ∈ rest, tris[h.1]? = some y.1 ∧ h.2 = y.2 := by
    intro y
    rw [hmem]
    constructor
    · rintro ⟨h, hh, e⟩
      obtain ⟨t, e1, e2⟩ := Option.map_eq_some_iff.1 e
      subst e2
      exact ⟨h, hh, e1, rfl⟩
    · rintro ⟨h, hh, e1, e2⟩
      exact ⟨h, hh, by rw [e1, Option.map_some, e2]⟩
  -- ends of the first half edge
  obtain ⟨t0', ht0', hends0⟩ := hall h0 (by simp)
  rw [ht0] at ht0'; cases ht0'
  have hends : ∀ y ∈ o, (y.1 y.2 = t0 h0.2 ∧ y.1 (y.2 + 1) = t0 (h0.2 + 1)) ∨ (y.1 y.2 = t0 (h0.2 + 1) ∧ y.1 (y.2 + 1) = t0 h0.2) := by
    intro y hy
    obtain ⟨h, hh, e1, e2⟩ := (hmem' y).1 hy
    obtain ⟨t, ht, hends⟩ := hall h (List.mem_cons_of_mem _ hh)
    rw [e1] at ht; cases ht
    rw [e2] at hends
    rcases hends0 with ⟨a1, a2⟩ | ⟨a1, a2⟩ <;> rcases hends with ⟨b1, b2⟩ | ⟨b1, b2⟩ <;> rw [a1, a2, b1, b2] <;> tauto
  have hplane : (o.any fun (o : Triangle × Fin 3) => decide (orient3d (pt (t0 h0.2)) (pt (o.1 0)) (pt (o.1 1)) (pt (o.1 2)) ≠ 0)) = false := by
    rw [List.any_eq_false]
    intro y hy
    simp only [ne_eq, decide_not, Bool.not_eq_true, Bool.not_eq_false', decide_eq_true_eq]
    apply orient3d_coincide
    have hi : ∀ i : Fin 3, i = 0 ∨ i = 1 ∨ i = 2 := by decide
    rcases hends y hy with ⟨e, _⟩ | ⟨_, e⟩
    · rw [← e]; rcases hi y.2 with h | h | h <;> rw [h] <;> tauto
    · rw [← e]; rcases hi (y.2 + 1) with h | h | h <;> rw [h] <;> tauto
  have hbase : orient2dByAxis (pt (t0 (h0.2 + 1))) (pt (t0 (h0.2 + 2))) (pt (t0 h0.2)) (axis (pt (t0 0)) (pt (t0 1)) (pt (t0 2))) ≠ .zero := by
    rw [byAxis_rotate (fun i => pt (t0 i))]; exact hax
  have run : addVirtual pt axis corners tris (h0 :: rest) =
      if o.any fun (o : Triangle × Fin 3) => decide (orient2dByAxis (pt (t0 (h0.2 + 1))) (pt (t0 (h0.2 + 2))) (pt (o.1 o.2)) (axis (pt (t0 0)) (pt (t0 1)) (pt (t0 2))) ≠
          orient2dByAxis (pt (t0 (h0.2 + 1))) (pt (t0 (h0.2 + 2))) (pt (t0 h0.2)) (axis (pt (t0 0)) (pt (t0 1)) (pt (t0 2)))) then some tris
      else some (tris ++ [(![t0 (h0.2 + 1), t0 (h0.2 + 2), pickApex pt t0 (corners (t0 0))] : Triangle)]) := by
    obtain ⟨n0, i0⟩ := h0
    unfold addVirtual
    simp only at ht0 hplane
    simp only [ht0, ho, Option.bind_eq_bind, Option.bind_some]
    rw [if_neg (by rw [hplane]; simp)]
    rfl
  rw [run]
  by_cases hdir : ∀ y ∈ o, y.1 y.2 = t0 h0.2
  · left
    refine ⟨fun h hh t ht => hdir (t, h.2) ((hmem' _).2 ⟨h, hh, ht, rfl⟩), if_neg ?_⟩
    rw [Bool.not_eq_true, List.any_eq_false]
    intro y hy
    rw [hdir y hy]; simp
  · right
    have hex : ∃ y ∈ o, y.1 y.2 = t0 (h0.2 + 1) ∧ y.1 (y.2 + 1) = t0 h0.2 := by
      by_contra hcon
      apply hdir
      intro y hy
      rcases hends y hy with h | h
      · exact h.1
      · exact absurd ⟨y, hy, h⟩ hcon
    obtain ⟨y, hy, hy1, hy2⟩ := hex
    obtain ⟨h, hh, e1, e2⟩ := (hmem' y).1 hy
    refine ⟨⟨h, hh, y.1, e1, by rw [e2]; exact hy1, by rw [e2]; exact hy2⟩, if_pos ?_⟩
    rw [List.any_eq_true]
    refine ⟨y, hy, ?_⟩
    rw [hy1, orient2d_coincide]
    simpa using Ne.symm hbase

/-- C55 (partial). Full statement: "the triangle is added iff all triangles at the edge are coplanar and on the same side of it". It holds for an edge of a
single triangle, and for an edge at which some other triangle runs in the opposite direction and is not folded onto the first one, as on every
consistently oriented surface without folds. Missing: `c55_refuted`. -/
theorem c55_partial (pt : Nat → Pt K) (axis : Pt K → Pt K → Pt K → Nat) (corners : Nat → Fin 4 → Nat) (tris : List Triangle) (h0 : HE) (rest : List HE)
    (hg : Group tris (h0 :: rest)) (t0 : Triangle) (ht0 : tris[h0.1]? = some t0)
    (hax : orient2dByAxis (pt (t0 0)) (pt (t0 1)) (pt (t0 2)) (axis (pt (t0 0)) (pt (t0 1)) (pt (t0 2))) ≠ .zero)
    (hcons : rest = [] ∨ ∃ h ∈ rest, ∃ t, tris[h.1]? = some t ∧ t h.2 = t0 (h0.2 + 1) ∧
      ¬ SameFlatSide (pt (t0 h0.2)) (pt (t0 (h0.2 + 1))) (pt (t0 (h0.2 + 2))) (pt (t (h.2 + 2)))) :
    (∃ x, addVirtual pt axis corners tris (h0 :: rest) = some (tris ++ [x])) ↔ FlatBoundary pt tris h0 rest := by
  have hne : t0 h0.2 ≠ t0 (h0.2 + 1) := by
    obtain ⟨u, v, huv, hall⟩ := hg
    obtain ⟨t, ht, h⟩ := hall h0 (by simp)
    rw [ht0] at ht; cases ht
    rcases h with ⟨a, b⟩ | ⟨a, b⟩ <;> rw [a, b]
    · exact huv
    · exact huv.symm
  rcases c55_actual pt axis corners tris h0 rest hg t0 ht0 hax with ⟨a, r⟩ | ⟨a, r⟩
  · refine ⟨fun _ => ?_, fun _ => ⟨_, r⟩⟩
    rcases hcons with rfl | ⟨h, hh, t, ht, e, _⟩
    · intro t _ h hh; cases hh
    · exact absurd ((a h hh t ht).symm.trans e) hne
  · refine ⟨fun ⟨x, e⟩ => ?_, fun hf => ?_⟩
    · rw [r] at e
      have := congrArg List.length (Option.some.inj e)
      simp at this
    · rcases hcons with rfl | ⟨h, hh, t, ht, e, hn⟩
      · obtain ⟨h, hh, _⟩ := a; cases hh
      · exact absurd (hf t0 ht0 h hh t ht) hn

omit [LinearOrder K] [IsStrictOrderedRing K] in
/-- Four points in the plane of a proper triangle span no volume. -/
theorem flat_of_all (a b c : Pt K) (x : Fin 4 → Pt K) (hf : ¬ Geom.Flat a b c) (h : ∀ i, orient3d (x i) a b c = 0) : orient3d (x 0) (x 1) (x 2) (x 3) = 0 := by
  by_contra hD
  apply hf
  have h0 := h 0
  have h1 := h 1
  have h2 := h 2
  have h3 := h 3
  refine ⟨?_, ?_, ?_⟩ <;> refine ((mul_eq_zero (a := orient3d (x 0) (x 1) (x 2) (x 3))).1 ?_).resolve_left hD <;>
    simp only [orient3d, Geom.nXY, Geom.nYZ, Geom.nXZ, Geom.orient2d, Geom.xy, Geom.yz, Geom.xz] at h0 h1 h2 h3 ⊢
  · linear_combination (((x 1).x - (x 3).x) * ((x 2).y - (x 3).y) - ((x 1).y - (x 3).y) * ((x 2).x - (x 3).x)) * (h0 - h3) +
      (((x 2).x - (x 3).x) * ((x 0).y - (x 3).y) - ((x 2).y - (x 3).y) * ((x 0).x - (x 3).x)) * (h1 - h3) +
      (((x 0).x - (x 3).x) * ((x 1).y - (x 3).y) - ((x 0).y - (x 3).y) * ((x 1).x - (x 3).x)) * (h2 - h3)
  · linear_combination (((x 1).y - (x 3).y) * ((x 2).z - (x 3).z) - ((x 1).z - (x 3).z) * ((x 2).y - (x 3).y)) * (h0 - h3) +
      (((x 2).y - (x 3).y) * ((x 0).z - (x 3).z) - ((x 2).z - (x 3).z) * ((x 0).y - (x 3).y)) * (h1 - h3) +
      (((x 0).y - (x 3).y) * ((x 1).z - (x 3).z) - ((x 0).z - (x 3).z) * ((x 1).y - (x 3).y)) * (h2 - h3)
  · linear_combination -(((x 1).z - (x 3).z) * ((x 2).x - (x 3).x) - ((x 1).x - (x 3).x) * ((x 2).z - (x 3).z)) * (h0 - h3) -
      (((x 2).z - (x 3).z) * ((x 0).x - (x 3).x) - ((x 2).x - (x 3).x) * ((x 0).z - (x 3).z)) * (h1 - h3) -
      (((x 0).z - (x 3).z) * ((x 1).x - (x 3).x) - ((x 0).x - (x 3).x) * ((x 1).z - (x 3).z)) * (h2 - h3)

/-- C55. "If the first three times failed, then the next time must succeed": the apex of an added triangle is off the plane of the first triangle, if
this triangle and the tetrahedron of its first corner are not degenerate. -/
theorem c55_apex (pt : Nat → Pt K) (t : Triangle) (x : Fin 4 → Nat) (ht : ¬ Geom.Collinear (pt (t 0)) (pt (t 1)) (pt (t 2)))
    (hx : orient3d (pt (x 0)) (pt (x 1)) (pt (x 2)) (pt (x 3)) ≠ 0) :
    (∃ i, pickApex pt t x = x i) ∧ orient3d (pt (pickApex pt t x)) (pt (t 0)) (pt (t 1)) (pt (t 2)) ≠ 0 := by
  rw [Geom.collinear_iff_flat] at ht
  have bad : ∀ v, (v = t 0 ∨ v = t 1 ∨ v = t 2 ∨ orient3d (pt v) (pt (t 0)) (pt (t 1)) (pt (t 2)) = 0) ↔ orient3d (pt v) (pt (t 0)) (pt (t 1)) (pt (t 2)) = 0 := by
    intro v
    constructor
    · rintro (rfl | rfl | rfl | h)
      · unfold orient3d; ring
      · unfold orient3d; ring
      · unfold orient3d; ring
      · exact h
    · intro h; exact .inr (.inr (.inr h))
  unfold pickApex
  simp only [bad]
  split_ifs with h0 h1 h2
  · refine ⟨⟨3, rfl⟩, fun h3 => hx ?_⟩
    refine flat_of_all (pt (t 0)) (pt (t 1)) (pt (t 2)) (fun i => pt (x i)) ht fun i => ?_
    have hi : i = 0 ∨ i = 1 ∨ i = 2 ∨ i = 3 := by revert i; decide
    rcases hi with rfl | rfl | rfl | rfl <;> assumption
  · exact ⟨⟨2, rfl⟩, h2⟩
  · exact ⟨⟨1, rfl⟩, h1⟩
  · exact ⟨⟨0, rfl⟩, h0⟩

/-- C55. `place_virtual_constraints` on triangles that are not degenerate, whatever the order of the hash map: the given triangles stay in place, and at
most one triangle is added for each edge, made of an edge of a given triangle and a vertex off its plane. -/
theorem c55_place (pt : Nat → Pt K) (axis : Pt K → Pt K → Pt K → Nat) (corners : Nat → Fin 4 → Nat) (tris : List Triangle)
    (hax : ∀ a b c, ¬ Geom.Collinear a b c → orient2dByAxis a b c (axis a b c) ≠ .zero)
    (hd : ∀ t ∈ tris, ¬ Geom.Collinear (pt (t 0)) (pt (t 1)) (pt (t 2))) (hinj : ∀ t ∈ tris, Function.Injective t)
    (hc : ∀ t ∈ tris, orient3d (pt (corners (t 0) 0)) (pt (corners (t 0) 1)) (pt (corners (t 0) 2)) (pt (corners (t 0) 3)) ≠ 0)
    (order : List (List HE)) (hp : order.Perm ((edgeMap tris).map Prod.snd)) :
    ∃ new, placeVirtual pt axis corners tris order = some (tris ++ new) ∧ new.length ≤ order.length ∧
      ∀ x ∈ new, ∃ t ∈ tris, ∃ i : Fin 3, x 0 = t i ∧ x 1 = t (i + 1) ∧ (∃ j, x 2 = corners (t 0) j) ∧ orient3d (pt (x 2)) (pt (t 0)) (pt (t 1)) (pt (t 2)) ≠ 0 := by
  have hgroups : ∀ l ∈ order, Group tris l ∧ l ≠ [] := by
    intro l hl
    obtain ⟨⟨k, l'⟩, hm, rfl⟩ := List.mem_map.1 (hp.mem_iff.1 hl)
    exact ⟨edgeMap_group tris hinj k l' hm, ((c55_edge_map tris).2 k l' hm).1⟩
  clear hp
  suffices H : ∀ (order : List (List HE)), (∀ l ∈ order, Group tris l ∧ l ≠ []) → ∀ new0 : List Triangle,
      (∀ x ∈ new0, ∃ t ∈ tris, ∃ i : Fin 3, x 0 = t i ∧ x 1 = t (i + 1) ∧ (∃ j, x 2 = corners (t 0) j) ∧ orient3d (pt (x 2)) (pt (t 0)) (pt (t 1)) (pt (t 2)) ≠ 0) →
      ∃ new, order.foldlM (addVirtual pt axis corners) (tris ++ new0) = some (tris ++ new) ∧ new.length ≤ new0.length + order.length ∧
        ∀ x ∈ new, ∃ t ∈ tris, ∃ i : Fin 3, x 0 = t i ∧ x 1 = t (i + 1) ∧ (∃ j, x 2 = corners (t 0) j) ∧ orient3d (pt (x 2)) (pt (t 0)) (pt (t 1)) (pt (t 2)) ≠ 0 by
    obtain ⟨new, h1, h2, h3⟩ := H order hgroups [] (by simp)
    exact ⟨new, by simpa [placeVirtual] using h1, by simpa using h2, h3⟩
  intro order
  induction order with
  | nil => intro _ new0 h0; exact ⟨new0, rfl, by simp, h0⟩
  | cons l order ih =>
    intro hg new0 h0
    obtain ⟨g, hne⟩ := hg l (by simp)
    cases l with
    | nil => exact absurd rfl hne
    | cons e rest =>
      have hlift : ∀ (n : Nat) (t : Triangle), tris[n]? = some t → (tris ++ new0)[n]? = some t := fun n t h => by
        rw [List.getElem?_append_left (List.getElem?_eq_some_iff.1 h).1]; exact h
      obtain ⟨u, v, huv, hall⟩ := g
      obtain ⟨t0, ht0, _⟩ := hall e (by simp)
      have hmem := List.mem_of_getElem? ht0
      have hgr : Group (tris ++ new0) (e :: rest) := ⟨u, v, huv, fun h hh => by
        obtain ⟨t, ht, h'⟩ := hall h hh
        exact ⟨t, hlift _ _ ht, h'⟩⟩
      rcases c55_actual pt axis corners (tris ++ new0) e rest hgr t0 (hlift _ _ ht0) (hax _ _ _ (hd t0 hmem)) with ⟨_, r⟩ | ⟨_, r⟩
      · obtain ⟨new, h1, h2, h3⟩ := ih (fun l hl => hg l (List.mem_cons_of_mem _ hl))
          (new0 ++ [(![t0 (e.2 + 1), t0 (e.2 + 2), pickApex pt t0 (corners (t0 0))] : Triangle)]) (fun x hx => by
            rcases List.mem_append.1 hx with hx | hx
            · exact h0 x hx
            · simp only [List.mem_singleton] at hx
              subst hx
              refine ⟨t0, hmem, e.2 + 1, rfl, ?_, c55_apex pt t0 _ (hd t0 hmem) (hc _ hmem)⟩
              show t0 (e.2 + 2) = t0 (e.2 + 1 + 1)
              have h3 : ∀ i : Fin 3, i + 2 = i + 1 + 1 := by decide
              rw [h3])
        refine ⟨new, ?_, ?_, h3⟩
        · rw [List.foldlM_cons, r]
          simpa using h1
        · simp only [List.length_append, List.length_cons, List.length_nil] at h2 ⊢; omega
      · obtain ⟨new, h1, h2, h3⟩ := ih (fun l hl => hg l (List.mem_cons_of_mem _ hl)) new0 h0
        refine ⟨new, ?_, ?_, h3⟩
        · rw [List.foldlM_cons, r]
          simpa using h1
        · simp only [List.length_cons]; omega

/-- C55. If every half edge has an opposite one, as on closed surfaces with an orientation, nothing is added. -/
theorem c55_closed (pt : Nat → Pt K) (axis : Pt K → Pt K → Pt K → Nat) (corners : Nat → Fin 4 → Nat) (tris : List Triangle)
    (hax : ∀ a b c, ¬ Geom.Collinear a b c → orient2dByAxis a b c (axis a b c) ≠ .zero)
    (hd : ∀ t ∈ tris, ¬ Geom.Collinear (pt (t 0)) (pt (t 1)) (pt (t 2))) (hinj : ∀ t ∈ tris, Function.Injective t)
    (hcl : ∀ t ∈ tris, ∀ i : Fin 3, ∃ t' ∈ tris, ∃ j : Fin 3, t' j = t (i + 1) ∧ t' (j + 1) = t i)
    (order : List (List HE)) (hp : order.Perm ((edgeMap tris).map Prod.snd)) : placeVirtual pt axis corners tris order = some tris := by
  have hgroups : ∀ l ∈ order, Group tris l ∧ l ≠ [] ∧ ∀ h ∈ l, ∀ t, tris[h.1]? = some t → ∃ h' ∈ l, ∃ t', tris[h'.1]? = some t' ∧ t' h'.2 = t (h.2 + 1) := by
    intro l hl
    obtain ⟨⟨k, l'⟩, hm, rfl⟩ := List.mem_map.1 (hp.mem_iff.1 hl)
    refine ⟨edgeMap_group tris hinj k l' hm, ((c55_edge_map tris).2 k l' hm).1, fun h hh t ht => ?_⟩
    have hl' := ((c55_edge_map tris).2 k l' hm).2.2
    obtain ⟨t1, ht1, hk⟩ := (hl' h).1 hh
    rw [ht] at ht1; cases ht1
    obtain ⟨t', ht', j, e1, e2⟩ := hcl t (List.mem_of_getElem? ht) h.2
    obtain ⟨n, hn⟩ := List.getElem?_of_mem ht'
    have hne : t h.2 ≠ t (h.2 + 1) := fun e => by
      have h3 : ∀ i : Fin 3, i ≠ i + 1 := by decide
      exact h3 _ (hinj t (List.mem_of_getElem? ht) e)
    refine ⟨(n, j), (hl' _).2 ⟨t', hn, ?_⟩, t', hn, e1⟩
    rw [← hk]
    unfold edgeKey
    dsimp only
    rw [e1, e2]
    split <;> split <;> first | rfl | omega
  clear hp
  unfold placeVirtual
  induction order with
  | nil => rfl
  | cons l order ih =>
    obtain ⟨g, hne, hop⟩ := hgroups l (by simp)
    cases l with
    | nil => exact absurd rfl hne
    | cons e rest =>
      obtain ⟨u, v, huv, hall⟩ := id g
      obtain ⟨t0, ht0, _⟩ := hall e (by simp)
      have hmem := List.mem_of_getElem? ht0
      have r : addVirtual pt axis corners tris (e :: rest) = some tris := by
        rcases c55_actual pt axis corners tris e rest g t0 ht0 (hax _ _ _ (hd t0 hmem)) with ⟨h1, -⟩ | ⟨-, r⟩
        · exfalso
          obtain ⟨h', hh', t', ht', e'⟩ := hop e (by simp) t0 ht0
          have hne : t0 e.2 ≠ t0 (e.2 + 1) := fun h => by
            have := hinj t0 hmem h
            have h3 : ∀ i : Fin 3, i ≠ i + 1 := by decide
            exact h3 _ this
          rcases List.mem_cons.1 hh' with rfl | hh'
          · rw [ht0] at ht'; cases ht'
            exact hne e'
          · exact hne ((h1 h' hh' t' ht').symm.trans e')
        · exact r
      rw [List.foldlM_cons, r]
      exact ih fun l hl => hgroups l (List.mem_cons_of_mem _ hl)

end

/-! ### Examples and counterexamples -/

/-- Four points in general position, two more in the plane of 0, 1, 2. -/
def exPt (i : Nat) : Pt ℚ := ([⟨0, 0, 0⟩, ⟨1, 0, 0⟩, ⟨0, 1, 0⟩, ⟨0, 0, 1⟩, ⟨0, -1, 0⟩, ⟨1, 1, 0⟩] : List (Pt ℚ)).getD i ⟨0, 0, 0⟩

/-- `max_comp_in_tri_normal`. -/
def exAxis : Pt ℚ → Pt ℚ → Pt ℚ → Nat := Geom.maxComp (1 / 1000000) (fun x => |x|)

theorem exAxis_ok (a b c : Pt ℚ) (h : ¬ Geom.Collinear a b c) : orient2dByAxis a b c (exAxis a b c) ≠ .zero :=
  (Geom.c64_axis (1 / 1000000) (fun x => |x|) (fun x => abs_eq_zero) (fun x => abs_nonneg x) a b c h).2

/-- Every vertex is linked to the tetrahedron 0, 1, 2, 3. -/
def exCorners (_ : Nat) : Fin 4 → Nat := ![0, 1, 2, 3]

instance (u v w w' : Pt ℚ) : Decidable (SameFlatSide u v w w') := by unfold SameFlatSide; infer_instance

/-- Two triangles of a consistently oriented surface: edge (0, 1) is shared and gets nothing, each of the other four edges gets a triangle. -/
example : edgeMap [![0, 1, 2], ![1, 0, 4]] = [((0, 1), [(0, 0), (1, 0)]), ((1, 2), [(0, 1)]), ((0, 2), [(0, 2)]), ((0, 4), [(1, 1)]), ((1, 4), [(1, 2)])] ∧
    ((placeVirtual exPt exAxis exCorners [![0, 1, 2], ![1, 0, 4]] ((edgeMap [![0, 1, 2], ![1, 0, 4]]).map Prod.snd)).map fun l => (l.drop 2).map List.ofFn) =
      some [[2, 0, 3], [0, 1, 3], [4, 1, 3], [1, 0, 3]] := by decide +kernel

/-- C55 fails in four ways.
1. Two triangles that are not coplanar, running through their edge (0, 1) in the same direction, get a virtual triangle.
2. So do two coplanar triangles on different sides of the edge.
3. Two triangles folded onto each other, running through the edge in opposite directions, get none.
4. The triangle added for the edge (1, 2), the second one of the first triangle, does not contain this edge. -/
theorem c55_refuted :
    (¬ SameFlatSide (exPt 0) (exPt 1) (exPt 2) (exPt 3) ∧
      (addVirtual exPt exAxis exCorners [![0, 1, 2], ![0, 1, 3]] [(0, 0), (1, 0)]).map List.length = some 3) ∧
    (¬ SameFlatSide (exPt 0) (exPt 1) (exPt 2) (exPt 4) ∧
      (addVirtual exPt exAxis exCorners [![0, 1, 2], ![0, 1, 4]] [(0, 0), (1, 0)]).map List.length = some 3) ∧
    (SameFlatSide (exPt 0) (exPt 1) (exPt 2) (exPt 5) ∧
      (addVirtual exPt exAxis exCorners [![0, 1, 2], ![1, 0, 5]] [(0, 0), (1, 0)]).map List.length = some 2) ∧
    ((addVirtual exPt exAxis exCorners [![0, 1, 2], ![1, 0, 4]] [(0, 1)]).map fun l => (l.drop 2).map List.ofFn) = some [[2, 0, 3]] := by
  decide +kernel

end Verif.Poly
