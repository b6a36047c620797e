import Mathlib.Data.List.Basic
import Mathlib.Data.List.Nodup
import Mathlib.Data.List.Induction
/-!
# `unique_indices`, `triangulate_polygon`, `triangulate_polygon_soup` (`src/triangle/triangle.rs` lines 1210-1229, 102-155)
-/
namespace Verif.Tri

/-! ### `unique_indices` -/

/-- The state of the loop (lines 1211-1224). The hash map `map` is the list of its keys in order of insertion: key number `i` has value `i`, and `count`
is its length. -/
structure Uniq where
  keys : List Nat
  result : List Nat

/-- The body of the loop (lines 1215-1223). -/
def uniqStep (s : Uniq) (old : Nat) : Uniq :=
  match s.keys.idxOf? old with
  | some now => { s with result := s.result ++ [now] }
  | none => { keys := s.keys ++ [old], result := s.result ++ [s.keys.length] }

/-- `unique_indices` (lines 1210-1229). Writing `k` at position `v` for all entries of the map, in any order, gives the list of the keys. -/
def uniqueIndices (indices : List Nat) : List Nat × List Nat :=
  let s := indices.foldl uniqStep ⟨[], []⟩
  (s.result, s.keys)

theorem uniq_inv (indices : List Nat) : let s := indices.foldl uniqStep ⟨[], []⟩
    s.keys.Nodup ∧ (∀ x, x ∈ s.keys ↔ x ∈ indices) ∧ s.result.map (fun i => s.keys[i]?) = indices.map some := by
  induction indices using List.reverseRecOn with
  | nil => simp
  | append_singleton l a ih =>
    rw [List.foldl_append]
    simp only [List.foldl_cons, List.foldl_nil]
    generalize l.foldl uniqStep ⟨[], []⟩ = s at ih ⊢
    obtain ⟨h1, h2, h3⟩ := ih
    unfold uniqStep
    cases e : s.keys.idxOf? a with
    | some i =>
      have hi : s.keys[i]? = some a := by
        rw [List.idxOf?_eq_some_iff] at e
        obtain ⟨h, e1, _⟩ := e
        simp [List.getElem?_eq_getElem h, e1]
      have ha : a ∈ l := (h2 a).1 (List.mem_of_getElem? hi)
      refine ⟨h1, fun x => ?_, ?_⟩
      · rw [h2, List.mem_append, List.mem_singleton]
        exact ⟨.inl, fun h => h.elim id fun h => h ▸ ha⟩
      · simp [h3, hi]
    | none =>
      have ha : a ∉ s.keys := List.idxOf?_eq_none_iff.1 e
      have ha' : a ∉ l := fun h => ha ((h2 a).2 h)
      refine ⟨?_, fun x => ?_, ?_⟩
      · rw [List.nodup_append]; refine ⟨h1, by simp, fun x hx y hy => ?_⟩
        simp only [List.mem_singleton] at hy
        subst hy; rintro rfl; exact ha hx
      · simp [h2]
      · simp only [List.map_append, List.map_cons, List.map_nil]
        congr 1
        · rw [← h3]
          apply List.map_congr_left
          intro i hi
          have : s.keys[i]? ∈ l.map some := h3 ▸ List.mem_map_of_mem hi
          obtain ⟨x, _, hx⟩ := List.mem_map.1 this
          rw [List.getElem?_append_left (List.getElem?_eq_some_iff.1 hx.symm).1]
        · simp

/-- C46. The new indices are in range and point back to the old ones, and the second list has every value once, in order of first occurrence. -/
theorem c46_unique_indices (indices : List Nat) :
    (uniqueIndices indices).1.length = indices.length ∧ (uniqueIndices indices).2.Nodup ∧ (∀ x, x ∈ (uniqueIndices indices).2 ↔ x ∈ indices) ∧
    (∀ (i x : Nat), indices[i]? = some x → ∃ j, (uniqueIndices indices).1[i]? = some j ∧ (uniqueIndices indices).2[j]? = some x) ∧
    (∀ (i j x y : Nat), (uniqueIndices indices).2[i]? = some x → (uniqueIndices indices).2[j]? = some y → i < j → indices.idxOf x < indices.idxOf y) := by
  obtain ⟨h1, h2, h3⟩ := uniq_inv indices
  have hlen : (uniqueIndices indices).1.length = indices.length := by simpa [uniqueIndices] using congrArg List.length h3
  refine ⟨hlen, h1, h2, fun i x hx => ?_, ?_⟩
  · have hi := (List.getElem?_eq_some_iff.1 hx).1
    have h5 := congrArg (fun l => l[i]?) h3
    simp only [List.getElem?_map, hx, Option.map_some] at h5
    obtain ⟨j, hj, e⟩ := Option.map_eq_some_iff.1 h5
    exact ⟨j, hj, e⟩
  · show ∀ (i j x y : Nat), (indices.foldl uniqStep ⟨[], []⟩).keys[i]? = some x → (indices.foldl uniqStep ⟨[], []⟩).keys[j]? = some y → i < j → _
    clear h1 h2 h3 hlen
    induction indices using List.reverseRecOn with
    | nil => simp
    | append_singleton l a ih =>
      intro i j x y hx hy hij
      obtain ⟨q1, q2, _⟩ := uniq_inv l
      rw [List.foldl_append] at hx hy
      simp only [List.foldl_cons, List.foldl_nil] at hx hy
      generalize l.foldl uniqStep ⟨[], []⟩ = s at ih hx hy q1 q2
      have old : ∀ i x, s.keys[i]? = some x → (l ++ [a]).idxOf x = l.idxOf x := fun i x h => by
        rw [List.idxOf_append, if_pos ((q2 x).1 (List.mem_of_getElem? h))]
      unfold uniqStep at hx hy
      cases e : s.keys.idxOf? a with
      | some k =>
        rw [e] at hx hy
        simp only at hx hy
        rw [old _ _ hx, old _ _ hy]
        exact ih i j x y hx hy hij
      | none =>
        rw [e] at hx hy
        simp only at hx hy
        have ha : a ∉ s.keys := List.idxOf?_eq_none_iff.1 e
        have hx' : s.keys[i]? = some x := by
          have := (List.getElem?_eq_some_iff.1 hy).1
          simp only [List.length_append, List.length_singleton] at this
          rw [List.getElem?_append_left (by omega)] at hx
          exact hx
        by_cases hj : j < s.keys.length
        · rw [List.getElem?_append_left hj] at hy
          rw [old _ _ hx', old _ _ hy]
          exact ih i j x y hx' hy hij
        · have hya : y = a := by
            have hm := List.mem_of_getElem? hy
            rw [List.getElem?_append_right (by omega)] at hy
            have := List.mem_of_getElem? hy
            simpa using this
          rw [old _ _ hx', hya, List.idxOf_append, if_neg (fun h => ha ((q2 a).2 h))]
          have : l.idxOf x < l.length := List.idxOf_lt_length_iff.2 ((q2 x).1 (List.mem_of_getElem? hx'))
          simp; omega

example : uniqueIndices [7, 3, 7, 9, 3, 5] = ([0, 1, 0, 2, 1, 3], [7, 3, 9, 5]) := by decide

/-! ### `triangulate_polygon`, `triangulate_polygon_soup` -/

/-- `triangulate_polygon` (lines 102-130). `tri p segs` stands for `triangulate` on the projected points `p` with the segments `segs`; `proj` is the projection to
the plane of the polygon. -/
def triangulatePolygon {P Q : Type} (proj : P → Q) (tri : List Q → List Nat → Option (List Nat)) (points : List P) (segments : List Nat) : Option (List Nat) := do
  let (newSegs, back) := uniqueIndices segments
  let pts ← back.mapM fun i => points[i]?
  let res ← tri (pts.map proj) newSegs
  res.mapM fun i => back[i]?

/-- The body of the loop of `triangulate_polygon_soup` (lines 141-153). -/
def soupStep {P Q : Type} (tri : List Q → List Nat → Option (List Nat)) (points : List P) (s : List Nat × List Nat) (e : (List Nat × (P → Q)) × Nat) :
    Option (List Nat × List Nat) := do
  let face ← triangulatePolygon e.1.2 tri points e.1.1
  return (s.1 ++ face, s.2 ++ List.replicate (face.length / 3) e.2)

/-- `triangulate_polygon_soup` (lines 133-155): the triangles and for each the number of its polygon. `axes` are the projections given by the chunks of nine. -/
def triangulateSoup {P Q : Type} (tri : List Q → List Nat → Option (List Nat)) (points : List P) (edges : List (List Nat)) (axes : List (P → Q)) :
    Option (List Nat × List Nat) := (edges.zip axes).zipIdx.foldlM (soupStep tri points) ([], [])

/-- What `triangulate` is assumed to return: triples of indices of the points it was given. -/
def Triples {Q : Type} (tri : List Q → List Nat → Option (List Nat)) : Prop :=
  ∀ pts segs res, tri pts segs = some res → 3 ∣ res.length ∧ ∀ i ∈ res, i < pts.length

theorem mapM_length {α β : Type} (f : α → Option β) : ∀ (l : List α) (r : List β), l.mapM f = some r → r.length = l.length ∧ ∀ y ∈ r, ∃ x ∈ l, f x = some y
  | [], r, h => by
    simp only [List.mapM_nil] at h
    cases h; simp
  | x :: l, r, h => by
    simp only [List.mapM_cons, Option.bind_eq_bind, Option.bind_eq_some_iff] at h
    obtain ⟨y, hy, r', hr, h⟩ := h
    cases h
    obtain ⟨h1, h2⟩ := mapM_length f l r' hr
    refine ⟨by simp [h1], fun z hz => ?_⟩
    rcases List.mem_cons.1 hz with rfl | hz
    · exact ⟨x, by simp, hy⟩
    · obtain ⟨w, hw, e⟩ := h2 z hz
      exact ⟨w, List.mem_cons_of_mem _ hw, e⟩

theorem polygon_spec {P Q : Type} {proj : P → Q} {tri : List Q → List Nat → Option (List Nat)} (ht : Triples tri) {points : List P} {segments res : List Nat}
    (h : triangulatePolygon proj tri points segments = some res) : 3 ∣ res.length ∧ ∀ i ∈ res, i ∈ segments := by
  unfold triangulatePolygon at h
  simp only [Option.bind_eq_bind, Option.bind_eq_some_iff] at h
  obtain ⟨pts, h1, r, h2, h3⟩ := h
  obtain ⟨l1, _⟩ := mapM_length _ _ _ h1
  obtain ⟨l3, m3⟩ := mapM_length _ _ _ h3
  obtain ⟨d, _⟩ := ht _ _ _ h2
  refine ⟨by rw [l3]; exact d, fun i hi => ?_⟩
  obtain ⟨j, _, e⟩ := m3 i hi
  exact ((c46_unique_indices segments).2.2.1 i).1 (List.mem_of_getElem? e)

/-- C48. The soup gives triples and one parent for each triple; the parents do not decrease, and triple `k` uses only vertices of its parent polygon. -/
theorem c48_soup {P Q : Type} (tri : List Q → List Nat → Option (List Nat)) (ht : Triples tri) (points : List P) (edges : List (List Nat)) (axes : List (P → Q))
    (T parents : List Nat) (h : triangulateSoup tri points edges axes = some (T, parents)) :
    T.length = 3 * parents.length ∧ parents.Pairwise (· ≤ ·) ∧
    ∀ k p, parents[k]? = some p → ∃ segs, edges[p]? = some segs ∧ ∀ j, j < 3 → ∃ v, T[3 * k + j]? = some v ∧ v ∈ segs := by
  unfold triangulateSoup at h
  have key : ∀ (l : List ((List Nat × (P → Q)) × Nat)) (s : List Nat × List Nat) (n : Nat), (∀ (i : Nat) e, l[i]? = some e → e.2 = n + i) →
      (∀ e ∈ l, edges[e.2]? = some e.1.1) → s.1.length = 3 * s.2.length → s.2.Pairwise (· ≤ ·) → (∀ p ∈ s.2, p ≤ n) →
      (∀ k p, s.2[k]? = some p → ∃ segs, edges[p]? = some segs ∧ ∀ j, j < 3 → ∃ v, s.1[3 * k + j]? = some v ∧ v ∈ segs) →
      l.foldlM (soupStep tri points) s = some (T, parents) →
      T.length = 3 * parents.length ∧ parents.Pairwise (· ≤ ·) ∧
      ∀ k p, parents[k]? = some p → ∃ segs, edges[p]? = some segs ∧ ∀ j, j < 3 → ∃ v, T[3 * k + j]? = some v ∧ v ∈ segs := by
    intro l
    induction l with
    | nil =>
      intro s n _ _ h1 h2 _ h3 hr
      simp only [List.foldlM_nil] at hr
      cases hr; exact ⟨h1, h2, h3⟩
    | cons e l ih =>
      intro s n hn hed h1 h2 hle h3 hr
      rw [List.foldlM_cons] at hr
      obtain ⟨s', hs, hr⟩ := Option.bind_eq_some_iff.1 hr
      unfold soupStep at hs
      obtain ⟨face, hf, hs⟩ := Option.bind_eq_some_iff.1 hs
      cases hs
      obtain ⟨⟨d, hd⟩, hv⟩ := polygon_spec ht hf
      have e2 : e.2 = n := by simpa using hn 0 e rfl
      have hdd : face.length / 3 = d := by omega
      refine ih _ (n + 1) (fun i x hx => by rw [hn (i + 1) x (by simpa using hx)]; omega) (fun x hx => hed x (List.mem_cons_of_mem _ hx)) ?_ ?_ ?_ ?_ hr
      · simp [h1]; omega
      · rw [List.pairwise_append]
        refine ⟨h2, by simp [List.pairwise_replicate], fun a ha b hb => ?_⟩
        rw [(List.mem_replicate.1 hb).2, e2]; exact hle a ha
      · intro p hp
        rcases List.mem_append.1 hp with hp | hp
        · have := hle p hp; omega
        · rw [(List.mem_replicate.1 hp).2]; omega
      · intro k p hk
        simp only at hk
        by_cases hks : k < s.2.length
        · rw [List.getElem?_append_left hks] at hk
          obtain ⟨segs, q1, q2⟩ := h3 k p hk
          refine ⟨segs, q1, fun j hj => ?_⟩
          obtain ⟨v, v1, v2⟩ := q2 j hj
          exact ⟨v, by rw [List.getElem?_append_left (List.getElem?_eq_some_iff.1 v1).1]; exact v1, v2⟩
        · rw [List.getElem?_append_right (by omega), List.getElem?_replicate] at hk
          split at hk
          · cases hk
            refine ⟨_, hed e (by simp), fun j hj => ?_⟩
            have hlt : 3 * k + j - s.1.length < face.length := by omega
            refine ⟨face[3 * k + j - s.1.length], ?_, hv _ (List.getElem_mem _)⟩
            rw [List.getElem?_append_right (by omega), List.getElem?_eq_getElem hlt]
          · cases hk
  refine key _ ([], []) 0 (fun i e he => ?_) (fun e he => ?_) rfl List.Pairwise.nil (by simp) (by simp) h
  · rw [List.getElem?_zipIdx] at he
    obtain ⟨x, _, rfl⟩ := Option.map_eq_some_iff.1 he
    simp
  · obtain ⟨⟨s, f⟩, n⟩ := e
    rw [List.mem_zipIdx_iff_getElem?] at he
    simp only at he ⊢
    exact (List.getElem?_zip_eq_some.1 he).1

/-- A fan from the first vertex as triangulation: two polygons, the second one a triangle. -/
example : triangulateSoup (fun pts _ => some ((List.range (pts.length - 2)).flatMap fun i => [0, i + 1, i + 2])) [10, 11, 12, 13, 14]
    [[4, 0, 0, 1, 1, 2, 2, 4], [1, 3, 3, 2, 2, 1]] [id, id] = some ([4, 0, 1, 4, 1, 2, 1, 3, 2], [0, 0, 1]) := by decide

/-- Polygons beyond the end of the axis data are dropped (`zip`). -/
example : triangulateSoup (fun pts _ => some ((List.range (pts.length - 2)).flatMap fun i => [0, i + 1, i + 2])) [10, 11, 12, 13, 14]
    [[4, 0, 0, 1, 1, 4], [1, 3, 3, 2, 2, 1]] [id] = some ([4, 0, 1], [0]) := by decide

end Verif.Tri
