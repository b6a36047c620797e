import Verif.Bsp.Area
import Verif.Tri.Soup
/-!
# `make_polyhedral_mesh` (`src/polygonlization/mod.rs` lines 82-115)

From the arrays of the caller to the subdivided complex: points are merged, the edges of every face are renamed, every face is triangulated in its plane (`triangulate_polygon_soup`, C48), and every triangle gets the
shell of its face. `triangulate` on points of the plane is any function `tri`; what is used of it is a hypothesis.
-/
namespace Verif.Bsp
open InSphere (Pt Ori orient3d)
open Geom (Collinear)
open Constraint (Proper)

/-- The edges of one face (lines 91-103): `arr.chunks(2)`, both ends renamed, edges between merged points dropped. An odd number of entries panics at `pair[1]`. -/
def facePairs (pmap : List Nat) : List Nat → Option (List Nat)
  | [] => some []
  | [_] => none
  | v :: w :: l => do
    let a ← pmap[v]?
    let b ← pmap[w]?
    let r ← facePairs pmap l
    pure (if a = b then r else a :: b :: r)

/-- The projection of `triangulate_polygon` (`triangle.rs` lines 112-121) for one chunk of `axes.chunks(9)` (lines 141-150): origin and two axes. -/
def projOf (o x y p : Pt ℚ) : ℚ × ℚ := (vdot (vsub p o) x, vdot (vsub p o) y)

/-- `axes.chunks(9)` (line 141). A last chunk with less than nine numbers panics when it is reached; here it panics always. -/
def axesOf : List ℚ → Option (List (Pt ℚ → ℚ × ℚ))
  | [] => some []
  | a :: b :: c :: d :: e :: f :: g :: h :: i :: l => (axesOf l).map (projOf ⟨a, b, c⟩ ⟨d, e, f⟩ ⟨g, h, i⟩ :: ·)
  | _ => none

/-- The first part of `make_polyhedral_mesh` (lines 89-114): the merged points, and the triangles (`Constraints::new` takes them three by three) with the shells of their faces. -/
def polyInput (tri : List (ℚ × ℚ) → List Nat → Option (List Nat)) (points axes : List ℚ) (faceShell : List Nat) (faces : List (List Nat)) (eps : ℚ) (order : List Nat) :
    Option (List ℚ × List ((Nat × Nat × Nat) × Nat)) := do
  let (out, pmap) ← Poly.removeDuplicates points eps order
  let edges ← faces.mapM (facePairs pmap)
  let projs ← axesOf axes
  let (T, parents) ← Tri.triangulateSoup tri (ptsOf out) edges projs
  let shells ← parents.mapM fun p => faceShell[p]?
  let tris ← chunks3 T
  pure (out, tris.zip shells)

/-- `make_polyhedral_mesh` (lines 82-115) up to the subdivided complex. -/
def makePoly (ch : Choices) (order : List Nat) (epsA : ℚ) (lead : ℚ → ℚ) (fuel : Nat) (tri : List (ℚ × ℚ) → List Nat → Option (List Nat)) (points axes : List ℚ) (faceShell : List Nat) (faces : List (List Nat)) (eps : ℚ) :
    Option (List (Pt ℚ) × List Nat × List (Nat × Nat × Nat) × GSt ℚ) := do
  let (out, res) ← polyInput tri points axes faceShell faces eps order
  let (cs, g) ← makeProper ch epsA lead fuel (ptsOf out) (res.map Prod.fst)
  pure (ptsOf out, res.map Prod.snd, cs, g)

/-! ### Specification -/

/-- What is used of `triangulate`: it does not panic if the indices of the segments are in range, and it returns triangles between its points that are not degenerate. -/
def Triangulates (tri : List (ℚ × ℚ) → List Nat → Option (List Nat)) : Prop :=
  ∀ pts segs, (∀ i ∈ segs, i < pts.length) → ∃ res tr, tri pts segs = some res ∧ chunks3 res = some tr ∧
    ∀ t ∈ tr, ∃ a b c, pts[t.1]? = some a ∧ pts[t.2.1]? = some b ∧ pts[t.2.2]? = some c ∧ (b.1 - a.1) * (c.2 - a.2) - (b.2 - a.2) * (c.1 - a.1) ≠ 0

/-- Vertex `i` of the caller, rounded to the grid of `eps`. -/
def gridPt (eps : ℚ) (points : List ℚ) (i : Nat) : Pt ℚ :=
  let r k := Poly.approx (Poly.gridBase eps) (points.getD (i * 3 + k) 0)
  ⟨r 0, r 1, r 2⟩

/-- Vertex `v` ends an edge of the face that is not dropped. -/
def EndsEdge (pm : Nat → Nat) (face : List Nat) (v : Nat) : Prop := ∃ j w, ((face[2 * j]? = some v ∧ face[2 * j + 1]? = some w) ∨ (face[2 * j]? = some w ∧ face[2 * j + 1]? = some v)) ∧ pm v ≠ pm w

/-! ### Proofs -/

theorem chunks3_append : ∀ {a b : List Nat} {x y : List (Nat × Nat × Nat)}, chunks3 a = some x → chunks3 b = some y → chunks3 (a ++ b) = some (x ++ y)
  | [], b, x, y, h1, h2 => by simp only [chunks3, Option.some.injEq] at h1; subst h1; exact h2
  | [_], _, _, _, h1, _ => by simp [chunks3] at h1
  | [_, _], _, _, _, h1, _ => by simp [chunks3] at h1
  | p :: q :: r :: a, b, x, y, h1, h2 => by
    rw [chunks3, Option.map_eq_some_iff] at h1
    obtain ⟨x', hx, rfl⟩ := h1
    simp only [List.cons_append, chunks3, chunks3_append hx h2, Option.map_some]

theorem chunks3_length : ∀ {a : List Nat} {x : List (Nat × Nat × Nat)}, chunks3 a = some x → a.length / 3 = x.length
  | [], x, h1 => by simp only [chunks3, Option.some.injEq] at h1; subst h1; rfl
  | [_], _, h1 => by simp [chunks3] at h1
  | [_, _], _, h1 => by simp [chunks3] at h1
  | p :: q :: r :: a, x, h1 => by
    rw [chunks3, Option.map_eq_some_iff] at h1
    obtain ⟨x', hx, rfl⟩ := h1
    have := chunks3_length hx
    simp only [List.length_cons]
    omega

theorem chunks3_mapM {f : Nat → Option Nat} : ∀ {a : List Nat} {x : List (Nat × Nat × Nat)}, chunks3 a = some x → (∀ t ∈ x, (f t.1).isSome ∧ (f t.2.1).isSome ∧ (f t.2.2).isSome) →
    ∃ r y, a.mapM f = some r ∧ chunks3 r = some y ∧ ∀ t ∈ y, ∃ s ∈ x, f s.1 = some t.1 ∧ f s.2.1 = some t.2.1 ∧ f s.2.2 = some t.2.2
  | [], x, h1, _ => by simp only [chunks3, Option.some.injEq] at h1; subst h1; exact ⟨[], [], rfl, rfl, by simp⟩
  | [_], _, h1, _ => by simp [chunks3] at h1
  | [_, _], _, h1, _ => by simp [chunks3] at h1
  | p :: q :: r :: a, x, h1, h2 => by
    rw [chunks3, Option.map_eq_some_iff] at h1
    obtain ⟨x', hx, rfl⟩ := h1
    obtain ⟨r', y, e1, e2, h3⟩ := chunks3_mapM (f := f) hx fun t ht => h2 t (List.mem_cons_of_mem _ ht)
    obtain ⟨g1, g2, g3⟩ := h2 (p, q, r) (List.mem_cons_self ..)
    obtain ⟨p', hp⟩ := Option.isSome_iff_exists.1 g1
    obtain ⟨q', hq⟩ := Option.isSome_iff_exists.1 g2
    obtain ⟨r'', hr⟩ := Option.isSome_iff_exists.1 g3
    dsimp only at hp hq hr
    refine ⟨p' :: q' :: r'' :: r', (p', q', r'') :: y, ?_, by simp [chunks3, e2], fun t ht => ?_⟩
    · rw [List.mapM_cons, hp, List.mapM_cons, hq, List.mapM_cons, hr, e1]; rfl
    · rcases List.mem_cons.1 ht with rfl | ht
      · exact ⟨_, List.mem_cons_self .., hp, hq, hr⟩
      · obtain ⟨s, hs, e⟩ := h3 t ht
        exact ⟨s, List.mem_cons_of_mem _ hs, e⟩

theorem facePairs_ok {pmap : List Nat} {n : Nat} (hl : pmap.length = n) : ∀ (l : List Nat), l.length % 2 = 0 → (∀ v ∈ l, v < n) →
    ∃ r, facePairs pmap l = some r ∧ r.length % 2 = 0 ∧ ∀ x, x ∈ r ↔ ∃ v, EndsEdge (fun v => pmap.getD v 0) l v ∧ x = pmap.getD v 0
  | [], _, _ => ⟨[], rfl, rfl, fun x => by simp [EndsEdge]⟩
  | [_], h, _ => by simp at h
  | v :: w :: l, h, hn => by
    obtain ⟨r, e, hr, hm⟩ := facePairs_ok hl l (by simp only [List.length_cons] at h; omega) fun x hx => hn x (by simp [hx])
    have hv : pmap[v]? = some (pmap.getD v 0) := by rw [List.getD_eq_getElem?_getD, List.getElem?_eq_getElem (by have := hn v (by simp); omega)]; rfl
    have hw : pmap[w]? = some (pmap.getD w 0) := by rw [List.getD_eq_getElem?_getD, List.getElem?_eq_getElem (by have := hn w (by simp); omega)]; rfl
    have up : ∀ u, EndsEdge (fun v => pmap.getD v 0) l u → EndsEdge (fun v => pmap.getD v 0) (v :: w :: l) u := by
      rintro u ⟨j, z, h1, h2⟩
      refine ⟨j + 1, z, ?_, h2⟩
      have e1 : 2 * (j + 1) = 2 * j + 1 + 1 := by omega
      have e2 : 2 * (j + 1) + 1 = 2 * j + 1 + 1 + 1 := by omega
      rw [e2, e1]
      simpa only [List.getElem?_cons_succ] using h1
    have down : ∀ u, EndsEdge (fun v => pmap.getD v 0) (v :: w :: l) u → EndsEdge (fun v => pmap.getD v 0) l u ∨ ((u = v ∨ u = w) ∧ pmap.getD v 0 ≠ pmap.getD w 0) := by
      rintro u ⟨j, z, h1, h2⟩
      cases j with
      | zero =>
        right
        simp only [Nat.mul_zero, List.getElem?_cons_zero, Nat.zero_add, List.getElem?_cons_succ, Option.some.injEq] at h1
        rcases h1 with ⟨rfl, rfl⟩ | ⟨rfl, rfl⟩
        · exact ⟨Or.inl rfl, h2⟩
        · exact ⟨Or.inr rfl, Ne.symm h2⟩
      | succ j =>
        left
        have e1 : 2 * (j + 1) = 2 * j + 1 + 1 := by omega
        have e2 : 2 * (j + 1) + 1 = 2 * j + 1 + 1 + 1 := by omega
        rw [e2, e1] at h1
        exact ⟨j, z, by simpa only [List.getElem?_cons_succ] using h1, h2⟩
    refine ⟨if pmap.getD v 0 = pmap.getD w 0 then r else pmap.getD v 0 :: pmap.getD w 0 :: r, by simp only [facePairs, hv, hw, e, Option.bind_eq_bind, Option.bind_some]; rfl, ?_, fun x => ?_⟩
    · split
      · exact hr
      · simp only [List.length_cons]; omega
    · by_cases hc : pmap.getD v 0 = pmap.getD w 0
      · rw [if_pos hc, hm]
        constructor
        · rintro ⟨u, h1, h2⟩; exact ⟨u, up u h1, h2⟩
        · rintro ⟨u, h1, h2⟩
          rcases down u h1 with h3 | ⟨-, h3⟩
          · exact ⟨u, h3, h2⟩
          · exact absurd hc h3
      · rw [if_neg hc]
        constructor
        · intro hx
          rcases List.mem_cons.1 hx with rfl | hx
          · exact ⟨v, ⟨0, w, Or.inl ⟨rfl, rfl⟩, hc⟩, rfl⟩
          rcases List.mem_cons.1 hx with rfl | hx
          · exact ⟨w, ⟨0, v, Or.inr ⟨rfl, rfl⟩, Ne.symm hc⟩, rfl⟩
          obtain ⟨u, h1, h2⟩ := (hm x).1 hx
          exact ⟨u, up u h1, h2⟩
        · rintro ⟨u, h1, rfl⟩
          rcases down u h1 with h3 | ⟨rfl | rfl, -⟩
          · exact List.mem_cons_of_mem _ (List.mem_cons_of_mem _ ((hm _).2 ⟨u, h3, rfl⟩))
          · simp
          · simp

theorem axesOf_ok : ∀ (k : Nat) (l : List ℚ), l.length = 9 * k → ∃ ps, axesOf l = some ps ∧ ps.length = k ∧ ∀ f ∈ ps, ∃ o x y, f = projOf o x y
  | 0, l, h => by
    obtain rfl : l = [] := List.length_eq_zero_iff.1 (by omega)
    exact ⟨[], rfl, rfl, by simp⟩
  | k + 1, l, h => by
    match l, h with
    | a :: b :: c :: d :: e :: f :: g :: h' :: i :: l, h =>
      obtain ⟨ps, e1, h1, h2⟩ := axesOf_ok k l (by simp only [List.length_cons] at h; omega)
      refine ⟨projOf ⟨a, b, c⟩ ⟨d, e, f⟩ ⟨g, h', i⟩ :: ps, by simp only [axesOf, e1, Option.map_some], by simp [h1], fun q hq => ?_⟩
      rcases List.mem_cons.1 hq with rfl | hq
      · exact ⟨_, _, _, rfl⟩
      · exact h2 q hq

/-- One polygon. -/
theorem polygon_ok {tri : List (ℚ × ℚ) → List Nat → Option (List Nat)} (ht : Triangulates tri) (proj : Pt ℚ → ℚ × ℚ) (pts : List (Pt ℚ)) (segs : List Nat) (hs : ∀ v ∈ segs, v < pts.length) :
    ∃ r tr, Tri.triangulatePolygon proj tri pts segs = some r ∧ chunks3 r = some tr ∧ ∀ t ∈ tr, (t.1 ∈ segs ∧ t.2.1 ∈ segs ∧ t.2.2 ∈ segs) ∧
      let a := proj (posOf pts t.1); let b := proj (posOf pts t.2.1); let c := proj (posOf pts t.2.2)
      (b.1 - a.1) * (c.2 - a.2) - (b.2 - a.2) * (c.1 - a.1) ≠ 0 := by
  obtain ⟨hl, hnd, hmem, hback, -⟩ := Tri.c46_unique_indices segs
  set U := Tri.uniqueIndices segs with hU
  have e1 : U.2.mapM (fun i => pts[i]?) = some (U.2.map (posOf pts)) := mapM_eq fun i hi => posOf_some (hs i ((hmem i).1 hi))
  have hin : ∀ i ∈ U.1, i < ((U.2.map (posOf pts)).map proj).length := by
    intro i hi
    obtain ⟨k, hk⟩ := List.getElem?_of_mem hi
    have hkl : k < segs.length := by rw [← hl]; exact (List.getElem?_eq_some_iff.1 hk).1
    obtain ⟨j, h1, h2⟩ := hback k _ (List.getElem?_eq_getElem hkl)
    rw [hk, Option.some.injEq] at h1
    subst h1
    simpa using (List.getElem?_eq_some_iff.1 h2).1
  obtain ⟨res, tr, e2, e3, h3⟩ := ht _ _ hin
  have hcor : ∀ {i : Nat} {a : ℚ × ℚ}, ((U.2.map (posOf pts)).map proj)[i]? = some a → ∃ v, U.2[i]? = some v ∧ a = proj (posOf pts v) := by
    intro i a h
    rw [List.getElem?_map, List.getElem?_map, Option.map_map, Option.map_eq_some_iff] at h
    obtain ⟨v, hv, rfl⟩ := h
    exact ⟨v, hv, rfl⟩
  obtain ⟨r, y, e4, e5, h5⟩ := chunks3_mapM (f := fun i => U.2[i]?) e3 (fun t ht' => by
    obtain ⟨a, b, c, ha, hb, hc, -⟩ := h3 t ht'
    obtain ⟨v, hv, -⟩ := hcor ha
    obtain ⟨w, hw, -⟩ := hcor hb
    obtain ⟨u, hu, -⟩ := hcor hc
    exact ⟨by simp [hv], by simp [hw], by simp [hu]⟩)
  refine ⟨r, y, ?_, e5, fun t ht' => ?_⟩
  · simp only [Tri.triangulatePolygon, ← hU]
    rw [e1]
    simp only [Option.bind_eq_bind, Option.bind_some]
    rw [e2]
    exact e4
  · obtain ⟨s, hsm, q1, q2, q3⟩ := h5 t ht'
    obtain ⟨a, b, c, ha, hb, hc, hne⟩ := h3 s hsm
    obtain ⟨v, hv, rfl⟩ := hcor ha
    obtain ⟨w, hw, rfl⟩ := hcor hb
    obtain ⟨u, hu, rfl⟩ := hcor hc
    rw [hv, Option.some.injEq] at q1
    rw [hw, Option.some.injEq] at q2
    rw [hu, Option.some.injEq] at q3
    subst q1 q2 q3
    exact ⟨⟨(hmem _).1 (List.mem_of_getElem? hv), (hmem _).1 (List.mem_of_getElem? hw), (hmem _).1 (List.mem_of_getElem? hu)⟩, hne⟩

/-- A triangle of the soup: it belongs to polygon `e.2` with the segments `e.1.1` and the projection `e.1.2`. -/
def OfPolygon (pts : List (Pt ℚ)) (m : (Nat × Nat × Nat) × Nat) (e : (List Nat × (Pt ℚ → ℚ × ℚ)) × Nat) : Prop :=
  m.2 = e.2 ∧ (m.1.1 ∈ e.1.1 ∧ m.1.2.1 ∈ e.1.1 ∧ m.1.2.2 ∈ e.1.1) ∧
    let a := e.1.2 (posOf pts m.1.1); let b := e.1.2 (posOf pts m.1.2.1); let c := e.1.2 (posOf pts m.1.2.2)
    (b.1 - a.1) * (c.2 - a.2) - (b.2 - a.2) * (c.1 - a.1) ≠ 0

theorem soup_ok {tri : List (ℚ × ℚ) → List Nat → Option (List Nat)} (ht : Triangulates tri) (pts : List (Pt ℚ)) : ∀ (l : List ((List Nat × (Pt ℚ → ℚ × ℚ)) × Nat)) (s : List Nat × List Nat) (L : List ((Nat × Nat × Nat) × Nat)),
    (∀ e ∈ l, ∀ v ∈ e.1.1, v < pts.length) → (l.map Prod.snd).Pairwise (· ≤ ·) → chunks3 s.1 = some (L.map Prod.fst) → s.2 = L.map Prod.snd →
    ∃ T M, l.foldlM (Tri.soupStep tri pts) s = some (T, (L ++ M).map Prod.snd) ∧ chunks3 T = some ((L ++ M).map Prod.fst) ∧ (∀ m ∈ M, ∃ e ∈ l, OfPolygon pts m e) ∧ (M.map Prod.snd).Pairwise (· ≤ ·)
  | [], s, L, _, _, h1, h2 => ⟨s.1, [], by simp [← h2], by simpa using h1, by simp, by simp⟩
  | e :: l, s, L, hs, hp, h1, h2 => by
    obtain ⟨r, tr, e1, e2, h3⟩ := polygon_ok ht e.1.2 pts e.1.1 (hs e (List.mem_cons_self ..))
    rw [List.map_cons, List.pairwise_cons] at hp
    obtain ⟨T, M, g1, g2, g3, g4⟩ := soup_ok ht pts l (s.1 ++ r, s.2 ++ List.replicate (r.length / 3) e.2) (L ++ tr.map fun t => (t, e.2)) (fun x hx => hs x (List.mem_cons_of_mem _ hx)) hp.2
      (by rw [chunks3_append h1 e2]; simp [List.map_map, Function.comp_def])
      (by rw [h2, chunks3_length e2]; simp [List.map_map, Function.comp_def, List.map_const'])
    refine ⟨T, tr.map (fun t => (t, e.2)) ++ M, ?_, by rw [g2]; simp, fun m hm => ?_, ?_⟩
    · rw [List.foldlM_cons, Tri.soupStep, e1]
      simp only [Option.bind_eq_bind, Option.bind_some]
      rw [← List.append_assoc]
      exact g1
    · rcases List.mem_append.1 hm with hm | hm
      · obtain ⟨t, htm, rfl⟩ := List.mem_map.1 hm
        exact ⟨e, List.mem_cons_self .., rfl, h3 t htm⟩
      · obtain ⟨e', he', h⟩ := g3 m hm
        exact ⟨e', List.mem_cons_of_mem _ he', h⟩
    · rw [List.map_append, List.pairwise_append]
      refine ⟨?_, g4, fun a ha b hb => ?_⟩
      · rw [List.map_map]
        have : (tr.map (Prod.snd ∘ fun t => (t, e.2))) = List.replicate tr.length e.2 := by simp [Function.comp_def, List.map_const']
        rw [this, List.pairwise_replicate]
        exact Or.inr le_rfl
      · rw [List.map_map] at ha
        obtain ⟨t, -, rfl⟩ := List.mem_map.1 ha
        obtain ⟨m, hm, rfl⟩ := List.mem_map.1 hb
        obtain ⟨e', he', h⟩ := g3 m hm
        rw [h.1]
        exact hp.1 _ (List.mem_map_of_mem he')

/-- Points on a line are projected to points on a line. -/
theorem proj_collinear {o x y a b c : Pt ℚ} (h : Collinear a b c) : ((projOf o x y b).1 - (projOf o x y a).1) * ((projOf o x y c).2 - (projOf o x y a).2) -
    ((projOf o x y b).2 - (projOf o x y a).2) * ((projOf o x y c).1 - (projOf o x y a).1) = 0 := by
  obtain ⟨p, d, i, j, k, rfl, rfl, rfl⟩ := h
  simp only [projOf, vdot, vsub, Geom.onLine]
  ring

/-- C108: the arguments of `make_polyhedral_mesh`. Every triangle belongs to a face, in the order of the faces, and has the shell of the face; its corners are rounded vertices of edges of the face that have different ends
after merging, and it is not degenerate. -/
theorem c108_input {tri : List (ℚ × ℚ) → List Nat → Option (List Nat)} (htri : Triangulates tri) (points axes : List ℚ) (n : Nat) (hp : points.length = 3 * n) (hn : 0 < n) (faceShell : List Nat) (faces : List (List Nat))
    (hf : ∀ f ∈ faces, f.length % 2 = 0 ∧ ∀ v ∈ f, v < n) (ha : axes.length = 9 * faces.length) (hsh : faces.length ≤ faceShell.length) (eps : ℚ) (he : eps ≠ 0) (order : List Nat) (ho : Poly.Sorted points n order) :
    ∃ (out : List ℚ) (res : List ((Nat × Nat × Nat) × Nat)) (pm : Nat → Nat) (parents : List Nat), polyInput tri points axes faceShell faces eps order = some (out, res) ∧
      (∀ v < n, pm v < (ptsOf out).length ∧ posOf (ptsOf out) (pm v) = gridPt eps points v) ∧ (∀ m < (ptsOf out).length, ∃ v < n, pm v = m) ∧
      (∀ v < n, ∀ w < n, pm v = pm w ↔ ∀ j < 3, points[v * 3 + j]? = points[w * 3 + j]?) ∧
      parents.Pairwise (· ≤ ·) ∧ res.map Prod.snd = parents.map (fun p => faceShell.getD p 0) ∧
      (∀ (k : Nat) (t : (Nat × Nat × Nat) × Nat), res[k]? = some t → ∃ (p : Nat) (f : List Nat) (a b c : Nat), parents[k]? = some p ∧ faces[p]? = some f ∧ EndsEdge pm f a ∧ EndsEdge pm f b ∧ EndsEdge pm f c ∧
        t = ((pm a, pm b, pm c), faceShell.getD p 0)) ∧
      ∀ r ∈ res, Proper (ptsOf out).length r.1 ∧ ¬ Collinear (posOf (ptsOf out) r.1.1) (posOf (ptsOf out) r.1.2.1) (posOf (ptsOf out) r.1.2.2) := by
  obtain ⟨out, pmap, e, hl, hc, hi, r, hr, hb⟩ := Poly.c49_remove_duplicates he hp hn ho
  have hPt : ∀ i m, pmap[i]? = some m → ptAt out m = some (gridPt eps points i) := by
    intro i m him
    obtain ⟨x0, a0, b0⟩ := hc i m him 0 (by omega)
    obtain ⟨x1, a1, b1⟩ := hc i m him 1 (by omega)
    obtain ⟨x2, a2, b2⟩ := hc i m him 2 (by omega)
    have b0 : out[m * 3]? = _ := b0
    simp only [ptAt, b0, b1, b2, Option.bind_eq_bind, Option.bind_some, gridPt, List.getD_eq_getElem?_getD, a0, a1, a2, Option.getD_some]
    rfl
  have hlen : (ptsOf out).length = r := by simp only [ptsOf, List.length_map, List.length_range]; omega
  have hpos : ∀ m < r, (ptAt out m).getD ⟨0, 0, 0⟩ = posOf (ptsOf out) m := by
    intro m hm
    have : m < (ptsOf out).length := by omega
    simp only [posOf, ptsOf, List.getElem?_map, List.getElem?_range (show m < out.length / 3 by omega), Option.map_some, Option.getD_some]
  have hpm : ∀ v < n, pmap[v]? = some (pmap.getD v 0) := fun v hv => by rw [List.getD_eq_getElem?_getD, List.getElem?_eq_getElem (by omega)]; rfl
  have hlt : ∀ v < n, pmap.getD v 0 < r := by
    intro v hv
    obtain ⟨x0, -, b0⟩ := hc v _ (hpm v hv) 0 (by omega)
    have := (List.getElem?_eq_some_iff.1 b0).1
    omega
  have hround : ∀ v < n, posOf (ptsOf out) (pmap.getD v 0) = gridPt eps points v := fun v hv => by
    rw [← hpos _ (hlt v hv), hPt _ _ (hpm v hv)]; rfl
  set pm : Nat → Nat := fun v => pmap.getD v 0 with hpmdef
  -- the edges of the faces
  have hpairs : ∀ f ∈ faces, facePairs pmap f = some ((facePairs pmap f).getD []) ∧ ∀ x, x ∈ (facePairs pmap f).getD [] ↔ ∃ v, EndsEdge pm f v ∧ x = pm v := by
    intro f hfm
    obtain ⟨q, e1, -, h1⟩ := facePairs_ok hl f (hf f hfm).1 (hf f hfm).2
    rw [e1]
    exact ⟨rfl, h1⟩
  have e1 : faces.mapM (facePairs pmap) = some (faces.map fun f => (facePairs pmap f).getD []) := mapM_eq fun f hfm => (hpairs f hfm).1
  set edges := faces.map fun f => (facePairs pmap f).getD [] with hedges
  obtain ⟨projs, e2, hpl, hproj⟩ := axesOf_ok faces.length axes ha
  have hends : ∀ f ∈ faces, ∀ v, EndsEdge pm f v → v < n := by
    rintro f hfm v ⟨j, w, (⟨h1, -⟩ | ⟨-, h1⟩), -⟩ <;> exact (hf f hfm).2 v (List.mem_of_getElem? h1)
  have hzip : ∀ e ∈ (edges.zip projs).zipIdx, ∃ f, faces[e.2]? = some f ∧ e.1.1 = (facePairs pmap f).getD [] ∧ e.1.2 ∈ projs := by
    intro x hx
    have h1 : (edges.zip projs)[x.2]? = some x.1 := by
      have := List.mem_zipIdx_iff_getElem?.1 (show (x.1, x.2) ∈ (edges.zip projs).zipIdx from hx)
      simpa using this
    rw [List.getElem?_zip_eq_some] at h1
    obtain ⟨h1, h2⟩ := h1
    rw [hedges, List.getElem?_map, Option.map_eq_some_iff] at h1
    obtain ⟨f, h3, h4⟩ := h1
    exact ⟨f, h3, h4.symm, List.mem_of_getElem? h2⟩
  obtain ⟨T, M, e3, e4, hM, hMp⟩ := soup_ok htri (ptsOf out) (edges.zip projs).zipIdx ([], []) [] (by
      intro x hx v hv
      obtain ⟨f, h1, h2, -⟩ := hzip x hx
      have hfm := List.mem_of_getElem? h1
      rw [h2] at hv
      obtain ⟨u, hu, rfl⟩ := ((hpairs f hfm).2 v).1 hv
      rw [hlen]
      exact hlt u (hends f hfm u hu)) (by
      rw [List.zipIdx_map_snd]
      exact List.pairwise_le_range') rfl rfl
  rw [List.nil_append] at e3 e4
  have e5 : (M.map Prod.snd).mapM (fun p => faceShell[p]?) = some ((M.map Prod.snd).map fun p => faceShell.getD p 0) := by
    refine mapM_eq fun p hpM => ?_
    obtain ⟨m, hm, rfl⟩ := List.mem_map.1 hpM
    obtain ⟨x, hx, h1, -⟩ := hM m hm
    obtain ⟨f, h2, -⟩ := hzip x hx
    have := (List.getElem?_eq_some_iff.1 h2).1
    rw [List.getD_eq_getElem?_getD, List.getElem?_eq_getElem (by omega)]; rfl
  have hres : (M.map Prod.fst).zip ((M.map Prod.snd).map fun p => faceShell.getD p 0) = M.map fun m => (m.1, faceShell.getD m.2 0) := by
    rw [List.map_map, List.zip_map']
    rfl
  have hcor : ∀ m ∈ M, ∃ (f : List Nat) (a b c : Nat), faces[m.2]? = some f ∧ EndsEdge pm f a ∧ EndsEdge pm f b ∧ EndsEdge pm f c ∧ m.1 = (pm a, pm b, pm c) ∧
      ¬ Collinear (posOf (ptsOf out) m.1.1) (posOf (ptsOf out) m.1.2.1) (posOf (ptsOf out) m.1.2.2) := by
    intro m hm
    obtain ⟨x, hx, h1, ⟨m1, m2, m3⟩, hne⟩ := hM m hm
    obtain ⟨f, h2, h3, h4⟩ := hzip x hx
    have hfm := List.mem_of_getElem? h2
    rw [h3] at m1 m2 m3
    obtain ⟨a, ea, qa⟩ := ((hpairs f hfm).2 _).1 m1
    obtain ⟨b, eb, qb⟩ := ((hpairs f hfm).2 _).1 m2
    obtain ⟨c, ec, qc⟩ := ((hpairs f hfm).2 _).1 m3
    obtain ⟨o, u, v, hq⟩ := hproj _ h4
    refine ⟨f, a, b, c, h1 ▸ h2, ea, eb, ec, by rw [← qa, ← qb, ← qc], fun hcol => hne ?_⟩
    simp only [hq]
    exact proj_collinear hcol
  refine ⟨out, M.map fun m => (m.1, faceShell.getD m.2 0), pm, M.map Prod.snd, ?_, fun v hv => ⟨by rw [hlen]; exact hlt v hv, hround v hv⟩, fun m hm => ?_, fun v hv w hw => ?_, hMp, ?_, fun k t hk => ?_, ?_⟩
  · simp only [polyInput, e, e1, e2, Tri.triangulateSoup, e3, e4, e5, hres, Option.bind_eq_bind, Option.bind_some]
    rfl
  · obtain ⟨v, hv, hvm⟩ := hb m (by omega)
    exact ⟨v, hv, by show pmap.getD v 0 = m; rw [List.getD_eq_getElem?_getD, hvm]; rfl⟩
  · rw [← hi v w hv hw, hpm v hv, hpm w hw, Option.some.injEq]
  · rw [List.map_map, List.map_map]; rfl
  · rw [List.getElem?_map, Option.map_eq_some_iff] at hk
    obtain ⟨m, hm, rfl⟩ := hk
    obtain ⟨f, a, b, c, h1, h2, h3, h4, h5, -⟩ := hcor m (List.mem_of_getElem? hm)
    exact ⟨m.2, f, a, b, c, by rw [List.getElem?_map, hm]; rfl, h1, h2, h3, h4, by rw [h5]⟩
  · intro x hx
    obtain ⟨m, hm, rfl⟩ := List.mem_map.1 hx
    obtain ⟨f, a, b, c, h1, h2, h3, h4, h5, h6⟩ := hcor m hm
    have hfm := List.mem_of_getElem? h1
    refine ⟨?_, h6⟩
    have hne : ∀ {a b c : Pt ℚ}, ¬ Collinear a b c → a ≠ b ∧ b ≠ c ∧ c ≠ a := by
      intro a b c h
      refine ⟨?_, ?_, ?_⟩ <;> rintro rfl <;> exact h (Geom.collinear_iff_flat.2 ⟨by simp only [Geom.nXY, Geom.orient2d]; ring, by simp only [Geom.nYZ, Geom.orient2d]; ring, by simp only [Geom.nXZ, Geom.orient2d]; ring⟩)
    obtain ⟨n1, n2, n3⟩ := hne h6
    rw [hlen]
    dsimp only at n1 n2 n3 ⊢
    rw [h5] at n1 n2 n3 ⊢
    exact ⟨hlt _ (hends f hfm a h2), hlt _ (hends f hfm b h3), hlt _ (hends f hfm c h4), fun e => n1 (congrArg _ e), fun e => n2 (congrArg _ e), fun e => n3 (congrArg _ e)⟩

/-- C108: `make_polyhedral_mesh` on the arrays of the caller. If different points stay different on the grid and they are not flat, then it subdivides the convex hull of the rounded points; the first constraints are the
triangles of the faces. -/
theorem c108_mesh {tri : List (ℚ × ℚ) → List Nat → Option (List Nat)} (htri : Triangulates tri) (ch : Choices) (hch : ch.Good) (epsA : ℚ) (lead : ℚ → ℚ) (hl0 : ∀ x, lead x = 0 ↔ x = 0) (hl1 : ∀ x, 0 ≤ lead x)
    (points axes : List ℚ) (n : Nat) (hp : points.length = 3 * n) (hmax : n ≤ 1021) (faceShell : List Nat) (faces : List (List Nat))
    (hf : ∀ f ∈ faces, f.length % 2 = 0 ∧ ∀ v ∈ f, v < n) (ha : axes.length = 9 * faces.length) (hsh : faces.length ≤ faceShell.length) (eps : ℚ) (he : eps ≠ 0) (order : List Nat) (ho : Poly.Sorted points n order)
    (hgrid : ∀ v < n, ∀ w < n, gridPt eps points v = gridPt eps points w → ∀ j < 3, points[v * 3 + j]? = points[w * 3 + j]?)
    (h4 : ∃ f : Fin 4 → Nat, (∀ i, f i < n) ∧ Function.Injective fun i => gridPt eps points (f i))
    (hflat : ∀ out res box s, polyInput tri points axes faceShell faces eps order = some (out, res) → Tet.boxOf (ptsOf out) = some box → Tet.boxSize box = some s → ¬ Delaunay.FlatPts (ptsOf out) s) :
    ∃ (fuel : Nat) (pts : List (Pt ℚ)) (sh : List Nat) (cs : List (Nat × Nat × Nat)) (g : GSt ℚ) (parents : List Nat), makePoly ch order epsA lead fuel tri points axes faceShell faces eps = some (pts, sh, cs, g) ∧
      (∀ p, p ∈ pts ↔ ∃ v < n, gridPt eps points v = p) ∧
      (∀ p, InHull pts p ↔ ∃ k < g.s.cx.cells.length, Region g.pl g.s.cl k p) ∧
      (∀ k < g.s.cx.cells.length, ∀ l < g.s.cx.cells.length, k ≠ l → ∀ q, ¬ (Core (Region g.pl g.s.cl k) q ∧ Core (Region g.pl g.s.cl l) q)) ∧
      parents.Pairwise (· ≤ ·) ∧ sh = parents.map (fun p => faceShell.getD p 0) ∧
      ∀ (k p : Nat), parents[k]? = some p → ∃ (f : List Nat) (a b c : Nat), faces[p]? = some f ∧ a ∈ f ∧ b ∈ f ∧ c ∈ f ∧ triAt pts cs k = ⟨gridPt eps points a, gridPt eps points b, gridPt eps points c⟩ := by
  obtain ⟨f, hfn, hfi⟩ := h4
  have hn : 0 < n := lt_of_le_of_lt (Nat.zero_le _) (hfn 0)
  obtain ⟨out, res, pm, parents, e, hpm, hback, heq, hpw, hsnd, hres, hprop⟩ := c108_input htri points axes n hp hn faceShell faces hf ha hsh eps he order ho
  set pts := ptsOf out with hpts
  have hmem : ∀ p, p ∈ pts ↔ ∃ v < n, gridPt eps points v = p := by
    intro p
    constructor
    · intro h
      obtain ⟨m, hm, rfl⟩ := List.mem_iff_getElem.1 h
      obtain ⟨v, hv, rfl⟩ := hback m hm
      exact ⟨v, hv, by rw [← (hpm v hv).2]; simp [posOf, hm]⟩
    · rintro ⟨v, hv, rfl⟩
      rw [← (hpm v hv).2]
      exact List.mem_of_getElem? (posOf_some (hpm v hv).1)
  have hnd : pts.Nodup := by
    rw [List.nodup_iff_injective_get]
    intro a b hab
    obtain ⟨v, hv, ev⟩ := hback a.1 a.2
    obtain ⟨w, hw, ew⟩ := hback b.1 b.2
    have h1 : gridPt eps points v = gridPt eps points w := by
      rw [← (hpm v hv).2, ← (hpm w hw).2, ev, ew]
      have ea : posOf pts a.1 = pts.get a := by simp [posOf]
      have eb : posOf pts b.1 = pts.get b := by simp [posOf]
      rw [ea, eb, hab]
    exact Fin.ext (by rw [← ev, ← ew]; exact (heq v hv w hw).2 (hgrid v hv w hw h1))
  have hl4 : 4 ≤ pts.length := by
    have h1 := Finset.card_le_card (Finset.image_subset_iff.2 fun i (_ : i ∈ (Finset.univ : Finset (Fin 4))) => List.mem_toFinset.2 ((hmem _).2 ⟨f i, hfn i, rfl⟩))
    rw [Finset.card_image_of_injective _ hfi] at h1
    have h2 := pts.toFinset_card_le
    simp only [Finset.card_univ, Fintype.card_fin] at h1
    omega
  have hln : pts.length ≤ 1021 := by
    have h1 : Finset.range pts.length ⊆ (Finset.range n).image pm := by
      intro a ha
      obtain ⟨v, hv, ev⟩ := hback a (Finset.mem_range.1 ha)
      exact Finset.mem_image.2 ⟨v, Finset.mem_range.2 hv, ev⟩
    have h2 := (Finset.card_le_card h1).trans Finset.card_image_le
    simp only [Finset.card_range] at h2
    omega
  obtain ⟨fuel, new, g, e2, -, -, -, ht1, ht2⟩ := c106_proper ch hch epsA lead hl0 hl1 pts hnd hl4 hln (res.map Prod.fst) (fun c hc => by
      obtain ⟨r, hr, rfl⟩ := List.mem_map.1 hc
      exact (hprop r hr).1) (fun c hc => by
      obtain ⟨r, hr, rfl⟩ := List.mem_map.1 hc
      exact (hprop r hr).2) (fun box s => hflat out res box s e)
  refine ⟨fuel, pts, res.map Prod.snd, res.map Prod.fst ++ new, g, parents, ?_, hmem, ht1, ht2, hpw, hsnd, fun k p hk => ?_⟩
  · simp only [makePoly, e, e2, ← hpts, Option.bind_eq_bind, Option.bind_some]
    rfl
  · have hll : res.length = parents.length := by simpa using congrArg List.length hsnd
    have hkl : k < res.length := by rw [hll]; exact (List.getElem?_eq_some_iff.1 hk).1
    obtain ⟨p', f, a, b, c, h1, h2, h3, h4, h5, h6⟩ := hres k _ (List.getElem?_eq_getElem hkl)
    rw [hk, Option.some.injEq] at h1
    subst h1
    have hin : ∀ {v}, EndsEdge pm f v → v ∈ f := by
      rintro v ⟨j, w, (⟨h1, -⟩ | ⟨-, h1⟩), -⟩ <;> exact List.mem_of_getElem? h1
    have hvn := (hf f (List.mem_of_getElem? h2)).2
    have hcs : (res.map Prod.fst ++ new)[k]? = some (pm a, pm b, pm c) := by
      rw [List.getElem?_append_left (by simpa using hkl), List.getElem?_map, List.getElem?_eq_getElem hkl, h6]
      rfl
    refine ⟨f, a, b, c, h2, hin h3, hin h4, hin h5, ?_⟩
    simp only [triAt, hcs, Option.getD_some, Tri3.mk.injEq]
    exact ⟨(hpm _ (hvn _ (hin h3))).2, (hpm _ (hvn _ (hin h4))).2, (hpm _ (hvn _ (hin h5))).2⟩

/-! ### Example -/

/-- A triangulation for convex polygons given in order: the triangles of the fan from the first vertex that are not degenerate. -/
def fanTri (pts : List (ℚ × ℚ)) (_ : List Nat) : Option (List Nat) :=
  let a := pts.getD 0 0
  some ((List.range (pts.length - 2)).flatMap fun i =>
    let b := pts.getD (i + 1) 0
    let c := pts.getD (i + 2) 0
    if (b.1 - a.1) * (c.2 - a.2) - (b.2 - a.2) * (c.1 - a.1) ≠ 0 then [0, i + 1, i + 2] else [])

theorem fan_triangulates : Triangulates fanTri := by
  intro pts segs _
  have key : ∀ l : List Nat, (∀ i ∈ l, i + 2 < pts.length) → ∃ tr, chunks3 (l.flatMap fun i =>
      if ((pts.getD (i + 1) 0).1 - (pts.getD 0 0).1) * ((pts.getD (i + 2) 0).2 - (pts.getD 0 0).2) - ((pts.getD (i + 1) 0).2 - (pts.getD 0 0).2) * ((pts.getD (i + 2) 0).1 - (pts.getD 0 0).1) ≠ 0 then [0, i + 1, i + 2] else []) = some tr ∧
      ∀ t ∈ tr, ∃ a b c, pts[t.1]? = some a ∧ pts[t.2.1]? = some b ∧ pts[t.2.2]? = some c ∧ (b.1 - a.1) * (c.2 - a.2) - (b.2 - a.2) * (c.1 - a.1) ≠ 0 := by
    intro l
    induction l with
    | nil => exact fun _ => ⟨[], rfl, by simp⟩
    | cons i l ih =>
      intro hl
      obtain ⟨tr, e, h⟩ := ih fun j hj => hl j (List.mem_cons_of_mem _ hj)
      have hi := hl i (List.mem_cons_self ..)
      have get : ∀ k < pts.length, pts[k]? = some (pts.getD k 0) := fun k hk => by rw [List.getD_eq_getElem?_getD, List.getElem?_eq_getElem hk]; rfl
      by_cases hc : ((pts.getD (i + 1) 0).1 - (pts.getD 0 0).1) * ((pts.getD (i + 2) 0).2 - (pts.getD 0 0).2) - ((pts.getD (i + 1) 0).2 - (pts.getD 0 0).2) * ((pts.getD (i + 2) 0).1 - (pts.getD 0 0).1) ≠ 0
      · refine ⟨(0, i + 1, i + 2) :: tr, ?_, fun t ht => ?_⟩
        · rw [List.flatMap_cons, if_pos hc]
          simp only [List.cons_append, List.nil_append, chunks3, e, Option.map_some]
        · rcases List.mem_cons.1 ht with rfl | ht
          · exact ⟨_, _, _, get 0 (by omega), get (i + 1) (by omega), get (i + 2) (by omega), hc⟩
          · exact h t ht
      · refine ⟨tr, ?_, h⟩
        rw [List.flatMap_cons, if_neg hc]
        exact e
  obtain ⟨tr, e, h⟩ := key (List.range (pts.length - 2)) fun i hi => by have := List.mem_range.1 hi; omega
  exact ⟨_, tr, rfl, e, h⟩

/-- A pyramid over a square; one corner of the square is given twice. -/
def pyrRaw : List ℚ := [0, 0, 0, 4, 0, 0, 4, 4, 0, 0, 4, 0, 1, 2, 5, 4, 4, 0]
/-- Its five faces as lists of edges; the edge between the two copies of the corner is dropped. -/
def pyrFaces : List (List Nat) := [[0, 3, 3, 2, 2, 5, 5, 1, 1, 0], [0, 1, 1, 4, 4, 0], [1, 2, 2, 4, 4, 1], [5, 3, 3, 4, 4, 5], [3, 0, 0, 4, 4, 3]]
/-- For every face an origin and two axes. -/
def pyrAxes : List ℚ := [0, 0, 0, 1, 0, 0, 0, 1, 0, 0, 0, 0, 1, 0, 0, 0, 0, 1, 4, 0, 0, 0, 1, 0, 0, 0, 1, 0, 4, 0, 1, 0, 0, 0, 0, 1, 0, 0, 0, 0, 1, 0, 0, 0, 1]

theorem pyrRaw_sorted : Poly.Sorted pyrRaw 6 [0, 3, 4, 1, 2, 5] := Poly.sorted_of (by decide) (by decide +kernel)

theorem pyrRaw_input : polyInput fanTri pyrRaw pyrAxes [3, 4, 4, 4, 5] pyrFaces (1 / 1000000) [0, 3, 4, 1, 2, 5] =
    some ([0, 0, 0, 0, 4, 0, 1, 2, 5, 4, 0, 0, 4, 4, 0], [((0, 1, 4), 3), ((0, 4, 3), 3), ((0, 3, 2), 4), ((3, 4, 2), 4), ((4, 1, 2), 4), ((1, 0, 2), 5)]) := by
  unfold polyInput Poly.removeDuplicates
  rw [gridBase_micro]
  decide +kernel

theorem pyrRaw_grid : ∀ v < 6, gridPt (1 / 1000000) pyrRaw v = ⟨pyrRaw.getD (v * 3) 0, pyrRaw.getD (v * 3 + 1) 0, pyrRaw.getD (v * 3 + 2) 0⟩ := by
  unfold gridPt
  rw [gridBase_micro]
  intro v hv
  interval_cases v <;> decide +kernel

/-- C108 for the pyramid. -/
example := c108_input fan_triangulates pyrRaw pyrAxes 6 rfl (by decide) [3, 4, 4, 4, 5] pyrFaces (by decide) rfl (by decide) (1 / 1000000) (by norm_num) _ pyrRaw_sorted
example := c108_mesh fan_triangulates plainChoices plain_good (1 / 1000000) (fun x => |x|) (fun _ => abs_eq_zero) (fun x => abs_nonneg x) pyrRaw pyrAxes 6 rfl (by decide) [3, 4, 4, 4, 5] pyrFaces (by decide) rfl (by decide)
  (1 / 1000000) (by norm_num) _ pyrRaw_sorted
  (fun v hv w hw h => by
    rw [pyrRaw_grid v hv, pyrRaw_grid w hw, Pt.mk.injEq] at h
    interval_cases v <;> interval_cases w <;> first | (intro j hj; rfl) | (exfalso; revert h; decide +kernel) | (intro j hj; interval_cases j <;> rfl))
  ⟨fun i => i.1, fun i => by dsimp only; omega, fun a b h => by
    dsimp only at h
    rw [pyrRaw_grid _ (by omega), pyrRaw_grid _ (by omega), Pt.mk.injEq] at h
    fin_cases a <;> fin_cases b <;> first | rfl | (exfalso; revert h; decide +kernel)⟩
  (fun out res box s h => by
    rw [pyrRaw_input] at h
    simp only [Option.some.injEq, Prod.mk.injEq] at h
    obtain ⟨rfl, -⟩ := h
    intro hb hs
    have : Tet.boxOf (ptsOf [0, 0, 0, 0, 4, 0, 1, 2, 5, 4, 0, 0, 4, 4, 0]) = some [0, 0, 0, 4, 4, 5] := by decide +kernel
    rw [this, Option.some.injEq] at hb
    subst hb
    have : Tet.boxSize ([0, 0, 0, 4, 4, 5] : List ℚ) = some 57 := by decide +kernel
    rw [this, Option.some.injEq] at hs
    subst hs
    unfold Delaunay.FlatPts
    decide +kernel)

end Verif.Bsp
