import Verif.Bsp.GeneralPoints
import Verif.Poly.Dedup
import Verif.Poly.Virtual

/-!
# C106: `make_mesh_for_triangles` as a whole (`src/polygonlization/mod.rs` lines 56-80, 117-142)

From the arrays of the caller to the subdivided complex: merging of equal points, removal of degenerate triangles, tetrahedralization, virtual constraints, constraint insertion, complex and cutting loop.
Coordinates are rational numbers, arithmetic is exact, `none` is a panic. Unspecified orders (unstable sort, random shuffle, hash map, allocation of edges) are parameters.
-/

namespace Verif.Bsp

open InSphere (Pt Ori orient3d)
open Geom (Collinear Coplanar)
open Delaunay (IsDelaunay SolidTet)
open Constraint (insertConstraints marksAt Proper Vertices)

/-- `point` (lines 13-16). -/
def ptAt (points : List ℚ) (i : Nat) : Option (Pt ℚ) := do
  pure ⟨← points[i * 3]?, ← points[i * 3 + 1]?, ← points[i * 3 + 2]?⟩

/-- The coordinate array as a list of points. -/
def ptsOf (points : List ℚ) : List (Pt ℚ) := (List.range (points.length / 3)).map fun i => (ptAt points i).getD ⟨0, 0, 0⟩

/-- `triangles.chunks(3)` (line 124); a last chunk with less than three entries panics at `tri[1]` or `tri[2]` (line 125). -/
def chunks3 : List Nat → Option (List (Nat × Nat × Nat))
  | [] => some []
  | a :: b :: c :: l => (chunks3 l).map ((a, b, c) :: ·)
  | _ => none

/-- The loop that keeps the proper triangles (lines 126-140), with their shells. -/
def reserve (points : List ℚ) (pmap shells : List Nat) : Nat → List (Nat × Nat × Nat) → Option (List ((Nat × Nat × Nat) × Nat))
  | _, [] => some []
  | idx, tri :: rest => do
    let a ← pmap[tri.1]?
    let b ← pmap[tri.2.1]?
    let c ← pmap[tri.2.2]?
    if a = b ∨ b = c ∨ c = a then reserve points pmap shells (idx + 1) rest
    else
      let pa ← ptAt points a
      let pb ← ptAt points b
      let pc ← ptAt points c
      if Geom.misAlignment pa pb pc then
        let s ← shells[idx]?
        let r ← reserve points pmap shells (idx + 1) rest
        pure (((a, b, c), s) :: r)
      else reserve points pmap shells (idx + 1) rest

/-- The first part of `make_mesh_for_triangles` (lines 117-140): the merged points and the kept triangles with their shells. `1e-6` stands for its binary exponent only. -/
def makeInput (points : List ℚ) (triangles shells : List Nat) (order : List Nat) : Option (List ℚ × List ((Nat × Nat × Nat) × Nat)) := do
  let (out, pmap) ← Poly.removeDuplicates points (1 / 1000000) order
  let tris ← chunks3 triangles
  let res ← reserve out pmap shells 0 tris
  pure (out, res)

/-- Specification: vertex `i` of the caller, rounded to the grid. -/
def roundedPt (points : List ℚ) (i : Nat) : Pt ℚ :=
  let r k := Poly.approx (Poly.gridBase (1 / 1000000)) (points.getD (i * 3 + k) 0)
  ⟨r 0, r 1, r 2⟩

theorem chunks3_ok : ∀ (k : Nat) (l : List Nat), l.length = 3 * k → ∃ tris, chunks3 l = some tris ∧ tris.length = k ∧ ∀ i < k, tris[i]? = some (l.getD (3 * i) 0, l.getD (3 * i + 1) 0, l.getD (3 * i + 2) 0)
  | 0, l, h => by
    obtain rfl : l = [] := List.length_eq_zero_iff.1 (by omega)
    exact ⟨[], rfl, rfl, fun i hi => absurd hi (by omega)⟩
  | k + 1, l, h => by
    match l, h with
    | a :: b :: c :: l, h =>
      obtain ⟨tris, e, hl, hi⟩ := chunks3_ok k l (by simp only [List.length_cons] at h; omega)
      refine ⟨(a, b, c) :: tris, by simp [chunks3, e], by simp [hl], fun i hik => ?_⟩
      cases i with
      | zero => rfl
      | succ i =>
        rw [List.getElem?_cons_succ, hi i (by omega)]
        have e1 : 3 * (i + 1) = 3 * i + 1 + 1 + 1 := by omega
        have e2 : 3 * (i + 1) + 1 = 3 * i + 1 + 1 + 1 + 1 := by omega
        have e3 : 3 * (i + 1) + 2 = 3 * i + 2 + 1 + 1 + 1 := by omega
        rw [e3, e2, e1]
        simp only [List.getD_cons_succ]

/-- The loop over the triangles. -/
theorem reserve_ok {out : List ℚ} {pmap shells : List Nat} {n : Nat} (P : Nat → Pt ℚ) (hlen : pmap.length = n) (hP : ∀ i m, pmap[i]? = some m → ptAt out m = some (P i)) :
    ∀ (tris : List (Nat × Nat × Nat)) (idx : Nat), (∀ t ∈ tris, t.1 < n ∧ t.2.1 < n ∧ t.2.2 < n) → idx + tris.length ≤ shells.length →
      ∃ ids : List Nat, ids.Pairwise (· < ·) ∧
        (∀ i, i ∈ ids ↔ ∃ t, i < tris.length ∧ tris[i]? = some t ∧ ¬ Collinear (P t.1) (P t.2.1) (P t.2.2)) ∧
        reserve out pmap shells idx tris = some (ids.map fun i => ((pmap.getD (tris.getD i (0, 0, 0)).1 0, pmap.getD (tris.getD i (0, 0, 0)).2.1 0, pmap.getD (tris.getD i (0, 0, 0)).2.2 0), shells.getD (idx + i) 0)) ∧
        ∀ i ∈ ids, pmap.getD (tris.getD i (0, 0, 0)).1 0 ≠ pmap.getD (tris.getD i (0, 0, 0)).2.1 0 ∧ pmap.getD (tris.getD i (0, 0, 0)).2.1 0 ≠ pmap.getD (tris.getD i (0, 0, 0)).2.2 0 ∧
          pmap.getD (tris.getD i (0, 0, 0)).2.2 0 ≠ pmap.getD (tris.getD i (0, 0, 0)).1 0
  | [], idx, _, _ => ⟨[], List.Pairwise.nil, by simp, rfl, by simp⟩
  | t :: tris, idx, ht, hs => by
    obtain ⟨ids, h1, h2, h3, h4⟩ := reserve_ok (shells := shells) P hlen hP tris (idx + 1) (fun x hx => ht x (List.mem_cons_of_mem _ hx)) (by simp only [List.length_cons] at hs; omega)
    obtain ⟨l1, l2, l3⟩ := ht t (by simp)
    have ha : pmap[t.1]? = some (pmap.getD t.1 0) := by rw [List.getD_eq_getElem?_getD, List.getElem?_eq_getElem (by omega)]; rfl
    have hb : pmap[t.2.1]? = some (pmap.getD t.2.1 0) := by rw [List.getD_eq_getElem?_getD, List.getElem?_eq_getElem (by omega)]; rfl
    have hc : pmap[t.2.2]? = some (pmap.getD t.2.2 0) := by rw [List.getD_eq_getElem?_getD, List.getElem?_eq_getElem (by omega)]; rfl
    have hsh : shells[idx]? = some (shells.getD idx 0) := by
      simp only [List.length_cons] at hs
      rw [List.getD_eq_getElem?_getD, List.getElem?_eq_getElem (by omega)]; rfl
    have pa := hP _ _ ha
    have pb := hP _ _ hb
    have pc := hP _ _ hc
    have hshift : (ids.map Nat.succ).map (fun i => ((pmap.getD ((t :: tris).getD i (0, 0, 0)).1 0, pmap.getD ((t :: tris).getD i (0, 0, 0)).2.1 0, pmap.getD ((t :: tris).getD i (0, 0, 0)).2.2 0), shells.getD (idx + i) 0)) =
        ids.map fun i => ((pmap.getD (tris.getD i (0, 0, 0)).1 0, pmap.getD (tris.getD i (0, 0, 0)).2.1 0, pmap.getD (tris.getD i (0, 0, 0)).2.2 0), shells.getD (idx + 1 + i) 0) := by
      rw [List.map_map]
      refine List.map_congr_left fun i _ => ?_
      simp only [Function.comp, Nat.succ_eq_add_one, List.getD_cons_succ]
      rw [show idx + (i + 1) = idx + 1 + i by omega]
    have hpw : (ids.map Nat.succ).Pairwise (· < ·) := by
      rw [List.pairwise_map]; exact h1.imp fun h => Nat.succ_lt_succ h
    have hmem : ∀ i, i ∈ ids.map Nat.succ ↔ ∃ t', 0 < i ∧ i < (t :: tris).length ∧ (t :: tris)[i]? = some t' ∧ ¬ Collinear (P t'.1) (P t'.2.1) (P t'.2.2) := by
      intro i
      rw [List.mem_map]
      constructor
      · rintro ⟨j, hj, rfl⟩
        obtain ⟨t', a, b, c⟩ := (h2 j).1 hj
        exact ⟨t', Nat.succ_pos _, by simp only [List.length_cons]; omega, by simpa using b, c⟩
      · rintro ⟨t', a, b, c, d⟩
        obtain ⟨j, rfl⟩ : ∃ j, i = j + 1 := ⟨i - 1, by omega⟩
        exact ⟨j, (h2 j).2 ⟨t', by simp only [List.length_cons] at b; omega, by simpa using c, d⟩, rfl⟩
    by_cases hcol : Collinear (P t.1) (P t.2.1) (P t.2.2)
    · refine ⟨ids.map Nat.succ, hpw, fun i => ?_, ?_, ?_⟩
      · rw [hmem]
        constructor
        · rintro ⟨t', -, a, b, c⟩; exact ⟨t', a, b, c⟩
        · rintro ⟨t', a, b, c⟩
          refine ⟨t', Nat.pos_of_ne_zero ?_, a, b, c⟩
          rintro rfl
          simp only [List.getElem?_cons_zero, Option.some.injEq] at b
          subst b
          exact c hcol
      · rw [hshift, ← h3]
        have hm : Geom.misAlignment (P t.1) (P t.2.1) (P t.2.2) = false := by
          rw [← Bool.not_eq_true, Geom.misAlignment_iff, not_not, ← Geom.collinear_iff_flat]
          exact hcol
        simp only [reserve, ha, hb, hc, pa, pb, pc, hm, Option.bind_eq_bind, Option.bind_some, Bool.false_eq_true, if_false, ite_self]
      · intro i hi
        obtain ⟨j, hj, rfl⟩ := List.mem_map.1 hi
        simpa using h4 j hj
    · have hne : ∀ {a b c : Pt ℚ}, ¬ Collinear a b c → a ≠ b ∧ b ≠ c ∧ c ≠ a := by
        intro a b c h
        rw [Geom.collinear_iff_flat] at h
        refine ⟨?_, ?_, ?_⟩ <;> rintro rfl <;> apply h <;> simp only [Geom.Flat, Geom.nXY, Geom.nYZ, Geom.nXZ, Geom.orient2d, Geom.xy, Geom.yz, Geom.xz] <;> refine ⟨?_, ?_, ?_⟩ <;> ring
      obtain ⟨n1, n2, n3⟩ := hne hcol
      have d1 : pmap.getD t.1 0 ≠ pmap.getD t.2.1 0 := fun e => n1 (by rw [e, pb] at pa; exact (Option.some.inj pa).symm)
      have d2 : pmap.getD t.2.1 0 ≠ pmap.getD t.2.2 0 := fun e => n2 (by rw [e, pc] at pb; exact (Option.some.inj pb).symm)
      have d3 : pmap.getD t.2.2 0 ≠ pmap.getD t.1 0 := fun e => n3 (by rw [e, pa] at pc; exact (Option.some.inj pc).symm)
      refine ⟨0 :: ids.map Nat.succ, List.pairwise_cons.2 ⟨fun i hi => ?_, hpw⟩, fun i => ?_, ?_, ?_⟩
      · obtain ⟨j, -, rfl⟩ := List.mem_map.1 hi
        exact Nat.succ_pos j
      · rw [List.mem_cons, hmem]
        constructor
        · rintro (rfl | ⟨t', -, a, b, c⟩)
          · exact ⟨t, by simp, rfl, hcol⟩
          · exact ⟨t', a, b, c⟩
        · rintro ⟨t', a, b, c⟩
          rcases Nat.eq_zero_or_pos i with h | h
          · exact Or.inl h
          · exact Or.inr ⟨t', h, a, b, c⟩
      · rw [List.map_cons, hshift]
        have hm : Geom.misAlignment (P t.1) (P t.2.1) (P t.2.2) = true := by
          rw [Geom.misAlignment_iff, ← Geom.collinear_iff_flat]
          exact hcol
        simp only [reserve, ha, hb, hc, pa, pb, pc, hm, hsh, h3, d1, d2, d3, Option.bind_eq_bind, Option.bind_some, or_self, if_false, if_true, List.getD_cons_zero, Nat.add_zero]
        rfl
      · intro i hi
        rcases List.mem_cons.1 hi with rfl | hi
        · simpa using ⟨d1, d2, d3⟩
        · obtain ⟨j, hj, rfl⟩ := List.mem_map.1 hi
          simpa using h4 j hj

/-- C106: the arguments of `make_mesh_for_triangles`. Exactly the triangles that are not degenerate after rounding are kept, in their order and with their shells; their corners are the rounded points. -/
theorem c106_input (points : List ℚ) (n : Nat) (hp : points.length = 3 * n) (hn : 0 < n) (triangles shells : List Nat) (k : Nat) (ht : triangles.length = 3 * k) (htn : ∀ v ∈ triangles, v < n) (hs : k ≤ shells.length)
    (order : List Nat) (ho : Poly.Sorted points n order) :
    ∃ (out : List ℚ) (res : List ((Nat × Nat × Nat) × Nat)) (pm : Nat → Nat) (ids : List Nat), makeInput points triangles shells order = some (out, res) ∧
      (∀ v < n, pm v < (ptsOf out).length ∧ posOf (ptsOf out) (pm v) = roundedPt points v) ∧ (∀ m < (ptsOf out).length, ∃ v < n, pm v = m) ∧
      (∀ v < n, ∀ w < n, pm v = pm w ↔ ∀ j < 3, points[v * 3 + j]? = points[w * 3 + j]?) ∧
      ids.Pairwise (· < ·) ∧
      (∀ i, i ∈ ids ↔ i < k ∧ ¬ Collinear (roundedPt points (triangles.getD (3 * i) 0)) (roundedPt points (triangles.getD (3 * i + 1) 0)) (roundedPt points (triangles.getD (3 * i + 2) 0))) ∧
      res = ids.map (fun i => ((pm (triangles.getD (3 * i) 0), pm (triangles.getD (3 * i + 1) 0), pm (triangles.getD (3 * i + 2) 0)), shells.getD i 0)) ∧
      ∀ r ∈ res, Proper (ptsOf out).length r.1 ∧ ¬ Collinear (posOf (ptsOf out) r.1.1) (posOf (ptsOf out) r.1.2.1) (posOf (ptsOf out) r.1.2.2) := by
  obtain ⟨out, pmap, e, hl, hc, hi, r, hr, hb⟩ := Poly.c49_remove_duplicates (eps := 1 / 1000000) (by norm_num) hp hn ho
  obtain ⟨tris, et, hkl, hti⟩ := chunks3_ok k triangles ht
  have hPt : ∀ i m, pmap[i]? = some m → ptAt out m = some (roundedPt points i) := by
    intro i m him
    obtain ⟨x0, a0, b0⟩ := hc i m him 0 (by omega)
    obtain ⟨x1, a1, b1⟩ := hc i m him 1 (by omega)
    obtain ⟨x2, a2, b2⟩ := hc i m him 2 (by omega)
    have b0 : out[m * 3]? = _ := b0
    simp only [ptAt, b0, b1, b2, Option.bind_eq_bind, Option.bind_some, roundedPt, List.getD_eq_getElem?_getD, a0, a1, a2, Option.getD_some]
    rfl
  have hlen : (ptsOf out).length = r := by simp only [ptsOf, List.length_map, List.length_range]; omega
  have hpos : ∀ m < r, (ptAt out m).getD ⟨0, 0, 0⟩ = posOf (ptsOf out) m := by
    intro m hm
    have : m < (ptsOf out).length := by omega
    simp only [posOf, ptsOf, List.getElem?_map, List.getElem?_range (show m < out.length / 3 by omega), Option.map_some, Option.getD_some]
  have hpm : ∀ v < n, pmap[v]? = some (pmap.getD v 0) := fun v hv => by rw [List.getD_eq_getElem?_getD, List.getElem?_eq_getElem (by omega)]; rfl
  have hlt : ∀ v < n, pmap.getD v 0 < r := by
    intro v hv
    obtain ⟨x0, -, b0⟩ := hc v _ (hpm v hv) 0 (by omega)
    have := (List.getElem?_eq_some_iff.1 b0).1
    omega
  have hget : ∀ j < triangles.length, triangles.getD j 0 < n := fun j hj => by
    rw [List.getD_eq_getElem?_getD, List.getElem?_eq_getElem hj]; exact htn _ (List.getElem_mem hj)
  obtain ⟨ids, h1, h2, h3, h4⟩ := reserve_ok (shells := shells) (roundedPt points) hl hPt tris 0 (by
    intro t htm
    obtain ⟨i, hi'⟩ := List.getElem?_of_mem htm
    have hik : i < k := by rw [← hkl]; exact (List.getElem?_eq_some_iff.1 hi').1
    rw [hti i hik, Option.some.injEq] at hi'
    subst hi'
    exact ⟨hget _ (by omega), hget _ (by omega), hget _ (by omega)⟩) (by omega)
  have hids : ∀ i ∈ ids, i < k := fun i hi' => by obtain ⟨t, a, -⟩ := (h2 i).1 hi'; omega
  have hD : ∀ i < k, tris.getD i (0, 0, 0) = (triangles.getD (3 * i) 0, triangles.getD (3 * i + 1) 0, triangles.getD (3 * i + 2) 0) := fun i hik => by
    rw [List.getD_eq_getElem?_getD, hti i hik]; rfl
  have hres : (ids.map fun i => ((pmap.getD (tris.getD i (0, 0, 0)).1 0, pmap.getD (tris.getD i (0, 0, 0)).2.1 0, pmap.getD (tris.getD i (0, 0, 0)).2.2 0), shells.getD (0 + i) 0)) =
      ids.map fun i => ((pmap.getD (triangles.getD (3 * i) 0) 0, pmap.getD (triangles.getD (3 * i + 1) 0) 0, pmap.getD (triangles.getD (3 * i + 2) 0) 0), shells.getD i 0) := by
    refine List.map_congr_left fun i hi' => ?_
    rw [hD i (hids i hi'), Nat.zero_add]
  have hround : ∀ v < n, posOf (ptsOf out) (pmap.getD v 0) = roundedPt points v := fun v hv => by
    rw [← hpos _ (hlt v hv), hPt _ _ (hpm v hv)]; rfl
  refine ⟨out, _, fun v => pmap.getD v 0, ids, ?_, fun v hv => ⟨by rw [hlen]; exact hlt v hv, hround v hv⟩, fun m hm => ?_, fun v hv w hw => ?_, h1, fun i => ?_, hres, ?_⟩
  · simp only [makeInput, e, et, h3, Option.bind_eq_bind, Option.bind_some]
    rfl
  · obtain ⟨v, hv, hvm⟩ := hb m (by omega)
    exact ⟨v, hv, by show pmap.getD v 0 = m; rw [List.getD_eq_getElem?_getD, hvm]; rfl⟩
  · rw [← hi v w hv hw, hpm v hv, hpm w hw, Option.some.injEq]
  · rw [h2]
    constructor
    · rintro ⟨t, a, b, c⟩
      rw [hti i (by omega), Option.some.injEq] at b
      subst b
      exact ⟨by omega, c⟩
    · rintro ⟨a, b⟩
      exact ⟨_, by omega, hti i a, b⟩
  · intro x hx
    obtain ⟨i, hi', rfl⟩ := List.mem_map.1 hx
    have hik := hids i hi'
    obtain ⟨t, -, b, c⟩ := (h2 i).1 hi'
    rw [hti i hik, Option.some.injEq] at b
    subst b
    have q := h4 i hi'
    rw [hD i hik] at q ⊢
    have g0 := hget (3 * i) (by omega)
    have g1 := hget (3 * i + 1) (by omega)
    have g2 := hget (3 * i + 2) (by omega)
    rw [hlen]
    refine ⟨⟨hlt _ g0, hlt _ g1, hlt _ g2, q.1, q.2.1, q.2.2⟩, ?_⟩
    dsimp only at c ⊢
    rw [hround _ g0, hround _ g1, hround _ g2]
    exact c

section
variable {K : Type} [Field K] [LinearOrder K]

/-- The corners of the tetrahedron that a vertex links to (`conforming_mesh.rs` lines 103-104). The tetrahedralization of points that are not flat has such a link for every vertex. -/
def cornersOf (m : Tet.Mesh) (v : Nat) : Fin 4 → Nat :=
  match (m.p2t[v]?).join.bind fun t => m.tets[t]? with
  | some x => x.data
  | none => fun _ => 0

def toTri (c : Nat × Nat × Nat) : Poly.Triangle := ![c.1, c.2.1, c.2.2]
def ofTri (t : Poly.Triangle) : Nat × Nat × Nat := (t 0, t 1, t 2)

/-- What the code leaves open: the random shuffle, the order of the hash map of edges, the numbers of the first edges, and which part of a split edge keeps its number. -/
structure Choices where
  shuffle : Nat → List Nat
  hash : List Poly.Triangle → List (List Poly.HE)
  alloc : List Nat → List Nat
  keep : Nat → Nat → Bool

structure Choices.Good (ch : Choices) : Prop where
  shuffle : ∀ n, (ch.shuffle n).Perm (List.range n)
  hash : ∀ ts, (ch.hash ts).Perm ((Poly.edgeMap ts).map Prod.snd)
  alloc : ∀ l, (ch.alloc l).Perm l

/-- `make_mesh_for_proper_triangles` (`mod.rs` lines 56-77 of the body 56-80) up to the subdivided complex. -/
def makeProper (ch : Choices) (eps : K) (lead : K → K) (fuel : Nat) (pts : List (Pt K)) (tris : List (Nat × Nat × Nat)) : Option (List (Nat × Nat × Nat) × GSt K) := do
  let m ← Tet.tetrahedralize pts (2 * pts.length * pts.length) (ch.shuffle pts.length)
  let ts ← Poly.placeVirtual (posOf pts) (Geom.maxComp eps lead) (cornersOf m) (tris.map toTri) (ch.hash (tris.map toTri))
  let cs := ts.map ofTri
  let (m, marks) ← insertConstraints (m.tets.length + 1) pts m cs
  let (s0, _) ← initial ch.alloc m (marksAt marks) tris.length
  match geoLoop (triAt pts cs) (axisAt eps lead pts cs) ch.keep tris.length fuel 0 (startOf pts s0) with
  | .done g => some (cs, g)
  | _ => none

/-- `make_mesh_for_triangles` (lines 117-142) up to the subdivided complex: the points, the shells of the kept triangles, the constraints and the complex. -/
def makeMesh (ch : Choices) (order : List Nat) (eps : ℚ) (lead : ℚ → ℚ) (fuel : Nat) (points : List ℚ) (triangles shells : List Nat) : Option (List (Pt ℚ) × List Nat × List (Nat × Nat × Nat) × GSt ℚ) := do
  let (out, res) ← makeInput points triangles shells order
  let (cs, g) ← makeProper ch eps lead fuel (ptsOf out) (res.map Prod.fst)
  pure (ptsOf out, res.map Prod.snd, cs, g)
end

section
variable {K : Type} [Field K] [LinearOrder K] [IsStrictOrderedRing K]

theorem ofTri_toTri (l : List (Nat × Nat × Nat)) : (l.map toTri).map ofTri = l := by
  rw [List.map_map]
  refine (List.map_congr_left fun c _ => ?_).trans (List.map_id l)
  simp [ofTri, toTri]

theorem toTri_inj {n : Nat} {c : Nat × Nat × Nat} (h : Proper n c) : Function.Injective (toTri c) := by
  obtain ⟨-, -, -, h1, h2, h3⟩ := h
  intro i j e
  fin_cases i <;> fin_cases j <;> first | rfl | (exfalso; simp [toTri] at e; first | exact h1 e | exact h2 e | exact h3 e | exact h1 e.symm | exact h2 e.symm | exact h3 e.symm)

/-- The links of the vertices are solid tetrahedra. -/
theorem corners_ok {pts : List (Pt K)} {m : Tet.Mesh} (hD : IsDelaunay pts m) {v : Nat} (hv : v < pts.length) :
    (∀ j, cornersOf m v j < pts.length) ∧ orient3d (posOf pts (cornersOf m v 0)) (posOf pts (cornersOf m v 1)) (posOf pts (cornersOf m v 2)) (posOf pts (cornersOf m v 3)) ≠ 0 := by
  obtain ⟨t, x, h1, h2, -, h3⟩ := hD.vertex v hv
  have e : cornersOf m v = x.data := by simp [cornersOf, h1, h2]
  rw [e]
  rw [hD.num] at h3
  obtain ⟨p0, p1, p2, p3⟩ := hD.point t x h2
  have hlt : ∀ l, x.data l < pts.length := by
    intro l
    fin_cases l
    · exact p0
    · exact p1
    · exact p2
    · exact lt_of_le_of_ne p3 h3
  exact ⟨hlt, (hD.sphere t (fun j => posOf pts (x.data j)) ⟨x, h2, h3, fun j => posOf_some (hlt j)⟩).1.ne⟩

theorem off_plane {A B C X : Pt K} (h : Collinear A B X) : orient3d X A B C = 0 := by
  rw [Geom.collinear_iff_flat] at h
  obtain ⟨h1, h2, h3⟩ := h
  simp only [Geom.nXY, Geom.nYZ, Geom.nXZ, Geom.orient2d, Geom.xy, Geom.yz, Geom.xz] at h1 h2 h3
  unfold orient3d
  first
    | linear_combination (C.x - A.x) * h2 + (C.y - A.y) * h3 + (C.z - A.z) * h1
    | linear_combination (C.x - A.x) * h2 - (C.y - A.y) * h3 + (C.z - A.z) * h1
    | linear_combination -(C.x - A.x) * h2 + (C.y - A.y) * h3 - (C.z - A.z) * h1
    | linear_combination -(C.x - A.x) * h2 - (C.y - A.y) * h3 - (C.z - A.z) * h1

/-- C106: the virtual constraints are proper triangles between the points. -/
theorem c106_virtual (pts : List (Pt K)) (m : Tet.Mesh) (hD : IsDelaunay pts m) (eps : K) (lead : K → K) (hl0 : ∀ x, lead x = 0 ↔ x = 0) (hl1 : ∀ x, 0 ≤ lead x) (tris : List (Nat × Nat × Nat))
    (hc : ∀ c ∈ tris, Proper pts.length c) (hnc : ∀ c ∈ tris, ¬ Collinear (posOf pts c.1) (posOf pts c.2.1) (posOf pts c.2.2)) (order : List (List Poly.HE)) (ho : order.Perm ((Poly.edgeMap (tris.map toTri)).map Prod.snd)) :
    ∃ ts new, Poly.placeVirtual (posOf pts) (Geom.maxComp eps lead) (cornersOf m) (tris.map toTri) order = some ts ∧ ts.map ofTri = tris ++ new ∧
      ∀ c ∈ new, Proper pts.length c ∧ ¬ Collinear (posOf pts c.1) (posOf pts c.2.1) (posOf pts c.2.2) := by
  obtain ⟨new, e, -, hn⟩ := Poly.c55_place (posOf pts) (Geom.maxComp eps lead) (cornersOf m) (tris.map toTri) (fun a b c h => (Geom.c64_axis eps lead hl0 hl1 a b c h).2)
    (fun t ht => by
      obtain ⟨c, hcm, rfl⟩ := List.mem_map.1 ht
      exact hnc c hcm)
    (fun t ht => by
      obtain ⟨c, hcm, rfl⟩ := List.mem_map.1 ht
      exact toTri_inj (hc c hcm))
    (fun t ht => by
      obtain ⟨c, hcm, rfl⟩ := List.mem_map.1 ht
      exact (corners_ok hD (hc c hcm).lt1).2) order ho
  refine ⟨_, new.map ofTri, e, by rw [List.map_append, ofTri_toTri], fun c hcm => ?_⟩
  obtain ⟨x, hx, rfl⟩ := List.mem_map.1 hcm
  obtain ⟨t, ht, i, e0, e1, ⟨j, e2⟩, hoff⟩ := hn x hx
  obtain ⟨c, hcm', rfl⟩ := List.mem_map.1 ht
  have hp := hc c hcm'
  have hlt : ∀ i : Fin 3, toTri c i < pts.length := by
    intro i
    fin_cases i
    · exact hp.lt1
    · exact hp.lt2
    · exact hp.lt3
  have hx2 : x 2 < pts.length := by rw [e2]; exact (corners_ok hD hp.lt1).1 j
  have hne : x 0 ≠ x 1 := by
    rw [e0, e1]
    intro e
    have h3 : ∀ i : Fin 3, i ≠ i + 1 := by decide
    exact h3 i (toTri_inj hp e)
  have hcol : ¬ Collinear (posOf pts (x 0)) (posOf pts (x 1)) (posOf pts (x 2)) := by
    intro hco
    rw [e0, e1] at hco
    apply hoff
    have hi : ∀ i : Fin 3, i = 0 ∨ i = 1 ∨ i = 2 := by decide
    rcases hi i with rfl | rfl | rfl
    · exact off_plane hco
    · rw [← off_plane (C := posOf pts (toTri c 0)) hco]
      show orient3d _ _ _ _ = orient3d _ (posOf pts (toTri c 1)) (posOf pts (toTri c 2)) _
      simp only [orient3d]; ring
    · rw [← off_plane (C := posOf pts (toTri c 1)) hco]
      show orient3d _ _ _ _ = orient3d _ (posOf pts (toTri c 2)) (posOf pts (toTri c 0)) _
      simp only [orient3d]; ring
  have hdis : posOf pts (x 0) ≠ posOf pts (x 2) ∧ posOf pts (x 1) ≠ posOf pts (x 2) := by
    rw [Geom.collinear_iff_flat] at hcol
    refine ⟨?_, ?_⟩ <;> intro h <;> apply hcol <;> rw [h] <;> simp only [Geom.Flat, Geom.nXY, Geom.nYZ, Geom.nXZ, Geom.orient2d, Geom.xy, Geom.yz, Geom.xz] <;> refine ⟨?_, ?_, ?_⟩ <;> ring
  refine ⟨⟨?_, ?_, hx2, hne, fun h => hdis.2 (congrArg _ h), fun h => hdis.1 (congrArg _ h.symm)⟩, hcol⟩
  · show x 0 < _; rw [e0]; exact hlt i
  · show x 1 < _; rw [e1]; exact hlt _

/-- C106: `make_mesh_for_proper_triangles` on distinct points that are not flat subdivides their convex hull; the given triangles are the first constraints. -/
theorem c106_proper (ch : Choices) (hch : ch.Good) (eps : K) (lead : K → K) (hl0 : ∀ x, lead x = 0 ↔ x = 0) (hl1 : ∀ x, 0 ≤ lead x) (pts : List (Pt K)) (hd : pts.Nodup) (h4 : 4 ≤ pts.length) (hn : pts.length ≤ 1021)
    (tris : List (Nat × Nat × Nat)) (hc : ∀ c ∈ tris, Proper pts.length c) (hnc : ∀ c ∈ tris, ¬ Collinear (posOf pts c.1) (posOf pts c.2.1) (posOf pts c.2.2))
    (hflat : ∀ box s, Tet.boxOf pts = some box → Tet.boxSize box = some s → ¬ Delaunay.FlatPts pts s) :
    ∃ fuel new g, makeProper ch eps lead fuel pts tris = some (tris ++ new, g) ∧ Good g.s ∧ Geo g.pos g.pl g.s.cl g.s.mesh.faces ∧ (∀ C ∈ g.s.cx.cells, C.inner = []) ∧
      (∀ p, InHull pts p ↔ ∃ k < g.s.cx.cells.length, Region g.pl g.s.cl k p) ∧
      ∀ k < g.s.cx.cells.length, ∀ l < g.s.cx.cells.length, k ≠ l → ∀ q, ¬ (Core (Region g.pl g.s.cl k) q ∧ Core (Region g.pl g.s.cl l) q) := by
  obtain ⟨m, e, hD | ⟨-, box, s, eb, es, hf⟩⟩ := Delaunay.c85_tetrahedralize_partial pts hd h4 (ch.shuffle pts.length) (hch.shuffle _) _ le_rfl (Or.inl hn)
  swap
  · exact absurd hf (hflat box s eb es)
  obtain ⟨ts, new, ev, hts, hnew⟩ := c106_virtual pts m hD eps lead hl0 hl1 tris hc hnc _ (hch.hash _)
  have hall : ∀ c ∈ tris ++ new, Proper pts.length c ∧ ¬ Collinear (posOf pts c.1) (posOf pts c.2.1) (posOf pts c.2.2) := by
    intro c h
    rcases List.mem_append.1 h with h | h
    · exact ⟨hc c h, hnc c h⟩
    · exact hnew c h
  obtain ⟨m', e', ⟨-, box, s, eb, es, hf⟩ | ⟨marks, s0, sm, e1, e2, fuel, g, e3, r⟩⟩ := c97_from_points pts hd h4 hn (ch.shuffle pts.length) (hch.shuffle _) _ le_rfl (tris ++ new) (fun c h => (hall c h).1) (fun c h => (hall c h).2)
    ch.alloc hch.alloc (axisAt eps lead pts (tris ++ new)) ch.keep tris.length
  · exact absurd hf (hflat box s eb es)
  rw [e, Option.some.injEq] at e'
  subst e'
  refine ⟨fuel, new, g, ?_, r⟩
  simp only [makeProper, e, ev, hts, e1, e2, e3, Option.bind_eq_bind, Option.bind_some]

/-- C106: closed shells with an orientation in general position. No virtual constraint is added, and in the complex that `make_mesh_for_proper_triangles` makes the cells kept by `complex_partition` are those inside a shell. -/
theorem c106_solid {T : Type} [Field T] [LinearOrder T] [IsStrictOrderedRing T] (ch : Choices) (hch : ch.Good) (eps : K) (lead : K → K) (hl0 : ∀ x, lead x = 0 ↔ x = 0) (hl1 : ∀ x, 0 ≤ lead x) (pts : List (Pt K)) (h4 : 4 ≤ pts.length) (hn : pts.length ≤ 1021)
    (hg : General pts) (hflat : ∀ box s, Tet.boxOf pts = some box → Tet.boxSize box = some s → ¬ Delaunay.FlatPts pts s)
    (tris : List (Nat × Nat × Nat)) (hc : ∀ c ∈ tris, Proper pts.length c) (hd : Different tris) (hcl : ∀ c ∈ tris, ∀ i : Fin 3, ∃ d ∈ tris, ∃ j : Fin 3, toTri d j = toTri c (i + 1) ∧ toTri d (j + 1) = toTri c i)
    (shells : List Nat) (nShells : Nat) (In : Nat → Pt K → Prop) (hI : ∀ sh < nShells, SurfaceOf (triAt pts tris) (fun t => t < tris.length ∧ shells.getD t 0 = sh) (In sh))
    (hout : ∀ sh < nShells, ∀ p, ¬ InHull pts p → ¬ In sh p) :
    ∃ fuel g, makeProper ch eps lead fuel pts tris = some (tris, g) ∧ Good g.s ∧ Geo g.pos g.pl g.s.cl g.s.mesh.faces ∧ (∀ (i : Nat) (P : Nat × Option Nat), g.s.cl[i]? = some P → P.2 = none → ∀ p, InHull pts p → 0 ≤ (g.pl i).ev p) ∧
      (∀ p, InHull pts p ↔ ∃ k < g.s.cx.cells.length, Region g.pl g.s.cl k p) ∧
      (∀ k < g.s.cx.cells.length, ∀ l < g.s.cx.cells.length, k ≠ l → ∀ q, ¬ (Core (Region g.pl g.s.cl k) q ∧ Core (Region g.pl g.s.cl l) q)) ∧
      Listed (triAt pts tris) tris.length g ∧
      ∀ area : Nat → T, Normal (shellsOf (triAt pts tris) (axisAt eps lead pts tris) area (fun t => shells.getD t 0) nShells g) g.s.cx → (∀ i < g.s.cx.faces.length, 0 < area i) →
        ∃ kept, (∀ fuel ≥ 1, cellKept fuel (shellsOf (triAt pts tris) (axisAt eps lead pts tris) area (fun t => shells.getD t 0) nShells g) g.s.cx = some kept) ∧ kept.length = g.s.cx.cells.length ∧
          ∀ k < g.s.cx.cells.length, ∀ q, Core (Region g.pl g.s.cl k) q → (kept[k]? = some true ↔ ∃ sh < nShells, In sh q) := by
  obtain ⟨m, e, hD | ⟨-, box, s, eb, es, hf⟩⟩ := Delaunay.c85_tetrahedralize_partial pts (hg.nodup h4) h4 (ch.shuffle pts.length) (hch.shuffle _) _ le_rfl (Or.inl hn)
  swap
  · exact absurd hf (hflat box s eb es)
  obtain ⟨w, w0, hw⟩ := inHull_point (pts := pts) (v := 0) (by omega)
  obtain ⟨t, c, -, ⟨x, hx, h3, -⟩, -⟩ := hD.cover _ w w0 hw
  have hs : ∃ x ∈ m.tets, x.data 3 ≠ pts.length := ⟨x, List.mem_of_getElem? hx, h3⟩
  have ev := Poly.c55_closed (posOf pts) (Geom.maxComp eps lead) (cornersOf m) (tris.map toTri) (fun a b c h => (Geom.c64_axis eps lead hl0 hl1 a b c h).2)
    (fun t ht => by
      obtain ⟨c, hcm, rfl⟩ := List.mem_map.1 ht
      exact hg.not_collinear hD hs (hc c hcm))
    (fun t ht => by
      obtain ⟨c, hcm, rfl⟩ := List.mem_map.1 ht
      exact toTri_inj (hc c hcm))
    (fun t ht i => by
      obtain ⟨c, hcm, rfl⟩ := List.mem_map.1 ht
      obtain ⟨d, hd, j, h1, h2⟩ := hcl c hcm i
      exact ⟨_, List.mem_map_of_mem hd, j, h1, h2⟩) _ (hch.hash _)
  obtain ⟨marks, s0, sm, fuel, g, e1, e2, e3, r⟩ := c105_from_points (T := T) ch.alloc hch.alloc pts m hD hs hg tris hc hd eps lead hl0 hl1 ch.keep tris.length le_rfl (fun t => shells.getD t 0) nShells In hI hout
  refine ⟨fuel, g, ?_, r⟩
  simp only [makeProper, e, ev, ofTri_toTri, e1, e2, e3, Option.bind_eq_bind, Option.bind_some]

end

/-- C106: `make_mesh_for_triangles` on the arrays of the caller. If different points stay different on the grid and they are not flat, then it subdivides the convex hull of the rounded points. -/
theorem c106_mesh (ch : Choices) (hch : ch.Good) (eps : ℚ) (lead : ℚ → ℚ) (hl0 : ∀ x, lead x = 0 ↔ x = 0) (hl1 : ∀ x, 0 ≤ lead x)
    (points : List ℚ) (n : Nat) (hp : points.length = 3 * n) (hmax : n ≤ 1021) (triangles shells : List Nat) (k : Nat) (ht : triangles.length = 3 * k) (htn : ∀ v ∈ triangles, v < n) (hs : k ≤ shells.length)
    (order : List Nat) (ho : Poly.Sorted points n order)
    (hgrid : ∀ v < n, ∀ w < n, roundedPt points v = roundedPt points w → ∀ j < 3, points[v * 3 + j]? = points[w * 3 + j]?)
    (h4 : ∃ f : Fin 4 → Nat, (∀ i, f i < n) ∧ Function.Injective fun i => roundedPt points (f i)) (hflat : ∀ out res box s, makeInput points triangles shells order = some (out, res) → Tet.boxOf (ptsOf out) = some box → Tet.boxSize box = some s → ¬ Delaunay.FlatPts (ptsOf out) s) :
    ∃ fuel pts sh cs g, makeMesh ch order eps lead fuel points triangles shells = some (pts, sh, cs, g) ∧ (∀ p, p ∈ pts ↔ ∃ v < n, roundedPt points v = p) ∧
      (∀ p, InHull pts p ↔ ∃ k < g.s.cx.cells.length, Region g.pl g.s.cl k p) ∧
      (∀ k < g.s.cx.cells.length, ∀ l < g.s.cx.cells.length, k ≠ l → ∀ q, ¬ (Core (Region g.pl g.s.cl k) q ∧ Core (Region g.pl g.s.cl l) q)) ∧
      ∃ ids : List Nat, ids.Pairwise (· < ·) ∧ sh = ids.map (fun i => shells.getD i 0) ∧
        (∀ i, i ∈ ids ↔ i < k ∧ ¬ Collinear (roundedPt points (triangles.getD (3 * i) 0)) (roundedPt points (triangles.getD (3 * i + 1) 0)) (roundedPt points (triangles.getD (3 * i + 2) 0))) ∧
        ∀ q i, ids[q]? = some i → triAt pts cs q = ⟨roundedPt points (triangles.getD (3 * i) 0), roundedPt points (triangles.getD (3 * i + 1) 0), roundedPt points (triangles.getD (3 * i + 2) 0)⟩ := by
  obtain ⟨f, hf, hfi⟩ := h4
  have hn : 0 < n := lt_of_le_of_lt (Nat.zero_le _) (hf 0)
  obtain ⟨out, res, pm, ids, e, hpm, hback, heq, hpw, hids, hres, hprop⟩ := c106_input points n hp hn triangles shells k ht htn hs order ho
  set pts := ptsOf out with hpts
  have hmem : ∀ p, p ∈ pts ↔ ∃ v < n, roundedPt points v = p := by
    intro p
    constructor
    · intro h
      obtain ⟨m, hm, rfl⟩ := List.mem_iff_getElem.1 h
      obtain ⟨v, hv, rfl⟩ := hback m hm
      exact ⟨v, hv, by rw [← (hpm v hv).2]; simp [posOf, hm]⟩
    · rintro ⟨v, hv, rfl⟩
      rw [← (hpm v hv).2]
      exact List.mem_of_getElem? (posOf_some (hpm v hv).1)
  have hnd : pts.Nodup := by
    rw [List.nodup_iff_injective_get]
    intro a b hab
    obtain ⟨v, hv, ev⟩ := hback a.1 a.2
    obtain ⟨w, hw, ew⟩ := hback b.1 b.2
    have h1 : roundedPt points v = roundedPt points w := by
      rw [← (hpm v hv).2, ← (hpm w hw).2, ev, ew]
      have ea : posOf pts a.1 = pts.get a := by simp [posOf]
      have eb : posOf pts b.1 = pts.get b := by simp [posOf]
      rw [ea, eb, hab]
    exact Fin.ext (by rw [← ev, ← ew]; exact (heq v hv w hw).2 (hgrid v hv w hw h1))
  have hl4 : 4 ≤ pts.length := by
    have h1 := Finset.card_le_card (Finset.image_subset_iff.2 fun i (_ : i ∈ (Finset.univ : Finset (Fin 4))) => List.mem_toFinset.2 ((hmem _).2 ⟨f i, hf i, rfl⟩))
    rw [Finset.card_image_of_injective _ hfi] at h1
    have h2 := pts.toFinset_card_le
    simp only [Finset.card_univ, Fintype.card_fin] at h1
    omega
  have hln : pts.length ≤ 1021 := by
    have h1 : Finset.range pts.length ⊆ (Finset.range n).image pm := by
      intro a ha
      obtain ⟨v, hv, ev⟩ := hback a (Finset.mem_range.1 ha)
      exact Finset.mem_image.2 ⟨v, Finset.mem_range.2 hv, ev⟩
    have h2 := (Finset.card_le_card h1).trans Finset.card_image_le
    simp only [Finset.card_range] at h2
    omega
  obtain ⟨fuel, new, g, e2, -, -, -, ht1, ht2⟩ := c106_proper ch hch eps lead hl0 hl1 pts hnd hl4 hln (res.map Prod.fst) (fun c hc => by
      obtain ⟨r, hr, rfl⟩ := List.mem_map.1 hc
      exact (hprop r hr).1) (fun c hc => by
      obtain ⟨r, hr, rfl⟩ := List.mem_map.1 hc
      exact (hprop r hr).2) (fun box s => hflat out res box s e)
  refine ⟨fuel, pts, res.map Prod.snd, res.map Prod.fst ++ new, g, ?_, hmem, ht1, ht2, ids, hpw, ?_, hids, fun q i hq => ?_⟩
  · simp only [makeMesh, e, e2, ← hpts, Option.bind_eq_bind, Option.bind_some]
    rfl
  · rw [hres, List.map_map]; rfl
  · have hik := ((hids i).1 (List.mem_of_getElem? hq)).1
    have hget : ∀ j < triangles.length, triangles.getD j 0 < n := fun j hj => by
      rw [List.getD_eq_getElem?_getD, List.getElem?_eq_getElem hj]; exact htn _ (List.getElem_mem hj)
    have hql : q < ids.length := (List.getElem?_eq_some_iff.1 hq).1
    have hcs : (res.map Prod.fst ++ new)[q]? = some (pm (triangles.getD (3 * i) 0), pm (triangles.getD (3 * i + 1) 0), pm (triangles.getD (3 * i + 2) 0)) := by
      rw [List.getElem?_append_left (by rw [hres]; simpa using hql), hres, List.map_map, List.getElem?_map, hq]
      rfl
    simp only [triAt, hcs, Option.getD_some, Tri3.mk.injEq]
    exact ⟨(hpm _ (hget _ (by omega))).2, (hpm _ (hget _ (by omega))).2, (hpm _ (hget _ (by omega))).2⟩

theorem gridBase_micro : Poly.gridBase (1 / 1000000) = 1 / 2097152 := by
  have h : Int.log 2 (1 / 1000000 : ℚ) = -20 := by
    refine le_antisymm ?_ ?_
    · refine Int.lt_add_one_iff.1 ((Int.lt_zpow_iff_log_lt (by norm_num) (by norm_num)).1 ?_)
      norm_num
    · refine (Int.zpow_le_iff_le_log (by norm_num) (by norm_num)).1 ?_
      norm_num
  unfold Poly.gridBase
  rw [h]
  norm_num

/-- The corners of a tetrahedron, one of them twice. -/
def rawPoints : List ℚ := [0, 0, 0, 4, 0, 0, 0, 4, 0, 0, 0, 4, 4, 0, 0]
/-- Its sides and a degenerate triangle. -/
def rawTris : List Nat := [1, 2, 3, 0, 4, 3, 1, 4, 2, 0, 2, 1, 0, 3, 2]

/-- The first choices that come to mind. -/
def plainChoices : Choices := ⟨List.range, fun ts => (Poly.edgeMap ts).map Prod.snd, id, fun _ _ => true⟩
theorem plain_good : plainChoices.Good := ⟨fun _ => List.Perm.refl _, fun _ => List.Perm.refl _, fun _ => List.Perm.refl _⟩

theorem raw_sorted : Poly.Sorted rawPoints 5 [0, 3, 2, 1, 4] := Poly.sorted_of (by decide) (by decide +kernel)

theorem raw_input : makeInput rawPoints rawTris [7, 7, 8, 7, 7] [0, 3, 2, 1, 4] = some ([0, 0, 0, 0, 0, 4, 0, 4, 0, 4, 0, 0], [((3, 2, 1), 7), ((0, 3, 1), 7), ((0, 2, 3), 7), ((0, 1, 2), 7)]) := by
  unfold makeInput Poly.removeDuplicates
  rw [gridBase_micro]
  decide +kernel

theorem raw_rounded : ∀ v < 5, roundedPt rawPoints v = ⟨rawPoints.getD (v * 3) 0, rawPoints.getD (v * 3 + 1) 0, rawPoints.getD (v * 3 + 2) 0⟩ := by
  unfold roundedPt
  rw [gridBase_micro]
  intro v hv
  interval_cases v <;> decide +kernel

/-- C106 for the tetrahedron. -/
example := c106_mesh plainChoices plain_good (1 / 1000000) (fun x => |x|) (fun _ => abs_eq_zero) (fun x => abs_nonneg x) rawPoints 5 rfl (by decide) rawTris [7, 7, 8, 7, 7] 5 rfl (by decide) (by decide) [0, 3, 2, 1, 4] raw_sorted
  (fun v hv w hw h => by
    rw [raw_rounded v hv, raw_rounded w hw, Pt.mk.injEq] at h
    interval_cases v <;> interval_cases w <;> first | (intro j hj; rfl) | (exfalso; revert h; decide +kernel) | (intro j hj; interval_cases j <;> rfl))
  ⟨fun i => i.1, fun i => by dsimp only; omega, fun a b h => by
    dsimp only at h
    rw [raw_rounded _ (by omega), raw_rounded _ (by omega), Pt.mk.injEq] at h
    fin_cases a <;> fin_cases b <;> first | rfl | (exfalso; revert h; decide +kernel)⟩
  (fun out res box s h => by
    rw [raw_input] at h
    simp only [Option.some.injEq, Prod.mk.injEq] at h
    obtain ⟨rfl, -⟩ := h
    intro hb hs
    have : Tet.boxOf (ptsOf [0, 0, 0, 0, 0, 4, 0, 4, 0, 4, 0, 0]) = some [0, 0, 0, 4, 4, 4] := by decide +kernel
    rw [this, Option.some.injEq] at hb
    subst hb
    have : Tet.boxSize ([0, 0, 0, 4, 4, 4] : List ℚ) = some 48 := by decide +kernel
    rw [this, Option.some.injEq] at hs
    subst hs
    unfold Delaunay.FlatPts
    decide +kernel)

/-- The whole way for the tetrahedron: no virtual constraint, one cell. -/
example : (makeProper plainChoices (1 / 1000000) (fun x => |x|) 9 (ptsOf [0, 0, 0, 0, 0, 4, 0, 4, 0, 4, 0, 0]) [(3, 2, 1), (0, 3, 1), (0, 2, 3), (0, 1, 2)]).map (fun r => (r.1, r.2.s.cx.cells.length)) =
    some ([(3, 2, 1), (0, 3, 1), (0, 2, 3), (0, 1, 2)], 1) := by decide +kernel

/-- C106 for the tetrahedron with a point inside and one outside. -/
example := c106_solid (T := ℚ) plainChoices plain_good (1 / 1000000) (fun x => |x|) (fun _ => abs_eq_zero) (fun x => abs_nonneg x) genPts (by decide) (by decide) gen_general (by
    intro box s hb hs
    have : Tet.boxOf genPts = some [0, 0, 0, 5, 6, 7] := by decide +kernel
    rw [this, Option.some.injEq] at hb
    subst hb
    have : Tet.boxSize ([0, 0, 0, 5, 6, 7] : List ℚ) = some 110 := by decide +kernel
    rw [this, Option.some.injEq] at hs
    subst hs
    unfold Delaunay.FlatPts
    decide +kernel) genCs gen_proper (by unfold Different; decide +kernel) (by decide +kernel) [0, 0, 0, 0] 1 (fun _ => InTet) (fun sh hsh => by
    obtain rfl : sh = 0 := by omega
    have h := gen_surface
    have e : ∀ t, t < 4 → ([0, 0, 0, 0] : List Nat).getD t 0 = 0 := by decide
    exact ⟨fun p q hp => h.free p q fun t ht => hp t ⟨ht.1, e t ht.1⟩, fun t ht => h.front t ⟨ht.1, rfl⟩, fun t ht => h.back t ⟨ht.1, rfl⟩⟩) (fun _ _ p hp hin => hp (gen_hull p hin))

end Verif.Bsp
