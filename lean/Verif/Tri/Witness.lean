import Verif.Tri.DivConq
/-!
# Concrete triangulations: examples and counterexamples for the insertion of segments
-/
namespace Verif.Tri

/-- All half edges of a mesh satisfy a test. -/
def allHE (m : Mesh) (t : HE → Bool) : Bool := (List.range m.n).all fun i => t ⟨i, 0⟩ && t ⟨i, 1⟩ && t ⟨i, 2⟩

theorem allHE_spec {m : Mesh} {t : HE → Bool} (h : allHE m t = true) (e : HE) (he : e.tri < m.n) : t e = true := by
  unfold allHE at h
  rw [List.all_eq_true] at h
  have := h e.tri (List.mem_range.2 he)
  simp only [Bool.and_eq_true] at this
  obtain ⟨i, j⟩ := e
  have hj : j = 0 ∨ j = 1 ∨ j = 2 := by clear * -; revert j; decide
  rcases hj with rfl | rfl | rfl
  exacts [this.1.1, this.1.2, this.2]

/-- The conditions of `Ok` and `Twins` at one half edge. -/
def goodAt (m : Mesh) (e : HE) : Bool :=
  match m.nei e with
  | none => false
  | some e' => decide (m.nei e' = some e) && decide (org m e = dest m e') && decide (dest m e = org m e') && decide (m.vert e ≠ m.vert e.next) &&
    decide (m.mark e' = (m.mark e).map twin)

theorem good_of_test {m : Mesh} {f : VMap} (h : allHE m (goodAt m) = true) (hn : ∀ e e', m.nei e = some e' → e.tri < m.n)
    (hf : ∀ v e, f v = some e → e.tri < m.n ∧ org m e = some v) : Good m f := by
  have key : ∀ e : HE, e.tri < m.n → ∃ e', m.nei e = some e' ∧ m.nei e' = some e ∧ org m e = dest m e' ∧ dest m e = org m e' ∧ m.vert e ≠ m.vert e.next ∧
      m.mark e' = (m.mark e).map twin := by
    intro e he
    have := allHE_spec h e he
    unfold goodAt at this
    cases hh : m.nei e with
    | none => rw [hh] at this; simp at this
    | some e' =>
      rw [hh] at this
      simp only [Bool.and_eq_true, decide_eq_true_eq] at this
      exact ⟨e', rfl, this.1.1.1.1, this.1.1.1.2, this.1.1.2, this.1.2, this.2⟩
  refine ⟨⟨fun e he => ?_, hn, fun e e' he => ?_, fun e e' he => ?_, fun e he => ?_⟩, fun e e' he => ?_, hf⟩
  · obtain ⟨e', h1, _⟩ := key e he; exact ⟨e', h1⟩
  · obtain ⟨e'', h1, h2, _⟩ := key e (hn _ _ he)
    rw [he] at h1; cases h1; exact h2
  · obtain ⟨e'', h1, _, h2, h3, _⟩ := key e (hn _ _ he)
    rw [he] at h1; cases h1; exact ⟨h2, h3⟩
  · obtain ⟨_, _, _, _, _, h1, _⟩ := key e he; exact h1
  · obtain ⟨e'', h1, _, _, _, _, h2⟩ := key e (hn _ _ he)
    rw [he] at h1; cases h1; exact h2

/-- A mesh given by the corners and the neighbours of its triangles, without marks. -/
def ofTable (rows : List (List (Option Nat) × List (Nat × Fin 3))) : Mesh where
  n := rows.length
  vert e := (rows[e.tri]?).bind fun r => (r.1[e.ori.val]?).join
  mark _ := none
  nei e := (rows[e.tri]?).bind fun r => (r.2[e.ori.val]?).map fun p => ⟨p.1, p.2⟩

theorem ofTable_range {rows : List (List (Option Nat) × List (Nat × Fin 3))} {e e' : HE} (h : (ofTable rows).nei e = some e') : e.tri < (ofTable rows).n := by
  unfold ofTable at h
  obtain ⟨r, hr, _⟩ := Option.bind_eq_some_iff.1 h
  exact (List.getElem?_eq_some_iff.1 hr).1

/-- The point with a given number; numbers without a point get one far away. -/
def pt (pts : List (Int × Int)) (a : Nat) : Int × Int := pts.getD a (-1000, -777)

/-- The exact predicates for points with integer coordinates. -/
def exactPreds (pts : List (Int × Int)) : Preds where
  ccw a b c :=
    let p := pt pts a; let q := pt pts b; let r := pt pts c
    (p.1 - r.1) * (q.2 - r.2) - (p.2 - r.2) * (q.1 - r.1)
  inc a b c d :=
    let p := pt pts a; let q := pt pts b; let r := pt pts c; let s := pt pts d
    let ax := p.1 - s.1; let ay := p.2 - s.2
    let bx := q.1 - s.1; let bY := q.2 - s.2
    let cx := r.1 - s.1; let cy := r.2 - s.2
    (ax * ax + ay * ay) * (bx * cy - bY * cx) + (bx * bx + bY * bY) * (cx * ay - cy * ax) + (cx * cx + cy * cy) * (ax * bY - ay * bx)

/-- The comparisons of coordinates as well. -/
def exactGeo (pts : List (Int × Int)) : Geo where
  toPreds := exactPreds pts
  xlt a b := decide ((pt pts a).1 < (pt pts b).1)
  ylt a b := decide ((pt pts a).2 < (pt pts b).2)

theorem exact_self (pts : List (Int × Int)) (a b : Nat) : (exactPreds pts).ccw a b a ≤ 0 := by
  simp [exactPreds]

def emptyMesh : Mesh := ⟨0, fun _ => none, fun _ => none, fun _ => none⟩

/-- Seven points: 0, 1, 2 on a line; 3, 4 above and below its first half; 5, 6 above and below its second half. -/
def pts7 : List (Int × Int) := [(0, 0), (10, 0), (20, 0), (5, 1), (5, -1), (15, 1), (15, -1)]

/-- The Delaunay triangulation of the seven points, as `div_conq_recurse` builds it. -/
def mesh7 : Mesh := ofTable [
  ([some 3, some 0, some 4], [(1, 0), (2, 0), (3, 0)]), ([none, some 4, some 0], [(0, 0), (3, 2), (10, 0)]), ([some 1, some 3, some 4], [(0, 1), (5, 1), (9, 2)]),
  ([none, some 0, some 3], [(0, 2), (11, 2), (1, 1)]), ([some 5, some 1, some 6], [(5, 0), (7, 1), (9, 0)]), ([some 4, some 6, some 1], [(4, 0), (2, 1), (10, 2)]),
  ([none, some 5, some 2], [(7, 0), (8, 1), (11, 1)]), ([some 6, some 2, some 5], [(6, 0), (4, 1), (8, 2)]), ([some 2, some 6, none], [(10, 1), (6, 1), (7, 2)]),
  ([some 3, some 1, some 5], [(4, 2), (11, 0), (2, 2)]), ([some 6, some 4, none], [(1, 2), (8, 0), (5, 2)]), ([none, some 3, some 5], [(9, 1), (6, 2), (3, 1)])]

def ghost7 (t : Nat) : Bool := [1, 3, 6, 8, 10, 11].contains t

def vmap7 : VMap := fun v => ([(0, 0), (5, 1), (7, 0), (2, 0), (0, 1), (7, 1), (5, 0)] : List (Nat × Fin 3))[v]?.map fun p => ⟨p.1, p.2⟩

/-- The table is what the divide and conquer returns. -/
example : (divConq (exactGeo pts7) 50 20 emptyMesh [0, 4, 3, 1, 6, 5, 2] false).map (fun r =>
    (r.1.n, allHE r.1 fun e => decide (r.1.vert e = mesh7.vert e ∧ r.1.nei e = mesh7.nei e ∧ r.1.mark e = none))) = some (12, true) := by decide +kernel

theorem good7 : Good mesh7 vmap7 := by
  refine good_of_test (by decide +kernel) (fun e e' h => ofTable_range h) (fun v e h => ?_)
  have hv : v < 7 := by
    unfold vmap7 at h
    obtain ⟨p, hp, _⟩ := Option.map_eq_some_iff.1 h
    simpa using (List.getElem?_eq_some_iff.1 hp).1
  have : ∀ v < 7, ∀ e, vmap7 v = some e → e.tri < mesh7.n ∧ org mesh7 e = some v := by
    intro v hv
    have key : ∀ v < 7, ∃ e, vmap7 v = some e ∧ e.tri < mesh7.n ∧ org mesh7 e = some v := by
      intro v hv
      have : v = 0 ∨ v = 1 ∨ v = 2 ∨ v = 3 ∨ v = 4 ∨ v = 5 ∨ v = 6 := by omega
      rcases this with rfl | rfl | rfl | rfl | rfl | rfl | rfl <;> exact ⟨_, rfl, by decide +kernel, by decide +kernel⟩
    obtain ⟨e, h1, h2, h3⟩ := key v hv
    intro e' h'
    rw [h1] at h'; cases h'; exact ⟨h2, h3⟩
  exact this v hv e h

/-- `flipG`-runs that end, so that the hypothesis of `c68_insert_partial` holds: the segment from 0 to 5 crosses two edges. -/
def ins7 (a b : Nat) : Option (Mesh × VMap) := insertSegment flipG (exactPreds pts7) ghost7 30 mesh7 vmap7 a b 0

/-- No other vertex lies on the line through 0 and 5. -/
theorem line7 : ∀ v, (exactPreds pts7).ccw 0 5 v = 0 ∨ (exactPreds pts7).ccw 5 0 v = 0 → v = 0 ∨ v = 5 := by
  intro v hv
  by_cases h : v < 7
  · have : v = 0 ∨ v = 1 ∨ v = 2 ∨ v = 3 ∨ v = 4 ∨ v = 5 ∨ v = 6 := by omega
    rcases this with rfl | rfl | rfl | rfl | rfl | rfl | rfl <;> revert hv <;> decide +kernel
  · have e : pt pts7 v = (-1000, -777) := by
      unfold pt
      rw [List.getD_eq_getElem?_getD, List.getElem?_eq_none (by simp [pts7]; omega)]; rfl
    exfalso
    revert hv
    simp only [exactPreds, e]
    decide +kernel

/-- The example for `c68_insert_partial`: the segment from 0 to 5 is not an edge of the mesh, and it is one with marks 0 and 1 afterwards. -/
example : (∃ m' f', ins7 0 5 = some (m', f') ∧ MarkedAs m' 0 5 0) ∧ ¬ ∃ e, e.tri < mesh7.n ∧ org mesh7 e = some 0 ∧ dest mesh7 e = some 5 := by
  refine ⟨?_, ?_⟩
  · have h : (ins7 0 5).isSome = true := by decide +kernel
    obtain ⟨⟨m', f'⟩, hr⟩ := Option.isSome_iff_exists.1 h
    exact ⟨m', f', hr, (c68_insert_partial _ (exact_self _) _ _ _ _ _ _ _ _ _ good7 hr).2.2.2.2 line7 (by decide)⟩
  · rintro ⟨e, h1, h2, h3⟩
    have h : allHE mesh7 (fun e => decide (¬ (org mesh7 e = some 0 ∧ dest mesh7 e = some 5))) = true := by decide +kernel
    have := allHE_spec h e h1
    simp only [decide_eq_true_eq] at this
    exact this ⟨h2, h3⟩

/-- C68 fails when a vertex lies on the segment: `constrained_edge` does not mark the part of the segment before a vertex it runs into (lines 1160-1164). After the
insertion of the segment from 0 to 2, which passes through vertex 1, no edge at vertex 0 is marked, though the edge from 0 to 1 exists. -/
theorem c68_refuted : ¬ ∀ (P : Preds) (_ : ∀ a b, P.ccw a b a ≤ 0) (g : Nat → Bool) (N : Nat) (m m' : Mesh) (f f' : VMap) (a b mk : Nat), Good m f →
    insertSegment flipG P g N m f a b mk = some (m', f') → Chain m' a b := by
  intro H
  have h : ((ins7 0 2).map fun r => allHE r.1 fun e => decide (r.1.mark e ≠ none → ¬ (org r.1 e = some 0 ∨ dest r.1 e = some 0))) = some true := by decide +kernel
  obtain ⟨⟨m', f'⟩, hr, ht⟩ := Option.map_eq_some_iff.1 h
  have := H _ (exact_self pts7) ghost7 30 mesh7 m' vmap7 f' 0 2 0 good7 hr
  have none0 : ∀ b, ¬ (Marked m' 0 b ∨ Marked m' b 0) := by
    rintro b (⟨e, e1, e2, e3, e4⟩ | ⟨e, e1, e2, e3, e4⟩)
    · have := allHE_spec ht e e1
      simp only [decide_eq_true_eq] at this
      exact this e4 (.inl e2)
    · have := allHE_spec ht e e1
      simp only [decide_eq_true_eq] at this
      exact this e4 (.inr e3)
  generalize ha : (0 : Nat) = a at this
  generalize hb : (2 : Nat) = b at this
  cases this with
  | refl => omega
  | step h1 _ => subst ha; exact none0 _ h1

/-- The consequence for `triangulate`: the polygon 0, 2, 5, 3 lies above the line, but three triangles below the line are kept. -/
theorem c68_triangulate_refuted : triangulate (exactGeo pts7) 60 [0, 4, 3, 1, 6, 5, 2] [(0, 2), (2, 5), (5, 3), (3, 0)] =
    some ([0, 4, 1, 3, 0, 1, 1, 6, 2, 4, 6, 1, 2, 5, 1, 3, 1, 5].map some) := by decide +kernel

/-- With the vertex 1 as a corner of the polygon, only the three triangles above the line are kept. -/
example : triangulate (exactGeo pts7) 60 [0, 4, 3, 1, 6, 5, 2] [(0, 1), (1, 2), (2, 5), (5, 3), (3, 0)] = some ([3, 0, 1, 2, 5, 1, 3, 1, 5].map some) := by decide +kernel

/-- Three points on a line and a segment: all triangles are ghosts, no vertex is in the vertex map, and `insert_segment` indexes with the invalid half edge.
This holds for every bound on the loops, so it is a panic and not a loop. -/
theorem c68_collinear_panics : (∀ N, triangulate (exactGeo [(0, 0), (1, 0), (2, 0)]) N [0, 1, 2] [(0, 1)] = none) ∧
    triangulate (exactGeo [(0, 0), (1, 0), (2, 0)]) 60 [0, 1, 2] [] = some [] := by
  refine ⟨fun N => ?_, by decide +kernel⟩
  match N with
  | 0 | 1 | 2 | 3 | 4 | 5 | 6 => decide +kernel
  | n + 7 => rfl

/-- The example for `c47_flip`: the edge between 4 and 3. -/
example : ∃ m' f', flip mesh7 vmap7 ⟨0, 1⟩ = some (m', f') ∧ Flipped mesh7 m' ⟨0, 1⟩ ⟨2, 0⟩ ∧ Ok m' ∧ (Twins mesh7 → Twins m') ∧ (VOk mesh7 vmap7 → VOk m' f') :=
  c47_flip mesh7 vmap7 ⟨0, 1⟩ ⟨2, 0⟩ good7.ok (by decide +kernel) (by decide +kernel) (by decide +kernel)

/-- The mesh with the polygon 0, 1, 2, 5, 3. -/
def poly7 : Option (Mesh × VMap) := skeletonFrom flipG (exactPreds pts7) ghost7 60 mesh7 vmap7 [(0, 1), (1, 2), (2, 5), (5, 3), (3, 0)] 0

/-- The example for `c68_skeleton_partial` and `c69_flood`: the mesh is consistent, the flood fill ends on it and keeps three triangles. -/
example : ∃ m f vis g', poly7 = some (m, f) ∧ Ok m ∧ Twins m ∧ flood m 60 ghost7 = some (vis, g') ∧ (List.range 12).filter (fun t => !g' t) = [2, 7, 9] := by
  have h : (poly7.bind fun r => (flood r.1 60 ghost7).map fun q => (List.range 12).filter fun t => !q.2 t) = some [2, 7, 9] := by decide +kernel
  obtain ⟨⟨m, f⟩, h1, h2⟩ := Option.bind_eq_some_iff.1 h
  obtain ⟨⟨vis, g'⟩, h3, h4⟩ := Option.map_eq_some_iff.1 h2
  obtain ⟨_, gd, _⟩ := c68_skeleton_partial _ (exact_self pts7) _ _ _ _ _ _ _ _ good7 h1
  exact ⟨m, f, vis, g', h1, gd.ok, gd.twins, h3, h4⟩

/-- The example for `c68_last_partial`: the segment from 0 to 5 as third one has mark 4. -/
example : ∃ m f e e', skeletonFrom flipG (exactPreds pts7) ghost7 60 mesh7 vmap7 ([(0, 3), (4, 0)] ++ [(0, 5)]) 0 = some (m, f) ∧ m.nei e = some e' ∧ org m e = some 0 ∧ dest m e = some 5 ∧ m.mark e = some 4 ∧
    m.mark e' = some 5 := by
  have h : (skeletonFrom flipG (exactPreds pts7) ghost7 60 mesh7 vmap7 ([(0, 3), (4, 0)] ++ [(0, 5)]) 0).isSome = true := by decide +kernel
  obtain ⟨⟨m, f⟩, hr⟩ := Option.isSome_iff_exists.1 h
  obtain ⟨e, e', q⟩ := c68_last_partial _ (exact_self pts7) _ _ _ _ _ _ _ _ _ _ good7 hr (by decide) line7
  exact ⟨m, f, e, e', hr, q⟩

/-- The example for `c68_scout`: from 0 in the direction of 5 the first crossed edge is found. -/
example : ((scout (exactPreds pts7) ghost7 30 30 mesh7 ⟨0, 0⟩ 5 0).map fun r => (r.2.1, r.2.2)) = some (⟨0, 0⟩, false) := by decide +kernel

end Verif.Tri
