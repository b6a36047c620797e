import Verif.Tri.Ghost
import Verif.Tri.HullsAll

/-!
From the list of points to the mesh in which `triangulate` (`src/triangle/triangle.rs`, lines 9-93) inserts the segments: C112 and C113 put together, and examples for both.
-/
namespace Verif.Tri

/-! ### From the points to a mesh for the segments -/

/-- No edge is marked. -/
def Unmarked (m : Mesh) : Prop := ∀ e, m.mark e = none

theorem eatLeft_mark {P : Preds} {ll lr : Nat} : ∀ (k : Nat) {m m' : Mesh} {l l' ne : HE} {u u' : Nat}, eatLeft P ll lr k m l ne u = some (m', l', u') → m'.mark = m.mark
  | 0, _, _, _, _, _, _, _, h => by simp [eatLeft] at h
  | k + 1, m, m', l, l', ne, u, u', h => by
    unfold eatLeft at h
    split at h
    · simp only [Option.some.injEq, Prod.mk.injEq] at h
      rw [h.1]
    · simp only [Option.bind_eq_bind, Option.bind_eq_some_iff] at h
      obtain ⟨_, _, _, _, _, _, h⟩ := h
      have e := eatLeft_mark k h
      exact e

theorem eatRight_mark {P : Preds} {ll lr : Nat} : ∀ (k : Nat) {m m' : Mesh} {l l' ne : HE} {u u' : Nat}, eatRight P ll lr k m l ne u = some (m', l', u') → m'.mark = m.mark
  | 0, _, _, _, _, _, _, _, h => by simp [eatRight] at h
  | k + 1, m, m', l, l', ne, u, u', h => by
    unfold eatRight at h
    split at h
    · simp only [Option.some.injEq, Prod.mk.injEq] at h
      rw [h.1]
    · simp only [Option.bind_eq_bind, Option.bind_eq_some_iff] at h
      obtain ⟨_, _, _, _, _, _, h⟩ := h
      have e := eatRight_mark k h
      exact e

theorem makeTri_mark {m : Mesh} (h : Unmarked m) : Unmarked (makeTri m).1 := fun e => by
  simp only [makeTri, h e, ite_self]

theorem knit_mark {P : Preds} {N : Nat} : ∀ (k : Nat) {s : Knit} {m' : Mesh}, Unmarked s.m → knit P N k s = some m' → Unmarked m'
  | 0, _, _, _, h => by simp [knit] at h
  | k + 1, s, m', u, h => by
    unfold knit at h
    extract_lets lf rf at h
    split at h
    · rw [← Option.some.inj h]
      exact makeTri_mark u
    · simp only [Option.bind_eq_bind, Option.bind_eq_some_iff] at h
      obtain ⟨s1, h1, s2, h2, s3, h3, h⟩ := h
      have e1 : s1.m.mark = s.m.mark := by
        unfold knitEatLeft at h1
        split at h1
        · rw [← Option.some.inj h1]
        · simp only [Option.bind_eq_bind, Option.bind_eq_some_iff, Option.pure_def, Option.some.injEq] at h1
          obtain ⟨_, _, ⟨_, _, _⟩, a2, rfl⟩ := h1
          exact eatLeft_mark N a2
      have e2 : s2.m.mark = s1.m.mark := by
        unfold knitEatRight at h2
        split at h2
        · rw [← Option.some.inj h2]
        · simp only [Option.bind_eq_bind, Option.bind_eq_some_iff, Option.pure_def, Option.some.injEq] at h2
          obtain ⟨_, _, ⟨_, _, _⟩, a2, rfl⟩ := h2
          exact eatRight_mark N a2
      have e3 : s3.m.mark = s2.m.mark := by
        unfold knitStep at h3
        split at h3
        all_goals
          simp only [Option.bind_eq_bind, Option.bind_eq_some_iff, Option.pure_def, Option.some.injEq] at h3
          obtain ⟨_, _, _, _, rfl⟩ := h3
          rfl
      exact knit_mark k (fun e => by rw [e3, e2, e1]; exact u e) h

theorem mergeHulls_mark {G : Geo} {N : Nat} {m m' : Mesh} {axis : Bool} {fl il ir fr fl' fr' : HE} (u : Unmarked m) (h : mergeHulls G N m axis fl il ir fr = some (m', fl', fr')) : Unmarked m' := by
  unfold mergeHulls at h
  simp only [Option.bind_eq_bind, Option.bind_eq_some_iff, Option.pure_def, Option.some.injEq, Prod.mk.injEq] at h
  obtain ⟨ild, h1, ila, h2, iro, h3, ira, h4, ⟨fl1, fr1, t1⟩, h5, t, h6, lc, h7, rc, h8, ul, h9, ur, h10, m2, h11, ⟨fl2, fr2⟩, h12, rfl, -⟩ := h
  exact knit_mark N (s := ⟨(knitBottom m t).1, (knitBottom m t).2, lc, rc, t.ild, t.iro, ul, ur⟩) (makeTri_mark u) h11

theorem divConq_mark {G : Geo} {N : Nat} : ∀ (k : Nat) {m m' : Mesh} {pts : List Nat} {axis : Bool} {fl fr : HE}, Unmarked m → divConq G N k m pts axis = some (m', fl, fr) → Unmarked m'
  | 0, _, _, _, _, _, _, _, h => by simp [divConq] at h
  | k + 1, m, m', pts, axis, fl, fr, u, h => by
    have u2 := makeTri_mark (makeTri_mark u)
    have u4 := makeTri_mark (makeTri_mark u2)
    by_cases h2 : pts.length = 2
    · obtain ⟨a, b, rfl⟩ := List.length_eq_two.1 h2
      simp only [divConq, Option.some.injEq] at h
      have : (base2 m a b).1 = m' := by rw [h]
      rw [← this]
      exact u2
    by_cases h3 : pts.length = 3
    · obtain ⟨a, b, c, rfl⟩ := List.length_eq_three.1 h3
      simp only [divConq] at h
      split at h
      · have : (base3flat m a b c).1 = m' := by rw [Option.some.inj h]
        rw [← this]
        exact u4
      · have : (base3 m a b c (decide (G.ccw a b c > 0))).1 = m' := by rw [Option.some.inj h]
        rw [← this]
        exact u4
    by_cases h1 : pts.length ≤ 1
    · rw [divConq_short _ _ _ _ h1] at h
      cases h
    rw [divConq_more k m pts axis (by omega)] at h
    simp only [Option.bind_eq_some_iff] at h
    obtain ⟨⟨m1, fl1, il⟩, e1, ⟨m2, ir, fr1⟩, e2, e3⟩ := h
    exact mergeHulls_mark (divConq_mark k (divConq_mark k u e1) e2) e3

/-- **C114, the mesh in which the segments are inserted.** For different points: if the handles stay at the ghost vertex (C112) and the ghost vertex has one fan, then `mark_ghost` and `make_vertex_map` return,
the mesh is closed with consistent marks and a correct vertex map (which is what the theorems about inserting segments start from), and exactly the given points that are corners of proper triangles are
in the map. Missing for the full statement: `hh` (as in C112) and `hf` for every run. -/
theorem c114_good_partial {G : Geo} (hP : Tame G.toPreds) {N k : Nat} {m : Mesh} {pts : List Nat} {fl fr : HE} (nd : pts.Nodup) (hh : Handles G N k emptyMesh pts false)
    (h : divConq G N k emptyMesh pts false = some (m, fl, fr)) (hf : OneFan m fl) (hN : 6 * pts.length ≤ N) :
    ∃ g f, markGhost m fl N fl (fun _ => false) = some g ∧ makeVMap m g = some f ∧ Good m f ∧ (∀ t, g t = true ↔ t < m.n ∧ ∃ e : HE, e.tri = t ∧ m.vert e = none) ∧
      ∀ v, f v ≠ none ↔ ∃ e : HE, e.tri < m.n ∧ g e.tri = false ∧ m.vert e = some v := by
  obtain ⟨P, hd, -⟩ := c112_recursion_partial hP k empty_ok nd hh h
  have hn : m.n + 2 = 2 * pts.length := by have := P.n; simp only [emptyMesh] at this; omega
  obtain ⟨g, g1, g2⟩ := c113_ghost_all P.ok P.left.2 hd hf (N := N) (by omega)
  obtain ⟨f, f1, f2, f3, f4⟩ := c113_vmap P.ok (g := g) fun e he hv => (g2 _).2 ⟨he, e, rfl, hv⟩
  have u : Unmarked m := divConq_mark k (m := emptyMesh) (fun _ => rfl) h
  exact ⟨g, f, g1, f1, ⟨P.ok, fun e e' _ => by rw [u e, u e']; rfl, f2⟩, g2, f4⟩

/-- **C114, the output without segments.** The corners of the triangles that are not marked are given points: the ghost vertex (`INVALID_IND` in the code) does not get into the output, and the output has
three entries for each triangle that is not a ghost: `2 n - 2 - h` triangles for `n` points and `h` ghost triangles. Missing for the full statement: `hh` (as in C112) and `hf` for every run. -/
theorem c114_output_partial {G : Geo} (hP : Tame G.toPreds) {N k : Nat} {m : Mesh} {pts : List Nat} {fl fr : HE} (nd : pts.Nodup) (hh : Handles G N k emptyMesh pts false)
    (h : divConq G N k emptyMesh pts false = some (m, fl, fr)) (hf : OneFan m fl) (hN : 6 * pts.length ≤ N) {g : Nat → Bool} (hg : markGhost m fl N fl (fun _ => false) = some g) :
    (∀ x ∈ output m g, ∃ v, v ∈ pts ∧ x = some v) ∧ (output m g).length = 3 * ((List.range m.n).filter fun t => !g t).length ∧
    (output m g).length + 3 * ((List.range m.n).filter fun t => g t).length + 6 = 6 * pts.length := by
  obtain ⟨P, -, -⟩ := c112_recursion_partial hP k empty_ok nd hh h
  obtain ⟨g', f, e1, -, -, e2, -⟩ := c114_good_partial hP nd hh h hf hN
  obtain rfl : g' = g := Option.some.inj (e1.symm.trans hg)
  have key : ∀ e : HE, e.tri < m.n → g' e.tri = false → ∃ v, v ∈ pts ∧ m.vert e = some v := fun e he hge => by
    cases hv : m.vert e with
    | none => rw [(e2 _).2 ⟨he, e, rfl, hv⟩] at hge; cases hge
    | some v =>
      rcases (P.corners (some v)).1 ⟨e, he, Nat.zero_le _, hv⟩ with c | ⟨p, hp, c⟩
      · cases c
      · exact ⟨p, hp, c⟩
  have hlen : (output m g').length = 3 * ((List.range m.n).filter fun t => !g' t).length := by
    simp only [output, List.length_flatMap, List.length_cons, List.length_nil]
    generalize (List.range m.n).filter _ = l
    induction l with
    | nil => rfl
    | cons t l ih => simp only [List.map_cons, List.sum_cons, ih, List.length_cons]; omega
  refine ⟨?_, hlen, ?_⟩
  · intro x hx
    simp only [output, List.mem_flatMap, List.mem_filter, List.mem_range, Bool.not_eq_true', List.mem_cons, List.not_mem_nil, or_false] at hx
    obtain ⟨t, ⟨ht, hgt⟩, rfl | rfl | rfl⟩ := hx
    · exact key ⟨t, 0⟩ ht hgt
    · exact key ⟨t, 1⟩ ht hgt
    · exact key ⟨t, 2⟩ ht hgt
  · have h1 : ((List.range m.n).filter fun t => !g' t).length + ((List.range m.n).filter fun t => g' t).length = m.n := by
      have := List.length_eq_length_filter_add (l := List.range m.n) g'
      rw [List.length_range] at this
      exact (Nat.add_comm _ _).trans this.symm
    have h2 : m.n + 2 = 2 * pts.length := by have := P.n; simp only [emptyMesh] at this; omega
    omega

/-! ### The example of seven points -/

/-- The half edge after `k` steps. -/
def spinN (m : Mesh) (e : HE) : Nat → Option HE
  | 0 => some e
  | k + 1 => (spinN m e k).bind fun a => m.nei a.next

theorem reach_of_spinN {m : Mesh} {e : HE} : ∀ {k : Nat} {a : HE}, spinN m e k = some a → Reach m e k a
  | 0, a, h => by rw [← Option.some.inj h]; exact .zero
  | k + 1, a, h => by
    obtain ⟨b, h1, h2⟩ := Option.bind_eq_some_iff.1 h
    exact .succ (reach_of_spinN h1) h2

theorem fan7 : OneFan mesh7 ⟨1, 1⟩ := fun e he hd => by
  have key : ∀ e ∈ corners 12, dest mesh7 e = none → ∃ k, k < 7 ∧ spinN mesh7 ⟨1, 1⟩ k = some e := by decide +kernel
  obtain ⟨k, -, hk⟩ := key e (mem_corners.2 he) hd
  exact ⟨k, reach_of_spinN hk⟩

/-- The triangulation of seven points: six of the twelve triangles are ghosts. -/
example : ∃ g f, markGhost mesh7 ⟨1, 1⟩ 36 ⟨1, 1⟩ (fun _ => false) = some g ∧ makeVMap mesh7 g = some f ∧ VOk mesh7 f ∧ (List.range 12).filter g = [1, 3, 6, 8, 10, 11] := by
  obtain ⟨g, h1, h2⟩ := c113_ghost_all good7.ok (start := ⟨1, 1⟩) (by decide) (by decide +kernel) fan7 (N := 36) (by decide)
  obtain ⟨f, f1, f2, -⟩ := c113_vmap good7.ok (g := g) fun e he hv => (h2 _).2 ⟨he, e, rfl, hv⟩
  refine ⟨g, f, h1, f1, f2, ?_⟩
  have key : (markGhost mesh7 ⟨1, 1⟩ 36 ⟨1, 1⟩ (fun _ => false)).map (fun g => (List.range 12).filter g) = some [1, 3, 6, 8, 10, 11] := by decide +kernel
  rw [h1] at key
  exact Option.some.inj key

/-- The boolean test for `OneFan`. -/
def oneFanAt (x : Option (Mesh × HE × HE)) : Bool := match x with
  | none => false
  | some (m, fl, _) => decide (∀ e ∈ corners m.n, dest m e = none → ∃ k, k < m.n ∧ spinN m fl k = some e)

theorem oneFan_of {x : Option (Mesh × HE × HE)} (h : oneFanAt x = true) {m : Mesh} {fl fr : HE} (hx : x = some (m, fl, fr)) : OneFan m fl := fun e he hd => by
  subst hx
  obtain ⟨k, -, hk⟩ := of_decide_eq_true h e (mem_corners.2 he) hd
  exact ⟨k, reach_of_spinN hk⟩

/-- The hypotheses of `c114_good_partial` and `c114_output_partial` hold for the seven points. -/
example : ∃ m fl fr g f, divConq (exactGeo pts7) 50 20 emptyMesh [0, 4, 3, 1, 6, 5, 2] false = some (m, fl, fr) ∧ markGhost m fl 50 fl (fun _ => false) = some g ∧ makeVMap m g = some f ∧ Good m f ∧
    ∀ x ∈ output m g, ∃ v, v ∈ [0, 4, 3, 1, 6, 5, 2] ∧ x = some v := by
  obtain ⟨⟨m, fl, fr⟩, h⟩ := Option.isSome_iff_exists.1 (show (divConq (exactGeo pts7) 50 20 emptyMesh [0, 4, 3, 1, 6, 5, 2] false).isSome = true by decide +kernel)
  have hf := oneFan_of (show oneFanAt (divConq (exactGeo pts7) 50 20 emptyMesh [0, 4, 3, 1, 6, 5, 2] false) = true by decide +kernel) h
  obtain ⟨g, f, h1, h2, h3, -⟩ := c114_good_partial (exact_tame pts7) (by decide) handles7 h hf (by decide)
  exact ⟨m, fl, fr, g, f, h, h1, h2, h3, (c114_output_partial (exact_tame pts7) (by decide) handles7 h hf (by decide) h1).1⟩
end Verif.Tri
