import Verif.Surface.NewSpec
import Verif.Surface.SplitEdgeSpec
import Verif.Surface.Nei
/-!
# Properties of surface meshes
-/
namespace Verif.Surface

/-- Three triangles on the edge of the vertices 1 and 2. -/
def book : List (List Nat) := [[0, 1, 2], [2, 1, 3], [1, 2, 4]]

/-- A polygon of one corner, a repeated polygon, a polygon with a repeated vertex, and the unused index 4. -/
def odd : List (List Nat) := [[0], [1, 2, 3], [1, 2, 3], [5, 2, 5, 3]]

/-! ### C05 -/

/-- **C05.** `new` succeeds; face `f` is polygon `f`: it has as many halfedges, each reports face `f`, and the tails of these are the vertices of the
polygon in order. The counters are the number of polygons, of corners, and the largest index + 1. -/
theorem c05_new {order : List Nat → List Nat} (ho : ∀ l, (order l).Perm l) {ps : List (List Nat)} (h1 : ps ≠ []) (h2 : ∀ p ∈ ps, p ≠ []) :
    ∃ m, new order ps = some m ∧ m.nF = ps.length ∧ m.nH = (ps.map List.length).sum ∧
      (∃ M, m.nV = M + 1 ∧ (∃ p ∈ ps, M ∈ p) ∧ ∀ p ∈ ps, ∀ v ∈ p, v ≤ M) ∧
      ∀ f (hf : f < ps.length), faceVertices m f = some ps[f] ∧
        ∃ hs, faceHalfedges m f = some hs ∧ hs.length = ps[f].length ∧ hs.Nodup ∧ ∀ h, h ∈ hs ↔ get m.heFace h = some f := by
  obtain ⟨m, q1, q2, q3, q4, ⟨M, q5, q6, q7⟩, q8, -, -⟩ := new_spec ho h1 h2
  refine ⟨m, q1, q3, by rw [q4, List.length_flatten], ⟨M, q5, ?_, fun p hp v hv => q7 v (List.mem_flatten.2 ⟨p, hp, hv⟩)⟩, fun f hf => ?_⟩
  · obtain ⟨p, hp, hv⟩ := List.mem_flatten.1 q6
    exact ⟨p, hp, hv⟩
  · have e : ps = ps.take f ++ ps[f] :: ps.drop (f + 1) := by rw [← List.drop_eq_getElem_cons hf, List.take_append_drop]
    obtain ⟨r1, r2⟩ := q8 _ _ _ e
    rw [List.length_take, Nat.min_eq_left (by omega)] at r1 r2
    obtain ⟨h, t, s1, -, -, s4, s5⟩ := q2.faceHalfedges (f := f) (by omega)
    refine ⟨r2, h :: t, s1, ?_, s4, s5⟩
    rw [r1] at s1
    rw [← Option.some.inj s1, List.length_range']

example : ((new id book).bind fun m => faceVertices m 1) = some [2, 1, 3] := by decide +kernel
example : ((new List.reverse odd).map fun m => (m.nV, m.nH, m.nF, m.nE)) = some (6, 11, 4, 6) := by decide +kernel
example : ((new id odd).bind fun m => faceVertices m 3) = some [5, 2, 5, 3] := by decide +kernel

/-! ### C06 -/

/-- **C06.** Two halfedges report the same edge iff they join the same unordered pair of vertices; the edges are `0..n_edges` and every one is in use;
`edge(e).halfedges()` returns each halfedge of `e` once, the first being `e_halfedge(e)`. -/
theorem c06_edges {order : List Nat → List Nat} (ho : ∀ l, (order l).Perm l) {ps : List (List Nat)} (h1 : ps ≠ []) (h2 : ∀ p ∈ ps, p ≠ []) :
    ∃ m, new order ps = some m ∧
      (∀ h < m.nH, ∀ h' < m.nH, ∃ u t u' t', get m.heVertex h = some u ∧ tip m h = some t ∧ get m.heVertex h' = some u' ∧ tip m h' = some t' ∧
        (get m.heEdge h = get m.heEdge h' ↔ (u = u' ∧ t = t') ∨ (u = t' ∧ t = u'))) ∧
      (∀ h < m.nH, ∃ e < m.nE, get m.heEdge h = some e) ∧
      (∀ e < m.nE, ∃ h t, edgeHalfedges m e = some (h :: t) ∧ get m.eHe e = some h ∧ (h :: t).Nodup ∧ ∀ x, x ∈ h :: t ↔ get m.heEdge x = some e) ∧
      (∀ h e, get m.heEdge h = some e → ∃ t, ringIter m.sib h = some (h :: t) ∧ (h :: t).Nodup ∧ ∀ x, x ∈ h :: t ↔ get m.heEdge x = some e) := by
  obtain ⟨m, q1, q2, q3, q4, -, -, q8, -⟩ := new_spec ho h1 h2
  refine ⟨m, q1, fun h hh h' hh' => ?_, q2.hasE, fun e he => ?_, fun h e he => ?_⟩
  · obtain ⟨u, -, u1⟩ := q2.hasV h hh
    obtain ⟨t, t1, -⟩ := q2.tip hh
    obtain ⟨u', -, u1'⟩ := q2.hasV h' hh'
    obtain ⟨t', t1', -⟩ := q2.tip hh'
    refine ⟨u, t, u', t', u1, t1, u1', t1', ?_⟩
    rw [q8 h' hh' h hh, SameEnds, u1, t1, u1', t1']
    simp only [Option.some.injEq]
  · obtain ⟨h, t, a1, a2, a3, a4, a5⟩ := q2.edgeHalfedges he
    exact ⟨h, t, a1, a2, a4, a5⟩
  · obtain ⟨t, a1, -, a3, a4⟩ := (q2.edges h e he).iter
    exact ⟨t, a1, a3, a4⟩

example : ((new id book).bind fun m => edgeHalfedges m 1) = some [1, 6, 3] := by decide +kernel
example : ((new id odd).bind fun m => edgeHalfedges m 0) = some [0] := by decide +kernel
example : ((new id odd).bind fun m => edgeHalfedges m 4) = some [7, 8] := by decide +kernel

/-! ### C07 -/

/-- **C07.** The outgoing halfedges of a vertex are exactly the halfedges with this tail, each once; the incoming ones those with this tip. -/
theorem c07_rings {m : Mesh} (v : Valid m) {u h : Nat} (hu : get m.heVertex h = some u) :
    (∃ l, outgoing m u = some l ∧ l.Nodup ∧ ∀ x, x ∈ l ↔ get m.heVertex x = some u) ∧
    (∃ l, incoming m u = some l ∧ l.Nodup ∧ ∀ x, x ∈ l ↔ tip m x = some u) := by
  refine ⟨?_, ?_⟩
  · obtain ⟨l, a⟩ := v.outgoing hu
    exact ⟨l, a.1, a.2.1, a.2.2.2⟩
  · obtain ⟨l, a⟩ := v.incoming hu
    exact ⟨l, a.1, a.2.1, a.2.2.2⟩

/-- **C07** for the mesh of `new`: every vertex of a polygon. -/
theorem c07_new {order : List Nat → List Nat} (ho : ∀ l, (order l).Perm l) {ps : List (List Nat)} (h1 : ps ≠ []) (h2 : ∀ p ∈ ps, p ≠ []) :
    ∃ m, new order ps = some m ∧ ∀ p ∈ ps, ∀ u ∈ p,
      (∃ l, outgoing m u = some l ∧ l ≠ [] ∧ l.Nodup ∧ ∀ x, x ∈ l ↔ get m.heVertex x = some u) ∧
      (∃ l, incoming m u = some l ∧ l ≠ [] ∧ l.Nodup ∧ ∀ x, x ∈ l ↔ tip m x = some u) := by
  obtain ⟨m, q1, q2, q3, q4, -, -, -, q9⟩ := new_spec ho h1 h2
  refine ⟨m, q1, fun p hp u hu => ?_⟩
  obtain ⟨h, hh⟩ := List.mem_iff_getElem?.1 (List.mem_flatten.2 ⟨p, hp, hu⟩)
  rw [← q9] at hh
  refine ⟨?_, ?_⟩
  · obtain ⟨l, a⟩ := q2.outgoing hh
    exact ⟨l, a.1, a.2.2.1, a.2.1, a.2.2.2⟩
  · obtain ⟨l, a⟩ := q2.incoming hh
    exact ⟨l, a.1, a.2.2.1, a.2.1, a.2.2.2⟩

example : ((new id book).bind fun m => outgoing m 1) = some [6, 1, 4] := by decide +kernel
example : ((new id book).bind fun m => incoming m 1) = some [8, 0, 3] := by decide +kernel

/-! ### C08 -/

/-- **C08.** `split_edge` on an edge that is not a loop: in every face each passage over the edge gets the new vertex in the middle, and nothing else
changes; the mesh stays valid. -/
theorem c08_split_edge {m : Mesh} (v : Valid m) {e : Nat} (he : e < m.nE) (hloop : ∀ h, get m.heEdge h = some e → get m.heVertex h ≠ tip m h) :
    ∃ es m', edgeHalfedges m e = some es ∧ splitEdge m e = some (m.nV, m') ∧ Valid m' ∧ m'.nV = m.nV + 1 ∧ m'.nE = m.nE + 1 ∧ m'.nF = m.nF ∧
      m'.nH = m.nH + es.length ∧
      (∀ f < m.nF, ∃ hs vs, faceHalfedges m f = some hs ∧ faceVertices m f = some vs ∧
        faceVertices m' f = some ((hs.zip vs).flatMap fun w => if get m.heEdge w.1 = some e then [w.2, m.nV] else [w.2])) ∧
      (∀ h < m.nH, get m.heEdge h ≠ some e → get m'.heEdge h = get m.heEdge h) := splitEdge_spec v he hloop

example : ((new id book).bind fun m => (splitEdge m 1).bind fun r => (List.range 3).mapM (faceVertices r.2)) =
    some [[0, 1, 5, 2], [2, 5, 1, 3], [1, 5, 2, 4]] := by decide +kernel

/-- A loop cannot be split: afterwards edge 0 refers to halfedge 0, which reports edge 2. -/
theorem c08_loop_refuted : ∃ m w m', new id [[0, 0, 1]] = some m ∧ splitEdge m 0 = some (w, m') ∧ get m'.eHe 0 = some 0 ∧ get m'.heEdge 0 = some 2 := by
  refine ⟨_, _, _, rfl, rfl, ?_⟩
  decide +kernel

/-! ### C09 -/

theorem mapM_append_inv {α β : Type} {f : α → Option β} : ∀ {l : List α} {xs ys : List β}, l.mapM f = some (xs ++ ys) →
    ∃ a b, l = a ++ b ∧ a.mapM f = some xs ∧ b.mapM f = some ys := by
  intro l
  induction l with
  | nil =>
    intro xs ys h
    have h : [] = xs ++ ys := Option.some.inj h
    obtain ⟨rfl, rfl⟩ := List.append_eq_nil_iff.1 h.symm
    exact ⟨[], [], rfl, rfl, rfl⟩
  | cons x l ih =>
    intro xs ys h
    cases xs with
    | nil => exact ⟨[], x :: l, rfl, rfl, h⟩
    | cons u xs =>
      rw [List.mapM_cons] at h
      cases hx : f x with
      | none => rw [hx] at h; cases h
      | some u' =>
        rw [hx] at h
        cases hl : l.mapM f with
        | none => simp only [hl] at h; cases h
        | some us =>
          simp only [hl] at h
          have h : u' :: us = u :: xs ++ ys := Option.some.inj h
          rw [List.cons_append, List.cons.injEq] at h
          obtain ⟨rfl, rfl⟩ := h
          obtain ⟨a, b, rfl, h2, h3⟩ := ih hl
          refine ⟨x :: a, b, rfl, ?_, h3⟩
          rw [List.mapM_cons]
          exact (bind_of hx).trans ((bind_of h2).trans rfl)

theorem mapM_mem {α β : Type} {f : α → Option β} : ∀ {l : List α} {ys : List β}, l.mapM f = some ys → ∀ x ∈ l, ∃ y ∈ ys, f x = some y := by
  intro l
  induction l with
  | nil => intro ys _ x hx; simp at hx
  | cons a l ih =>
    intro ys h x hx
    obtain ⟨p, q, h1, h2, h3⟩ := mapM_append_inv (l := a :: l) (f := f) (xs := []) (ys := ys) h
    rw [List.mapM_cons] at h
    cases ha : f a with
    | none => rw [ha] at h; cases h
    | some u =>
      rw [ha] at h
      cases hl : l.mapM f with
      | none => simp only [hl] at h; cases h
      | some us =>
        simp only [hl] at h
        have h : u :: us = ys := Option.some.inj h
        subst h
        rcases List.mem_cons.1 hx with rfl | hx
        · exact ⟨u, by simp, ha⟩
        · obtain ⟨y, y1, y2⟩ := ih hl x hx
          exact ⟨y, by simp [y1], y2⟩

/-- **C09.** `split_face` cuts the boundary at its first two passages through `va` or `vb`. The part from the one to the other stays with `f`, the rest
goes to the new face; both are closed by the two halfedges of one new edge; the other faces do not change. The result is the halfedge in the new
face, which runs from the vertex met first to the other one. -/
theorem c09_split_face {m : Mesh} (v : Valid m) {f va vb u1 u2 : Nat} {P Q R : List Nat} (hf : f < m.nF)
    (hfv : faceVertices m f = some (P ++ u1 :: (Q ++ u2 :: R))) (hu : (u1 = va ∧ u2 = vb) ∨ (u1 = vb ∧ u2 = va))
    (hP : va ∉ P ∧ vb ∉ P) (hQ : va ∉ Q ∧ vb ∉ Q) :
    ∃ h m', splitFace m f va vb = some (h, m') ∧ Valid m' ∧ m'.nV = m.nV ∧ m'.nE = m.nE + 1 ∧ m'.nF = m.nF + 1 ∧ m'.nH = m.nH + 2 ∧
      faceVertices m' f = some (u2 :: u1 :: Q) ∧ faceVertices m' m.nF = some (u1 :: u2 :: (R ++ P)) ∧
      (∀ g < m.nF, g ≠ f → faceVertices m' g = faceVertices m g ∧ faceHalfedges m' g = faceHalfedges m g) ∧
      get m'.fHe m.nF = some h ∧ get m'.heVertex h = some u1 ∧ tip m' h = some u2 ∧
      (∃ h', h' ≠ h ∧ get m'.fHe f = some h' ∧ ∀ x, get m'.heEdge x = some m.nE ↔ x = h ∨ x = h') ∧
      (∀ x < m.nH, get m'.heVertex x = get m.heVertex x ∧ get m'.heEdge x = get m.heEdge x) := by
  obtain ⟨h0, t0, e1, e2, e3, e4, e5⟩ := v.faceHalfedges hf
  rw [faceVertices] at hfv
  rw [bind_of e1] at hfv
  obtain ⟨A, r, hA, a1, a2⟩ := mapM_append_inv hfv
  obtain ⟨q, r', hq, b1, b2⟩ := mapM_append_inv (xs := [u1]) (ys := Q ++ u2 :: R) a2
  obtain ⟨B, r'', hB, b3, b4⟩ := mapM_append_inv b2
  obtain ⟨q', C, hC, b5, b6⟩ := mapM_append_inv (xs := [u2]) (ys := R) b4
  have single : ∀ {l : List Nat} {u : Nat}, l.mapM (get m.heVertex) = some [u] → ∃ h, l = [h] ∧ get m.heVertex h = some u := by
    intro l u hl
    cases l with
    | nil => cases hl
    | cons x l =>
      rw [List.mapM_cons] at hl
      cases hx : get m.heVertex x with
      | none => rw [hx] at hl; cases hl
      | some w =>
        rw [hx] at hl
        cases hl' : l.mapM (get m.heVertex) with
        | none => simp only [hl'] at hl; cases hl
        | some us =>
          simp only [hl'] at hl
          have hl : w :: us = [u] := Option.some.inj hl
          rw [List.cons.injEq] at hl
          obtain ⟨rfl, rfl⟩ := hl
          cases l with
          | nil => exact ⟨x, rfl, hx⟩
          | cons y l =>
            exfalso
            obtain ⟨z, z1, -⟩ := mapM_mem hl' y (by simp)
            simp at z1
  obtain ⟨h1, rfl, g1⟩ := single b1
  obtain ⟨h2, rfl, g2⟩ := single b5
  have hfh : faceHalfedges m f = some (A ++ h1 :: (B ++ h2 :: C)) := by
    rw [e1, hA, hq, hB, hC]; simp
  have free : ∀ {l xs : List Nat}, l.mapM (get m.heVertex) = some xs → va ∉ xs ∧ vb ∉ xs → ∀ x ∈ l, ∃ w, get m.heVertex x = some w ∧ w ≠ va ∧ w ≠ vb := by
    intro l xs hl hx x hxl
    obtain ⟨w, w1, w2⟩ := mapM_mem hl x hxl
    exact ⟨w, w2, fun e => hx.1 (e ▸ w1), fun e => hx.2 (e ▸ w1)⟩
  obtain ⟨m', k1, k2, k3, k4, k5, k6, k7, k8, k9, k10, k11, k12, k13, k14⟩ := splitFace_spec v hf hfh g1 g2 hu (free a1 hP) (free b3 hQ)
  have old : ∀ {l : List Nat} {xs : List Nat}, l.mapM (get m.heVertex) = some xs → l.mapM (get m'.heVertex) = some xs := by
    intro l xs hl
    rw [← hl]
    refine mapM_congr fun x hx => (k13 x ?_).1
    obtain ⟨w, -, w2⟩ := mapM_mem hl x hx
    have := get_lt w2
    rwa [v.sVertex] at this
  have app : ∀ {l r xs ys : List Nat}, l.mapM (get m'.heVertex) = some xs → r.mapM (get m'.heVertex) = some ys →
      (l ++ r).mapM (get m'.heVertex) = some (xs ++ ys) := by
    intro l r xs ys h1 h2
    rw [List.mapM_append]
    exact (bind_of h1).trans ((bind_of h2).trans rfl)
  have v1 : faceVertices m' f = some (u2 :: u1 :: Q) := by
    rw [faceVertices]
    refine (bind_of k7).trans ?_
    exact app (l := [m.nH]) (xs := [u2]) (by rw [List.mapM_cons]; exact (bind_of k9).trans rfl)
      (app (l := [h1]) (xs := [u1]) (old b1) (old b3))
  have v2 : faceVertices m' m.nF = some (u1 :: u2 :: (R ++ P)) := by
    rw [faceVertices]
    refine (bind_of k8).trans ?_
    exact app (l := [m.nH + 1]) (xs := [u1]) (by rw [List.mapM_cons]; exact (bind_of k10).trans rfl)
      (app (l := [h2]) (xs := [u2]) (old b5) (app (old b6) (old a1)))
  obtain ⟨x0, xt, x1, x2, x3, -, -⟩ := k2.faceHalfedges (f := m.nF) (by omega)
  rw [k8] at x1
  have x1 := Option.some.inj x1
  rw [List.cons.injEq] at x1
  obtain ⟨rfl, rfl⟩ := x1
  obtain ⟨y0, yt, y1, y2, y3, -, -⟩ := k2.faceHalfedges (f := f) (by omega)
  rw [k7] at y1
  have y1 := Option.some.inj y1
  rw [List.cons.injEq] at y1
  obtain ⟨rfl, rfl⟩ := y1
  refine ⟨m.nH + 1, m', k1, k2, k3, k4, k5, k6, v1, v2, fun g hg hgf => ?_, x2, k10, ?_, ⟨m.nH, by omega, y2, fun x => ?_⟩,
    fun x hx => ⟨(k13 x hx).1, (k13 x hx).2.1⟩⟩
  · have := face_same (m' := m') v hg (k14 g hg hgf)
      (fun x hx => ((k13 x (by have := get_lt hx; rwa [v.sFace] at this)).2.2 (by rw [hx, ne_eq, Option.some.injEq]; exact hgf)).1)
      (fun x hx => (k13 x (by have := get_lt hx; rwa [v.sFace] at this)).1)
    exact ⟨this.2, this.1⟩
  · rw [tip_some]
    refine ⟨h2, x3.1, ?_⟩
    have hlt := get_lt g2
    rw [v.sVertex] at hlt
    rw [(k13 h2 hlt).1, g2]
  · constructor
    · intro hx
      have hlt := get_lt hx
      rw [k2.sEdge, k6] at hlt
      by_contra hc
      have hlt' : x < m.nH := by omega
      rw [(k13 x hlt').2.1] at hx
      obtain ⟨e', q1, q2⟩ := v.hasE x hlt'
      rw [hx] at q2; cases q2; omega
    · rintro (rfl | rfl)
      · exact k12
      · exact k11

/-- **C09**: two distinct vertices that occur once on the face. -/
theorem c09_split_face_once {m : Mesh} (v : Valid m) {f va vb : Nat} {vs : List Nat} (hf : f < m.nF) (hfv : faceVertices m f = some vs) (hne : va ≠ vb)
    (ha : vs.count va = 1) (hb : vs.count vb = 1) :
    ∃ u1 u2 P Q R h m', vs = P ++ u1 :: (Q ++ u2 :: R) ∧ ((u1 = va ∧ u2 = vb) ∨ (u1 = vb ∧ u2 = va)) ∧ splitFace m f va vb = some (h, m') ∧ Valid m' ∧
      m'.nF = m.nF + 1 ∧ faceVertices m' f = some (u2 :: u1 :: Q) ∧ faceVertices m' m.nF = some (u1 :: u2 :: (R ++ P)) ∧
      ∀ g < m.nF, g ≠ f → faceVertices m' g = faceVertices m g := by
  have dec : ∃ u1 u2 P Q R, vs = P ++ u1 :: (Q ++ u2 :: R) ∧ ((u1 = va ∧ u2 = vb) ∨ (u1 = vb ∧ u2 = va)) ∧ (va ∉ P ∧ vb ∉ P) ∧ (va ∉ Q ∧ vb ∉ Q) := by
    obtain ⟨X, Y, rfl⟩ := List.append_of_mem (List.count_pos_iff.1 (by omega : 0 < vs.count va))
    rw [List.count_append, List.count_cons_self] at ha
    have aX : va ∉ X := fun h => by have := List.count_pos_iff.2 h; omega
    have aY : va ∉ Y := fun h => by have := List.count_pos_iff.2 h; omega
    rw [List.count_append, List.count_cons_of_ne hne] at hb
    by_cases hX : vb ∈ X
    · obtain ⟨X1, X2, rfl⟩ := List.append_of_mem hX
      rw [List.count_append, List.count_cons_self] at hb
      refine ⟨vb, va, X1, X2, Y, by simp, Or.inr ⟨rfl, rfl⟩, ⟨fun h => aX (by simp [h]), fun h => ?_⟩, ⟨fun h => aX (by simp [h]), fun h => ?_⟩⟩
      · have := List.count_pos_iff.2 h; omega
      · have := List.count_pos_iff.2 h; omega
    · have hY : vb ∈ Y := by
        have := List.count_eq_zero.2 hX
        exact List.count_pos_iff.1 (by omega)
      obtain ⟨Y1, Y2, rfl⟩ := List.append_of_mem hY
      rw [List.count_append, List.count_cons_self] at hb
      refine ⟨va, vb, X, Y1, Y2, rfl, Or.inl ⟨rfl, rfl⟩, ⟨aX, hX⟩, ⟨fun h => aY (by simp [h]), fun h => ?_⟩⟩
      have := List.count_pos_iff.2 h; omega
  obtain ⟨u1, u2, P, Q, R, d1, d2, d3, d4⟩ := dec
  rw [d1] at hfv
  obtain ⟨h, m', k1, k2, -, -, k5, -, k7, k8, k9, -⟩ := c09_split_face v hf hfv d2 d3 d4
  exact ⟨u1, u2, P, Q, R, h, m', d1, d2, k1, k2, k5, k7, k8, fun g hg hgf => (k9 g hg hgf).1⟩

example : ((new id [[0, 1, 2, 3, 4], [4, 3, 2]]).bind fun m => (splitFace m 0 3 1).bind fun r => (List.range 3).mapM (faceVertices r.2)) =
    some [[3, 1, 2], [4, 3, 2], [1, 3, 4, 0]] := by decide +kernel

/-! ### C10 -/

/-- **C10.** `add_face_by_halfedges` on a closed chain of halfedges: one new face over the same vertices and edges, no new vertex or edge, the other faces
do not change, the mesh stays valid. -/
theorem c10_add_face {m : Mesh} (v : Valid m) {hs : List Nat} (hne : hs ≠ []) (hlt : ∀ h ∈ hs, h < m.nH) (hc : Closed m hs) :
    ∃ m' vs, addFace m hs = some (m.nF, m') ∧ Valid m' ∧ m'.nV = m.nV ∧ m'.nE = m.nE ∧ m'.nF = m.nF + 1 ∧ m'.nH = m.nH + hs.length ∧
      hs.mapM (get m.heVertex) = some vs ∧ faceVertices m' m.nF = some vs ∧
      (∃ ns, faceHalfedges m' m.nF = some ns ∧ ns.mapM (get m'.heEdge) = hs.mapM (get m.heEdge)) ∧
      (∀ f < m.nF, faceVertices m' f = faceVertices m f ∧ faceHalfedges m' f = faceHalfedges m f) ∧
      (∀ h < m.nH, get m'.heVertex h = get m.heVertex h ∧ get m'.heEdge h = get m.heEdge h) := by
  obtain ⟨m', k1, k2, k3, k4, k5, k6, k7, k8, k9, k10⟩ := addFace_spec v hne hlt hc
  obtain ⟨vs, w1, w2, w3⟩ := mapM_total (f := get m.heVertex) (l := hs) (fun x hx => by
    obtain ⟨u, -, hu⟩ := v.hasV x (hlt x hx)
    exact ⟨u, hu⟩)
  have same : ∀ {f g : Nat → Option Nat} (l : List Nat) (s : Nat), (∀ i (hi : i < l.length), g (s + i) = f l[i]) →
      (List.range' s l.length).mapM g = l.mapM f := by
    intro f g l
    induction l with
    | nil => intro s _; rfl
    | cons x l ih =>
      intro s h
      rw [List.length_cons, List.range'_succ, List.mapM_cons, List.mapM_cons, ih (s + 1) (fun i hi => by
        have := h (i + 1) (by simp; omega)
        rw [show s + 1 + i = s + (i + 1) by omega, this]; simp), show g s = f x from h 0 (by simp)]
  refine ⟨m', vs, k1, k2, k3, k4, k5, k6, w1, ?_, ⟨_, k7, same hs m.nH fun i hi => (k8 i hi).2⟩, fun f hf => ?_, fun h hh => ⟨(k9 h hh).1, (k9 h hh).2.1⟩⟩
  · rw [faceVertices]
    refine (bind_of k7).trans ?_
    rw [same hs m.nH fun i hi => (k8 i hi).1, w1]
  · have := face_same (m' := m') v hf (k10 f hf) (fun x hx => (k9 x (by have := get_lt hx; rwa [v.sFace] at this)).2.2.1)
      (fun x hx => (k9 x (by have := get_lt hx; rwa [v.sFace] at this)).1)
    exact ⟨this.2, this.1⟩

/-- A closed chain over two faces of a tetrahedron. -/
example : ∃ m, new id [[0, 1, 2], [0, 2, 3], [0, 3, 1], [1, 3, 2]] = some m ∧ Closed m [0, 1, 4, 5] := by
  refine ⟨_, rfl, ?_⟩
  unfold Closed
  decide +kernel
example : ((new id [[0, 1, 2], [0, 2, 3], [0, 3, 1], [1, 3, 2]]).bind fun m => (addFace m [0, 1, 4, 5]).bind fun r => (List.range 5).mapM (faceVertices r.2)) =
    some [[0, 1, 2], [0, 2, 3], [0, 3, 1], [1, 3, 2], [0, 1, 2, 3]] := by decide +kernel

/-! ### C11 -/

/-- The iterators return each valid element once, in order. -/
theorem c11_iterators (a : Ids) : (elements a).Nodup ∧ ∀ i, i ∈ elements a ↔ ∃ x, get a i = some x := by
  rw [elements_eq]
  refine ⟨List.Nodup.filter _ List.nodup_range, fun i => ?_⟩
  rw [List.mem_filter, List.mem_range, Option.isSome_iff_exists]
  exact ⟨And.right, fun ⟨x, hx⟩ => ⟨get_lt hx, x, hx⟩⟩

/-- **C11**, what is true: on a valid mesh the iterators over halfedges, edges and faces return as many elements as the counters say; `vertices()` returns
exactly the vertices with a halfedge, so it agrees with `n_vertices()` when every index is used. -/
theorem c11_counts_partial {m : Mesh} (v : Valid m) :
    elements m.heVertex = List.range m.nH ∧ elements m.eHe = List.range m.nE ∧ elements m.fHe = List.range m.nF ∧
    (∀ u, u ∈ elements m.vHe ↔ ∃ h, get m.heVertex h = some u) ∧ ((∀ u < m.nV, ∃ h, get m.heVertex h = some u) → (elements m.vHe).length = m.nV) := by
  refine ⟨?_, ?_, ?_, fun u => ?_, fun h => ?_⟩
  · rw [elements_all, v.sVertex]
    intro i hi
    rw [v.sVertex] at hi
    obtain ⟨u, -, hu⟩ := v.hasV i hi
    exact ⟨u, hu⟩
  · rw [elements_all, v.sE]
    intro i hi
    rw [v.sE] at hi
    obtain ⟨u, hu, -⟩ := v.ehe i hi
    exact ⟨u, hu⟩
  · rw [elements_all, v.sF]
    intro i hi
    rw [v.sF] at hi
    obtain ⟨u, hu, -⟩ := v.fhe i hi
    exact ⟨u, hu⟩
  · rw [(c11_iterators m.vHe).2]
    exact ⟨fun ⟨x, hx⟩ => ⟨x, v.vhe u x hx⟩, fun ⟨x, hx⟩ => v.vhe' x u hx⟩
  · rw [elements_all, v.sV, List.length_range]
    intro i hi
    rw [v.sV] at hi
    obtain ⟨x, hx⟩ := h i hi
    exact v.vhe' x i hx

example : ((new id book).map fun m => (elements m.vHe, elements m.eHe, m.nV, m.nE)) =
    some ([0, 1, 2, 3, 4], [0, 1, 2, 3, 4, 5, 6], 5, 7) := by decide +kernel

/-- **C11** as stated is false: with an index that no polygon uses, `n_vertices()` is larger than the number of vertices that `vertices()` returns. -/
theorem c11_refuted : ∃ m, new id [[0, 2, 3]] = some m ∧ m.nV = 4 ∧ elements m.vHe = [0, 2, 3] := by
  refine ⟨_, rfl, ?_⟩
  decide +kernel

/-! ### C12 -/

/-- **C12**: `he_prev` is the inverse of `he_next`. -/
theorem c12_prev_next {m : Mesh} (v : Valid m) {h : Nat} (hh : h < m.nH) :
    (∃ n, get m.heNext h = some n ∧ n < m.nH ∧ hePrev m n = some h) ∧ (∃ p, hePrev m h = some p ∧ p < m.nH ∧ get m.heNext p = some h) := by
  refine ⟨?_, ?_⟩
  · obtain ⟨n, n1, n2, -⟩ := v.next hh
    obtain ⟨p, p1, p2, p3, -⟩ := v.prev n2
    rw [v.next_inj p3 n1] at p1
    exact ⟨n, n1, n2, p1⟩
  · obtain ⟨p, p1, p2, p3, -⟩ := v.prev hh
    exact ⟨p, p1, p2, p3⟩

/-- **C12**: `he_twin` returns the halfedge itself when all halfedges of the edge have the same tail, else a halfedge of the same edge with another tail. -/
theorem c12_twin {m : Mesh} (v : Valid m) {h : Nat} (hh : h < m.nH) :
    ∃ t, heTwin m h = some t ∧ get m.heEdge t = get m.heEdge h ∧
      (t = h ∧ (∀ y, get m.heEdge y = get m.heEdge h → get m.heVertex y = get m.heVertex h) ∨ t ≠ h ∧ get m.heVertex t ≠ get m.heVertex h) := v.twin hh

/-- **C12**: the twin crosses a manifold edge: an edge of two halfedges of opposite directions. -/
theorem c12_twin_manifold {m : Mesh} (v : Valid m) {h h' e : Nat} (he : get m.heEdge h = some e)
    (hall : ∀ x, get m.heEdge x = some e ↔ x = h ∨ x = h') (hd : get m.heVertex h ≠ get m.heVertex h') :
    heTwin m h = some h' ∧ heTwin m h' = some h := by
  have he' : get m.heEdge h' = some e := (hall h').2 (Or.inr rfl)
  have lt : ∀ {x}, get m.heEdge x = some e → x < m.nH := fun hx => by have := get_lt hx; rwa [v.sEdge] at this
  constructor
  · obtain ⟨t, t1, t2, t3⟩ := v.twin (lt he)
    rw [he] at t2
    rcases t3 with ⟨-, t3⟩ | ⟨t3, -⟩
    · exact absurd (t3 h' (he'.trans he.symm)).symm hd
    · rw [t1, ((hall t).1 t2).resolve_left t3]
  · obtain ⟨t, t1, t2, t3⟩ := v.twin (lt he')
    rw [he'] at t2
    rcases t3 with ⟨-, t3⟩ | ⟨t3, -⟩
    · exact absurd (t3 h (he.trans he'.symm)) hd
    · rw [t1, ((hall t).1 t2).resolve_right t3]

example : ((new id [[0, 1, 2], [2, 1, 3]]).map fun m => (heTwin m 1, heTwin m 3, heTwin m 0, hePrev m 0)) = some (some 3, some 1, some 0, some 2) := by
  decide +kernel

/-! ### C65 -/

/-- **C65.** Around a vertex without loops, `edges()` returns each incident edge exactly once, and `vertices()` the other end of each of these. -/
theorem c65_vertex_edges {m : Mesh} (v : Valid m) {u h : Nat} (hu : get m.vHe u = some h) (hloop : ∀ x, get m.heVertex x = some u → tip m x ≠ some u) :
    ∃ es ws, vertexEdges m u = some es ∧ vertexVertices m u = some ws ∧ es.Nodup ∧
      (∀ e, e ∈ es ↔ ∃ x, get m.heEdge x = some e ∧ (get m.heVertex x = some u ∨ tip m x = some u)) ∧ ws.length = es.length ∧
      ∀ i (hi : i < es.length) (hi' : i < ws.length), ∃ x, get m.heEdge x = some es[i] ∧
        ((get m.heVertex x = some u ∧ tip m x = some ws[i]) ∨ (get m.heVertex x = some ws[i] ∧ tip m x = some u)) := v.nei hu hloop

example : ((new id book).map fun m => (vertexEdges m 1, vertexVertices m 1)) = some (some [1, 3, 0, 6], some [2, 3, 0, 4]) := by decide +kernel

/-- A loop is returned twice. -/
example : ((new id [[0, 0, 1]]).map fun m => (vertexEdges m 0)) = some (some [1, 0, 0]) := by decide +kernel

/-! ### C66 -/

/-- The meshes that the public functions can make (from non-empty polygons; edges that are split are not loops; the vertices of `split_face` occur once on
the face; `add_face_by_halfedges` gets a closed chain). -/
inductive Reachable : Mesh → Prop
  | new {order : List Nat → List Nat} {ps : List (List Nat)} {m : Mesh} : (∀ l, (order l).Perm l) → ps ≠ [] → (∀ p ∈ ps, p ≠ []) →
      Surface.new order ps = some m → Reachable m
  | splitEdge {m m' : Mesh} {e w : Nat} : Reachable m → e < m.nE → (∀ h, get m.heEdge h = some e → get m.heVertex h ≠ tip m h) →
      Surface.splitEdge m e = some (w, m') → Reachable m'
  | splitFace {m m' : Mesh} {f va vb h : Nat} {vs : List Nat} : Reachable m → f < m.nF → faceVertices m f = some vs → va ≠ vb → vs.count va = 1 →
      vs.count vb = 1 → Surface.splitFace m f va vb = some (h, m') → Reachable m'
  | addFace {m m' : Mesh} {hs : List Nat} {f : Nat} : Reachable m → hs ≠ [] → (∀ h ∈ hs, h < m.nH) → Closed m hs → Surface.addFace m hs = some (f, m') →
      Reachable m'

/-- **C66.** All of these meshes are valid. -/
theorem c66_reachable_valid {m : Mesh} (r : Reachable m) : Valid m := by
  induction r with
  | new ho h1 h2 h =>
    obtain ⟨m, q1, q2, -⟩ := new_spec ho h1 h2
    rw [h] at q1; cases q1; exact q2
  | splitEdge r he hl h ih =>
    obtain ⟨es, m', -, q1, q2, -⟩ := splitEdge_spec ih he hl
    rw [h] at q1; cases q1; exact q2
  | splitFace r hf hv hne ha hb h ih =>
    obtain ⟨_, _, _, _, _, _, m', -, -, q1, q2, -⟩ := c09_split_face_once ih hf hv hne ha hb
    rw [h] at q1; cases q1; exact q2
  | addFace r hne hlt hc h ih =>
    obtain ⟨m', q1, q2, -⟩ := addFace_spec ih hne hlt hc
    rw [h] at q1; cases q1; exact q2

end Verif.Surface
