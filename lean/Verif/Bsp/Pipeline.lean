import Verif.Bsp.GeoLoop
import Verif.Constraint.Insert
import Verif.Geom.Axis
/-!
# C97, C99: from the points to the subdivision

`make_mesh_for_proper_triangles` (`src/polygonlization/mod.rs` lines 56-77): `tetrahedralize`, `insert_constraints`, `BSPComplex::new` and the loop over the cells. The constraints are all triangles of
`Constraints`, the virtual ones included.
-/
namespace Verif.Bsp
open InSphere (Pt)
open Geom (lerp orient2dByAxis Collinear)
open Poly (ordOf)
open Delaunay (Comb IsDelaunay SolidTet)
open Constraint (insertConstraints marksAt Proper Vertices Crossed Touched Diagonal Spread Meets)

variable {K : Type} [Field K] [LinearOrder K] [IsStrictOrderedRing K]

section
omit [IsStrictOrderedRing K]

/-- The corners of constraint `i` (`constraints` and `points`, `bsp_complex.rs` lines 200-222). -/
def triAt (pts : List (Pt K)) (cs : List (Nat × Nat × Nat)) (i : Nat) : Tri3 K :=
  let c := cs[i]?.getD (0, 0, 0)
  ⟨posOf pts c.1, posOf pts c.2.1, posOf pts c.2.2⟩

/-- `tri_axes` (lines 201-205). -/
def axisAt (eps : K) (lead : K → K) (pts : List (Pt K)) (cs : List (Nat × Nat × Nat)) (i : Nat) : Nat :=
  Geom.maxComp eps lead (triAt pts cs i).a (triAt pts cs i).b (triAt pts cs i).c

/-- The complex that `BSPComplex::new` makes, with the coordinates of the points. -/
def startOf (pts : List (Pt K)) (s : St) : GSt K := ⟨s, posOf pts, facePlane (posOf pts) s.mesh.faces⟩
end

/-- Specification: every tetrahedron that a constraint cuts through is touched by a side of it (not along a diagonal of a quadrangular section) or hangs together with such tetrahedra by faces of
tetrahedra that the constraint cuts through or contains a face of. -/
def AllReached (pts : List (Pt K)) (m : Tet.Mesh) (cs : List (Nat × Nat × Nat)) : Prop :=
  ∀ (i : Nat) (c : Nat × Nat × Nat) (A B C : Pt K), cs[i]? = some c → Vertices pts c A B C → ∀ t T, SolidTet pts m t T → Crossed T A B C →
    (Touched T A B C ∧ ¬ Diagonal T A B C) ∨ Spread m (fun t => ∃ T, SolidTet pts m t T ∧ Touched T A B C) (Meets pts m A B C) t

theorem posOf_some {pts : List (Pt K)} {v : Nat} (h : v < pts.length) : pts[v]? = some (posOf pts v) := by
  rw [posOf, List.getElem?_eq_getElem h]; rfl

theorem ev_through (p a b c : Pt K) : (through a b c).ev p = InSphere.orient3d p a b c := by
  simp only [through, Aff.ev, vdot, vsub, InSphere.orient3d]; ring

/-- The state after `BSPComplex::new`. -/
theorem start_spec (order : List Nat → List Nat) (ho : ∀ l, (order l).Perm l) (pts : List (Pt K)) (m : Tet.Mesh) (hD : IsDelaunay pts m) (hs : ∃ x ∈ m.tets, x.data 3 ≠ pts.length)
    (cs : List (Nat × Nat × Nat)) (hc : ∀ c ∈ cs, Proper pts.length c) (hnc : ∀ c ∈ cs, ¬ Collinear (posOf pts c.1) (posOf pts c.2.1) (posOf pts c.2.2)) (nOri : Nat) (fuel : Nat) (hf : m.tets.length < fuel) :
    ∃ marks s0 sm, insertConstraints fuel pts m cs = some (m, marks) ∧ initial order m (marksAt marks) nOri = some (s0, sm) ∧ Good s0 ∧
      Geo (posOf pts) (facePlane (posOf pts) s0.mesh.faces) s0.cl s0.mesh.faces ∧ Cutting (triAt pts cs) (startOf pts s0) ∧ (∀ k, ∀ t ∈ innerOf s0 k, t < cs.length) ∧
      (AllReached pts m cs → Recorded (triAt pts cs) cs.length (startOf pts s0)) ∧
      ∀ s pos pl, Sliced nOri s0 (posOf pts) (facePlane (posOf pts) s0.mesh.faces) s pos pl →
        (∀ p, InHull pts p ↔ ∃ k < s.cx.cells.length, Region pl s.cl k p) ∧
          ∀ k < s.cx.cells.length, ∀ l < s.cx.cells.length, k ≠ l → ∀ q, ¬ (Core (Region pl s.cl k) q ∧ Core (Region pl s.cl l) q) := by
  obtain ⟨marks, e, hrange⟩ := Constraint.c93_insert hD cs hc fuel hf
  have hpt : ∀ (t : Nat) (x : Tet.Tet), m.tets[t]? = some x → x.data 3 ≠ pts.length → ∀ i, pts[x.data i]? = some (posOf pts (x.data i)) := by
    intro t x hx h3 i
    obtain ⟨p0, p1, p2, p3⟩ := hD.point t x hx
    refine posOf_some ?_
    match i with
    | 0 => exact p0
    | 1 => exact p1
    | 2 => exact p2
    | 3 => omega
  have hvol : ∀ (t : Nat) (x : Tet.Tet), m.tets[t]? = some x → x.data 3 ≠ pts.length → 0 < volume fun j => posOf pts (x.data j) := by
    intro t x hx h3
    have := (hD.sphere t (fun j => posOf pts (x.data j)) ⟨x, hx, h3, hpt t x hx h3⟩).1
    have e : InSphere.orient3d (posOf pts (x.data 0)) (posOf pts (x.data 1)) (posOf pts (x.data 2)) (posOf pts (x.data 3)) = - volume fun j => posOf pts (x.data j) := by
      simp only [InSphere.orient3d, volume, vdet, vsub]; ring
    rw [e] at this
    linarith
  have hs' : ∃ x ∈ m.tets, x.data 3 ≠ m.nPoints := by rw [hD.num]; exact hs
  obtain ⟨s0, sm, e0, -, -, gd0, g0, htet, hsur⟩ := init_geo order ho m hD.whole (marksAt marks) nOri hs' (posOf pts) (fun x hx h3 => by
    obtain ⟨t, ht⟩ := List.getElem?_of_mem hx
    exact hvol t x ht (by rw [← hD.num]; exact h3))
  obtain ⟨s1, sm1, e1, -, -, -, b, eb, hb, -⟩ := initial_full order ho m hD.whole (marksAt marks) nOri hs'
  obtain ⟨s2, sm2, e2, htile⟩ := c96_tiling order ho pts m hD (marksAt marks) nOri hs
  rw [e0, Option.some.injEq, Prod.mk.injEq] at e1 e2
  obtain ⟨rfl, rfl⟩ := e1
  obtain ⟨rfl, rfl⟩ := e2
  have hsolid : ∀ {t k : Nat} {x : Tet.Tet}, ordOf m t = some k → m.tets[t]? = some x → x.data 3 ≠ pts.length := by
    intro t k x h1 h2 e
    rw [Poly.ordOf_eq h2, hD.num, if_pos e] at h1
    cases h1
  have hinner : ∀ k < s0.cx.cells.length, ∃ t x, ordOf m t = some k ∧ m.tets[t]? = some x ∧ innerOf s0 k = marksAt marks 4 t := by
    intro k hk
    obtain ⟨t, x, h1, h2⟩ := hsur k hk
    obtain ⟨f0, f1, f2, f3, hC, -⟩ := hb.cells t k (Poly.ordOf_lt h1) h1
    exact ⟨t, x, h1, h2, innerOf_some (by rw [eb]; exact hC)⟩
  have hlt : ∀ {k t : Nat}, t ∈ innerOf s0 k → k < s0.cx.cells.length := by
    intro k t ht
    by_contra hc
    rw [innerOf, List.getElem?_eq_none (by omega)] at ht
    simp at ht
  have hvert : ∀ {i : Nat} {c : Nat × Nat × Nat}, cs[i]? = some c → Vertices pts c (triAt pts cs i).a (triAt pts cs i).b (triAt pts cs i).c := by
    intro i c hi
    have hp := hc c (List.mem_of_getElem? hi)
    simp only [triAt, hi, Option.getD_some]
    exact ⟨posOf_some hp.lt1, posOf_some hp.lt2, posOf_some hp.lt3⟩
  have hncol : ∀ {i : Nat} {c : Nat × Nat × Nat}, cs[i]? = some c → ¬ Collinear (triAt pts cs i).a (triAt pts cs i).b (triAt pts cs i).c := by
    intro i c hi
    simp only [triAt, hi, Option.getD_some]
    exact hnc c (List.mem_of_getElem? hi)
  refine ⟨marks, s0, sm, e, e0, gd0, g0, fun k i hi => ?_, fun k i hi => ?_, fun hr k hk i hi hp => ?_, fun s pos pl hS => (htile s pos pl hS).2.2⟩
  · have hi' : i ∈ innerOf s0 k := hi
    obtain ⟨t, x, h1, h2, h3⟩ := hinner k (hlt hi')
    rw [h3] at hi'
    have hil := (hrange 4 t i hi').2.2
    have hci := List.getElem?_eq_getElem hil
    obtain ⟨⟨j, hj⟩, ⟨l, hl⟩, -⟩ := (Constraint.c94_cut hD cs hc fuel hf m marks e i _ hci _ _ _ (hvert hci) (hncol hci) t _ ⟨x, h2, hsolid h1 h2, hpt t x h2 (hsolid h1 h2)⟩).1 hi'
    have hT := (htet t k x h1 h2).2
    refine ⟨⟨x.data j, hT.ofCell.2 ⟨j, rfl⟩, ?_⟩, ⟨x.data l, hT.ofCell.2 ⟨l, rfl⟩, ?_⟩⟩
    · show 0 < (through _ _ _).ev (posOf pts (x.data j))
      rw [ev_through]; exact hj
    · show (through _ _ _).ev (posOf pts (x.data l)) < 0
      rw [ev_through]; exact hl
  · obtain ⟨t, x, h1, h2, h3⟩ := hinner k (hlt hi)
    rw [h3] at hi
    exact (hrange 4 t i hi).2.2
  · have hk' : k < s0.cx.cells.length := hk
    obtain ⟨t, x, h1, h2, h3⟩ := hinner k hk'
    show i ∈ innerOf s0 k
    rw [h3]
    have hci := List.getElem?_eq_getElem hi
    have hT : SolidTet pts m t fun j => posOf pts (x.data j) := ⟨x, h2, hsolid h1 h2, hpt t x h2 (hsolid h1 h2)⟩
    obtain ⟨q, ⟨u, v, w, hu, hv, hw, hsum, qx, qy, qz⟩, hq⟩ := hp
    have hvx := hvol t x h2 (hsolid h1 h2)
    have px := core_pos hvx (fun q hq => ((htet t k x h1 h2).2.region gd0.mesh.len q).1 hq) hq
    have hX : Crossed (fun j => posOf pts (x.data j)) (triAt pts cs i).a (triAt pts cs i).b (triAt pts cs i).c :=
      ⟨q, ⟨_, fun j => div_pos (px j) hvx, cramer _ hvx.ne' q⟩, u, v, w, hu, hv, hw, hsum, by
        cases q; simp only [Geom.comb, Pt.mk.injEq]; exact ⟨qx, qy, qz⟩⟩
    rcases hr i _ _ _ _ hci (hvert hci) t _ hT hX with ⟨h4, h5⟩ | h4
    · exact (Constraint.c94_cut hD cs hc fuel hf m marks e i _ hci _ _ _ (hvert hci) (hncol hci) t _ hT).2 h4 hX h5
    · exact (Constraint.c88_insert_partial hD cs hc fuel hf m marks e i _ hci _ _ _ (hvert hci) (hncol hci) t _ hT h4).1 hX

/-- **C97**, from the points on: `make_mesh_for_proper_triangles` up to the subdivision. For at least four and at most 1021 distinct points and constraints between points that do not lie on a line,
`tetrahedralize` returns, and unless the points are flat in the sense of its tests: `insert_constraints` and `BSPComplex::new` return; the loop over the cells ends without panic when every unresolved
triangle is dealt with; and then the cells, bounded by convex polygons, tile the convex hull of the points. -/
theorem c97_from_points (pts : List (Pt K)) (hd : pts.Nodup) (h4 : 4 ≤ pts.length) (hn : pts.length ≤ 1021) (shuffled : List Nat) (hsh : shuffled.Perm (List.range pts.length)) (fuel : Nat)
    (hf : 2 * pts.length * pts.length ≤ fuel) (cs : List (Nat × Nat × Nat)) (hc : ∀ c ∈ cs, Proper pts.length c)
    (hnc : ∀ c ∈ cs, ¬ Collinear (posOf pts c.1) (posOf pts c.2.1) (posOf pts c.2.2)) (order : List Nat → List Nat) (ho : ∀ l, (order l).Perm l) (axis : Nat → Nat) (keep : Nat → Nat → Bool) (nOri : Nat) :
    ∃ m, Tet.tetrahedralize pts fuel shuffled = some m ∧
      ((m.tets = [] ∧ ∃ box s, Tet.boxOf pts = some box ∧ Tet.boxSize box = some s ∧ Delaunay.FlatPts pts s) ∨
        ∃ marks s0 sm, insertConstraints (m.tets.length + 1) pts m cs = some (m, marks) ∧ initial order m (marksAt marks) nOri = some (s0, sm) ∧
          ∃ fuel' g, geoLoop (triAt pts cs) axis keep nOri fuel' 0 (startOf pts s0) = .done g ∧ Good g.s ∧ Geo g.pos g.pl g.s.cl g.s.mesh.faces ∧ (∀ C ∈ g.s.cx.cells, C.inner = []) ∧
            (∀ p, InHull pts p ↔ ∃ k < g.s.cx.cells.length, Region g.pl g.s.cl k p) ∧
            ∀ k < g.s.cx.cells.length, ∀ l < g.s.cx.cells.length, k ≠ l → ∀ q, ¬ (Core (Region g.pl g.s.cl k) q ∧ Core (Region g.pl g.s.cl l) q)) := by
  obtain ⟨m, e, h | h⟩ := Delaunay.c85_tetrahedralize_partial pts hd h4 shuffled hsh fuel hf (Or.inl hn)
  · refine ⟨m, e, Or.inr ?_⟩
    have h0 : 0 < pts.length := by omega
    obtain ⟨t, c, -, ⟨x, hx, h3, -⟩, -⟩ := h.cover pts[0] (fun i => if i = ⟨0, h0⟩ then 1 else 0) (fun i => by split; exacts [zero_le_one, le_refl _])
      ⟨by simp, by simp, by simp, by simp⟩
    obtain ⟨marks, s0, sm, e1, e2, gd, gg, hcut, -, -, htile⟩ := start_spec order ho pts m h ⟨x, List.mem_of_getElem? hx, h3⟩ cs hc hnc nOri _ (Nat.lt_succ_self _)
    obtain ⟨g, e3, hS, gd', gg', hin, -⟩ := geoLoop_spec (tri := triAt pts cs) (axis := axis) (keep := keep) (nOri := nOri) _ 0 (startOf pts s0) gd gg hcut (Nat.lt_succ_self _) (fun k hk => absurd hk (by omega))
    refine ⟨marks, s0, sm, e1, e2, _, g, e3, gd', gg', fun C hC => ?_, htile _ _ _ (hS _ _ _ .start)⟩
    obtain ⟨k, hk⟩ := List.getElem?_of_mem hC
    rw [← innerOf_some hk]; exact hin k
  · exact ⟨m, e, Or.inl h⟩

/-- **C99**, from a Delaunay tetrahedralization on, with the axes of `BSPComplex::new`: if every tetrahedron that a constraint cuts through is reached by `insert_constraints` (see C88, C94), and coplanar
constraints have the same orientation, then no constraint passes through the inside of a cell at the end of the subdivision. Missing: `AllReached` (see `c88_hole`, `c88_quad`), and constraints of opposite
orientation (see `c99_orientation_refuted`). -/
theorem c99_from_points_partial (order : List Nat → List Nat) (ho : ∀ l, (order l).Perm l) (pts : List (Pt K)) (m : Tet.Mesh) (hD : IsDelaunay pts m) (hs : ∃ x ∈ m.tets, x.data 3 ≠ pts.length)
    (cs : List (Nat × Nat × Nat)) (hc : ∀ c ∈ cs, Proper pts.length c) (hnc : ∀ c ∈ cs, ¬ Collinear (posOf pts c.1) (posOf pts c.2.1) (posOf pts c.2.2))
    (eps : K) (lead : K → K) (hl0 : ∀ x, lead x = 0 ↔ x = 0) (hl1 : ∀ x, 0 ≤ lead x) (keep : Nat → Nat → Bool) (nOri : Nat) (hr : AllReached pts m cs) (hal : Aligned (triAt pts cs) cs.length) :
    ∃ marks s0 sm, insertConstraints (m.tets.length + 1) pts m cs = some (m, marks) ∧ initial order m (marksAt marks) nOri = some (s0, sm) ∧
      ∃ fuel' g, geoLoop (triAt pts cs) (axisAt eps lead pts cs) keep nOri fuel' 0 (startOf pts s0) = .done g ∧
        (∀ p, InHull pts p ↔ ∃ k < g.s.cx.cells.length, Region g.pl g.s.cl k p) ∧
        ∀ k < g.s.cx.cells.length, ∀ i < cs.length, ¬ Passes (triAt pts cs i) (Region g.pl g.s.cl k) := by
  obtain ⟨marks, s0, sm, e1, e2, gd, gg, hcut, hlt, hrec, htile⟩ := start_spec order ho pts m hD hs cs hc hnc nOri _ (Nat.lt_succ_self _)
  obtain ⟨g, e3, hS, gd', gg', hin, -, hR⟩ := geoLoop_spec (tri := triAt pts cs) (axis := axisAt eps lead pts cs) (keep := keep) (nOri := nOri) _ 0 (startOf pts s0) gd gg hcut (Nat.lt_succ_self _)
    (fun k hk => absurd hk (by omega))
  refine ⟨marks, s0, sm, e1, e2, _, g, e3, (htile _ _ _ (hS _ _ _ .start)).1, fun k hk i hi hp => ?_⟩
  have := hR cs.length hlt (fun i hi => ?_) hal (hrec hr) k hk i hi hp
  · rw [hin k] at this; simp at this
  · refine (Geom.c64_axis eps lead hl0 hl1 _ _ _ ?_).2
    simp only [triAt, List.getElem?_eq_getElem hi, Option.getD_some]
    exact hnc _ (List.getElem_mem hi)

end Verif.Bsp
