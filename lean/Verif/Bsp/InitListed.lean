import Verif.Bsp.Listed
import Verif.Bsp.Pipeline
/-!
# The triangles listed at the faces of the initial complex
-/
namespace Verif.Bsp
open InSphere (Pt)
open Geom (lerp orient2dByAxis Collinear Coplanar InClosedTriangle)
open Poly (ordOf mate)
open Delaunay (Comb IsDelaunay SolidTet)
open Constraint (insertConstraints marksAt Proper Vertices Touched Spread Meets FaceOver FaceIn InTet)

variable {K : Type} [Field K] [LinearOrder K] [IsStrictOrderedRing K]

/-- Positive weights on their way to weights one of which is negative. -/
theorem weights_zero {a b : Fin 3 → K} (ha : ∀ i, 0 < a i) (hb : ∃ i, b i < 0) : ∃ u : K, 0 ≤ u ∧ u ≤ 1 ∧ (∀ i, 0 ≤ (1 - u) * a i + u * b i) ∧ ∃ i, (1 - u) * a i + u * b i = 0 := by
  obtain ⟨i, hi⟩ := Finite.exists_min fun i => b i / a i
  obtain ⟨l, hl⟩ := hb
  have hbi : b i < 0 := by
    have : b i / a i < 0 := lt_of_le_of_lt (hi l) (div_neg_of_neg_of_pos hl (ha l))
    by_contra h
    exact absurd (div_nonneg (not_lt.1 h) (ha i).le) (not_le.2 this)
  have hd : 0 < a i - b i := by linarith [ha i]
  have hu : 1 - a i / (a i - b i) = -b i / (a i - b i) := by field_simp; ring
  refine ⟨a i / (a i - b i), div_nonneg (ha i).le hd.le, by rw [div_le_one hd]; linarith, fun j => ?_, i, ?_⟩
  · have h := hi j
    rw [div_le_div_iff₀ (ha i) (ha j)] at h
    rw [hu]
    have : -b i / (a i - b i) * a j + a i / (a i - b i) * b j = (b j * a i - b i * a j) / (a i - b i) := by field_simp; ring
    rw [this]
    exact div_nonneg (by linarith) hd.le
  · rw [hu]; field_simp; ring

/-- A face over which the triangle lies, while its sides do not touch the tetrahedron, lies in the triangle. -/
theorem faceIn_of_over {T : Fin 4 → Pt K} {j : Fin 4} {A B C : Pt K} (h : FaceOver T j A B C) (hf : ¬ Touched T A B C) : FaceIn T j A B C := by
  obtain ⟨hco, p, w, hp, hj, hw, ht⟩ := h
  have hw0 : ∀ i, 0 ≤ w i := fun i => by
    by_cases e : i = j
    · rw [e, hj]
    · exact (hw i e).le
  obtain ⟨a, b, c, ha, hb, hc, hs, ep⟩ := Constraint.open_of_closed ht fun hs => hf ⟨p, ⟨w, hw0, hp⟩, hs⟩
  intro i hi
  obtain ⟨a', b', c', hs', eq⟩ := hco i hi
  by_contra hno
  have hneg : ∃ l, (![a', b', c'] : Fin 3 → K) l < 0 := by
    by_contra hn
    push Not at hn
    exact hno ⟨a', b', c', hn 0, hn 1, hn 2, hs', eq⟩
  obtain ⟨u, u0, u1, hall, l, hl⟩ := weights_zero (a := ![a, b, c]) (by intro l; fin_cases l <;> assumption) hneg
  refine hf ⟨lerp p (T i) u, ?_, ?_⟩
  · have hTi : Comb T (fun l => if l = i then 1 else 0) (T i) := by constructor <;> simp
    refine ⟨_, fun l => ?_, Constraint.comb_lerp hp hTi u⟩
    exact add_nonneg (mul_nonneg (by linarith) (hw0 l)) (mul_nonneg u0 (by split; exacts [zero_le_one, le_refl _]))
  · rw [ep, eq, Constraint.comb3_lerp]
    refine Constraint.onSides_of_zero (hall 0) (hall 1) (hall 2) ?_ ?_
    · show (1 - u) * a + u * a' + ((1 - u) * b + u * b') + ((1 - u) * c + u * c') = 1
      linear_combination (1 - u) * hs + u * hs'
    · fin_cases l
      · exact Or.inl hl
      · exact Or.inr (Or.inl hl)
      · exact Or.inr (Or.inr hl)

/-- An affine function at a combination. -/
theorem ev_of_comb {ι : Type} [Fintype ι] {c : ι → Pt K} {w : ι → K} {p : Pt K} (h : Comb c w p) (A : Aff K) : A.ev p = ∑ i, w i * A.ev (c i) := by
  obtain ⟨h1, h2, h3, h4⟩ := h
  simp only [Aff.ev, vdot, mul_add, Finset.sum_add_distrib]
  rw [← Finset.sum_mul, h1, one_mul, h2, h3, h4, Finset.mul_sum, Finset.mul_sum, Finset.mul_sum]
  congr 1
  congr 1
  · congr 1 <;> exact Finset.sum_congr rfl fun i _ => by ring
  · exact Finset.sum_congr rfl fun i _ => by ring

/-- Two affine functions that vanish at three corners of a tetrahedron. -/
theorem ev_face {T : Fin 4 → Pt K} (hv : volume T ≠ 0) {j : Fin 4} {A : Aff K} (hA : ∀ l, l ≠ j → A.ev (T l) = 0) (p : Pt K) : A.ev p = volume (Function.update T j p) / volume T * A.ev (T j) := by
  rw [ev_of_comb (cramer T hv p) A, Finset.sum_eq_single j]
  · intro l _ hl
    rw [hA l hl, mul_zero]
  · simp

theorem volume_twice (T : Fin 4 → Pt K) {l j : Fin 4} (h : l ≠ j) : volume (Function.update T l (T j)) = 0 := by
  fin_cases l <;> fin_cases j <;> first | exact absurd rfl h | (simp [volume, vdet, vsub]; try ring)

theorem normal_of_flat {t : Tri3 K} (h : ¬ Collinear t.a t.b t.c) : vdot t.plane.n t.plane.n ≠ 0 := by
  intro e
  refine h ?_
  rw [Geom.collinear_iff_flat]
  simp only [Tri3.plane, through, vdot, vsub] at e
  have h1 := mul_self_nonneg ((t.b.y - t.a.y) * (t.c.z - t.a.z) - (t.b.z - t.a.z) * (t.c.y - t.a.y))
  have h2 := mul_self_nonneg ((t.b.z - t.a.z) * (t.c.x - t.a.x) - (t.b.x - t.a.x) * (t.c.z - t.a.z))
  have h3 := mul_self_nonneg ((t.b.x - t.a.x) * (t.c.y - t.a.y) - (t.b.y - t.a.y) * (t.c.x - t.a.x))
  have e1 := mul_self_eq_zero.1 (le_antisymm (by linarith) h1)
  have e2 := mul_self_eq_zero.1 (le_antisymm (by linarith) h2)
  have e3 := mul_self_eq_zero.1 (le_antisymm (by linarith) h3)
  refine ⟨?_, ?_, ?_⟩ <;> simp only [Geom.nXY, Geom.nYZ, Geom.nXZ, Geom.orient2d, Geom.xy, Geom.yz, Geom.xz] <;> linarith

/-- Specification: every tetrahedron that has a face over which an original triangle lies is touched by a side of the triangle, or hangs together with such tetrahedra by faces of
tetrahedra that the triangle cuts through or contains a face of. -/
def AllFaced (pts : List (Pt K)) (m : Tet.Mesh) (cs : List (Nat × Nat × Nat)) (nOri : Nat) : Prop :=
  ∀ (i : Nat) (c : Nat × Nat × Nat) (A B C : Pt K), i < nOri → cs[i]? = some c → Vertices pts c A B C → ∀ t T, SolidTet pts m t T → ∀ j, FaceOver T j A B C →
    Touched T A B C ∨ Spread m (fun t => ∃ T, SolidTet pts m t T ∧ Touched T A B C) (Meets pts m A B C) t

/-- The three corners that `faceVerts` names. -/
theorem faceVerts_mem : ∀ j : Fin 4, ∀ l : Fin 4, l ≠ j ↔ l ∈ [Tet.destPivot (Tet.verOfFace j), Tet.apexPivot (Tet.verOfFace j), Tet.orgPivot (Tet.verOfFace j)] := by decide +kernel

theorem mem_faceVerts {x : Tet.Tet} {j : Fin 4} {v : Nat} : v ∈ Poly.faceVerts x j ↔ ∃ l, l ≠ j ∧ x.data l = v := by
  constructor
  · intro h
    simp only [Poly.faceVerts, List.mem_cons, List.not_mem_nil, or_false] at h
    rcases h with rfl | rfl | rfl
    · exact ⟨_, (faceVerts_mem j _).2 (by simp), rfl⟩
    · exact ⟨_, (faceVerts_mem j _).2 (by simp), rfl⟩
    · exact ⟨_, (faceVerts_mem j _).2 (by simp), rfl⟩
  · rintro ⟨l, hl, rfl⟩
    have := (faceVerts_mem j l).1 hl
    simp only [Poly.faceVerts, List.mem_cons, List.not_mem_nil, or_false] at this ⊢
    rcases this with rfl | rfl | rfl <;> simp

/-- The base of a ghost. -/
theorem ghost_slot {pts : List (Pt K)} {m : Tet.Mesh} (hD : IsDelaunay pts m) {t : Nat} {x : Tet.Tet} (hx : m.tets[t]? = some x) (h3 : x.data 3 ≠ pts.length) {j : Fin 4} (hg : ordOf m (mate m (t, j)).1 = none) :
    ∃ y : Tet.Tet, m.tets[(mate m (t, j)).1]? = some y ∧ y.data 3 = pts.length ∧ ∀ l, l ≠ 3 → ∃ i, i ≠ j ∧ x.data i = y.data l := by
  obtain ⟨h, sf⟩ := Poly.slot_facts hD.whole hx j
  rw [sf.mate] at hg ⊢
  dsimp only at hg ⊢
  obtain ⟨y, hy⟩ : ∃ y, m.tets[h.tet]? = some y := ⟨_, List.getElem?_eq_getElem sf.lt⟩
  have hy3 : y.data 3 = pts.length := by
    by_contra hn
    rw [Poly.ordOf_eq hy, hD.num, if_neg hn] at hg
    cases hg
  refine ⟨y, hy, hy3, ?_⟩
  obtain ⟨p0, p1, p2, p3⟩ := hD.point t x hx
  have hlt : ∀ i, x.data i < pts.length := by
    intro i
    match i with
    | 0 => exact p0
    | 1 => exact p1
    | 2 => exact p2
    | 3 => omega
  have hv := sf.verts
  have hin : ∀ l, l = Tet.orgPivot h.ver ∨ l = Tet.apexPivot h.ver ∨ l = Tet.destPivot h.ver → ∃ i, i ≠ j ∧ x.data i = y.data l := by
    intro l hl
    refine mem_faceVerts.1 ?_
    have : some (y.data l) ∈ (Poly.faceVerts x j).map some := by
      rw [← hv]
      simp only [Tet.Mesh.org, Tet.Mesh.apex, Tet.Mesh.dest, hy, Option.map_some, List.mem_cons, List.not_mem_nil, or_false, Option.some.injEq]
      rcases hl with rfl | rfl | rfl <;> simp
    obtain ⟨a, ha, e⟩ := List.mem_map.1 this
    cases e; exact ha
  have hne : ∀ l, l = Tet.orgPivot h.ver ∨ l = Tet.apexPivot h.ver ∨ l = Tet.destPivot h.ver → l ≠ 3 := by
    rintro l hl rfl
    obtain ⟨i, -, e⟩ := hin 3 hl
    have := hlt i
    omega
  have hcov : ∀ v : Tet.Ver, (∀ l, l = Tet.orgPivot v ∨ l = Tet.apexPivot v ∨ l = Tet.destPivot v → l ≠ 3) → ∀ l : Fin 4, l ≠ 3 → l = Tet.orgPivot v ∨ l = Tet.apexPivot v ∨ l = Tet.destPivot v := by
    decide +kernel
  exact fun l hl => hin l (hcov h.ver hne l hl)

/-- The complex of `BSPComplex::new`: the faces list the original triangles lying on them, and the outer faces bound the convex hull. -/
theorem c103_start_lists (order : List Nat → List Nat) (ho : ∀ l, (order l).Perm l) (pts : List (Pt K)) (m : Tet.Mesh) (hD : IsDelaunay pts m) (hs : ∃ x ∈ m.tets, x.data 3 ≠ pts.length)
    (cs : List (Nat × Nat × Nat)) (hc : ∀ c ∈ cs, Proper pts.length c) (hnc : ∀ c ∈ cs, ¬ Collinear (posOf pts c.1) (posOf pts c.2.1) (posOf pts c.2.2)) (nOri : Nat) (hle : nOri ≤ cs.length)
    (fuel : Nat) (hf : m.tets.length < fuel) (marks : List Constraint.Mark) (s0 : St) (sm : Surface.Mesh) (e : insertConstraints fuel pts m cs = some (m, marks)) (e0 : initial order m (marksAt marks) nOri = some (s0, sm)) :
    (AllFaced pts m cs nOri → Listed (triAt pts cs) nOri (startOf pts s0)) ∧ Outer (InHull pts) (startOf pts s0) := by
  have hpt : ∀ (t : Nat) (x : Tet.Tet), m.tets[t]? = some x → x.data 3 ≠ pts.length → ∀ i, pts[x.data i]? = some (posOf pts (x.data i)) := by
    intro t x hx h3 i
    obtain ⟨p0, p1, p2, p3⟩ := hD.point t x hx
    refine posOf_some ?_
    match i with
    | 0 => exact p0
    | 1 => exact p1
    | 2 => exact p2
    | 3 => omega
  have hvol : ∀ (t : Nat) (x : Tet.Tet), m.tets[t]? = some x → x.data 3 ≠ pts.length → 0 < volume fun j => posOf pts (x.data j) := by
    intro t x hx h3
    have := (hD.sphere t (fun j => posOf pts (x.data j)) ⟨x, hx, h3, hpt t x hx h3⟩).1
    have e : InSphere.orient3d (posOf pts (x.data 0)) (posOf pts (x.data 1)) (posOf pts (x.data 2)) (posOf pts (x.data 3)) = - volume fun j => posOf pts (x.data j) := by
      simp only [InSphere.orient3d, volume, vdet, vsub]; ring
    rw [e] at this
    linarith
  have hs' : ∃ x ∈ m.tets, x.data 3 ≠ m.nPoints := by rw [hD.num]; exact hs
  obtain ⟨s1, sm1, e1, -, -, gd0, g0, htet, -⟩ := init_geo order ho m hD.whole (marksAt marks) nOri hs' (posOf pts) (fun x hx h3 => by
    obtain ⟨t, ht⟩ := List.getElem?_of_mem hx
    exact hvol t x ht (by rw [← hD.num]; exact h3))
  obtain ⟨s2, sm2, e2, -, -, -, b, eb, hb, hfr⟩ := initial_full order ho m hD.whole (marksAt marks) nOri hs'
  rw [e0, Option.some.injEq, Prod.mk.injEq] at e1 e2
  obtain ⟨rfl, rfl⟩ := e1
  obtain ⟨rfl, rfl⟩ := e2
  -- the tetrahedron at which a face was made
  have hface : ∀ (i : Nat) (F : Poly.Face), s0.cx.faces[i]? = some F → ∃ (t : Nat) (x : Tet.Tet) (j : Fin 4) (c : Cycle), m.tets[t]? = some x ∧ x.data 3 ≠ pts.length ∧ ordOf m t = some F.cells.1 ∧
      F.cells.2 = ordOf m (mate m (t, j)).1 ∧ F.tris = Poly.insertCoplanar (marksAt marks j t) [] nOri ∧ s0.mesh.faces[i]? = some c ∧ c.map Prod.fst = Poly.faceVerts x j := by
    intro i F hF
    rw [eb, Poly.Build.complex, List.getElem?_map] at hF
    obtain ⟨q, hq, rfl⟩ := Option.map_eq_some_iff.1 hF
    have hfl : i < (Poly.owned m (Poly.slotsUpTo m m.tets.length)).length := by
      rw [← hb.visited.len]; exact (List.getElem?_eq_some_iff.1 hq).1
    obtain ⟨k, x, F, q1, q2, q3, q4, q5⟩ := hb.visited.faces i _ (List.getElem?_eq_getElem hfl)
    rw [hq] at q3; cases q3
    generalize (Poly.owned m (Poly.slotsUpTo m m.tets.length))[i] = s at q1 q2 q4 q5 hq
    obtain ⟨c, hc1, hc2⟩ := hfr.face i _ (by rw [List.getElem?_map, hq]; rfl)
    refine ⟨s.1, x, s.2, c, q2, ?_, by rw [q1, q4], by rw [q4], q5, hc1, hc2⟩
    intro e3
    rw [Poly.ordOf_eq q2, hD.num, if_pos e3] at q1
    cases q1
  -- its plane
  have hplane : ∀ (i : Nat) (F : Poly.Face) (t : Nat) (x : Tet.Tet) (j : Fin 4) (c : Cycle), s0.cx.faces[i]? = some F → m.tets[t]? = some x → x.data 3 ≠ pts.length → ordOf m t = some F.cells.1 →
      s0.mesh.faces[i]? = some c → c.map Prod.fst = Poly.faceVerts x j → s0.cl[i]? = some F.cells ∧ sg F.cells F.cells.1 = 1 ∧ (∀ l, l ≠ j → (facePlane (posOf pts) s0.mesh.faces i).ev (posOf pts (x.data l)) = 0) ∧
        0 < (facePlane (posOf pts) s0.mesh.faces i).ev (posOf pts (x.data j)) := by
    intro i F t x j c hF hx h3 hk hc1 hc2
    have hcl : s0.cl[i]? = some F.cells := by simp [St.cl, hF]
    obtain ⟨-, l2⟩ := gd0.linked.cells i F hF
    have hs1 : sg F.cells F.cells.1 = 1 := by
      unfold sg
      rw [if_pos rfl, if_neg fun e => (l2 _ e).2 rfl]; rfl
    have h0 : ∀ l, l ≠ j → (facePlane (posOf pts) s0.mesh.faces i).ev (posOf pts (x.data l)) = 0 := by
      intro l hl
      have : x.data l ∈ c.map Prod.fst := by rw [hc2]; exact mem_faceVerts.2 ⟨l, hl, rfl⟩
      obtain ⟨y, hy, ey⟩ := List.mem_map.1 this
      rw [← ey]; exact (g0.face i c hc1).plane y hy
    refine ⟨hcl, hs1, h0, ?_⟩
    have hT := (htet t _ x hk hx).2
    obtain ⟨v, hv, hv0⟩ := g0.strict F.cells.1 i F.cells hcl (by rw [hs1]; decide)
    have hj := g0.side F.cells.1 i F.cells hcl (by rw [hs1]; decide) (x.data j) (hT.ofCell.2 ⟨j, rfl⟩)
    rw [hs1, Int.cast_one, one_mul] at hj
    refine lt_of_le_of_ne hj fun e => ?_
    obtain ⟨l, rfl⟩ := hT.ofCell.1 hv
    by_cases hl : l = j
    · rw [hl] at hv0; exact hv0 e.symm
    · exact hv0 (h0 l hl)
  have hvert : ∀ {i : Nat} {c : Nat × Nat × Nat}, cs[i]? = some c → Vertices pts c (triAt pts cs i).a (triAt pts cs i).b (triAt pts cs i).c := by
    intro i c hi
    have hp := hc c (List.mem_of_getElem? hi)
    simp only [triAt, hi, Option.getD_some]
    exact ⟨posOf_some hp.lt1, posOf_some hp.lt2, posOf_some hp.lt3⟩
  have hncol : ∀ {i : Nat} {c : Nat × Nat × Nat}, cs[i]? = some c → ¬ Collinear (triAt pts cs i).a (triAt pts cs i).b (triAt pts cs i).c := by
    intro i c hi
    simp only [triAt, hi, Option.getD_some]
    exact hnc c (List.mem_of_getElem? hi)
  -- the plane of a triangle
  have hcop : ∀ {i : Nat} {c : Nat × Nat × Nat}, cs[i]? = some c → ∀ p, (Coplanar p (triAt pts cs i).a (triAt pts cs i).b (triAt pts cs i).c ↔ (triAt pts cs i).plane.ev p = 0) := by
    intro i c hi p
    rw [Tri3.plane, ev_through]
    have := hncol hi
    rw [Geom.collinear_iff_flat] at this
    exact Geom.coplanar_iff this
  have hnorm : ∀ {i : Nat} {c : Nat × Nat × Nat}, cs[i]? = some c → vdot (triAt pts cs i).plane.n (triAt pts cs i).plane.n ≠ 0 := by
    intro i c hi
    exact normal_of_flat (hncol hi)
  refine ⟨fun hall => ⟨fun i F hF a ha => ?_, fun i F c hF hc1 a ha hco hq => ?_⟩, fun i F hF h0 p hp => ?_⟩
  · obtain ⟨t, x, j, c, hx, h3, hk, h2, htr, hc1, hc2⟩ := hface i F hF
    obtain ⟨-, -, hz, hpos⟩ := hplane i F t x j c hF hx h3 hk hc1 hc2
    rw [htr, (Poly.c57_insert_coplanar nOri (marksAt marks j t) [] List.Pairwise.nil).2] at ha
    obtain ⟨hm, hn⟩ := ha.resolve_left (by simp)
    have hci := List.getElem?_eq_getElem (show a < cs.length by omega)
    have hov := (Constraint.c94_faces hD cs hc fuel hf m marks e a _ hci _ _ _ (hvert hci) (hncol hci) t _ ⟨x, hx, h3, hpt t x hx h3⟩ j).1 hm
    refine ⟨hn, fun X hX => ?_⟩
    have hv := (hvol t x hx h3).ne'
    have hT : ∀ l, l ≠ j → (triAt pts cs a).plane.ev (posOf pts (x.data l)) = 0 := fun l hl => (hcop hci _).1 (hov.1 l hl)
    have h1 := ev_face hv hT X
    rw [(triAt pts cs a).plane_corners X hX] at h1
    show (facePlane (posOf pts) s0.mesh.faces i).ev X = 0
    rw [ev_face hv hz X]
    rcases mul_eq_zero.1 h1.symm with h1 | h1
    · rw [h1, zero_mul]
    · exfalso
      obtain ⟨y, hy⟩ := normal_point (hnorm hci)
      exact hy (by rw [ev_face hv hT y, h1, mul_zero])
  · obtain ⟨t, x, j, c', hx, h3, hk, h2, htr, hc1'', hc2⟩ := hface i F hF
    have hc1' : s0.mesh.faces[i]? = some c := hc1
    rw [hc1'] at hc1''; cases hc1''
    obtain ⟨hcl, hs1, hz, hpos⟩ := hplane i F t x j c hF hx h3 hk hc1' hc2
    have hv := hvol t x hx h3
    have hci := List.getElem?_eq_getElem (show a < cs.length by omega)
    obtain ⟨μ, μ0, hμ⟩ := plane_of_tri (g0.face i c hc1').normal (hnorm hci) hco
    have hT : SolidTet pts m t fun j => posOf pts (x.data j) := ⟨x, hx, h3, hpt t x hx h3⟩
    have hover : FaceOver (fun j => posOf pts (x.data j)) j (triAt pts cs a).a (triAt pts cs a).b (triAt pts cs a).c := by
      refine ⟨fun l hl => (hcop hci _).2 ?_, ?_⟩
      · have := hz l hl
        rw [hμ] at this
        exact (mul_eq_zero.1 this).resolve_left μ0
      · obtain ⟨q, hq, u, v, w, hu, hv', hw, hsum, qx, qy, qz⟩ := hq
        refine ⟨q, _, cramer _ hv.ne' q, ?_, fun l hl => div_pos ?_ hv, u, v, w, hu, hv', hw, hsum, by cases q; simp only [Geom.comb, Pt.mk.injEq]; exact ⟨qx, qy, qz⟩⟩
        · have := ev_face hv.ne' hz q
          rw [show (facePlane (posOf pts) s0.mesh.faces i).ev q = 0 from hq.1] at this
          exact (mul_eq_zero.1 this.symm).resolve_right hpos.ne'
        · obtain ⟨r, r0, r1, hr⟩ := enter g0 hcl (by rw [hs1]; decide : sg F.cells F.cells.1 ≠ 0) hc1' hq (W := posOf pts (x.data j)) (by rw [hs1, Int.cast_one, one_mul]; exact hpos)
          have := core_pos hv (fun q hq => ((htet t _ x hk hx).2.region gd0.mesh.len q).1 hq) (hr r r0 (le_refl _)) l
          rw [volume_lerp, volume_twice (fun j => posOf pts (x.data j)) hl, mul_zero, add_zero] at this
          exact (pos_iff_pos_of_mul_pos this).1 (lt_of_le_of_ne (by linarith) fun e => by rw [← e, zero_mul] at this; exact lt_irrefl _ this)
    rw [htr, (Poly.c57_insert_coplanar nOri (marksAt marks j t) [] List.Pairwise.nil).2]
    refine Or.inr ⟨?_, ha⟩
    by_cases htc : Touched (fun j => posOf pts (x.data j)) (triAt pts cs a).a (triAt pts cs a).b (triAt pts cs a).c
    · exact (Constraint.c94_faces hD cs hc fuel hf m marks e a _ hci _ _ _ (hvert hci) (hncol hci) t _ hT j).2 htc hover
    · have sp := (hall a _ _ _ _ ha hci (hvert hci) t _ hT j hover).resolve_left htc
      exact (Constraint.c88_insert_partial hD cs hc fuel hf m marks e a _ hci _ _ _ (hvert hci) (hncol hci) t _ hT sp).2 j (faceIn_of_over hover htc)
  · obtain ⟨t, x, j, c, hx, h3, hk, h2, htr, hc1, hc2⟩ := hface i F hF
    obtain ⟨-, -, hz, hpos⟩ := hplane i F t x j c hF hx h3 hk hc1 hc2
    rw [h0] at h2
    obtain ⟨y, hy, hy3, hl⟩ := ghost_slot hD hx h3 h2.symm
    obtain ⟨p0, p1, p2, -⟩ := hD.point _ y hy
    obtain ⟨hin, -⟩ := hD.hull _ y _ _ _ hy hy3 (posOf_some p0) (posOf_some p1) (posOf_some p2)
    have hyi : Function.Injective y.data := by
      obtain ⟨y', hy', h⟩ := hD.whole.corners _ (List.getElem?_eq_some_iff.1 hy).1
      rw [hy] at hy'; cases hy'; exact h
    obtain ⟨i0, n0, d0⟩ := hl 0 (by decide)
    obtain ⟨i1, n1, d1⟩ := hl 1 (by decide)
    obtain ⟨i2, n2, d2⟩ := hl 2 (by decide)
    have n01 : i0 ≠ i1 := fun h => absurd (hyi (by rw [← d0, h, d1] : y.data 0 = y.data 1)) (by decide)
    have n02 : i0 ≠ i2 := fun h => absurd (hyi (by rw [← d0, h, d2] : y.data 0 = y.data 2)) (by decide)
    have n12 : i1 ≠ i2 := fun h => absurd (hyi (by rw [← d1, h, d2] : y.data 1 = y.data 2)) (by decide)
    have hσ : Function.Injective (![i0, i1, i2, j] : Fin 4 → Fin 4) := by
      intro a b h
      fin_cases a <;> fin_cases b <;> first | rfl | (exfalso; simp only [Fin.zero_eta, Fin.mk_one, Fin.reduceFinMk, Matrix.cons_val] at h; first | exact n0 h | exact n1 h | exact n2 h | exact n01 h | exact n02 h | exact n12 h | exact n0 h.symm | exact n1 h.symm | exact n2 h.symm | exact n01 h.symm | exact n02 h.symm | exact n12 h.symm)
    have hcov : ∀ i0 i1 i2 j : Fin 4, i0 ≠ j → i1 ≠ j → i2 ≠ j → i0 ≠ i1 → i0 ≠ i2 → i1 ≠ i2 → ∀ l, l ≠ j → l = i0 ∨ l = i1 ∨ l = i2 := by decide +kernel
    have hcov := hcov i0 i1 i2 j n0 n1 n2 n01 n02 n12
    let G : Aff K := through (posOf pts (y.data 0)) (posOf pts (y.data 2)) (posOf pts (y.data 1))
    have hG : ∀ p, G.ev p = InSphere.orient3d (posOf pts (y.data 0)) (posOf pts (y.data 1)) (posOf pts (y.data 2)) p := by
      intro p
      simp only [G, through, Aff.ev, vdot, vsub, InSphere.orient3d]; ring
    have hGz : ∀ l, l ≠ j → G.ev (posOf pts (x.data l)) = 0 := by
      intro l hl
      rw [hG]
      rcases hcov l hl with rfl | rfl | rfl
      · rw [d0]; simp only [InSphere.orient3d]; ring
      · rw [d1]; simp only [InSphere.orient3d]; ring
      · rw [d2]; simp only [InSphere.orient3d]; ring
    have hv := hvol t x hx h3
    have hGj : G.ev (posOf pts (x.data j)) ≠ 0 := by
      intro h
      have := through_perm (fun j => posOf pts (x.data j)) (Equiv.ofBijective _ (Finite.injective_iff_bijective.1 hσ))
      simp only [Equiv.ofBijective_apply, Matrix.cons_val] at this
      have e : (through (posOf pts (x.data i0)) (posOf pts (x.data i1)) (posOf pts (x.data i2))).ev (posOf pts (x.data j)) = - G.ev (posOf pts (x.data j)) := by
        rw [hG, ev_through, d0, d1, d2]; simp only [InSphere.orient3d]; ring
      rw [e, h, neg_zero, mul_zero] at this
      exact hv.ne this
    have hG0 : 0 < G.ev (posOf pts (x.data j)) := lt_of_le_of_ne (by rw [hG]; exact hin _ (List.mem_of_getElem? (hpt t x hx h3 j))) hGj.symm
    obtain ⟨w, hw, hcomb⟩ := hp
    have hGp : 0 ≤ G.ev p := by
      rw [ev_of_comb hcomb]
      refine Finset.sum_nonneg fun i _ => mul_nonneg (hw i) ?_
      rw [hG]; exact hin _ (List.getElem_mem _)
    rw [ev_face hv.ne' hGz p] at hGp
    show 0 ≤ (facePlane (posOf pts) s0.mesh.faces i).ev p
    rw [ev_face hv.ne' hz p]
    exact mul_nonneg (nonneg_of_mul_nonneg_left hGp hG0) hpos.le

end Verif.Bsp
