import Verif.Bsp.TriTests
/-!
# C97, C99: subdivision by triangles

`split_cell` (`bsp_complex.rs` lines 252-576) and the loop of `make_mesh_for_proper_triangles` (`mod.rs` lines 66-77) with all tests computed from the positions of the vertices, in exact
arithmetic.
-/
namespace Verif.Bsp
open InSphere (Pt Ori)
open Geom (lerp orient2dByAxis)

section
variable {K : Type} [Field K] [LinearOrder K]

/-- The complex with the positions of the vertices (`points`) and the planes of the faces (`face_data[..].plane`). -/
structure GSt (K : Type) where
  s : St
  pos : Nat → Pt K
  pl : Nat → Aff K

/-- The tests of `split_cell` for the pivot `p`: `coplanar` is `separate_out_coplanar_triangles` (lines 1201-1234), `meets` is the test of lines 362-373 with the section `poly`, `hasPos` and `hasNeg`
are the tests of lines 446-471 for the triangles of a face that is cut. `tri` are the corners of the triangles, `axis` is `tri_axes`; `tri_orientations` (lines 207-222) is computed here. -/
def geoOracle (tri : Nat → Tri3 K) (axis : Nat → Nat) (p : Nat) (poly : List (Pt K)) (inPos inNeg : Nat → Bool) : Oracle where
  coplanar p t := (tri t).corners.all fun x => SignType.sign ((tri p).plane.ev x) = 0
  meets t := triPoly (tri t) poly (orient2dByAxis (tri t).a (tri t).b (tri t).c (axis t)) (axis t)
  hasPos t := (tri t).corners.any fun x => SignType.sign ((tri p).plane.ev x) = 1
  hasNeg t := (tri t).corners.any fun x => SignType.sign ((tri p).plane.ev x) = -1
  inPos := inPos
  inNeg := inNeg

/-- The signs of the vertices with respect to the plane of a triangle (`verts_orient_wrt_plane`). -/
def triSgn (pos : Nat → Pt K) (t : Tri3 K) (v : Nat) : SignType := SignType.sign (t.plane.ev (pos v))

/-- `is_triangle_intersects_cell` for one of the two halves (lines 540-571): cell `k` on side `sd` of the pivot. `verts` are the vertices of the cell before the cut; `pos_verts` and `neg_verts` are those
on this side and those of the new face. `s1` is the complex after the cut. -/
def inHalf (tri : Nat → Tri3 K) (sgn : Nat → SignType) (pos : Nat → Pt K) (pl : Nat → Aff K) (verts : List Nat) (s1 : St) (k : Nat) (sd : SignType) (t : Nat) : Bool :=
  triCell pos pl s1.cl k (tri t) (verts.filter (fun v => sgn v = sd) ++ (s1.mesh.faces.getLast?.getD []).map Prod.fst) ((s1.cx.cells[k]?).elim [] Poly.Cell.faces)

/-- `split_cell` (lines 252-576). The inner triangles are distributed after the mesh has been cut; here the cut is computed without them first (`s1`), and then again with the outcomes of the tests. -/
def geoSplit (tri : Nat → Tri3 K) (axis : Nat → Nat) (keep : Nat → Bool) (nOri : Nat) (g : GSt K) (cid : Nat) : Option (GSt K) := do
  let C ← g.s.cx.cells[cid]?
  let p ← C.inner.getLast?
  let h := (tri p).plane
  let sgn := triSgn g.pos (tri p)
  let cf ← cellFaces g.s C
  let vs ← sectionVerts sgn g.s cid C
  let pos := slicePos h sgn g.pos g.s C
  let s1 ← splitCell (geoOracle tri axis p (vs.map pos) (fun _ => false) fun _ => false) sgn keep nOri g.s cid
  let pl := planesAfter h sgn g.pl g.s s1 cid C
  let verts := cf.flatMap fun x => x.2.2.map Prod.fst
  let s2 ← splitCell (geoOracle tri axis p (vs.map pos) (inHalf tri sgn pos pl verts s1 g.s.cx.cells.length 1) (inHalf tri sgn pos pl verts s1 cid (-1))) sgn keep nOri g.s cid
  some { s := s2, pos, pl := planesAfter h sgn g.pl g.s s2 cid C }

/-- How the loop ends. -/
inductive GOut (K : Type) | done (g : GSt K) | panic | running

/-- The loop of `make_mesh_for_proper_triangles` (`mod.rs` lines 66-77); `keep n` says which part of an edge keeps its number when edges are split in round `n`. -/
def geoLoop (tri : Nat → Tri3 K) (axis : Nat → Nat) (keep : Nat → Nat → Bool) (nOri : Nat) : Nat → Nat → GSt K → GOut K
  | 0, _, _ => .running
  | fuel + 1, cid, g =>
    match g.s.cx.cells[cid]? with
    | none => .done g
    | some C =>
      if C.inner.isEmpty then geoLoop tri axis keep nOri fuel (cid + 1) g
      else match geoSplit tri axis (keep fuel) nOri g cid with
        | none => .panic
        | some g => geoLoop tri axis keep nOri fuel cid g

/-- The unresolved triangles of a cell. -/
def innerOf (s : St) (k : Nat) : List Nat := (s.cx.cells[k]?).elim [] Poly.Cell.inner

/-- Specification: the plane of every unresolved triangle of a cell has vertices of the cell on both sides. -/
def Cutting (tri : Nat → Tri3 K) (g : GSt K) : Prop := ∀ k, ∀ t ∈ innerOf g.s k, (∃ v, OfCell g.s.cl g.s.mesh.faces k v ∧ 0 < (tri t).plane.ev (g.pos v)) ∧
  ∃ v, OfCell g.s.cl g.s.mesh.faces k v ∧ (tri t).plane.ev (g.pos v) < 0

/-- Specification: a triangle that passes through the inside of a cell is one of its unresolved triangles. -/
def Recorded (tri : Nat → Tri3 K) (n : Nat) (g : GSt K) : Prop := ∀ k < g.s.cx.cells.length, ∀ t < n, Passes (tri t) (Region g.pl g.s.cl k) → t ∈ innerOf g.s k

end

/-! ### The tests for the halves do not influence the cut -/

theorem poly_inner {T : Poly.Tests} {f g : Nat → Bool} {nOri cid : Nat} {cx c1 c2 : Poly.Complex} (e1 : Poly.splitCell T nOri cx cid = some c1)
    (e2 : Poly.splitCell { T with inPos := f, inNeg := g } nOri cx cid = some c2) : c2.faces = c1.faces ∧ c2.cells.map Poly.Cell.faces = c1.cells.map Poly.Cell.faces := by
  unfold Poly.splitCell at e1 e2
  obtain ⟨C, hC, e1⟩ := Option.bind_eq_some_iff.1 e1
  obtain ⟨p, hp, e1⟩ := Option.bind_eq_some_iff.1 e1
  obtain ⟨y, hy, e1⟩ := Option.bind_eq_some_iff.1 e1
  rw [hC, Option.bind_eq_bind, Option.bind_some, hp, Option.bind_eq_bind, Option.bind_some] at e2
  dsimp only at e1 e2 hy
  rw [hy, Option.bind_eq_bind, Option.bind_some] at e2
  cases hpr : T.proper with
  | false => rw [hpr] at e1; cases e1
  | true =>
    rw [hpr] at e1 e2
    simp only [Bool.not_true, Bool.false_eq_true, if_false] at e1 e2
    split at e1
    · rename_i hh
      rw [if_pos hh] at e2
      cases e1; cases e2
      exact ⟨rfl, by simp⟩
    · rename_i hh
      rw [if_neg hh] at e2
      obtain ⟨a, ha, e1⟩ := Option.bind_eq_some_iff.1 e1
      obtain ⟨a', ha', e2⟩ := Option.bind_eq_some_iff.1 e2
      have : a = a' := Option.some.inj (ha.symm.trans ha')
      subst this
      cases e1; cases e2
      exact ⟨rfl, by simp [List.map_set]⟩

theorem splitCell_inner {G : Oracle} {f g : Nat → Bool} {sgn : Nat → SignType} {keep : Nat → Bool} {nOri cid : Nat} {s s1 s2 : St} (e1 : splitCell G sgn keep nOri s cid = some s1)
    (e2 : splitCell { G with inPos := f, inNeg := g } sgn keep nOri s cid = some s2) : s2.mesh = s1.mesh ∧ s2.cx.faces = s1.cx.faces ∧ s2.cx.cells.map Poly.Cell.faces = s1.cx.cells.map Poly.Cell.faces := by
  unfold splitCell at e1 e2
  obtain ⟨C, hC, e1⟩ := Option.bind_eq_some_iff.1 e1
  obtain ⟨cf, hcf, e1⟩ := Option.bind_eq_some_iff.1 e1
  obtain ⟨keys, hk, e1⟩ := Option.bind_eq_some_iff.1 e1
  obtain ⟨ids, hi, e1⟩ := Option.bind_eq_some_iff.1 e1
  obtain ⟨ord, ho, e1⟩ := Option.bind_eq_some_iff.1 e1
  obtain ⟨p, hp, e1⟩ := Option.bind_eq_some_iff.1 e1
  rw [hC, Option.bind_eq_bind, Option.bind_some, hcf, Option.bind_eq_bind, Option.bind_some] at e2
  dsimp only at e2
  rw [hk, Option.bind_eq_bind, Option.bind_some, hi, Option.bind_eq_bind, Option.bind_some, ho, Option.bind_eq_bind, Option.bind_some, hp, Option.bind_eq_bind, Option.bind_some] at e2
  split at e1
  · rename_i hh
    rw [if_pos hh] at e2
    obtain ⟨c1, h1, e1⟩ := Option.bind_eq_some_iff.1 e1
    obtain ⟨c2, h2, e2⟩ := Option.bind_eq_some_iff.1 e2
    cases e1; cases e2
    exact ⟨rfl, poly_inner h1 h2⟩
  · rename_i hh
    rw [if_neg hh] at e2
    obtain ⟨m, hm, e1⟩ := Option.bind_eq_some_iff.1 e1
    obtain ⟨a, ha, e1⟩ := Option.bind_eq_some_iff.1 e1
    obtain ⟨c1, h1, e1⟩ := Option.bind_eq_some_iff.1 e1
    rw [hm, Option.bind_eq_bind, Option.bind_some, ha, Option.bind_eq_bind, Option.bind_some] at e2
    obtain ⟨c2, h2, e2⟩ := Option.bind_eq_some_iff.1 e2
    cases e1; cases e2
    exact ⟨rfl, poly_inner h1 h2⟩

/-! ### The lists of unresolved triangles -/

theorem innerOf_eq (s : St) (k : Nat) : innerOf s k = ((s.cx.cells.map Poly.Cell.inner)[k]?).getD [] := by
  rw [innerOf, List.getElem?_map]
  cases s.cx.cells[k]? <;> rfl

theorem innerOf_some {s : St} {k : Nat} {C : Poly.Cell} (h : s.cx.cells[k]? = some C) : innerOf s k = C.inner := by rw [innerOf, h]; rfl

/-- What becomes of the lists. -/
theorem inners_cases {T : Poly.Tests} {cid p : Nat} {C : Poly.Cell} {s s' : St} (hC : s.cx.cells[cid]? = some C)
    (e : s'.cx.cells.map Poly.Cell.inner = Poly.innersAfter T cid p C (s.cx.cells.map Poly.Cell.inner)) :
    (((C.inner.filter (T.coplanar p)).filter T.meets = [] ∧ s'.cx.cells.length = s.cx.cells.length ∧ (∀ k, k ≠ cid → innerOf s' k = innerOf s k) ∧ innerOf s' cid = C.inner.filter fun t => !T.coplanar p t) ∨
      (s'.cx.cells.length = s.cx.cells.length + 1 ∧ (∀ k, k ≠ cid → k ≠ s.cx.cells.length → innerOf s' k = innerOf s k) ∧ innerOf s' cid = (C.inner.filter fun t => !T.coplanar p t).filter T.inNeg ∧
        innerOf s' s.cx.cells.length = (C.inner.filter fun t => !T.coplanar p t).filter T.inPos)) := by
  have hlt : cid < s.cx.cells.length := (List.getElem?_eq_some_iff.1 hC).1
  have hl := congrArg List.length e
  simp only [innerOf_eq, e]
  unfold Poly.innersAfter at *
  split
  · rename_i hh
    rw [if_pos hh] at hl
    left
    refine ⟨by simpa using hh, by simpa using hl, fun k hk => ?_, ?_⟩
    · rw [List.getElem?_set_ne (Ne.symm hk)]
    · rw [List.getElem?_set_self (by simpa using hlt)]; rfl
  · rename_i hh
    rw [if_neg hh] at hl
    right
    refine ⟨by simpa using hl, fun k hk hk' => ?_, ?_, ?_⟩
    · by_cases hkl : k < s.cx.cells.length
      · rw [List.getElem?_append_left (by simpa using hkl), List.getElem?_set_ne (Ne.symm hk)]
      · rw [List.getElem?_eq_none (by simp; omega), List.getElem?_eq_none (by simp; omega)]
    · rw [List.getElem?_append_left (by simpa using hlt), List.getElem?_set_self (by simpa using hlt)]; rfl
    · rw [List.getElem?_append_right (by simp)]; simp

theorem inners_weight {T : Poly.Tests} {cid p : Nat} {C : Poly.Cell} {s s' : St} (hC : s.cx.cells[cid]? = some C) (hp : p ∈ C.inner) (hT : T.coplanar p p = true)
    (e : s'.cx.cells.map Poly.Cell.inner = Poly.innersAfter T cid p C (s.cx.cells.map Poly.Cell.inner)) :
    Poly.weight (s'.cx.cells.map Poly.Cell.inner) + 1 ≤ Poly.weight (s.cx.cells.map Poly.Cell.inner) ∧ s'.cx.cells.length ≤ s.cx.cells.length + 1 ∧ s.cx.cells.length ≤ s'.cx.cells.length := by
  have hlt : (C.inner.filter fun t => !T.coplanar p t).length < C.inner.length := by
    refine lt_of_le_of_ne (List.length_filter_le _ _) fun e => ?_
    rw [List.length_filter_eq_length_iff] at e
    have := e p hp
    rw [hT] at this; simp at this
  have hy : (s.cx.cells.map Poly.Cell.inner)[cid]? = some C.inner := by rw [List.getElem?_map, hC]; rfl
  have hl := congrArg List.length e
  rw [e]
  unfold Poly.innersAfter at *
  generalize C.inner.filter (fun t => !T.coplanar p t) = i0 at *
  have pw : ∀ i : List Nat, i.length ≤ i0.length → 3 * 3 ^ i.length ≤ 3 ^ C.inner.length := fun i hi => by
    rw [← pow_succ']; exact Nat.pow_le_pow_right (by norm_num) (by omega)
  have q0 : ∀ i : List Nat, 0 < 3 ^ i.length := fun i => by positivity
  split
  · rename_i hh
    rw [if_pos hh] at hl
    have w := Poly.weight_set _ cid i0 _ hy
    have := pw i0 le_rfl
    have := q0 i0
    simp only [List.length_map, List.length_set] at hl
    omega
  · rename_i hh
    rw [if_neg hh] at hl
    have w := Poly.weight_set _ cid (i0.filter T.inNeg) _ hy
    have := pw (i0.filter T.inNeg) (List.length_filter_le _ _)
    have := pw (i0.filter T.inPos) (List.length_filter_le _ _)
    have := q0 (i0.filter T.inNeg)
    have := q0 (i0.filter T.inPos)
    have e2 : ∀ (l : List (List Nat)) x, Poly.weight (l ++ [x]) = Poly.weight l + 3 ^ x.length := fun l x => by simp [Poly.weight]
    rw [e2]
    simp only [List.length_map, List.length_append, List.length_set, List.length_singleton] at hl
    omega

variable {K : Type} [Field K] [LinearOrder K] [IsStrictOrderedRing K]

/-- Specification: no two triangles in one plane have opposite orientations. -/
def Aligned (tri : Nat → Tri3 K) (n : Nat) : Prop :=
  ∀ p < n, ∀ t < n, (∀ x ∈ (tri t).corners, (tri p).plane.ev x = 0) → 0 < area (tri p).plane.n (tri t).a (tri t).b (tri t).c

/-- A triangle with a proper projection is not degenerate. -/
theorem tri_normal {t : Tri3 K} {axis : Nat} (h : orient2dByAxis t.a t.b t.c axis ≠ .zero) : vdot t.plane.n t.plane.n ≠ 0 := by
  intro h0
  apply h
  rw [Geom.byAxis_eq, Geom.sign_zero]
  have hz : t.plane.n = ⟨0, 0, 0⟩ := by
    by_contra hc
    exact (vdot_pos hc).ne' h0
  have h1 := congrArg Pt.x hz
  have h2 := congrArg Pt.y hz
  have h3 := congrArg Pt.z hz
  simp only [Tri3.plane, through, vsub] at h1 h2 h3
  unfold Geom.comp3
  split_ifs
  · simp only [Geom.nYZ, Geom.orient2d, Geom.yz]; linear_combination h1
  · simp only [Geom.nXZ, Geom.orient2d, Geom.xz]; linear_combination h2
  · simp only [Geom.nXY, Geom.orient2d, Geom.xy]; linear_combination h3

theorem geoOracle_self (tri : Nat → Tri3 K) (axis : Nat → Nat) (p : Nat) (poly : List (Pt K)) (f g : Nat → Bool) (t : Nat) : (geoOracle tri axis p poly f g).coplanar t t = true := by
  simp only [geoOracle, List.all_eq_true, decide_eq_true_eq]
  intro x hx
  rw [(tri t).plane_corners x hx, sign_zero]

theorem coplanar_iff (tri : Nat → Tri3 K) (axis : Nat → Nat) (q : Nat) (poly : List (Pt K)) (f g : Nat → Bool) (p t : Nat) : (geoOracle tri axis q poly f g).coplanar p t = true ↔
    ∀ x ∈ (tri t).corners, (tri p).plane.ev x = 0 := by
  simp only [geoOracle, List.all_eq_true, decide_eq_true_eq, sign_eq_zero_iff]

/-- One call of `split_cell`. -/
theorem geoSplit_spec {tri : Nat → Tri3 K} {axis : Nat → Nat} {keep : Nat → Bool} {nOri : Nat} {g : GSt K} {cid : Nat} {C : Poly.Cell} (gd : Good g.s) (gg : Geo g.pos g.pl g.s.cl g.s.mesh.faces)
    (hcut : Cutting tri g) (hC : g.s.cx.cells[cid]? = some C) (hne : C.inner ≠ []) :
    ∃ g', geoSplit tri axis keep nOri g cid = some g' ∧
      (∀ (s0 : St) (pos0 : Nat → Pt K) (pl0 : Nat → Aff K), Sliced nOri s0 pos0 pl0 g.s g.pos g.pl → Sliced nOri s0 pos0 pl0 g'.s g'.pos g'.pl) ∧
      Good g'.s ∧ Geo g'.pos g'.pl g'.s.cl g'.s.mesh.faces ∧ Cutting tri g' ∧
      (Poly.weight (g'.s.cx.cells.map Poly.Cell.inner) + 1 ≤ Poly.weight (g.s.cx.cells.map Poly.Cell.inner) ∧ g'.s.cx.cells.length ≤ g.s.cx.cells.length + 1 ∧ g.s.cx.cells.length ≤ g'.s.cx.cells.length) ∧
      (∀ k, k ≠ cid → k < g.s.cx.cells.length → innerOf g'.s k = innerOf g.s k) ∧ (∀ k, ∀ t ∈ innerOf g'.s k, ∃ k', t ∈ innerOf g.s k') ∧
      ∀ n, (∀ k, ∀ t ∈ innerOf g.s k, t < n) → (∀ t < n, orient2dByAxis (tri t).a (tri t).b (tri t).c (axis t) ≠ .zero) → Aligned tri n → Recorded tri n g → Recorded tri n g' := by
  obtain ⟨p, hp⟩ : ∃ p, C.inner.getLast? = some p := ⟨_, List.getLast?_eq_some_getLast hne⟩
  have hpm : p ∈ C.inner := List.mem_of_getLast? hp
  have hcp := hcut cid p (by rw [innerOf_some hC]; exact hpm)
  set h := (tri p).plane with hh
  set sgn := triSgn g.pos (tri p) with hsgn
  have ha : Across g.pos h sgn g.s.cl g.s.mesh.faces cid := ⟨fun _ _ => rfl, hcp.1, hcp.2⟩
  obtain ⟨cf, hcf⟩ : ∃ cf, cellFaces g.s C = some cf := by
    obtain ⟨cf, L, m1, E, hcf, -⟩ := cell_pieces (fun _ => true) gd hC (gg.convexFaces gd hC ha)
    exact ⟨cf, hcf⟩
  obtain ⟨vs, hvs, hok⟩ := gg.sectionOk gd hC hne ha
  set pos' := slicePos h sgn g.pos g.s C with hpos'
  obtain ⟨s1, e1, gd1, in1, c1⟩ := splitCell_geo (geoOracle tri axis p (vs.map pos') (fun _ => false) fun _ => false) sgn keep nOri g.s cid C gd (geoOracle_self _ _ _ _ _ _) hC hne g.pos g.pl h gg ha
  set pl1 := planesAfter h sgn g.pl g.s s1 cid C with hpl1
  set verts := cf.flatMap fun x => x.2.2.map Prod.fst with hverts
  set ip := inHalf tri sgn pos' pl1 verts s1 g.s.cx.cells.length 1 with hip
  set iq := inHalf tri sgn pos' pl1 verts s1 cid (-1) with hiq
  obtain ⟨s2, e2, gd2, in2, c2⟩ := splitCell_geo (geoOracle tri axis p (vs.map pos') ip iq) sgn keep nOri g.s cid C gd (geoOracle_self _ _ _ _ _ _) hC hne g.pos g.pl h gg ha
  have hsame := splitCell_inner (G := geoOracle tri axis p (vs.map pos') (fun _ => false) fun _ => false) (f := ip) (g := iq) e1 e2
  have hl12 : s2.cx.cells.length = s1.cx.cells.length := by simpa using congrArg List.length hsame.2.2
  have hpl12 : planesAfter h sgn g.pl g.s s2 cid C = pl1 := by rw [hpl1, planesAfter, planesAfter, hl12]
  have hcl12 : s1.cl = s2.cl := by rw [St.cl, St.cl, hsame.2.1]
  have hf12 : ∀ k : Nat, (s1.cx.cells[k]?).elim [] Poly.Cell.faces = (s2.cx.cells[k]?).elim [] Poly.Cell.faces := by
    intro k
    have := congrArg (fun l : List (List Nat) => l[k]?) hsame.2.2
    simp only [List.getElem?_map] at this
    cases h1 : s1.cx.cells[k]? <;> cases h2 : s2.cx.cells[k]? <;> simp_all
  have hvof : ∀ v, v ∈ verts ↔ OfCell g.s.cl g.s.mesh.faces cid v := by
    intro v
    rw [ofCell_iff gd hC]
    constructor
    · intro hv
      obtain ⟨x, hx, hv⟩ := List.mem_flatMap.1 hv
      obtain ⟨y, hy, rfl⟩ := List.mem_map.1 hv
      have h1 := (cellFaces_spec hcf).1 x hx
      exact ⟨x.1, h1.1, x.2.2, h1.2.2, y, hy, rfl⟩
    · rintro ⟨f, hf, c, hc, y, hy, rfl⟩
      obtain ⟨x, hx, rfl⟩ := (cellFaces_spec hcf).2 f hf
      have := ((cellFaces_spec hcf).1 x hx).2.2
      rw [hc] at this
      refine List.mem_flatMap.2 ⟨x, hx, List.mem_map.2 ⟨y, ?_, rfl⟩⟩
      cases this
      exact hy
  have hvlt : ∀ k v, OfCell g.s.cl g.s.mesh.faces k v → v < g.s.mesh.nV := by
    rintro k v ⟨i, P, d, hP, hs, hd, y, hy, rfl⟩
    exact (gd.mesh.lt d (List.mem_of_getElem? hd) y hy).1
  have hcid : cid < g.s.cx.cells.length := (List.getElem?_eq_some_iff.1 hC).1
  refine ⟨⟨s2, pos', pl1⟩, ?_, ?_, gd2, ?_⟩
  · unfold geoSplit
    rw [hC, Option.bind_eq_bind, Option.bind_some, hp, Option.bind_eq_bind, Option.bind_some]
    dsimp only
    rw [hcf, Option.bind_eq_bind, Option.bind_some]
    rw [← hh, ← hsgn, hvs, Option.bind_eq_bind, Option.bind_some, ← hpos', e1, Option.bind_eq_bind, Option.bind_some, ← hpl1]
    rw [e2, Option.bind_some, hpl12]
  · intro s0 pos0 pl0 hS
    have := Sliced.cut (sgn := sgn) h hS (geoOracle_self tri axis p (vs.map pos') ip iq) hC (fun _ _ => rfl) e2
    rw [hpl12] at this
    exact this
  have hcases := inners_cases hC (in2 p hp)
  have hw := inners_weight hC hpm (geoOracle_self tri axis p (vs.map pos') ip iq p) (in2 p hp)
  have hcop : ∀ t, (tests (geoOracle tri axis p (vs.map pos') ip iq) true [] [] []).coplanar p t = true ↔ ∀ x ∈ (tri t).corners, h.ev x = 0 := coplanar_iff tri axis p (vs.map pos') ip iq p
  rw [← hpos'] at c2
  rcases c2 with ⟨m2, f2, k2, hold, g2⟩ | H
  · -- the cell is not cut
    have hlen : s2.cx.cells.length = g.s.cx.cells.length := by simpa using congrArg List.length k2
    have hpl : pl1 = g.pl := by rw [← hpl12, planesAfter, if_pos hlen]
    have ecl : s2.cl = g.s.cl := by rw [St.cl, St.cl, f2]
    rcases hcases with ⟨hits, -, hoth, hcid'⟩ | ⟨hl, -⟩
    swap
    · omega
    have hsub : ∀ k, ∀ t ∈ innerOf s2 k, t ∈ innerOf g.s k := by
      intro k t ht
      by_cases hk : k = cid
      · subst hk
        rw [hcid'] at ht
        rw [innerOf_some hC]; exact (List.mem_filter.1 ht).1
      · rw [hoth k hk] at ht; exact ht
    refine ⟨by rw [hpl]; exact g2, ?_, hw, fun k hk _ => hoth k hk, fun k t ht => ⟨k, hsub k t ht⟩, ?_⟩
    · intro k t ht
      obtain ⟨⟨v, v1, v2⟩, w, w1, w2⟩ := hcut k t (hsub k t ht)
      refine ⟨⟨v, ?_, ?_⟩, w, ?_, ?_⟩
      · show OfCell s2.cl s2.mesh.faces k v
        rw [ecl, m2]; exact v1
      · show 0 < (tri t).plane.ev (pos' v)
        rw [hold v (hvlt k v v1)]; exact v2
      · show OfCell s2.cl s2.mesh.faces k w
        rw [ecl, m2]; exact w1
      · show (tri t).plane.ev (pos' w) < 0
        rw [hold w (hvlt k w w1)]; exact w2
    · intro n hn hax hal hrec k hk t ht hpass
      change Passes (tri t) (Region pl1 s2.cl k) at hpass
      rw [hpl, ecl] at hpass
      have hin := hrec k (by rw [← hlen]; exact hk) t ht hpass
      show t ∈ innerOf s2 k
      by_cases hkc : k = cid
      · subst hkc
        rw [hcid', List.mem_filter]
        rw [innerOf_some hC] at hin
        refine ⟨hin, ?_⟩
        by_contra hc
        rw [Bool.not_eq_true', Bool.not_eq_false] at hc
        have hpn : p < n := hn k p (by rw [innerOf_some hC]; exact hpm)
        have hc' := (hcop t).1 hc
        have hmeet := c98_tri_poly_partial gg hok (tri_normal (hax p hpn)) (tri t) hc' (hal p hpn t ht hc') (axis t) (hax t ht) hpass
        have : t ∈ (C.inner.filter ((tests (geoOracle tri axis p (vs.map pos') ip iq) true [] [] []).coplanar p)).filter (tests (geoOracle tri axis p (vs.map pos') ip iq) true [] [] []).meets :=
          List.mem_filter.2 ⟨List.mem_filter.2 ⟨hin, hc⟩, hmeet⟩
        rw [hits] at this
        simp at this
      · rw [hoth k hkc]; exact hin
  · -- the cell is cut
    have hpl : pl1 = slicePl h sgn g.pl g.s cid C := by rw [← hpl12, planesAfter, if_neg (by rw [H.len]; omega)]
    rw [← hpl] at H
    rcases hcases with ⟨-, hl, -⟩ | ⟨hl, hoth, hneg, hps⟩
    · rw [H.len] at hl; omega
    set nc := g.s.cx.cells.length with hnc
    obtain ⟨Z, hZ, hZof, hZhull⟩ := H.sep
    have hZ1 : s1.mesh.faces.getLast?.getD [] = Z := by rw [← hsame.1, hZ]; rfl
    have hof : ∀ sd v, v ∈ verts.filter (fun v => sgn v = sd) ++ (s1.mesh.faces.getLast?.getD []).map Prod.fst → (sd = 1 → OfCell s2.cl s2.mesh.faces nc v) ∧ (sd = -1 → OfCell s2.cl s2.mesh.faces cid v) := by
      intro sd v hv
      rw [hZ1] at hv
      rcases List.mem_append.1 hv with hv | hv
      · obtain ⟨hv1, hv2⟩ := List.mem_filter.1 hv
        replace hv2 := of_decide_eq_true hv2
        have hv3 := (hvof v).1 hv1
        refine ⟨fun e => H.up v hv3 ?_, fun e => H.down v hv3 ?_⟩
        · rw [e] at hv2; exact sign_eq_one_iff.1 hv2
        · rw [e] at hv2; exact sign_eq_neg_one_iff.1 hv2
      · obtain ⟨z, hz, rfl⟩ := List.mem_map.1 hv
        exact ⟨fun _ => (hZof z hz).1, fun _ => (hZof z hz).2⟩
    have htest : ∀ k sd t, (∀ v, v ∈ verts.filter (fun v => sgn v = sd) ++ (s1.mesh.faces.getLast?.getD []).map Prod.fst → OfCell s2.cl s2.mesh.faces k v) → inHalf tri sgn pos' pl1 verts s1 k sd t = true →
        (∃ v, OfCell s2.cl s2.mesh.faces k v ∧ 0 < (tri t).plane.ev (pos' v)) ∧ ∃ v, OfCell s2.cl s2.mesh.faces k v ∧ (tri t).plane.ev (pos' v) < 0 := by
      intro k sd t hk hb
      rw [inHalf, triCell, Bool.and_eq_true, bothSides_iff] at hb
      obtain ⟨⟨h1, h2⟩, -⟩ := hb
      obtain ⟨v, hv, e⟩ := List.mem_map.1 h1
      obtain ⟨w, hw, e'⟩ := List.mem_map.1 h2
      exact ⟨⟨v, hk v hv, sign_eq_one_iff.1 e⟩, w, hk w hw, sign_eq_neg_one_iff.1 e'⟩
    have hin : ∀ k, ∀ t ∈ innerOf s2 k, (k = cid ∧ t ∈ C.inner ∧ iq t = true) ∨ (k = nc ∧ t ∈ C.inner ∧ ip t = true) ∨ (k ≠ cid ∧ k ≠ nc ∧ t ∈ innerOf g.s k) := by
      intro k t ht
      by_cases hk : k = cid
      · subst hk
        rw [hneg] at ht
        obtain ⟨h1, h2⟩ := List.mem_filter.1 ht
        exact Or.inl ⟨rfl, (List.mem_filter.1 h1).1, h2⟩
      · by_cases hk' : k = nc
        · subst hk'
          rw [hps] at ht
          obtain ⟨h1, h2⟩ := List.mem_filter.1 ht
          exact Or.inr (Or.inl ⟨rfl, (List.mem_filter.1 h1).1, h2⟩)
        · rw [hoth k hk hk'] at ht
          exact Or.inr (Or.inr ⟨hk, hk', ht⟩)
    refine ⟨H.geo, ?_, hw, fun k hk hkl => hoth k hk (by omega), ?_, ?_⟩
    · intro k t ht
      show (∃ v, OfCell s2.cl s2.mesh.faces k v ∧ 0 < (tri t).plane.ev (pos' v)) ∧ ∃ v, OfCell s2.cl s2.mesh.faces k v ∧ (tri t).plane.ev (pos' v) < 0
      rcases hin k t ht with ⟨rfl, -, hb⟩ | ⟨rfl, -, hb⟩ | ⟨k1, k2, ht'⟩
      · exact htest _ (-1) t (fun v hv => (hof _ v hv).2 rfl) hb
      · exact htest _ 1 t (fun v hv => (hof _ v hv).1 rfl) hb
      · obtain ⟨⟨v, v1, v2⟩, w, w1, w2⟩ := hcut k t ht'
        exact ⟨⟨v, H.old k v k1 v1, by rw [H.same v (hvlt k v v1)]; exact v2⟩, w, H.old k w k1 w1, by rw [H.same w (hvlt k w w1)]; exact w2⟩
    · intro k t ht
      rcases hin k t ht with ⟨rfl, h1, -⟩ | ⟨rfl, h1, -⟩ | ⟨k1, k2, ht'⟩
      · exact ⟨_, by rw [innerOf_some hC]; exact h1⟩
      · exact ⟨_, by rw [innerOf_some hC]; exact h1⟩
      · exact ⟨k, ht'⟩
    · intro n hn hax hal hrec k hk t ht hpass
      have hpn : p < n := hn cid p (by rw [innerOf_some hC]; exact hpm)
      obtain ⟨xh, hxh⟩ := normal_point (tri_normal (hax p hpn))
      change Passes (tri t) (Region pl1 s2.cl k) at hpass
      show t ∈ innerOf s2 k
      -- the vertices of a half span it
      have hspan : ∀ (k : Nat) (sd : SignType) (D : Poly.Cell), s2.cx.cells[k]? = some D → (∃ v, OfCell s2.cl s2.mesh.faces k v) → (∀ q, Region pl1 s2.cl k q → Region g.pl g.s.cl cid q) →
          (∀ v, OfCell s2.cl s2.mesh.faces k v → h.ev (pos' v) ≠ 0 → ∃ x ∈ verts.filter (fun v => sgn v = sd), pos' x = pos' v) →
          ∀ B : Aff K, (∀ v ∈ verts.filter (fun v => sgn v = sd) ++ (s1.mesh.faces.getLast?.getD []).map Prod.fst, 0 ≤ B.ev (pos' v)) → ∀ q, Region pl1 s2.cl k q → 0 ≤ B.ev q := by
        intro k sd D hD hex hsub hold B hB q hq
        rw [hZ1] at hB
        refine H.geo.hull gd2 hD ?_ hq fun x hx => ?_
        · obtain ⟨v, i, P, d, hP, hs, -⟩ := hex
          exact ⟨i, P, hP, hs⟩
        · by_cases h0 : h.ev (pos' x) = 0
          · exact hZhull _ h0 (hsub _ fun i P hP hs => H.geo.side k i P hP hs x hx) B fun z hz => hB z.1 (List.mem_append.2 (Or.inr (List.mem_map_of_mem hz)))
          · obtain ⟨x', hx', e⟩ := hold x hx h0
            rw [← e]
            exact hB x' (List.mem_append.2 (Or.inl hx'))
      -- a triangle that passes through a half is not in the plane
      have hhalf : ∀ (k : Nat) (sd : SignType) (A : Aff K), (∃ x, A.ev x ≠ 0) → (∀ q, A.ev q = 0 ↔ h.ev q = 0) → Passes (tri t) (Region pl1 s2.cl k) → (∀ q, Region pl1 s2.cl k q → Region g.pl g.s.cl cid q ∧ 0 ≤ A.ev q) →
          k < s2.cx.cells.length → (∃ v, OfCell s2.cl s2.mesh.faces k v) →
          (∀ v, OfCell s2.cl s2.mesh.faces k v → h.ev (pos' v) ≠ 0 → ∃ x ∈ verts.filter (fun v => sgn v = sd), pos' x = pos' v) →
          t ∈ (C.inner.filter fun t => !(tests (geoOracle tri axis p (vs.map pos') ip iq) true [] [] []).coplanar p t) ∧ inHalf tri sgn pos' pl1 verts s1 k sd t = true := by
        intro k sd A hA0 hA hpass hsub hk hex hold
        have hmem : t ∈ C.inner := by
          have := hrec cid hcid t ht (by
            obtain ⟨q, hq, hc⟩ := hpass
            exact ⟨q, hq, hc.mono fun q hq => (hsub q hq).1⟩)
          rwa [innerOf_some hC] at this
        refine ⟨List.mem_filter.2 ⟨hmem, ?_⟩, ?_⟩
        · by_contra hc
          rw [Bool.not_eq_true', Bool.not_eq_false] at hc
          obtain ⟨q, hq, hcore⟩ := hpass
          obtain ⟨x, hx⟩ := hA0
          have := hcore.pos (A := A) (fun q hq => (hsub q hq).2) hx
          rw [(hA q).2 (hq.zero ((hcop t).1 hc))] at this
          exact lt_irrefl _ this
        · have hD := List.getElem?_eq_getElem hk
          have := c98_tri_cell gd2 hD H.geo (tri t) (tri_normal (hax t ht)) hpass _ (hspan k sd _ hD hex (fun q hq => (hsub q hq).1) hold)
          rw [inHalf, hcl12, hf12, hD]
          exact this
      have hsd : ∀ x, OfCell g.s.cl g.s.mesh.faces cid x → x ∈ verts ∧ pos' x = g.pos x := fun x hx => ⟨(hvof x).2 hx, H.same x (hvlt cid x hx)⟩
      by_cases hkc : k = cid
      · subst hkc
        rw [hneg]
        obtain ⟨v, v1, v2⟩ := ha.down
        have := hhalf k (-1) h.neg ⟨xh, by rw [Aff.neg_ev]; exact neg_ne_zero.2 hxh⟩ (fun q => by rw [Aff.neg_ev, neg_eq_zero]) hpass
          (fun q hq => ⟨((H.below q).1 hq).1, by rw [Aff.neg_ev]; have := ((H.below q).1 hq).2; linarith⟩) hk ⟨v, H.down v v1 v2⟩ fun v hv h0 => by
            have hle := ((H.below (pos' v)).1 fun i P hP hs => H.geo.side k i P hP hs v hv).2
            have hlt := lt_of_le_of_ne hle h0
            obtain ⟨x, hx, e⟩ := H.downOf v hv hlt
            refine ⟨x, List.mem_filter.2 ⟨(hsd x hx).1, ?_⟩, by rw [(hsd x hx).2, e]⟩
            rw [decide_eq_true_eq]
            show SignType.sign (h.ev (g.pos x)) = -1
            rw [e]; exact sign_neg hlt
        exact List.mem_filter.2 this
      · by_cases hkn : k = nc
        · subst hkn
          rw [hps]
          obtain ⟨v, v1, v2⟩ := ha.up
          have := hhalf _ 1 h ⟨xh, hxh⟩ (fun q => Iff.rfl) hpass (fun q hq => ⟨((H.above q).1 hq).1, ((H.above q).1 hq).2⟩) hk ⟨v, H.up v v1 v2⟩ fun v hv h0 => by
              have hle := ((H.above (pos' v)).1 fun i P hP hs => H.geo.side _ i P hP hs v hv).2
              have hlt := lt_of_le_of_ne hle (Ne.symm h0)
              obtain ⟨x, hx, e⟩ := H.upOf v hv hlt
              refine ⟨x, List.mem_filter.2 ⟨(hsd x hx).1, ?_⟩, by rw [(hsd x hx).2, e]⟩
              rw [decide_eq_true_eq]
              show SignType.sign (h.ev (g.pos x)) = 1
              rw [e]; exact sign_pos hlt
          exact List.mem_filter.2 this
        · rw [hoth k hkc hkn]
          refine hrec k (by change k < s2.cx.cells.length at hk; rw [H.len] at hk; omega) t ht ?_
          obtain ⟨q, hq, hc⟩ := hpass
          exact ⟨q, hq, hc.mono fun q hq => (H.rest q k hkc hkn).1 hq⟩

/-- The whole loop. -/
theorem geoLoop_spec {tri : Nat → Tri3 K} {axis : Nat → Nat} {keep : Nat → Nat → Bool} {nOri : Nat} : ∀ (fuel cid : Nat) (g : GSt K), Good g.s → Geo g.pos g.pl g.s.cl g.s.mesh.faces → Cutting tri g →
    Poly.rounds g.s.cx cid < fuel → (∀ k < cid, innerOf g.s k = []) →
    ∃ g', geoLoop tri axis keep nOri fuel cid g = .done g' ∧
      (∀ (s0 : St) (pos0 : Nat → Pt K) (pl0 : Nat → Aff K), Sliced nOri s0 pos0 pl0 g.s g.pos g.pl → Sliced nOri s0 pos0 pl0 g'.s g'.pos g'.pl) ∧
      Good g'.s ∧ Geo g'.pos g'.pl g'.s.cl g'.s.mesh.faces ∧ (∀ k, innerOf g'.s k = []) ∧
      g'.s.cx.cells.length + Poly.weight (g'.s.cx.cells.map Poly.Cell.inner) ≤ g.s.cx.cells.length + Poly.weight (g.s.cx.cells.map Poly.Cell.inner) ∧
      ∀ n, (∀ k, ∀ t ∈ innerOf g.s k, t < n) → (∀ t < n, orient2dByAxis (tri t).a (tri t).b (tri t).c (axis t) ≠ .zero) → Aligned tri n → Recorded tri n g → Recorded tri n g'
  | 0, _, _, _, _, _, hf, _ => by omega
  | fuel + 1, cid, g, gd, gg, hcut, hf, hd => by
    unfold geoLoop
    cases hC : g.s.cx.cells[cid]? with
    | none =>
      refine ⟨g, rfl, fun _ _ _ h => h, gd, gg, fun k => ?_, le_refl _, fun n _ _ _ h => h⟩
      by_cases hk : k < cid
      · exact hd k hk
      · rw [innerOf, List.getElem?_eq_none (by have := List.getElem?_eq_none_iff.1 hC; omega)]; rfl
    | some C =>
      have hcl := (List.getElem?_eq_some_iff.1 hC).1
      simp only
      by_cases he : C.inner = []
      · rw [if_pos (by simp [he])]
        refine geoLoop_spec fuel (cid + 1) g gd gg hcut (by unfold Poly.rounds at *; omega) fun k hk => ?_
        rcases Nat.lt_or_eq_of_le (Nat.le_of_lt_succ hk) with h1 | h1
        · exact hd k h1
        · rw [h1, innerOf_some hC, he]
      · rw [if_neg (by simpa using he)]
        obtain ⟨g1, e1, hS, gd1, gg1, hcut1, ⟨w1, w2, w3⟩, hsame, hsub, hrec⟩ := geoSplit_spec (axis := axis) (keep := keep fuel) (nOri := nOri) gd gg hcut hC he
        obtain ⟨g2, e2, hS2, gd2, gg2, hin2, hw2, hrec2⟩ := geoLoop_spec (axis := axis) (keep := keep) (nOri := nOri) fuel cid g1 gd1 gg1 hcut1 (by unfold Poly.rounds at *; omega)
          fun k hk => by rw [hsame k (by omega) (by omega)]; exact hd k hk
        rw [e1]
        refine ⟨g2, e2, fun s0 pos0 pl0 h => hS2 _ _ _ (hS _ _ _ h), gd2, gg2, hin2, by omega, fun n h1 h2 h3 h4 => hrec2 n ?_ h2 h3 (hrec n h1 h2 h3 h4)⟩
        intro k t ht
        obtain ⟨k', hk'⟩ := hsub k t ht
        exact h1 k' t hk'

/-- **C97.** The subdivision of a complex of convex cells by triangles ends and does not panic. Suppose the faces and cells of the complex are convex (`Geo`), and the plane of every unresolved triangle of a
cell has vertices of the cell on both sides (`Cutting`). Then the loop, with all its tests evaluated exactly at the positions of the vertices, ends after at most `2 * weight + n + 1` rounds. No cell has an
unresolved triangle left, there are at most `n + weight` cells, all faces and cells are convex, and the new cells are parts of the old ones that cover them and are separated by planes. -/
theorem c97_subdivide (tri : Nat → Tri3 K) (axis : Nat → Nat) (keep : Nat → Nat → Bool) (nOri : Nat) (g : GSt K) (gd : Good g.s) (gg : Geo g.pos g.pl g.s.cl g.s.mesh.faces) (hcut : Cutting tri g) :
    ∃ g', geoLoop tri axis keep nOri (2 * Poly.weight (g.s.cx.cells.map Poly.Cell.inner) + g.s.cx.cells.length + 1) 0 g = .done g' ∧ Good g'.s ∧ Geo g'.pos g'.pl g'.s.cl g'.s.mesh.faces ∧
      (∀ C ∈ g'.s.cx.cells, C.inner = []) ∧ g'.s.cx.cells.length ≤ g.s.cx.cells.length + Poly.weight (g.s.cx.cells.map Poly.Cell.inner) ∧
      ∃ par, Parts (Region g.pl g.s.cl) g.s.cx.cells.length (Region g'.pl g'.s.cl) g'.s.cx.cells.length par := by
  obtain ⟨g', e, hS, gd', gg', hin, hw, -⟩ := geoLoop_spec (tri := tri) (axis := axis) (keep := keep) (nOri := nOri) _ 0 g gd gg hcut (Nat.lt_succ_of_le (Nat.sub_le _ _)) (fun k hk => absurd hk (by omega))
  refine ⟨g', e, gd', gg', fun C hC => ?_, by omega, (sliced_parts gd gg (hS _ _ _ .start)).2.2⟩
  obtain ⟨k, hk⟩ := List.getElem?_of_mem hC
  rw [← innerOf_some hk]; exact hin k

/-- **C99.** After the subdivision no triangle passes through the inside of a cell. Suppose in addition that every triangle that passes through the inside of a cell is one of the unresolved triangles of the
cell (`Recorded`), and that the axes belong to proper projections of the triangles. Missing: two triangles in one plane with opposite orientations, for which the claim is false (`c99_orientation_refuted`). -/
theorem c99_resolved_partial (tri : Nat → Tri3 K) (axis : Nat → Nat) (keep : Nat → Nat → Bool) (nOri n : Nat) (g : GSt K) (gd : Good g.s) (gg : Geo g.pos g.pl g.s.cl g.s.mesh.faces) (hcut : Cutting tri g)
    (hn : ∀ k, ∀ t ∈ innerOf g.s k, t < n) (hax : ∀ t < n, orient2dByAxis (tri t).a (tri t).b (tri t).c (axis t) ≠ .zero) (hal : Aligned tri n) (hrec : Recorded tri n g) :
    ∃ g', geoLoop tri axis keep nOri (2 * Poly.weight (g.s.cx.cells.map Poly.Cell.inner) + g.s.cx.cells.length + 1) 0 g = .done g' ∧
      ∀ k < g'.s.cx.cells.length, ∀ t < n, ¬ Passes (tri t) (Region g'.pl g'.s.cl k) := by
  obtain ⟨g', e, -, -, -, hin, -, hr⟩ := geoLoop_spec (tri := tri) (axis := axis) (keep := keep) (nOri := nOri) _ 0 g gd gg hcut (Nat.lt_succ_of_le (Nat.sub_le _ _)) (fun k hk => absurd hk (by omega))
  refine ⟨g', e, fun k hk t ht hp => ?_⟩
  have := hr n hn hax hal hrec k hk t ht hp
  rw [hin k] at this
  simp at this

end Verif.Bsp
