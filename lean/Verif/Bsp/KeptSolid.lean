import Verif.Bsp.Area
/-!
# The surface between kept and other cells (`src/polygonlization/bsp_complex.rs` lines 741-757)

`complex_partition` builds its result from the faces with `kept_faces[fid] ≠ 0`. Here these faces are compared with the solids bounded by the shells.
-/
namespace Verif.Bsp
open InSphere (Pt)
open Geom (lerp)
open Constraint (Proper)

/-! ### Specification -/

/-- Specification: directly after `q`, on the way to `W`, the property holds. -/
def Soon {K : Type} [Field K] [LinearOrder K] (R : Pt K → Prop) (q W : Pt K) : Prop := ∃ e : K, 0 < e ∧ ∀ u, 0 < u → u ≤ e → R (lerp q W u)

/-- Specification: how far `W` lies in front of the face, seen from the point `q` of the face; the front is the side from which the vertices of the face are seen counterclockwise. -/
def facing {K : Type} [Field K] (pos : Nat → Pt K) (c : Cycle) (q W : Pt K) : K := vdot (loopVec pos c) (vsub W q)

/-- Specification: six times the signed volume of the pyramid from the origin to the face. -/
def cone {K : Type} [Field K] (pos : Nat → Pt K) : Cycle → K
  | [] => 0
  | x :: c => vdot (loopVec pos (x :: c)) (pos x.1)

/-- Specification: six times the volume enclosed by the faces, each taken with its sign. -/
def enclosed {K : Type} [Field K] (pos : Nat → Pt K) (w : List Int) (fs : List Cycle) : K := ((w.zip fs).map fun p => (p.1 : K) * cone pos p.2).sum

section
variable {K : Type} [Field K] [LinearOrder K] [IsStrictOrderedRing K]

theorem facing_ev {pos : Nat → Pt K} {A : Aff K} {c : Cycle} (f : FaceOk pos A c) {q : Pt K} (hq : A.ev q = 0) : ∃ l : K, 0 < l ∧ ∀ W, facing pos c q W = l * A.ev W := by
  obtain ⟨l, l0, hl⟩ := f.size
  refine ⟨l, l0, fun W => ?_⟩
  have h2 : vdot (loopVec pos c) (vsub W q) = _ := vdot_pathVec pos (vsub W q) (hes c)
  have h1 := hl (vsub W q)
  rw [loopSum, ← h2] at h1
  rw [facing, h1]
  have : vdot A.n (vsub W q) = A.ev W - A.ev q := by simp only [Aff.ev, vdot, vsub]; ring
  rw [this, hq, sub_zero]

/-- **C109.** The faces with a sign are exactly the faces with a kept cell, and so a solid, on one side only; the sign turns their front to the outside. -/
theorem c109_faces {s : St} (gd : Good s) {pos : Nat → Pt K} {pl : Nat → Aff K} (g : Geo pos pl s.cl s.mesh.faces) (kept : Nat → Bool) (Solid : Pt K → Prop)
    (hk : ∀ k < s.cx.cells.length, ∀ q, Core (Region pl s.cl k) q → (kept k = true ↔ Solid q))
    (hout : ∀ (i : Nat) (P : Nat × Option Nat), s.cl[i]? = some P → P.2 = none → ∀ q, (pl i).ev q < 0 → ¬ Solid q) (i : Nat) (c : Cycle) (hc : s.mesh.faces[i]? = some c) :
    ∃ w, (keptFaces kept s)[i]? = some w ∧
      (w = 0 → (∀ q W, InsideFace pos (pl i) c q → facing pos c q W ≠ 0 → Soon Solid q W) ∨ ∀ q W, InsideFace pos (pl i) c q → facing pos c q W ≠ 0 → Soon (fun p => ¬ Solid p) q W) ∧
      (w ≠ 0 → ∀ q W, InsideFace pos (pl i) c q → (0 < (w : K) * facing pos c q W → Soon (fun p => ¬ Solid p) q W) ∧ ((w : K) * facing pos c q W < 0 → Soon Solid q W)) := by
  have hi : i < s.cl.length := by rw [St.cl, gd.mesh.len]; exact (List.getElem?_eq_some_iff.1 hc).1
  have hi' : i < s.cx.faces.length := by simpa [St.cl] using hi
  have hF := List.getElem?_eq_getElem hi'
  generalize s.cx.faces[i] = F at hF
  have hcl : s.cl[i]? = some F.cells := by simp [St.cl, hF]
  obtain ⟨l1, l2⟩ := gd.linked.cells i F hF
  have s1 : sg F.cells F.cells.1 = 1 := by
    unfold sg
    rw [if_pos rfl, if_neg fun e => (l2 _ e).2 rfl]; rfl
  have s2 : ∀ d, F.cells.2 = some d → sg F.cells d = -1 := by
    intro d hd
    unfold sg
    rw [if_neg (l2 d hd).2.symm, if_pos hd]; rfl
  have near1 : ∀ q W, InsideFace pos (pl i) c q → 0 < facing pos c q W → Soon (fun p => kept F.cells.1 = true ↔ Solid p) q W := by
    intro q W hq hW
    obtain ⟨l, l0, hl⟩ := facing_ev (g.face i c hc) hq.1
    rw [hl] at hW
    obtain ⟨t, t0, -, ht⟩ := enter g (k := F.cells.1) hcl (by rw [s1]; decide) hc hq (W := W) (by rw [s1]; simpa using pos_of_mul_pos_right hW l0.le)
    exact ⟨t, t0, fun u u0 u1 => hk _ l1 _ (ht u u0 u1)⟩
  have near2 : ∀ q W, InsideFace pos (pl i) c q → facing pos c q W < 0 → Soon (fun p => sideKept kept F.cells.2 = true ↔ Solid p) q W := by
    intro q W hq hW
    obtain ⟨l, l0, hl⟩ := facing_ev (g.face i c hc) hq.1
    rw [hl] at hW
    have hW' : (pl i).ev W < 0 := by
      by_contra h
      exact absurd (mul_nonneg l0.le (not_lt.1 h)) (not_le.2 hW)
    cases h2 : F.cells.2 with
    | none =>
      refine ⟨1, one_pos, fun u u0 _ => ?_⟩
      have := hout i _ hcl h2 (lerp q W u) (by rw [ev_lerp, hq.1, mul_zero, zero_add]; exact mul_neg_of_pos_of_neg u0 hW')
      simp [sideKept, this]
    | some d =>
      obtain ⟨t, t0, -, ht⟩ := enter g (k := d) hcl (by rw [s2 d h2]; decide) hc hq (W := W) (by rw [s2 d h2]; simpa using hW')
      exact ⟨t, t0, fun u u0 u1 => hk _ (l2 d h2).1 _ (ht u u0 u1)⟩
  have yes : ∀ {b : Bool} {q W : Pt K}, b = true → Soon (fun p => b = true ↔ Solid p) q W → Soon Solid q W := fun hb ⟨e, e0, h⟩ => ⟨e, e0, fun u u0 u1 => (h u u0 u1).1 hb⟩
  have no : ∀ {b : Bool} {q W : Pt K}, b = false → Soon (fun p => b = true ↔ Solid p) q W → Soon (fun p => ¬ Solid p) q W := fun hb ⟨e, e0, h⟩ => ⟨e, e0, fun u u0 u1 hs => by
    have := (h u u0 u1).2 hs
    rw [hb] at this; cases this⟩
  refine ⟨keptFace kept F.cells, by simp [keptFaces, hF], ?_⟩
  unfold keptFace
  cases h1 : kept F.cells.1 <;> cases h2 : sideKept kept F.cells.2
  · refine ⟨fun _ => Or.inr fun q W hq hW => ?_, fun h => absurd rfl h⟩
    rcases lt_or_gt_of_ne hW with h | h
    · exact no h2 (near2 q W hq h)
    · exact no h1 (near1 q W hq h)
  · refine ⟨fun h => by simp at h, fun _ q W hq => ⟨fun h => no h1 (near1 q W hq (by simpa using h)), fun h => yes h2 (near2 q W hq (by simpa using h))⟩⟩
  · refine ⟨fun h => by simp at h, fun _ q W hq => ⟨fun h => no h2 (near2 q W hq (by simpa using h)), fun h => yes h1 (near1 q W hq (by simpa using h))⟩⟩
  · refine ⟨fun _ => Or.inl fun q W hq hW => ?_, fun h => absurd rfl h⟩
    rcases lt_or_gt_of_ne hW with h | h
    · exact yes h2 (near2 q W hq h)
    · exact yes h1 (near1 q W hq h)

/-! ### The volume -/

theorem keptFace_cast (kept : Nat → Bool) (p : Nat × Option Nat) {n : Nat} (h1 : p.1 < n) (h2 : ∀ c, p.2 = some c → c < n) :
    (keptFace kept p : K) = -(Finset.range n).sum fun k => if kept k then (sg p k : K) else 0 := by
  rw [keptFace_eq kept p h1 h2, ← sum_range_list]
  push_cast
  rfl

/-- Six times the signed volume inside the boundary of a cell. -/
def cellVol (pos : Nat → Pt K) (cl : List (Nat × Option Nat)) (fs : List Cycle) (k : Nat) : K := -((cl.zip fs).map fun p => (sg p.1 k : K) * cone pos p.2).sum

theorem enclosed_cells (pos : Nat → Pt K) (kept : Nat → Bool) (n : Nat) : ∀ (cl : List (Nat × Option Nat)) (fs : List Cycle), (∀ p ∈ cl, p.1 < n ∧ ∀ c, p.2 = some c → c < n) →
    enclosed pos (cl.map (keptFace kept)) fs = (Finset.range n).sum fun k => if kept k then cellVol pos cl fs k else 0
  | [], fs, _ => by simp [enclosed, cellVol]
  | p :: cl, [], _ => by simp [enclosed, cellVol]
  | p :: cl, c :: fs, h => by
    have ih := enclosed_cells pos kept n cl fs fun q hq => h q (List.mem_cons_of_mem _ hq)
    have hp := h p (by simp)
    unfold enclosed at ih ⊢
    simp only [List.map_cons, List.zip_cons_cons, List.sum_cons]
    rw [ih, keptFace_cast kept p hp.1 hp.2, neg_mul, Finset.sum_mul, ← Finset.sum_neg_distrib, ← Finset.sum_add_distrib]
    refine Finset.sum_congr rfl fun k _ => ?_
    split
    · simp only [cellVol, List.zip_cons_cons, List.map_cons, List.sum_cons]; ring
    · simp

theorem zip_sum (pos : Nat → Pt K) (k : Nat) : ∀ (cl : List (Nat × Option Nat)) (fs : List Cycle), cl.length = fs.length →
    ((cl.zip fs).map fun p => (sg p.1 k : K) * cone pos p.2).sum = (Finset.range fs.length).sum fun i => (sgAt cl i k : K) * cone pos (fs.getD i [])
  | [], [], _ => by simp
  | p :: cl, c :: fs, h => by
    rw [List.zip_cons_cons, List.map_cons, List.sum_cons, zip_sum pos k cl fs (by simpa using h), List.length_cons, Finset.sum_range_succ', add_comm]
    rfl

/-- **C109.** The volume enclosed by the faces with their signs is the sum of the volumes of the kept cells, each of which is positive. -/
theorem c109_volume {s : St} (gd : Good s) {pos : Nat → Pt K} {pl : Nat → Aff K} (g : Geo pos pl s.cl s.mesh.faces) (kept : Nat → Bool) :
    (enclosed pos (keptFaces kept s) s.mesh.faces = (Finset.range s.cx.cells.length).sum fun k => if kept k then enclosed pos (keptFaces (fun l => l == k) s) s.mesh.faces else 0) ∧
    ∀ k < s.cx.cells.length, (∃ P ∈ s.cl, sg P k ≠ 0) → 0 < enclosed pos (keptFaces (fun l => l == k) s) s.mesh.faces := by
  have hb : ∀ p ∈ s.cl, p.1 < s.cx.cells.length ∧ ∀ c, p.2 = some c → c < s.cx.cells.length := by
    intro p hp
    obtain ⟨F, hF, rfl⟩ := List.mem_map.1 hp
    obtain ⟨f, hf⟩ := List.getElem?_of_mem hF
    have := gd.linked.cells f F hf
    exact ⟨this.1, fun c hc => (this.2 c hc).1⟩
  have e1 : ∀ kept, keptFaces kept s = s.cl.map (keptFace kept) := fun kept => by rw [keptFaces, St.cl, List.map_map]; rfl
  have one : ∀ k < s.cx.cells.length, enclosed pos (keptFaces (fun l => l == k) s) s.mesh.faces = cellVol pos s.cl s.mesh.faces k := by
    intro k hk
    rw [e1, enclosed_cells pos _ _ _ _ hb, Finset.sum_eq_single_of_mem k (Finset.mem_range.2 hk)]
    · simp
    · intro l _ hl; simp [hl]
  refine ⟨?_, fun k hk hs => ?_⟩
  · rw [e1, enclosed_cells pos _ _ _ _ hb]
    refine Finset.sum_congr rfl fun k hk => ?_
    rw [one k (Finset.mem_range.1 hk)]
  · obtain ⟨φ, h1, h2⟩ := volumes g gd.mesh
    rw [one k hk, cellVol, zip_sum pos k s.cl s.mesh.faces gd.mesh.len, ← Finset.sum_neg_distrib]
    refine lt_of_lt_of_eq (h2 k hs) (Finset.sum_congr rfl fun i hi => ?_)
    have hi := Finset.mem_range.1 hi
    rw [List.getD_eq_getElem _ _ hi]
    have h3 := h1 i _ (List.getElem?_eq_getElem hi)
    have h4 := (g.face i _ (List.getElem?_eq_getElem hi)).fat
    generalize s.mesh.faces[i] = c at h3 h4
    cases c with
    | nil => obtain ⟨-, -, x, hx, -⟩ := h4; cases hx
    | cons x c =>
      have h5 := h3 x (by simp)
      have h6 : vdot (loopVec pos (x :: c)) (pos x.1) = _ := vdot_pathVec pos (pos x.1) (hes (x :: c))
      rw [loopSum, ← h6] at h5
      rw [cone, h5]; ring

/-- **C109.** The whole way of `make_mesh_for_triangles` up to `kept_faces`, for triangles in general position that bound solids: the faces with a sign form a closed surface, each of them has a solid
on exactly one side and its sign turns its front to the other side, the other faces lie inside a solid or outside of all of them, and the enclosed volume is positive unless no cell is kept. -/
theorem c109_surface {T : Type} [Field T] [LinearOrder T] [IsStrictOrderedRing T] {norm : Pt K → T} (hN : IsNorm norm) (ch : Choices) (hch : ch.Good) (eps : K) (lead : K → K) (hl0 : ∀ x, lead x = 0 ↔ x = 0) (hl1 : ∀ x, 0 ≤ lead x)
    (pts : List (Pt K)) (h4 : 4 ≤ pts.length) (hn : pts.length ≤ 1021) (hg : General pts) (hflat : ∀ box s, Tet.boxOf pts = some box → Tet.boxSize box = some s → ¬ Delaunay.FlatPts pts s)
    (tris : List (Nat × Nat × Nat)) (hc : ∀ c ∈ tris, Proper pts.length c) (hd : Different tris) (hcl : ∀ c ∈ tris, ∀ i : Fin 3, ∃ d ∈ tris, ∃ j : Fin 3, toTri d j = toTri c (i + 1) ∧ toTri d (j + 1) = toTri c i)
    (shells : List Nat) (nShells : Nat) (In : Nat → Pt K → Prop) (hI : ∀ sh < nShells, SurfaceOf (triAt pts tris) (fun t => t < tris.length ∧ shells.getD t 0 = sh) (In sh))
    (hout : ∀ sh < nShells, ∀ p, ¬ InHull pts p → ¬ In sh p) :
    ∃ fuel g as kept w, makeProper ch eps lead fuel pts tris = some (tris, g) ∧ faceAreas norm g = some as ∧
      (∀ fuel ≥ 1, cellKept fuel (shellsOf (triAt pts tris) (axisAt eps lead pts tris) (fun i => as.getD i 0) (fun t => shells.getD t 0) nShells g) g.s.cx = some kept) ∧
      w = keptFaces (fun k => kept.getD k false) g.s ∧ w.length = g.s.mesh.faces.length ∧ (∀ e u, balance g.s.mesh w e u = 0) ∧
      (∀ (i : Nat) (c : Cycle) (x : Int), g.s.mesh.faces[i]? = some c → w[i]? = some x → (∃ q, InsideFace g.pos (g.pl i) c q) ∧
        (x = 0 → (∀ q W, InsideFace g.pos (g.pl i) c q → facing g.pos c q W ≠ 0 → Soon (fun p => ∃ sh < nShells, In sh p) q W) ∨
          ∀ q W, InsideFace g.pos (g.pl i) c q → facing g.pos c q W ≠ 0 → Soon (fun p => ¬ ∃ sh < nShells, In sh p) q W) ∧
        (x ≠ 0 → ∀ q W, InsideFace g.pos (g.pl i) c q → (0 < (x : K) * facing g.pos c q W → Soon (fun p => ¬ ∃ sh < nShells, In sh p) q W) ∧
          ((x : K) * facing g.pos c q W < 0 → Soon (fun p => ∃ sh < nShells, In sh p) q W))) ∧
      0 ≤ enclosed g.pos w g.s.mesh.faces ∧ (enclosed g.pos w g.s.mesh.faces = 0 ↔ ∀ b ∈ kept, b = false) := by
  obtain ⟨fuel, g, as, kept, e1, e2, gd, gg, hbd, e3, hlen, hull, -, -, hk⟩ := c107_solid hN ch hch eps lead hl0 hl1 pts h4 hn hg hflat tris hc hd hcl shells nShells In hI hout
  have hkept : ∀ k, kept.getD k false = true ↔ kept[k]? = some true := by
    intro k
    rw [List.getD_eq_getElem?_getD]
    cases kept[k]? with
    | none => simp
    | some b => simp
  have hF := c109_faces gd gg (fun k => kept.getD k false) (fun p => ∃ sh < nShells, In sh p) (fun k hkl q hq => (hkept k).trans (hk k hkl q hq)) (fun i P hP hP2 q hq ⟨sh, hsh, hin⟩ => by
    by_cases h : InHull pts q
    · exact absurd (hbd i P hP hP2 q h) (not_le.2 hq)
    · exact hout sh hsh q h hin)
  obtain ⟨v1, v2⟩ := c109_volume gd gg fun k => kept.getD k false
  have hcell : ∀ k < g.s.cx.cells.length, ∃ P ∈ g.s.cl, sg P k ≠ 0 := by
    intro k hkl
    by_contra hno
    obtain ⟨p, hp⟩ := exists_not_hull pts
    exact hp ((hull p).2 ⟨k, hkl, fun i P hP hs => absurd ⟨P, List.mem_of_getElem? hP, hs⟩ hno⟩)
  have hnn : ∀ k ∈ Finset.range g.s.cx.cells.length, 0 ≤ if kept.getD k false then enclosed g.pos (keptFaces (fun l => l == k) g.s) g.s.mesh.faces else 0 := by
    intro k hkl
    have hkl := Finset.mem_range.1 hkl
    split
    · exact (v2 k hkl (hcell k hkl)).le
    · exact le_rfl
  refine ⟨fuel, g, as, kept, _, e1, e2, e3, rfl, by rw [keptFaces, List.length_map]; simpa using gd.mesh.len, (c76_kept_faces g.s gd _).1, fun i c x hci hx => ⟨⟨_, (gg.face i c hci).center⟩, ?_⟩, ?_, ?_⟩
  · obtain ⟨y, hy, h⟩ := hF i c hci
    rw [hx, Option.some.injEq] at hy
    subst hy
    exact h
  · rw [v1]; exact Finset.sum_nonneg hnn
  · rw [v1, Finset.sum_eq_zero_iff_of_nonneg hnn]
    constructor
    · intro h b hb
      obtain ⟨k, hkl, rfl⟩ := List.mem_iff_getElem.1 hb
      have h1 := h k (Finset.mem_range.2 (by omega))
      rw [List.getD_eq_getElem _ _ hkl] at h1
      by_contra hne
      rw [if_pos (by simpa using hne)] at h1
      exact absurd h1 (v2 k (by omega) (hcell k (by omega))).ne'
    · intro h k hkl
      have hkl := Finset.mem_range.1 hkl
      rw [List.getD_eq_getElem _ _ (by omega), h _ (List.getElem_mem _)]
      simp

end

/-- C109 for the tetrahedron with a point inside and one outside. -/
example := c109_surface euclid_norm plainChoices plain_good (1 / 1000000) (fun x => |x|) (fun _ => abs_eq_zero) (fun x => abs_nonneg x) genPts (by decide) (by decide) gen_general (by
    intro box s hb hs
    have : Tet.boxOf genPts = some [0, 0, 0, 5, 6, 7] := by decide +kernel
    rw [this, Option.some.injEq] at hb
    subst hb
    have : Tet.boxSize ([0, 0, 0, 5, 6, 7] : List ℚ) = some 110 := by decide +kernel
    rw [this, Option.some.injEq] at hs
    subst hs
    unfold Delaunay.FlatPts
    decide +kernel) genCs gen_proper (by unfold Different; decide +kernel) (by decide +kernel) [0, 0, 0, 0] 1 (fun _ => InTet) (fun sh hsh => by
    obtain rfl : sh = 0 := by omega
    have h := gen_surface
    have e : ∀ t, t < 4 → ([0, 0, 0, 0] : List Nat).getD t 0 = 0 := by decide
    exact ⟨fun p q hp => h.free p q fun t ht => hp t ⟨ht.1, e t ht.1⟩, fun t ht => h.front t ⟨ht.1, rfl⟩, fun t ht => h.back t ⟨ht.1, rfl⟩⟩) (fun _ _ p hp hin => hp (gen_hull p hin))

/-- A tetrahedron with corners 4 away from the origin along the axes: all faces have a sign, and the volume is 64 / 6. -/
example : (makeProper plainChoices (1 / 1000000) (fun x => |x|) 9 (ptsOf [0, 0, 0, 0, 0, 4, 0, 4, 0, 4, 0, 0]) [(3, 2, 1), (0, 3, 1), (0, 2, 3), (0, 1, 2)]).map
    (fun r => ((keptFaces (fun _ => true) r.2.s).map Int.natAbs, enclosed r.2.pos (keptFaces (fun _ => true) r.2.s) r.2.s.mesh.faces)) = some ([1, 1, 1, 1], 64) := by decide +kernel

end Verif.Bsp
