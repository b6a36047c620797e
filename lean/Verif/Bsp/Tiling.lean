import Verif.Bsp.Slices
import Verif.Delaunay.Props
/-!
# The cells tile the convex hull of the points

From the Delaunay tetrahedralization through `BSPComplex::new` and any number of cuts.
-/
namespace Verif.Bsp
open InSphere (Pt)
open Geom (lerp)
open Poly (ordOf)
open Delaunay (IsDelaunay SolidTet Comb)
open scoped BigOperators

variable {K : Type} [Field K]

/-- Specification: a point inside of a set: from it one can go a bit into every direction. -/
def Core [LinearOrder K] (R : Pt K → Prop) (q : Pt K) : Prop := ∀ p, ∃ t : K, 0 < t ∧ R (lerp q p t)

/-- Specification: the convex hull of a list of points. -/
def InHull [LinearOrder K] (pts : List (Pt K)) (p : Pt K) : Prop := ∃ w : Fin pts.length → K, (∀ i, 0 ≤ w i) ∧ Comb (fun i => pts[i]) w p

/-- Cramer's rule. -/
theorem cramer (c : Fin 4 → Pt K) (hv : volume c ≠ 0) (q : Pt K) : Comb c (fun j => volume (Function.update c j q) / volume c) q := by
  have e0 : volume (Function.update c 0 q) = vdet (vsub (c 1) q) (vsub (c 2) q) (vsub (c 3) q) := by simp [volume]
  have e1 : volume (Function.update c 1 q) = vdet (vsub q (c 0)) (vsub (c 2) (c 0)) (vsub (c 3) (c 0)) := by simp [volume]
  have e2 : volume (Function.update c 2 q) = vdet (vsub (c 1) (c 0)) (vsub q (c 0)) (vsub (c 3) (c 0)) := by simp [volume]
  have e3 : volume (Function.update c 3 q) = vdet (vsub (c 1) (c 0)) (vsub (c 2) (c 0)) (vsub q (c 0)) := by simp [volume]
  constructor
  · simp only [Fin.sum_univ_four, e0, e1, e2, e3]
    field_simp
    simp only [volume, vdet, vsub]; ring
  all_goals
    simp only [Fin.sum_univ_four, e0, e1, e2, e3]
    field_simp
    simp only [volume, vdet, vsub]; ring

variable [LinearOrder K] [IsStrictOrderedRing K]

/-- The faces of a tetrahedral cell measure the volumes. -/
theorem TetCell.value {pos : Nat → Pt K} {cl : List (Nat × Option Nat)} {fs : List Cycle} {k : Nat} {x : Tet.Tet} {σ : Equiv.Perm (Fin 4)} {c : Cycle} {i : Nat} (hc : fs[i]? = some c)
    (e : c.map Prod.fst = [x.data (σ 0), x.data (σ 1), x.data (σ 2)]) (q : Pt K) :
    (((Equiv.Perm.sign σ : Int)) : K) * (facePlane pos fs i).ev q = volume (Function.update (fun j => pos (x.data j)) (σ 3) q) := by
  have h := through_perm (Function.update (fun j => pos (x.data j)) (σ 3) q) σ
  have hne : ∀ l : Fin 4, l ≠ 3 → σ l ≠ σ 3 := fun l hl e => hl (σ.injective e)
  rw [Function.update_self, Function.update_of_ne (hne 0 (by decide)), Function.update_of_ne (hne 1 (by decide)), Function.update_of_ne (hne 2 (by decide))] at h
  rw [facePlane_eq hc e]
  exact h

theorem TetCell.region {pos : Nat → Pt K} {cl : List (Nat × Option Nat)} {fs : List Cycle} (hlen : cl.length = fs.length) {k : Nat} {x : Tet.Tet} (h : TetCell cl fs k x) (q : Pt K) :
    Region (facePlane pos fs) cl k q ↔ ∀ j, 0 ≤ volume (Function.update (fun j => pos (x.data j)) j q) := by
  constructor
  · intro hq j
    obtain ⟨i, P, c, σ, e3, hP, hs, hc, e⟩ := h.1 j
    have := hq i P hP (by rw [hs]; exact Units.ne_zero _)
    rw [hs, TetCell.value (cl := cl) (k := k) hc e, e3] at this
    exact this
  · intro hq i P hP hs
    have hi : i < fs.length := by rw [← hlen]; exact (List.getElem?_eq_some_iff.1 hP).1
    obtain ⟨fc, hf⟩ := h.2
    obtain ⟨σ, -, e1, e2⟩ := hf i P _ hP hs (List.getElem?_eq_getElem hi)
    rw [e1, TetCell.value (cl := cl) (k := k) (List.getElem?_eq_getElem hi) e2]
    exact hq _

/-- The volume as an affine function of one corner. -/
theorem volume_lerp (c : Fin 4 → Pt K) (j : Fin 4) (p q : Pt K) (t : K) :
    volume (Function.update c j (lerp p q t)) = (1 - t) * volume (Function.update c j p) + t * volume (Function.update c j q) := by
  match j with
  | 0 => simp [volume, vdet, vsub, lerp]; ring
  | 1 => simp [volume, vdet, vsub, lerp]; ring
  | 2 => simp [volume, vdet, vsub, lerp]; ring
  | 3 => simp [volume, vdet, vsub, lerp]; ring

theorem volume_comb (c : Fin 4 → Pt K) {w : Fin 4 → K} {q : Pt K} (h : Comb c w q) (j : Fin 4) : volume (Function.update c j q) = w j * volume c := by
  have hs := h.sum
  have hx := h.x
  have hy := h.y
  have hz := h.z
  rw [Fin.sum_univ_four] at hs hx hy hz
  have hw : w 0 = 1 - w 1 - w 2 - w 3 := by linear_combination hs
  rw [hw] at hx hy hz
  match j with
  | 0 => simp [volume, vdet, vsub, hx, hy, hz, hw]; ring
  | 1 => simp [volume, vdet, vsub, hx, hy, hz]; ring
  | 2 => simp [volume, vdet, vsub, hx, hy, hz]; ring
  | 3 => simp [volume, vdet, vsub, hx, hy, hz]; ring

theorem core_pos {c : Fin 4 → Pt K} (hv : 0 < volume c) {R : Pt K → Prop} (hR : ∀ q, R q → ∀ j, 0 ≤ volume (Function.update c j q)) {q : Pt K} (hq : Core R q) (j : Fin 4) :
    0 < volume (Function.update c j q) := by
  have h0 : 0 ≤ volume (Function.update c j q) := by
    obtain ⟨t, -, ht⟩ := hq q
    have : lerp q q t = q := by
      cases q; simp only [lerp]; congr 1 <;> ring
    rw [this] at ht
    exact hR q ht j
  refine lt_of_le_of_ne h0 fun h0 => ?_
  obtain ⟨t, t0, ht⟩ := hq (lerp q (c j) (-1))
  have h1 := hR _ ht j
  rw [volume_lerp, volume_lerp, ← h0, Function.update_eq_self] at h1
  nlinarith

theorem Core.mono {R S : Pt K → Prop} (h : ∀ q, R q → S q) {q : Pt K} (hq : Core R q) : Core S q := fun p => by
  obtain ⟨t, t0, ht⟩ := hq p
  exact ⟨t, t0, h _ ht⟩

theorem Core.mem {R : Pt K → Prop} {q : Pt K} (hq : Core R q) : R q := by
  obtain ⟨t, -, ht⟩ := hq q
  have : lerp q q t = q := by
    cases q; simp only [lerp]; congr 1 <;> ring
  rwa [this] at ht

/-- Sets on different sides of a plane have no common inner point. -/
theorem core_apart {R S : Pt K → Prop} {h : Aff K} (hp : ∃ p, 0 < h.ev p) (hR : ∀ q, R q → h.ev q ≤ 0) (hS : ∀ q, S q → 0 ≤ h.ev q) {q : Pt K} (h1 : Core R q) (h2 : Core S q) : False := by
  have e : h.ev q = 0 := le_antisymm (hR q h1.mem) (hS q h2.mem)
  obtain ⟨p, hp⟩ := hp
  obtain ⟨t, t0, ht⟩ := h1 p
  have := hR _ ht
  rw [ev_lerp, e] at this
  nlinarith

/-- Weights of corners as weights of points. -/
theorem inHull_of_corners {pts : List (Pt K)} {f : Fin 4 → Nat} {c : Fin 4 → Pt K} (hf : ∀ j, pts[f j]? = some (c j)) {w : Fin 4 → K} (hw : ∀ j, 0 ≤ w j) {p : Pt K} (h : Comb c w p) : InHull pts p := by
  have hlt : ∀ j, f j < pts.length := fun j => (List.getElem?_eq_some_iff.1 (hf j)).1
  have hget : ∀ j, pts[f j]'(hlt j) = c j := fun j => (List.getElem?_eq_some_iff.1 (hf j)).2
  let W : Fin pts.length → K := fun i => ∑ j, if (⟨f j, hlt j⟩ : Fin pts.length) = i then w j else 0
  have key : ∀ g : Pt K → K, (∑ i : Fin pts.length, W i * g pts[i]) = ∑ j, w j * g (c j) := by
    intro g
    simp only [W, Finset.sum_mul]
    rw [Finset.sum_comm]
    refine Finset.sum_congr rfl fun j _ => ?_
    simp only [ite_mul, zero_mul, Finset.sum_ite_eq, Finset.mem_univ, if_true]
    rw [← hget j]; rfl
  refine ⟨W, fun i => Finset.sum_nonneg fun j _ => by split; exacts [hw j, le_refl _], ?_, ?_, ?_, ?_⟩
  · have := key fun _ => 1
    simp only [mul_one] at this
    rw [this, h.sum]
  · rw [h.x]; exact (key (·.x)).symm
  · rw [h.y]; exact (key (·.y)).symm
  · rw [h.z]; exact (key (·.z)).symm

/-- The positions of the points. -/
def posOf (pts : List (Pt K)) (v : Nat) : Pt K := pts[v]?.getD ⟨0, 0, 0⟩

/-- **C96.** The cells tile the convex hull of the points. Let the mesh be a Delaunay tetrahedralization of the points (as `tetrahedralize` returns it, C62), with marks of any kind.
`BSPComplex::new` does not panic, and after any number of calls of `split_cell` that return, each comparing the vertices of its cell with an arbitrary plane:
the complex is watertight; with the new vertices where the edges meet the planes, every face is a convex polygon and every cell the convex polyhedron its faces bound;
a point lies in some cell exactly if it lies in the convex hull of the points; and no point is inside of two different cells. -/
theorem c96_tiling (order : List Nat → List Nat) (ho : ∀ l, (order l).Perm l) (pts : List (Pt K)) (m : Tet.Mesh) (hD : IsDelaunay pts m) (marks : Nat → Nat → List Nat) (nOri : Nat)
    (hs : ∃ x ∈ m.tets, x.data 3 ≠ pts.length) :
    ∃ s0 sm, initial order m marks nOri = some (s0, sm) ∧ ∀ s pos pl, Sliced nOri s0 (posOf pts) (facePlane (posOf pts) s0.mesh.faces) s pos pl →
      Good s ∧ Geo pos pl s.cl s.mesh.faces ∧
        (∀ p, InHull pts p ↔ ∃ k < s.cx.cells.length, Region pl s.cl k p) ∧
        ∀ k < s.cx.cells.length, ∀ l < s.cx.cells.length, k ≠ l → ∀ q, ¬ (Core (Region pl s.cl k) q ∧ Core (Region pl s.cl l) q) := by
  have hpt : ∀ (t : Nat) (x : Tet.Tet), m.tets[t]? = some x → x.data 3 ≠ pts.length → ∀ i, pts[x.data i]? = some (posOf pts (x.data i)) := by
    intro t x hx h3 i
    obtain ⟨p0, p1, p2, p3⟩ := hD.point t x hx
    have : x.data i < pts.length := by
      match i with
      | 0 => exact p0
      | 1 => exact p1
      | 2 => exact p2
      | 3 => omega
    rw [posOf, List.getElem?_eq_getElem this]; rfl
  have hvol : ∀ (t : Nat) (x : Tet.Tet), m.tets[t]? = some x → x.data 3 ≠ pts.length → 0 < volume fun j => posOf pts (x.data j) := by
    intro t x hx h3
    have := (hD.sphere t (fun j => posOf pts (x.data j)) ⟨x, hx, h3, hpt t x hx h3⟩).1
    have e : InSphere.orient3d (posOf pts (x.data 0)) (posOf pts (x.data 1)) (posOf pts (x.data 2)) (posOf pts (x.data 3)) = - volume fun j => posOf pts (x.data j) := by
      simp only [InSphere.orient3d, volume, vdet, vsub]; ring
    rw [e] at this
    linarith
  obtain ⟨s0, sm, e0, -, -, gd0, g0, htet, hsur⟩ := init_geo order ho m hD.whole marks nOri (by rw [hD.num]; exact hs) (posOf pts) (fun x hx h3 => by
    obtain ⟨t, ht⟩ := List.getElem?_of_mem hx
    exact hvol t x ht (by rw [← hD.num]; exact h3))
  have hsolid : ∀ {t k : Nat} {x : Tet.Tet}, ordOf m t = some k → m.tets[t]? = some x → x.data 3 ≠ pts.length := by
    intro t k x h1 h2 e
    rw [Poly.ordOf_eq h2, hD.num, if_pos e] at h1
    cases h1
  refine ⟨s0, sm, e0, fun s pos pl hS => ?_⟩
  obtain ⟨gd, g, par, P⟩ := sliced_parts gd0 g0 hS
  refine ⟨gd, g, fun p => ⟨?_, ?_⟩, ?_⟩
  · rintro ⟨w, hw, hc⟩
    obtain ⟨t, c, w', ⟨x, hx, h3, hxc⟩, hw', hc'⟩ := hD.cover p w hw hc
    have hk : ordOf m t = some (Poly.solidBefore m.nPoints m.tets t) := by rw [Poly.ordOf_eq hx, hD.num, if_neg h3]
    obtain ⟨hlt, hT⟩ := htet t _ x hk hx
    have hcc : (fun j => posOf pts (x.data j)) = c := by
      funext j
      have h1 := hpt t x hx h3 j
      rw [hxc j] at h1
      exact (Option.some.inj h1).symm
    obtain ⟨k, k1, -, k2⟩ := P.cover _ hlt p ((hT.region gd0.mesh.len p).2 fun j => by
      rw [hcc, volume_comb c hc' j]
      exact mul_nonneg (hw' j) (by rw [← hcc]; exact (hvol t x hx h3).le))
    exact ⟨k, k1, k2⟩
  · rintro ⟨k, hk, hq⟩
    obtain ⟨t, x, h1, h2⟩ := hsur _ (P.lt k hk)
    have hT := (htet t _ x h1 h2).2
    have hR := (hT.region gd0.mesh.len p).1 (P.sub k hk p hq)
    have hv := hvol t x h2 (hsolid h1 h2)
    exact inHull_of_corners (hpt t x h2 (hsolid h1 h2)) (fun j => div_nonneg (hR j) hv.le) (cramer _ hv.ne' p)
  · rintro k hk l hl hkl q ⟨hq1, hq2⟩
    by_cases hpar : par k = par l
    · obtain ⟨h, up, -, b1, b2⟩ := P.apart k hk l hl hkl hpar
      exact core_apart up b1 b2 hq1 hq2
    · obtain ⟨t, x, h1, h2⟩ := hsur _ (P.lt k hk)
      obtain ⟨u, y, h3, h4⟩ := hsur _ (P.lt l hl)
      have hTx := (htet t _ x h1 h2).2
      have hTy := (htet u _ y h3 h4).2
      have hvx := hvol t x h2 (hsolid h1 h2)
      have hvy := hvol u y h4 (hsolid h3 h4)
      have px := core_pos hvx (fun q hq => (hTx.region gd0.mesh.len q).1 (P.sub k hk q hq)) hq1
      have py := core_pos hvy (fun q hq => (hTy.region gd0.mesh.len q).1 (P.sub l hl q hq)) hq2
      have := hD.apart t u _ _ _ _ q ⟨x, h2, hsolid h1 h2, hpt t x h2 (hsolid h1 h2)⟩ ⟨y, h4, hsolid h3 h4, hpt u y h4 (hsolid h3 h4)⟩
        (fun j => div_pos (px j) hvx) (fun j => div_pos (py j) hvy) (cramer _ hvx.ne' q) (cramer _ hvy.ne' q)
      subst this
      rw [h1] at h3
      exact hpar (Option.some.inj h3)

/-- **C96**, from the points on: for at least four and at most 1021 distinct points `tetrahedralize` returns, and unless the points are flat in the sense of its tests, the cells
of the complex made of its result tile the convex hull of the points, whatever the marks and the cuts. -/
theorem c96_from_points (pts : List (Pt K)) (hd : pts.Nodup) (h4 : 4 ≤ pts.length) (hn : pts.length ≤ 1021) (shuffled : List Nat) (hs : shuffled.Perm (List.range pts.length)) (fuel : Nat)
    (hf : 2 * pts.length * pts.length ≤ fuel) : ∃ m, Tet.tetrahedralize pts fuel shuffled = some m ∧
      ((m.tets = [] ∧ ∃ box s, Tet.boxOf pts = some box ∧ Tet.boxSize box = some s ∧ Delaunay.FlatPts pts s) ∨
        ∀ (order : List Nat → List Nat), (∀ l, (order l).Perm l) → ∀ (marks : Nat → Nat → List Nat) (nOri : Nat), ∃ s0 sm, initial order m marks nOri = some (s0, sm) ∧
          ∀ s pos pl, Sliced nOri s0 (posOf pts) (facePlane (posOf pts) s0.mesh.faces) s pos pl → Good s ∧ Geo pos pl s.cl s.mesh.faces ∧
            (∀ p, InHull pts p ↔ ∃ k < s.cx.cells.length, Region pl s.cl k p) ∧
            ∀ k < s.cx.cells.length, ∀ l < s.cx.cells.length, k ≠ l → ∀ q, ¬ (Core (Region pl s.cl k) q ∧ Core (Region pl s.cl l) q)) := by
  obtain ⟨m, e, h | h⟩ := Delaunay.c85_tetrahedralize_partial pts hd h4 shuffled hs fuel hf (Or.inl hn)
  · refine ⟨m, e, Or.inr fun order ho marks nOri => c96_tiling order ho pts m h marks nOri ?_⟩
    have h0 : 0 < pts.length := by omega
    obtain ⟨t, c, -, ⟨x, hx, h3, -⟩, -⟩ := h.cover pts[0] (fun i => if i = ⟨0, h0⟩ then 1 else 0) (fun i => by split; exacts [zero_le_one, le_refl _])
      ⟨by simp, by simp, by simp, by simp⟩
    exact ⟨x, List.mem_of_getElem? hx, h3⟩
  · exact ⟨m, e, Or.inl h⟩

/-! ### Example -/

/-- Six points, two planes: the cells 0 and 1 are cut by the first, then the cell 0 by the second. -/
def cutPlane : Aff ℚ := ⟨⟨4, 2, 1⟩, -4⟩
def cutPlane2 : Aff ℚ := ⟨⟨0, 0, 1⟩, -1⟩
def cutOracle : Oracle := { coplanar := fun a b => a == b, meets := fun _ => true, hasPos := fun _ => true, hasNeg := fun _ => true, inPos := fun _ => true, inNeg := fun _ => true }
def sixMesh : Tet.Mesh := (Tet.tetrahedralize Delaunay.sixPts 72 [0, 1, 2, 3, 4, 5]).getD (Tet.Mesh.new 0)
def sixSt : St := ((initial id sixMesh (fun k _ => if k = 4 then [0, 1] else []) 2).map Prod.fst).getD ⟨⟨[], []⟩, ⟨0, 0, []⟩⟩
def planeSgn (h : Aff ℚ) (pos : Nat → Pt ℚ) (v : Nat) : SignType := SignType.sign (h.ev (pos v))
def cutBy (h : Aff ℚ) (pos : Nat → Pt ℚ) (pl : Nat → Aff ℚ) (s : St) (cid : Nat) : Option (St × (Nat → Pt ℚ) × (Nat → Aff ℚ)) := do
  let C ← s.cx.cells[cid]?
  let s' ← splitCell cutOracle (planeSgn h pos) (fun _ => true) 2 s cid
  some (s', slicePos h (planeSgn h pos) pos s C, planesAfter h (planeSgn h pos) pl s s' cid C)
def sixPl : Nat → Aff ℚ := facePlane (posOf Delaunay.sixPts) sixSt.mesh.faces
def cutRun : Option (St × (Nat → Pt ℚ) × (Nat → Aff ℚ)) := do
  let a ← cutBy cutPlane (posOf Delaunay.sixPts) sixPl sixSt 0
  let b ← cutBy cutPlane a.2.1 a.2.2 a.1 1
  cutBy cutPlane2 b.2.1 b.2.2 b.1 0

theorem cutBy_sliced {s0 : St} {pos0 : Nat → Pt ℚ} {h : Aff ℚ} {pos : Nat → Pt ℚ} {pl0 pl : Nat → Aff ℚ} {s : St} {cid : Nat} {r : St × (Nat → Pt ℚ) × (Nat → Aff ℚ)} (hS : Sliced 2 s0 pos0 pl0 s pos pl)
    (e : cutBy h pos pl s cid = some r) : Sliced 2 s0 pos0 pl0 r.1 r.2.1 r.2.2 := by
  obtain ⟨C, hC, e⟩ := Option.bind_eq_some_iff.1 e
  obtain ⟨s', hs', e⟩ := Option.bind_eq_some_iff.1 e
  cases e
  exact Sliced.cut h hS (by simp [cutOracle]) hC (fun v _ => rfl) hs'

theorem six_delaunay : IsDelaunay Delaunay.sixPts sixMesh := by
  obtain ⟨m, e, h | ⟨h, -⟩⟩ := Delaunay.c85_tetrahedralize_partial Delaunay.sixPts (by decide +kernel) (by decide) [0, 1, 2, 3, 4, 5] (by decide) 72 (by decide) (Or.inl (by decide))
  · rw [sixMesh, e]; exact h
  · exfalso
    have : (Tet.tetrahedralize Delaunay.sixPts 72 [0, 1, 2, 3, 4, 5]).map (fun m => m.tets.length) = some 12 := by decide +kernel
    rw [e, Option.map_some, h] at this
    cases this

theorem cutRun_sliced {r : St × (Nat → Pt ℚ) × (Nat → Aff ℚ)} (e : cutRun = some r) : Sliced 2 sixSt (posOf Delaunay.sixPts) sixPl r.1 r.2.1 r.2.2 := by
  obtain ⟨a, ha, e⟩ := Option.bind_eq_some_iff.1 e
  obtain ⟨b, hb, e⟩ := Option.bind_eq_some_iff.1 e
  exact cutBy_sliced (cutBy_sliced (cutBy_sliced Sliced.start ha) hb) e

/-- The initial complex of the six points has 4 cells and 12 faces; after the three cuts there are 7 cells and 12 vertices; the first new vertex is where the edge from
(0, 0, 0) to (1, 1, 3) meets the first plane. -/
example : sixSt.cx.cells.length = 4 ∧ sixSt.mesh.faces.length = 12 ∧ cutRun.map (fun r => (r.1.cx.cells.length, r.1.mesh.nV, r.2.1 6)) = some (7, 12, ⟨4/9, 4/9, 4/3⟩) := by decide +kernel

/-- The hypotheses of C95 for the first of the cuts. -/
theorem six_first_cut : ∃ C pl, sixSt.cx.cells[0]? = some C ∧ C.inner ≠ [] ∧ Good sixSt ∧ Geo (posOf Delaunay.sixPts) pl sixSt.cl sixSt.mesh.faces ∧
    Across (posOf Delaunay.sixPts) cutPlane (planeSgn cutPlane (posOf Delaunay.sixPts)) sixSt.cl sixSt.mesh.faces 0 := by
  obtain ⟨s0, sm, e, h⟩ := c96_tiling id (fun l => List.Perm.refl l) _ _ six_delaunay (fun k _ => if k = 4 then [0, 1] else []) 2 (by decide +kernel)
  have e0 : sixSt = s0 := by rw [sixSt, e]; rfl
  obtain ⟨gd, g, -⟩ := h s0 _ _ Sliced.start
  rw [← e0] at gd g
  have hr : (cutBy cutPlane (posOf Delaunay.sixPts) sixPl sixSt 0).isSome = true := by decide +kernel
  obtain ⟨r, hr⟩ := Option.isSome_iff_exists.1 hr
  obtain ⟨C, hC, hr⟩ := Option.bind_eq_some_iff.1 hr
  obtain ⟨s', hs', -⟩ := Option.bind_eq_some_iff.1 hr
  obtain ⟨hne, ha⟩ := across_of_some (pos := posOf Delaunay.sixPts) (h := cutPlane) gd hC (fun v _ => rfl) hs'
  exact ⟨C, _, hC, hne, gd, g, ha⟩

example : ∃ C s', sixSt.cx.cells[0]? = some C ∧ splitCell cutOracle (planeSgn cutPlane (posOf Delaunay.sixPts)) (fun _ => true) 2 sixSt 0 = some s' ∧ Good s' := by
  obtain ⟨C, pl, hC, hne, gd, g, ha⟩ := six_first_cut
  obtain ⟨s', e, gd', -⟩ := c95_split_cell cutOracle _ (fun _ => true) 2 sixSt 0 C gd (by simp [cutOracle]) hC hne _ pl cutPlane g ha
  exact ⟨C, s', hC, e, gd'⟩

/-- After the three cuts the seven cells tile the convex hull of the six points. -/
example : ∃ s pos pl, Sliced 2 sixSt (posOf Delaunay.sixPts) sixPl s pos pl ∧ s.cx.cells.length = 7 ∧ Geo pos pl s.cl s.mesh.faces ∧
    (∀ p, InHull Delaunay.sixPts p ↔ ∃ k < 7, Region pl s.cl k p) ∧ ∀ k < 7, ∀ l < 7, k ≠ l → ∀ q, ¬ (Core (Region pl s.cl k) q ∧ Core (Region pl s.cl l) q) := by
  have h7 : cutRun.map (fun r => r.1.cx.cells.length) = some 7 := by decide +kernel
  obtain ⟨r, hr, h7⟩ := Option.map_eq_some_iff.1 h7
  obtain ⟨s0, sm, e, h⟩ := c96_tiling id (fun l => List.Perm.refl l) _ _ six_delaunay (fun k _ => if k = 4 then [0, 1] else []) 2 (by decide +kernel)
  have e0 : sixSt = s0 := by rw [sixSt, e]; rfl
  have hS := cutRun_sliced hr
  obtain ⟨-, g, h1, h2⟩ := h r.1 r.2.1 r.2.2 (by rw [← e0]; exact hS)
  rw [h7] at h1 h2
  exact ⟨r.1, r.2.1, r.2.2, hS, h7, g, h1, h2⟩

end Verif.Bsp
