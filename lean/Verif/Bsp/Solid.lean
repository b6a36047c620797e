import Verif.Bsp.Inside
import Verif.Bsp.Volume
/-!
# C102: the kept cells are the inside of the shells
-/
namespace Verif.Bsp
open InSphere (Pt)
open Geom (lerp)

variable {K : Type} [Field K] [LinearOrder K] [IsStrictOrderedRing K]

/-- Specification: a point of a triangle that is on none of its sides. -/
def InnerTri (t : Tri3 K) (q : Pt K) : Prop :=
  ∃ u v w : K, 0 < u ∧ 0 < v ∧ 0 < w ∧ u + v + w = 1 ∧ q.x = u * t.a.x + v * t.b.x + w * t.c.x ∧ q.y = u * t.a.y + v * t.b.y + w * t.c.y ∧ q.z = u * t.a.z + v * t.b.z + w * t.c.z

/-- Specification: the triangles in `S` are the surface of the solid `In`. One changes between inside and outside only at a triangle, and at every triangle one does, namely
so that its normal `(b - a) × (c - a)` points to the outside. -/
structure SurfaceOf (tri : Nat → Tri3 K) (S : Nat → Prop) (In : Pt K → Prop) : Prop where
  free : ∀ p q, (∀ t, S t → ∀ u, 0 ≤ u → u ≤ 1 → ¬ InTri (tri t) (lerp p q u)) → (In p ↔ In q)
  front : ∀ t, S t → ∀ q, InnerTri (tri t) q → ∀ W, 0 < (tri t).plane.ev W → ∃ e : K, 0 < e ∧ ∀ u, 0 < u → u ≤ e → ¬ In (lerp q W u)
  back : ∀ t, S t → ∀ q, InnerTri (tri t) q → ∀ W, (tri t).plane.ev W < 0 → ∃ e : K, 0 < e ∧ ∀ u, 0 < u → u ≤ e → In (lerp q W u)

/-- What `complex_partition` has to know about face `i`: the tests find a triangle of a shell on the face whenever one lies there, and the orientation is that of a vertex of the first cell
with respect to the plane of the triangle. -/
structure FaceTests {T : Type} (I : Shells T) (tri : Nat → Tri3 K) (n : Nat) (pos : Nat → Pt K) (pl : Nat → Aff K) (cl : List (Nat × Option Nat)) (fs : List Cycle) (i : Nat) (F : Poly.Face) (c : Cycle) : Prop where
  lt : ∀ t ∈ F.tris, t < n
  hit : ∀ t ∈ F.tris, I.hits i t = true → (∀ x ∈ (tri t).corners, (pl i).ev x = 0) ∧ ∃ q, InsideFace pos (pl i) c q ∧ InTri (tri t) q
  ori : ∀ t ∈ F.tris, I.hits i t = true → ∃ v, OfCell cl fs F.cells.1 v ∧ (tri t).plane.ev (pos v) ≠ 0 ∧ (I.pos i t = true ↔ 0 < (tri t).plane.ev (pos v))
  miss : ∀ sh, (∀ t ∈ F.tris, I.shell t = sh → I.hits i t = false) → ∃ q, InsideFace pos (pl i) c q ∧ ∀ t < n, I.shell t = sh → (∀ x ∈ (tri t).corners, (pl i).ev x = 0) → ¬ InTri (tri t) q

theorem Core.lerp {pos : Nat → Pt K} {pl : Nat → Aff K} {cl : List (Nat × Option Nat)} {fs : List Cycle} (g : Geo pos pl cl fs) {k : Nat} {p q : Pt K} (hp : Core (Region pl cl k) p) (hq : Core (Region pl cl k) q)
    {u : K} (u0 : 0 ≤ u) (u1 : u ≤ 1) : Core (Region pl cl k) (lerp p q u) := by
  refine core_of_walls fun A hA => ?_
  have h1 := hp.walls g A hA
  have h2 := hq.walls g A hA
  rw [ev_lerp]
  rcases u1.eq_or_lt with rfl | u1
  · simpa using h2
  · exact add_pos_of_pos_of_nonneg (mul_pos (by linarith) h1) (mul_nonneg u0 h2.le)

theorem lerp_from (p q : Pt K) (u v : K) : lerp p (lerp p q u) v = lerp p q (u * v) := by
  simp only [Geom.lerp, Pt.mk.injEq]
  exact ⟨by ring, by ring, by ring⟩

/-- A cell with a face has a vertex on its side of the face. -/
theorem side_vertex {pos : Nat → Pt K} {pl : Nat → Aff K} {cl : List (Nat × Option Nat)} {fs : List Cycle} (g : Geo pos pl cl fs) {k i : Nat} {P : Nat × Option Nat} (hP : cl[i]? = some P) (hs : sg P k ≠ 0) :
    ∃ x, OfCell cl fs k x ∧ 0 < (sg P k : K) * (pl i).ev (pos x) := by
  obtain ⟨x, hx, hx0⟩ := g.strict k i P hP hs
  exact ⟨x, hx, lt_of_le_of_ne (g.side k i P hP hs x hx) (Ne.symm (mul_ne_zero (by exact_mod_cast hs) hx0))⟩

section
variable {pos : Nat → Pt K} {pl : Nat → Aff K} {cl : List (Nat × Option Nat)} {fs : List Cycle} (g : Geo pos pl cl fs) {tri : Nat → Tri3 K} {n : Nat}
  (hpass : ∀ k, ∀ t < n, (∃ P ∈ cl, sg P k ≠ 0) → ¬ Passes (tri t) (Region pl cl k)) {S : Nat → Prop} (hS : ∀ t, S t → t < n) {In : Pt K → Prop} (hI : SurfaceOf tri S In)
include g hpass hS hI

/-- A cell is inside or outside as a whole. -/
theorem cell_const {k : Nat} (hk : ∃ P ∈ cl, sg P k ≠ 0) {p q : Pt K} (hp : Core (Region pl cl k) p) (hq : Core (Region pl cl k) q) : In p ↔ In q :=
  hI.free p q fun t ht _ u0 u1 h => hpass k t (hS t ht) hk ⟨_, h, hp.lerp g hq u0 u1⟩

/-- From a point inside a face that lies on no triangle into a cell. -/
theorem cell_step {k i : Nat} {P : Nat × Option Nat} {c : Cycle} (hP : cl[i]? = some P) (hs : sg P k ≠ 0) (hc : fs[i]? = some c) {q : Pt K} (hq : InsideFace pos (pl i) c q)
    (hfree : ∀ t, S t → ¬ InTri (tri t) q) : ∃ p, Core (Region pl cl k) p ∧ (In q ↔ In p) := by
  obtain ⟨x, -, hx⟩ := side_vertex g hP hs
  obtain ⟨t, t0, t1, ht⟩ := enter g hP hs hc hq hx
  refine ⟨_, ht t t0 (le_refl _), hI.free _ _ fun t' ht' u u0 u1 h => ?_⟩
  rcases u0.eq_or_lt with rfl | u0
  · rw [lerp_zero] at h; exact hfree t' ht' h
  · rw [lerp_from] at h
    exact hpass k t' (hS t' ht') ⟨P, List.mem_of_getElem? hP, hs⟩ ⟨_, h, ht _ (mul_pos t0 u0) (by nlinarith)⟩
end

/-- Near a point of a triangle inside a face there are inner points of the triangle inside the face. -/
theorem inner_near {pos : Nat → Pt K} {A : Aff K} {c : Cycle} {t : Tri3 K} (ht : ∀ x ∈ t.corners, A.ev x = 0) {q : Pt K} (hq : InsideFace pos A c q) (hqt : InTri t q) : ∃ q', InsideFace pos A c q' ∧ InnerTri t q' := by
  let m : Pt K := lerp (lerp t.a t.b (1 / 2)) t.c (1 / 3)
  obtain ⟨u, u0, u1, hu⟩ := go_in q m ((hes c).map fun k => areaAff A.n (pos k.tail) (pos k.tip)) (by
    intro B hB
    obtain ⟨k, hk, rfl⟩ := List.mem_map.1 hB
    rw [areaAff_ev]; exact Or.inl (hq.2 k hk))
  have ha := ht t.a (by simp [Tri3.corners])
  have hb := ht t.b (by simp [Tri3.corners])
  have hc := ht t.c (by simp [Tri3.corners])
  refine ⟨lerp q m u, ⟨?_, fun k hk => ?_⟩, ?_⟩
  · simp only [m, ev_lerp, hq.1, ha, hb, hc]; ring
  · rw [← areaAff_ev]; exact hu _ (List.mem_map.2 ⟨k, hk, rfl⟩) u u0 (le_refl _)
  · obtain ⟨x, y, z, hx, hy, hz, h1, ex, ey, ez⟩ := hqt
    have h3 : (0 : K) < u / 3 := by positivity
    have hm : ∀ r : K, 0 ≤ r → 0 < (1 - u) * r + u / 3 := fun r hr => add_pos_of_nonneg_of_pos (mul_nonneg (by linarith) hr) h3
    refine ⟨(1 - u) * x + u / 3, (1 - u) * y + u / 3, (1 - u) * z + u / 3, hm x hx, hm y hy, hm z hz, by linear_combination (1 - u) * h1, ?_, ?_, ?_⟩
    · simp only [m, Geom.lerp]; rw [ex]; ring
    · simp only [m, Geom.lerp]; rw [ey]; ring
    · simp only [m, Geom.lerp]; rw [ez]; ring

theorem lerp_neg_ev (A : Aff K) {q : Pt K} (hq : A.ev q = 0) (W : Pt K) : A.ev (lerp q W (-1)) = -A.ev W := by rw [ev_lerp, hq]; ring

open Classical in
/-- The cells inside a solid agree with the triangles of its surface. -/
theorem solid_fits {T : Type} [Field T] [LinearOrder T] [IsStrictOrderedRing T] {s : St} (gd : Good s) {pos : Nat → Pt K} {pl : Nat → Aff K} (g : Geo pos pl s.cl s.mesh.faces) {I : Shells T} {tri : Nat → Tri3 K} {n : Nat}
    (hn : ∀ t < n, vdot (tri t).plane.n (tri t).plane.n ≠ 0) (hpass : ∀ k, ∀ t < n, (∃ P ∈ s.cl, sg P k ≠ 0) → ¬ Passes (tri t) (Region pl s.cl k)) {In : Pt K → Prop} {sh : Nat}
    (hI : SurfaceOf tri (fun t => t < n ∧ I.shell t = sh) In)
    (hout : ∀ (i : Nat) (P : Nat × Option Nat), s.cl[i]? = some P → P.2 = none → (∀ t < n, ∀ x ∈ (tri t).corners, 0 ≤ (pl i).ev x) ∧ ∀ q, (pl i).ev q < 0 → ¬ In q)
    (hT : ∀ (i : Nat) (F : Poly.Face) (c : Cycle), s.cx.faces[i]? = some F → s.mesh.faces[i]? = some c → FaceTests I tri n pos pl s.cl s.mesh.faces i F c) :
    Fits I s.cx sh fun k => decide (∃ q, Core (Region pl s.cl k) q ∧ In q) := by
  intro i F hF _
  have hcl : s.cl[i]? = some F.cells := by simp [St.cl, hF]
  have hlen : i < s.mesh.faces.length := by rw [← gd.mesh.len]; exact (List.getElem?_eq_some_iff.1 hcl).1
  have hc := List.getElem?_eq_getElem hlen
  generalize s.mesh.faces[i] = c at hc
  have hTi := hT i F c hF hc
  obtain ⟨-, l2⟩ := gd.linked.cells i F hF
  have hS : ∀ t, (t < n ∧ I.shell t = sh) → t < n := fun t h => h.1
  have s1 : sg F.cells F.cells.1 = 1 := by
    unfold sg
    rw [if_pos rfl, if_neg fun e => (l2 _ e).2 rfl]; rfl
  have s2 : ∀ d, F.cells.2 = some d → sg F.cells d = -1 := by
    intro d hd
    unfold sg
    rw [if_neg (l2 d hd).2.symm, if_pos hd]; rfl
  have hs1 : sg F.cells F.cells.1 ≠ 0 := by rw [s1]; decide
  have hs2 : ∀ d, F.cells.2 = some d → sg F.cells d ≠ 0 := fun d hd => by rw [s2 d hd]; decide
  have hmem : F.cells ∈ s.cl := List.mem_of_getElem? hcl
  have dec : ∀ k, (∃ P ∈ s.cl, sg P k ≠ 0) → ∀ p, Core (Region pl s.cl k) p → ∀ b : Bool, (In p ↔ b = true) → decide (∃ q, Core (Region pl s.cl k) q ∧ In q) = b := by
    intro k hk p hp b hb
    rw [Bool.eq_iff_iff, decide_eq_true_iff, ← hb]
    exact ⟨fun ⟨q, hq, h⟩ => (cell_const g hpass hS hI hk hq hp).1 h, fun h => ⟨p, hp, h⟩⟩
  unfold FitsFace
  cases ho : onFace I sh i F with
  | some t =>
    simp only
    have hp := List.find?_some ho
    have htm := List.mem_of_find?_eq_some ho
    simp only [Bool.and_eq_true, decide_eq_true_eq] at hp
    obtain ⟨hsh, hit⟩ := hp
    obtain ⟨hco, q0, hq0, hqt0⟩ := hTi.hit t htm hit
    obtain ⟨v, hv, hv0, hpos⟩ := hTi.ori t htm hit
    obtain ⟨q, hq, hqt⟩ := inner_near hco hq0 hqt0
    obtain ⟨μ, μ0, hμ⟩ := plane_of_tri (g.face i c hc).normal (hn t (hTi.lt t htm)) hco
    have hS' : t < n ∧ I.shell t = sh := ⟨hTi.lt t htm, hsh⟩
    have hv1 : 0 < (pl i).ev (pos v) := by
      have := g.side _ i F.cells hcl hs1 v hv
      rw [s1, Int.cast_one, one_mul] at this
      exact lt_of_le_of_ne this (Ne.symm (by rw [hμ]; exact mul_ne_zero μ0 hv0))
    have hq2 : (tri t).plane.ev q = 0 := by
      have := hq.1
      rw [hμ] at this
      exact (mul_eq_zero.1 this).resolve_left μ0
    have go : ∀ k, sg F.cells k ≠ 0 → ∀ W, 0 < (sg F.cells k : K) * (pl i).ev W → (0 < (tri t).plane.ev W → decide (∃ q, Core (Region pl s.cl k) q ∧ In q) = false) ∧
        ((tri t).plane.ev W < 0 → decide (∃ q, Core (Region pl s.cl k) q ∧ In q) = true) := by
      intro k hs W hW
      obtain ⟨e, e0, -, he⟩ := enter g hcl hs hc hq hW
      refine ⟨fun h => ?_, fun h => ?_⟩
      · obtain ⟨e', e0', he'⟩ := hI.front t hS' q hqt W h
        exact dec k ⟨_, hmem, hs⟩ _ (he (min e e') (lt_min e0 e0') (min_le_left _ _)) false (iff_of_false (he' _ (lt_min e0 e0') (min_le_right _ _)) (by decide))
      · obtain ⟨e', e0', he'⟩ := hI.back t hS' q hqt W h
        exact dec k ⟨_, hmem, hs⟩ _ (he (min e e') (lt_min e0 e0') (min_le_left _ _)) true (iff_of_true (he' _ (lt_min e0 e0') (min_le_right _ _)) rfl)
    have g1 := go _ hs1 (pos v) (by rw [s1, Int.cast_one, one_mul]; exact hv1)
    have g2 : ∀ d, F.cells.2 = some d → _ := fun d hd => go d (hs2 d hd) (lerp q (pos v) (-1)) (by rw [s2 d hd, lerp_neg_ev _ hq.1]; push_cast; linarith)
    rw [lerp_neg_ev _ hq2] at g2
    cases hb : I.pos i t with
    | true =>
      have h := hpos.1 hb
      exact ⟨g1.1 h, fun d hd => (g2 d hd).2 (by linarith)⟩
    | false =>
      have h : (tri t).plane.ev (pos v) < 0 := lt_of_le_of_ne (not_lt.1 fun h => by rw [hpos.2 h] at hb; cases hb) hv0
      exact ⟨g1.2 h, fun d hd => (g2 d hd).1 (by linarith)⟩
  | none =>
    simp only
    have hno : ∀ t ∈ F.tris, I.shell t = sh → I.hits i t = false := by
      intro t ht hsh
      have := List.find?_eq_none.1 ho t ht
      simpa [hsh] using this
    obtain ⟨q, hq, hq1⟩ := hTi.miss sh hno
    have hfree : ∀ t, (t < n ∧ I.shell t = sh) → ¬ InTri (tri t) q := by
      intro t ⟨ht, hsh⟩ h
      by_cases hco : ∀ x ∈ (tri t).corners, (pl i).ev x = 0
      · exact hq1 t ht hsh hco h
      push Not at hco
      obtain ⟨W, hW, hW0⟩ := hco
      have key : ∀ k, sg F.cells k ≠ 0 → ¬ 0 < (sg F.cells k : K) * (pl i).ev W := by
        intro k hs hWk
        obtain ⟨e, e0, e1, he⟩ := enter g hcl hs hc hq hWk
        exact hpass k t ht ⟨_, hmem, hs⟩ ⟨_, h.lerp (InTri.corner hW) e0.le e1, he e e0 (le_refl _)⟩
      have k1 := key _ hs1
      rw [s1, Int.cast_one, one_mul] at k1
      cases hd : F.cells.2 with
      | none => exact k1 (lt_of_le_of_ne ((hout i _ hcl hd).1 t ht W hW) (Ne.symm hW0))
      | some d =>
        refine key d (hs2 d hd) ?_
        rw [s2 d hd]
        push_cast
        have := lt_of_le_of_ne (not_lt.1 k1) hW0
        linarith
    obtain ⟨p1, hp1, e1⟩ := cell_step g hpass hS hI hcl hs1 hc hq hfree
    cases hd : F.cells.2 with
    | none =>
      simp only [Option.elim_none]
      obtain ⟨ho1, ho2⟩ := hout i _ hcl hd
      obtain ⟨x, -, hx⟩ := side_vertex g hcl hs1
      rw [s1, Int.cast_one, one_mul] at hx
      have h1 : ¬ In (lerp q (pos x) (-1)) := ho2 _ (by rw [lerp_neg_ev _ hq.1]; linarith)
      have h2 : In q ↔ In (lerp q (pos x) (-1)) := by
        refine hI.free _ _ fun t ht u u0 u1 h => ?_
        rcases u0.eq_or_lt with rfl | u0
        · rw [lerp_zero] at h; exact hfree t ht h
        · have hneg : (pl i).ev (lerp q (lerp q (pos x) (-1)) u) < 0 := by
            rw [ev_lerp, lerp_neg_ev _ hq.1, hq.1]; nlinarith
          obtain ⟨y, hy, hy0⟩ := InTri.pos h (A := (pl i).neg) (by rw [Aff.neg_ev]; linarith)
          rw [Aff.neg_ev] at hy0
          exact absurd (ho1 t ht.1 y hy) (not_le.2 (by linarith))
      exact dec _ ⟨_, hmem, hs1⟩ p1 hp1 false (iff_of_false (fun h => h1 (h2.1 (e1.2 h))) (by decide))
    | some d =>
      simp only [Option.elim_some]
      obtain ⟨p2, hp2, e2⟩ := cell_step g hpass hS hI hcl (hs2 d hd) hc hq hfree
      refine dec _ ⟨_, hmem, hs1⟩ p1 hp1 _ ?_
      rw [decide_eq_true_iff, ← e1, e2]
      exact ⟨fun h => ⟨p2, hp2, h⟩, fun ⟨p, hp, h⟩ => (cell_const g hpass hS hI ⟨_, hmem, hs2 d hd⟩ hp hp2).1 h⟩

/-- **C102.** If no triangle passes through a cell, the tests on the faces are right, and the triangles of each shell are the surface of a solid, then exactly the cells inside one of the solids are kept. -/
theorem c102_solid {T : Type} [Field T] [LinearOrder T] [IsStrictOrderedRing T] {s : St} (gd : Good s) {pos : Nat → Pt K} {pl : Nat → Aff K} (g : Geo pos pl s.cl s.mesh.faces) {I : Shells T} (hN : Normal I s.cx)
    (hA : ∀ i < s.cx.faces.length, 0 < I.area i) {tri : Nat → Tri3 K} {n : Nat} (hn : ∀ t < n, vdot (tri t).plane.n (tri t).plane.n ≠ 0)
    (hpass : ∀ k, ∀ t < n, (∃ P ∈ s.cl, sg P k ≠ 0) → ¬ Passes (tri t) (Region pl s.cl k)) (In : Nat → Pt K → Prop) (hI : ∀ sh < I.nShells, SurfaceOf tri (fun t => t < n ∧ I.shell t = sh) (In sh))
    (hout : ∀ (i : Nat) (P : Nat × Option Nat), s.cl[i]? = some P → P.2 = none → (∀ t < n, ∀ x ∈ (tri t).corners, 0 ≤ (pl i).ev x) ∧ ∀ sh < I.nShells, ∀ q, (pl i).ev q < 0 → ¬ In sh q)
    (hT : ∀ (i : Nat) (F : Poly.Face) (c : Cycle), s.cx.faces[i]? = some F → s.mesh.faces[i]? = some c → FaceTests I tri n pos pl s.cl s.mesh.faces i F c) :
    ∃ kept, (∀ fuel ≥ 1, cellKept fuel I s.cx = some kept) ∧ kept.length = s.cx.cells.length ∧
      ∀ k < s.cx.cells.length, (∃ P ∈ s.cl, sg P k ≠ 0) → ∀ q, Core (Region pl s.cl k) q → (kept[k]? = some true ↔ ∃ sh < I.nShells, In sh q) := by
  classical
  have hf : ∀ sh < I.nShells, Fits I s.cx sh fun k => decide (∃ q, Core (Region pl s.cl k) q ∧ In sh q) := fun sh hsh =>
    solid_fits gd g hn hpass (hI sh hsh) (fun i P hP hP2 => ⟨(hout i P hP hP2).1, (hout i P hP hP2).2 sh hsh⟩) hT
  obtain ⟨kept, best, h1, h2, h3, h4⟩ := c78_fits (linked_cellsOk gd.linked) hN fun sh hsh => ⟨_, hf sh hsh⟩
  refine ⟨kept, h1, h2, fun k hk hex q hq => ?_⟩
  rw [h4 k hk]
  have key : ∀ sh < I.nShells, (best sh k = true ↔ In sh q) := by
    intro sh hsh
    rw [c101_unique gd g hA (h3 sh hsh).1 (hf sh hsh) k hex, decide_eq_true_iff]
    exact ⟨fun ⟨p, hp, h⟩ => (cell_const g hpass (fun t ht => ht.1) (hI sh hsh) hex hp hq).1 h, fun h => ⟨q, hq, h⟩⟩
  exact ⟨fun ⟨sh, hsh, h⟩ => ⟨sh, hsh, (key sh hsh).1 h⟩, fun ⟨sh, hsh, h⟩ => ⟨sh, hsh, (key sh hsh).2 h⟩⟩

end Verif.Bsp
