import Verif.Bsp.Section
import Verif.Bsp.Tiling
import Verif.Geom.Axis
/-!
# C98: which triangles meet a cell

Model of `is_triangle_intersects_cell` (`bsp_complex.rs` lines 1774-1846) and `is_triangle_intersects_poly` (lines 1852-1901) in exact arithmetic. The corners of a triangle are given by their
positions.
-/
namespace Verif.Bsp
open InSphere (Pt Ori)
open Geom (lerp orient2dByAxis)

/-- A triangle by its corners. -/
structure Tri3 (K : Type) where
  a : Pt K
  b : Pt K
  c : Pt K

def Tri3.corners {K : Type} (t : Tri3 K) : List (Pt K) := [t.a, t.b, t.c]

/-- `tri.iter().circular_tuple_windows()`. -/
def Tri3.sides {K : Type} (t : Tri3 K) : List (Pt K × Pt K) := [(t.a, t.b), (t.b, t.c), (t.c, t.a)]

/-- The loop of lines 1798-1815 over the orientations of the vertices; the first argument is `first_ori` (`none` is `Undefined`). The result tells whether the loop ends with `Zero`. -/
def bothSides : Option SignType → List SignType → Bool
  | _, [] => false
  | f, s :: l => if s = 0 then bothSides f l else match f with
    | none => bothSides (some s) l
    | some f => if f ≠ s then true else bothSides (some f) l

section
variable {K : Type} [Field K] [LinearOrder K]

/-- The plane of a triangle; its positive side is where the signs of `verts_orient_wrt_plane` are positive. -/
def Tri3.plane (t : Tri3 K) : Aff K := through t.a t.b t.c

/-- The body of the loop over the faces (lines 1823-1844): whether the triangle may pass the face. `base` is `base_ori`. -/
def passesFace (A : Aff K) (base : SignType) (t : Tri3 K) : Bool :=
  let oris := t.corners.map fun p => SignType.sign (A.ev p)
  !oris.all (fun o => o = 0) && !(oris.filter fun o => o ≠ 0).all (fun o => o ≠ base)

/-- `is_triangle_intersects_cell` (lines 1774-1846). `pl f` is the plane of face `f`, `cl` are the cells of the faces. (A face that does not exist would be an index out of range; the faces of a
cell exist, see C52.) -/
def triCell (pos : Nat → Pt K) (pl : Nat → Aff K) (cl : List (Nat × Option Nat)) (cid : Nat) (t : Tri3 K) (verts faces : List Nat) : Bool :=
  bothSides none (verts.map fun v => SignType.sign (t.plane.ev (pos v))) &&
    faces.all fun f => match cl[f]? with
      | none => false
      | some P => passesFace (pl f) (if P.1 = cid then 1 else -1) t

/-- `is_triangle_intersects_poly` (lines 1852-1901). -/
def triPoly (t : Tri3 K) (poly : List (Pt K)) (base : Ori) (axis : Nat) : Bool :=
  if t.sides.all fun e => poly.any fun p => orient2dByAxis e.1 e.2 p axis ≠ .zero ∧ orient2dByAxis e.1 e.2 p axis = base then
    if t.sides.all fun e => poly.all fun p => orient2dByAxis e.1 e.2 p axis = .zero ∨ orient2dByAxis e.1 e.2 p axis = base then true
    else (circ poly).all fun e => t.corners.any fun p => orient2dByAxis e.1 e.2 p axis ≠ .zero ∧ orient2dByAxis e.1 e.2 p axis = base
  else false

/-- Specification: the points of a triangle. -/
def InTri (t : Tri3 K) (q : Pt K) : Prop :=
  ∃ u v w : K, 0 ≤ u ∧ 0 ≤ v ∧ 0 ≤ w ∧ u + v + w = 1 ∧ q.x = u * t.a.x + v * t.b.x + w * t.c.x ∧ q.y = u * t.a.y + v * t.b.y + w * t.c.y ∧ q.z = u * t.a.z + v * t.b.z + w * t.c.z

/-- Specification: a point of the triangle lies inside the set. -/
def Passes (t : Tri3 K) (R : Pt K → Prop) : Prop := ∃ q, InTri t q ∧ Core R q

end

theorem bothSides_some (f : SignType) (hf : f ≠ 0) : ∀ l, bothSides (some f) l = true ↔ -f ∈ l
  | [] => by simp [bothSides]
  | s :: l => by
    rw [bothSides, List.mem_cons]
    have ih := bothSides_some f hf l
    have h0 : ∀ f s : SignType, f ≠ 0 → (s = 0 → -f ≠ s) ∧ (s ≠ 0 → f ≠ s → -f = s) ∧ (f = s → -f ≠ s) := by decide
    obtain ⟨h1, h2, h3⟩ := h0 f s hf
    by_cases hs : s = 0
    · rw [if_pos hs, ih]; simp [h1 hs]
    · rw [if_neg hs]
      show (if f ≠ s then true else bothSides (some f) l) = true ↔ _
      by_cases hfs : f = s
      · rw [if_neg (not_not.2 hfs), ih]; simp [h3 hfs]
      · rw [if_pos hfs]; simp [h2 hs hfs]

theorem bothSides_iff : ∀ l, bothSides none l = true ↔ (1 ∈ l ∧ -1 ∈ l)
  | [] => by simp [bothSides]
  | s :: l => by
    rw [bothSides]
    have ih := bothSides_iff l
    have h0 : ∀ s : SignType, s = 0 ∨ s = 1 ∨ s = -1 := by decide
    rcases h0 s with rfl | rfl | rfl
    · rw [if_pos rfl, ih]; simp
    · rw [if_neg (by decide)]
      show bothSides (some 1) l = true ↔ _
      rw [bothSides_some _ (by decide)]; simp
    · rw [if_neg (by decide)]
      show bothSides (some (-1)) l = true ↔ _
      rw [bothSides_some _ (by decide)]; simp

variable {K : Type} [Field K] [LinearOrder K] [IsStrictOrderedRing K]

/-- An affine function on a triangle. -/
theorem InTri.ev {t : Tri3 K} {q : Pt K} (h : InTri t q) (A : Aff K) : ∃ u v w : K, 0 ≤ u ∧ 0 ≤ v ∧ 0 ≤ w ∧ u + v + w = 1 ∧ A.ev q = u * A.ev t.a + v * A.ev t.b + w * A.ev t.c := by
  obtain ⟨u, v, w, hu, hv, hw, e, ex, ey, ez⟩ := h
  refine ⟨u, v, w, hu, hv, hw, e, ?_⟩
  simp only [Aff.ev, vdot, ex, ey, ez]
  linear_combination A.d * (1 - e)

/-- If an affine function is positive at a point of the triangle, it is positive at a corner. -/
theorem InTri.pos {t : Tri3 K} {q : Pt K} (h : InTri t q) {A : Aff K} (hA : 0 < A.ev q) : ∃ p ∈ t.corners, 0 < A.ev p := by
  obtain ⟨u, v, w, hu, hv, hw, -, e⟩ := h.ev A
  by_contra hc
  simp only [not_exists, not_and, not_lt] at hc
  have h1 := mul_nonpos_of_nonneg_of_nonpos hu (hc t.a (by simp [Tri3.corners]))
  have h2 := mul_nonpos_of_nonneg_of_nonpos hv (hc t.b (by simp [Tri3.corners]))
  have h3 := mul_nonpos_of_nonneg_of_nonpos hw (hc t.c (by simp [Tri3.corners]))
  linarith

theorem InTri.zero {t : Tri3 K} {q : Pt K} (h : InTri t q) {A : Aff K} (hA : ∀ p ∈ t.corners, A.ev p = 0) : A.ev q = 0 := by
  obtain ⟨u, v, w, -, -, -, -, e⟩ := h.ev A
  rw [e, hA t.a (by simp [Tri3.corners]), hA t.b (by simp [Tri3.corners]), hA t.c (by simp [Tri3.corners])]; ring

theorem Tri3.plane_corners (t : Tri3 K) : ∀ p ∈ t.corners, t.plane.ev p = 0 := by
  intro p hp
  simp only [Tri3.corners, List.mem_cons, List.not_mem_nil, or_false] at hp
  rcases hp with rfl | rfl | rfl
  · exact through_a _ _ _
  · exact through_b _ _ _
  · exact through_d _ _ _

/-- Inside a set, an affine function that is not negative on it and not constant is positive. -/
theorem Core.pos {R : Pt K → Prop} {q : Pt K} (h : Core R q) {A : Aff K} (hA : ∀ p, R p → 0 ≤ A.ev p) {x : Pt K} (hx : A.ev x ≠ 0) : 0 < A.ev q := by
  have hq : 0 ≤ A.ev q := hA q h.mem
  refine lt_of_le_of_ne hq fun e => ?_
  rw [e] at hx
  rcases lt_or_gt_of_ne hx with h1 | h1
  · obtain ⟨t, t0, ht⟩ := h x
    have := hA _ ht
    rw [ev_lerp] at this
    rw [← e] at this h1
    have := mul_neg_of_pos_of_neg t0 h1
    linarith
  · obtain ⟨t, t0, ht⟩ := h (lerp x q 2)
    have := hA _ ht
    rw [ev_lerp, ev_lerp] at this
    rw [← e] at this h1
    have := mul_pos t0 h1
    linarith

theorem normal_point {A : Aff K} (hn : vdot A.n A.n ≠ 0) : ∃ x, A.ev x ≠ 0 := by
  by_cases h : A.d = 0
  · exact ⟨A.n, by rw [Aff.ev, h, add_zero]; exact hn⟩
  · exact ⟨⟨0, 0, 0⟩, by simpa [Aff.ev, vdot] using h⟩

theorem sg_eq {P : Nat × Option Nat} {k : Nat} (h : sg P k ≠ 0) : sg P k = if P.1 = k then 1 else -1 := by
  unfold sg at *
  split_ifs at * <;> simp_all

/-- A triangle that passes a face of a cell. -/
theorem passesFace_of {A : Aff K} {s : Int} (hs : s = 1 ∨ s = -1) {t : Tri3 K} {p : Pt K} (hp : p ∈ t.corners) (h : 0 < (s : K) * A.ev p) : passesFace A (if s = 1 then 1 else -1) t = true := by
  have e : SignType.sign (A.ev p) = if s = 1 then 1 else -1 := by
    rcases hs with rfl | rfl
    · rw [Int.cast_one, one_mul] at h
      rw [sign_pos h]; rfl
    · rw [Int.cast_neg, Int.cast_one] at h
      rw [sign_neg (by linarith)]; rfl
  have e0 : SignType.sign (A.ev p) ≠ 0 := by rw [e]; split <;> decide
  have hm := List.mem_map_of_mem (f := fun p => SignType.sign (A.ev p)) hp
  rw [passesFace, Bool.and_eq_true, Bool.not_eq_true', Bool.not_eq_true', List.all_eq_false, List.all_eq_false]
  exact ⟨⟨_, hm, by simpa using e0⟩, _, List.mem_filter.2 ⟨hm, by simpa using e0⟩, by simpa using e⟩

/-- **C98.** A triangle with a point inside a cell passes the test of `is_triangle_intersects_cell`. `verts` are vertices of which the cell is the convex hull. -/
theorem c98_tri_cell {pos : Nat → Pt K} {pl : Nat → Aff K} {s : St} {k : Nat} {C : Poly.Cell} (gd : Good s) (hC : s.cx.cells[k]? = some C) (g : Geo pos pl s.cl s.mesh.faces) (t : Tri3 K)
    (ht : vdot t.plane.n t.plane.n ≠ 0) (hp : Passes t (Region pl s.cl k)) (verts : List Nat)
    (hv : ∀ B : Aff K, (∀ v ∈ verts, 0 ≤ B.ev (pos v)) → ∀ q, Region pl s.cl k q → 0 ≤ B.ev q) : triCell pos pl s.cl k t verts C.faces = true := by
  obtain ⟨q, hq, hc⟩ := hp
  have hq0 : t.plane.ev q = 0 := hq.zero t.plane_corners
  obtain ⟨x, hx⟩ := normal_point ht
  rw [triCell, Bool.and_eq_true, bothSides_iff, List.all_eq_true]
  refine ⟨⟨?_, ?_⟩, ?_⟩
  · by_contra hno
    have := hc.pos (A := t.plane.neg) (hv _ fun v hv => ?_) (x := x) (by rw [Aff.neg_ev]; simpa using hx)
    · rw [Aff.neg_ev, hq0] at this; simp at this
    · rw [Aff.neg_ev]
      by_contra hlt
      exact hno (List.mem_map.2 ⟨v, hv, sign_pos (by linarith)⟩)
  · by_contra hno
    have := hc.pos (A := t.plane) (hv _ fun v hv => ?_) (x := x) hx
    · rw [hq0] at this; exact lt_irrefl _ this
    · by_contra hlt
      exact hno (List.mem_map.2 ⟨v, hv, sign_neg (by linarith)⟩)
  · intro f hf
    obtain ⟨F, hF, hb⟩ := (gd.linked.link k C hC f).1 hf
    have hcl : s.cl[f]? = some F.cells := by rw [St.cl, List.getElem?_map, hF]; rfl
    have hs : sg F.cells k ≠ 0 := by
      rw [sg_bounds (fun c hc => ((gd.linked.cells f _ hF).2 c hc).2) hb]
      split <;> decide
    obtain ⟨y, -, hy⟩ := g.strict k f _ hcl hs
    have hsv : sg F.cells k = 1 ∨ sg F.cells k = -1 := by rw [sg_eq hs]; split <;> simp
    have := hc.pos (A := (pl f).smul (sg F.cells k : K)) (fun p hp => by rw [Aff.smul_ev]; exact hp f _ hcl hs) (x := pos y)
      (by rw [Aff.smul_ev]; exact mul_ne_zero (by exact_mod_cast hs) hy)
    obtain ⟨p, hp, h0⟩ := hq.pos this
    rw [Aff.smul_ev] at h0
    have := passesFace_of hsv hp h0
    rw [hcl]
    show passesFace (pl f) (if F.cells.1 = k then 1 else -1) t = true
    rw [show (if F.cells.1 = k then (1 : SignType) else -1) = if sg F.cells k = 1 then 1 else -1 by rw [sg_eq hs]; split <;> simp]
    exact this

/-- A component of a vector. -/
def comp (n : Pt K) (axis : Nat) : K := if axis = 0 then n.x else if axis = 1 then n.y else n.z

omit [IsStrictOrderedRing K] in
/-- In a plane, the orientation of a projection along an axis is that seen along the normal, up to a factor. -/
theorem axis_area {h : Aff K} {a b c : Pt K} (ha : h.ev a = 0) (hb : h.ev b = 0) (hc : h.ev c = 0) (axis : Nat) :
    vdot h.n h.n * Geom.comp3 (Geom.nYZ a b c, -Geom.nXZ a b c, Geom.nXY a b c) axis = area h.n a b c * comp h.n axis := by
  have e1 : vdot h.n (vsub b a) = 0 := by rw [vdot_vsub, ha, hb, sub_zero]
  have e2 : vdot h.n (vsub c a) = 0 := by rw [vdot_vsub, ha, hc, sub_zero]
  unfold Geom.comp3 comp
  simp only [vdot, vsub] at e1 e2
  split_ifs
  · simp only [Geom.nYZ, Geom.orient2d, Geom.yz, vdot, area, vdet, vsub]
    linear_combination (h.n.y * (c.z - a.z) - h.n.z * (c.y - a.y)) * e1 - (h.n.y * (b.z - a.z) - h.n.z * (b.y - a.y)) * e2
  · simp only [Geom.nXZ, Geom.orient2d, Geom.xz, vdot, area, vdet, vsub]
    linear_combination (h.n.z * (c.x - a.x) - h.n.x * (c.z - a.z)) * e1 - (h.n.z * (b.x - a.x) - h.n.x * (b.z - a.z)) * e2
  · simp only [Geom.nXY, Geom.orient2d, Geom.xy, vdot, area, vdet, vsub]
    linear_combination (h.n.x * (c.y - a.y) - h.n.y * (c.x - a.x)) * e1 - (h.n.x * (b.y - a.y) - h.n.y * (b.x - a.x)) * e2

/-- The orientation agrees with the base orientation if the point lies to the left. -/
theorem axis_base {h : Aff K} (hn : vdot h.n h.n ≠ 0) {t : Tri3 K} (ht : ∀ p ∈ t.corners, h.ev p = 0) (hpos : 0 < area h.n t.a t.b t.c) {axis : Nat} (hb : orient2dByAxis t.a t.b t.c axis ≠ .zero)
    {a b c : Pt K} (ha : h.ev a = 0) (hb' : h.ev b = 0) (hc : h.ev c = 0) :
    (orient2dByAxis a b c axis ≠ .zero ∧ orient2dByAxis a b c axis = orient2dByAxis t.a t.b t.c axis) ↔ 0 < area h.n a b c := by
  have hN := normal_pos hn
  have e1 := axis_area ha hb' hc axis
  have e2 := axis_area (ht t.a (by simp [Tri3.corners])) (ht t.b (by simp [Tri3.corners])) (ht t.c (by simp [Tri3.corners])) axis
  rw [Geom.byAxis_eq] at hb ⊢
  rw [Geom.byAxis_eq]
  generalize Geom.comp3 (Geom.nYZ a b c, -Geom.nXZ a b c, Geom.nXY a b c) axis = D at *
  generalize Geom.comp3 (Geom.nYZ t.a t.b t.c, -Geom.nXZ t.a t.b t.c, Geom.nXY t.a t.b t.c) axis = D' at *
  rw [Ne, Geom.sign_zero] at hb
  rw [Ne, Geom.sign_zero, Geom.sign_eq_iff]
  generalize comp h.n axis = w at *
  generalize vdot h.n h.n = N at *
  rcases lt_trichotomy w 0 with hw | hw | hw
  · have hD' : D' < 0 := by
      have : N * D' < 0 := by rw [e2]; exact mul_neg_of_pos_of_neg hpos hw
      exact (pos_iff_neg_of_mul_neg this).1 hN
    constructor
    · rintro ⟨-, -, h2⟩
      have : area h.n a b c * w < 0 := by rw [← e1]; exact mul_neg_of_pos_of_neg hN (h2.2 hD')
      exact (pos_iff_neg_of_mul_neg this).2 hw
    · intro h0
      have hD : D < 0 := by
        have : N * D < 0 := by rw [e1]; exact mul_neg_of_pos_of_neg h0 hw
        exact (pos_iff_neg_of_mul_neg this).1 hN
      exact ⟨hD.ne, ⟨fun h => absurd h hD.not_gt, fun h => absurd h hD'.not_gt⟩, fun _ => hD', fun _ => hD⟩
  · rw [hw, mul_zero] at e2
    exact absurd (mul_eq_zero.1 e2) (by simp [hN.ne', hb])
  · have hD' : 0 < D' := by
      have : 0 < N * D' := by rw [e2]; exact mul_pos hpos hw
      exact (pos_iff_pos_of_mul_pos this).1 hN
    constructor
    · rintro ⟨-, h1, -⟩
      have : 0 < area h.n a b c * w := by rw [← e1]; exact mul_pos hN (h1.2 hD')
      exact (pos_iff_pos_of_mul_pos this).2 hw
    · intro h0
      have hD : 0 < D := by
        have : 0 < N * D := by rw [e1]; exact mul_pos h0 hw
        exact (pos_iff_pos_of_mul_pos this).1 hN
      exact ⟨hD.ne', ⟨fun _ => hD', fun _ => hD⟩, fun h => absurd h hD.not_gt, fun h => absurd h hD'.not_gt⟩

/-- The area as an affine function of the third point. -/
def areaAff (n a b : Pt K) : Aff K :=
  let u := vsub b a
  let m : Pt K := ⟨n.y * u.z - n.z * u.y, n.z * u.x - n.x * u.z, n.x * u.y - n.y * u.x⟩
  ⟨m, -vdot m a⟩

omit [LinearOrder K] [IsStrictOrderedRing K] in
theorem areaAff_ev (n a b q : Pt K) : (areaAff n a b).ev q = area n a b q := by
  simp only [areaAff, Aff.ev, area, vdet, vsub, vdot]; ring

omit [LinearOrder K] [IsStrictOrderedRing K] in
theorem area_cycle (n a b c : Pt K) : area n b c a = area n a b c := by simp only [area, vdet, vsub]; ring

theorem triPoly_iff (t : Tri3 K) (poly : List (Pt K)) (base : Ori) (axis : Nat)
    (h1 : ∀ e ∈ t.sides, ∃ p ∈ poly, orient2dByAxis e.1 e.2 p axis ≠ .zero ∧ orient2dByAxis e.1 e.2 p axis = base)
    (h2 : ∀ e ∈ circ poly, ∃ p ∈ t.corners, orient2dByAxis e.1 e.2 p axis ≠ .zero ∧ orient2dByAxis e.1 e.2 p axis = base) : triPoly t poly base axis = true := by
  unfold triPoly
  rw [if_pos (by simpa only [List.all_eq_true, List.any_eq_true, decide_eq_true_eq] using h1)]
  split
  · rfl
  · simpa only [List.all_eq_true, List.any_eq_true, decide_eq_true_eq] using h2

theorem circ_map {α β : Type} (f : α → β) (l : List α) : circ (l.map f) = (circ l).map fun p => (f p.1, f p.2) := by
  rw [circ, circ, ← List.map_tail, ← List.map_take, ← List.map_append, List.zip_map]; rfl

theorem circ_mem {α : Type} {l : List α} {p : α × α} (h : p ∈ circ l) : p.1 ∈ l ∧ p.2 ∈ l := by
  have := List.of_mem_zip (show (p.1, p.2) ∈ l.zip (l.tail ++ l.take 1) from h)
  refine ⟨this.1, ?_⟩
  rcases List.mem_append.1 this.2 with h | h
  · exact List.mem_of_mem_tail h
  · exact List.mem_of_mem_take h

/-- **C98.** A triangle in the plane `h = 0` with the orientation of the plane and a point inside the cell passes the test of `is_triangle_intersects_poly` with the section of the cell.
Missing: triangles with the opposite orientation, for which the claim is false (`c98_orientation_refuted`). -/
theorem c98_tri_poly_partial {pos pos' : Nat → Pt K} {pl : Nat → Aff K} {h : Aff K} {cl : List (Nat × Option Nat)} {fs : List Cycle} {k : Nat} {vs : List Nat} (g : Geo pos pl cl fs) (ok : SectionOk pos' pl h cl k vs)
    (hn : vdot h.n h.n ≠ 0) (t : Tri3 K) (ht : ∀ p ∈ t.corners, h.ev p = 0) (hpos : 0 < area h.n t.a t.b t.c) (axis : Nat) (hb : orient2dByAxis t.a t.b t.c axis ≠ .zero)
    (hp : Passes t (Region pl cl k)) : triPoly t (vs.map pos') (orient2dByAxis t.a t.b t.c axis) axis = true := by
  obtain ⟨q, hq, hc⟩ := hp
  have hq0 : h.ev q = 0 := hq.zero ht
  have ta := ht t.a (by simp [Tri3.corners])
  have tb := ht t.b (by simp [Tri3.corners])
  have tc := ht t.c (by simp [Tri3.corners])
  -- some corner of the section lies to the left of each side
  have side : ∀ a b c : Pt K, h.ev a = 0 → h.ev b = 0 → h.ev c = 0 → 0 < area h.n a b c → 0 ≤ area h.n a b q → ∃ p ∈ vs.map pos', orient2dByAxis a b p axis ≠ .zero ∧
      orient2dByAxis a b p axis = orient2dByAxis t.a t.b t.c axis := by
    intro a b c ha hb' hc0 h0 hqs
    by_contra hno
    have hle : ∀ v ∈ vs, 0 ≤ (areaAff h.n a b).neg.ev (pos' v) := by
      intro v hv
      rw [Aff.neg_ev, areaAff_ev, neg_nonneg]
      by_contra hlt
      exact hno ⟨_, List.mem_map_of_mem hv, (axis_base hn ht hpos hb ha hb' (ok.plane v hv)).2 (not_le.1 hlt)⟩
    obtain ⟨r, r0, hr⟩ := hc c
    have hr0 : h.ev (lerp q c r) = 0 := by rw [ev_lerp, hq0, hc0]; ring
    have h1 := ok.hull q hq0 hc.mem _ hle
    have h2 := ok.hull _ hr0 hr _ hle
    rw [Aff.neg_ev, areaAff_ev] at h1
    rw [Aff.neg_ev, ev_lerp, areaAff_ev, areaAff_ev, show area h.n a b q = 0 by linarith, mul_zero, zero_add] at h2
    have := mul_pos r0 h0
    linarith
  apply triPoly_iff
  · have nonneg : ∀ a b : Pt K, (∀ p ∈ t.corners, 0 ≤ area h.n a b p) → 0 ≤ area h.n a b q := by
      intro a b hab
      obtain ⟨u, v, w, hu, hv, hw, -, e⟩ := hq.ev (areaAff h.n a b)
      rw [← areaAff_ev, e, areaAff_ev, areaAff_ev, areaAff_ev]
      have := mul_nonneg hu (hab t.a (by simp [Tri3.corners]))
      have := mul_nonneg hv (hab t.b (by simp [Tri3.corners]))
      have := mul_nonneg hw (hab t.c (by simp [Tri3.corners]))
      linarith
    have z1 : ∀ a b : Pt K, area h.n a b a = 0 := fun a b => by simp only [area, vdet, vsub]; ring
    have z2 : ∀ a b : Pt K, area h.n a b b = 0 := fun a b => by simp only [area, vdet, vsub]; ring
    intro e he
    simp only [Tri3.sides, List.mem_cons, List.not_mem_nil, or_false] at he
    rcases he with rfl | rfl | rfl
    · refine side t.a t.b t.c ta tb tc hpos (nonneg _ _ fun p hp => ?_)
      simp only [Tri3.corners, List.mem_cons, List.not_mem_nil, or_false] at hp
      rcases hp with rfl | rfl | rfl
      exacts [(z1 _ _).ge, (z2 _ _).ge, hpos.le]
    · have hp' : 0 < area h.n t.b t.c t.a := by rw [area_cycle]; exact hpos
      refine side t.b t.c t.a tb tc ta hp' (nonneg _ _ fun p hp => ?_)
      simp only [Tri3.corners, List.mem_cons, List.not_mem_nil, or_false] at hp
      rcases hp with rfl | rfl | rfl
      exacts [hp'.le, (z1 _ _).ge, (z2 _ _).ge]
    · have hp' : 0 < area h.n t.c t.a t.b := by rw [area_cycle, area_cycle]; exact hpos
      refine side t.c t.a t.b tc ta tb hp' (nonneg _ _ fun p hp => ?_)
      simp only [Tri3.corners, List.mem_cons, List.not_mem_nil, or_false] at hp
      rcases hp with rfl | rfl | rfl
      exacts [(z2 _ _).ge, hp'.le, (z1 _ _).ge]
  · intro e he
    rw [circ_map] at he
    obtain ⟨p, hp, rfl⟩ := List.mem_map.1 he
    obtain ⟨i, P, hP, hs, -, κ, κ0, e1⟩ := ok.edge p hp
    obtain ⟨y, -, hy⟩ := g.strict k i P hP hs
    have := hc.pos (A := (pl i).smul (sg P k : K)) (fun x hx => by rw [Aff.smul_ev]; exact hx i P hP hs) (x := pos y) (by rw [Aff.smul_ev]; exact mul_ne_zero (by exact_mod_cast hs) hy)
    rw [Aff.smul_ev] at this
    have h0 : 0 < (areaAff h.n (pos' p.1) (pos' p.2)).ev q := by rw [areaAff_ev, e1 q hq0]; exact mul_pos κ0 this
    obtain ⟨x, hx, hx0⟩ := hq.pos h0
    rw [areaAff_ev] at hx0
    have hm := circ_mem hp
    exact ⟨x, hx, (axis_base hn ht hpos hb (ok.plane _ hm.1) (ok.plane _ hm.2) (ht x hx)).2 hx0⟩

end Verif.Bsp
