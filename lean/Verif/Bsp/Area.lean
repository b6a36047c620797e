import Verif.Bsp.Input
import Verif.Bsp.Volume
import Mathlib.Data.Real.Sqrt
/-!
# The areas of the faces

Model of `face_area` (`bsp_complex.rs` lines 1928-1946) and of the areas in `complex_partition` (lines 596-611), for exact coordinates. The square root in `norm` (`math/mod.rs` lines 11-13) is kept
abstract: `IsNorm` lists what is used of it, and `euclid` is the norm of the code.
-/
namespace Verif.Bsp
open InSphere (Pt)
open Geom (lerp)
open Constraint (Proper)

/-- The sum of `face_area` over `verts[1..].windows(2)` (lines 1937-1944). -/
def fanArea {K T : Type} [Field K] [Field T] (norm : Pt K → T) (pa : Pt K) : List (Pt K) → T
  | pb :: pc :: l => norm (vcross (vsub pb pa) (vsub pc pa)) + fanArea norm pa (pc :: l)
  | _ => 0

/-- `face_area` (lines 1928-1946); `verts[0]` panics without vertices. It is twice the area: the norm of the cross product is not halved. -/
def faceArea {K T : Type} [Field K] [Field T] (norm : Pt K → T) : List (Pt K) → Option T
  | [] => none
  | pa :: r => some (fanArea norm pa r)

/-- The areas in `complex_partition` (lines 596-611): of every face with the vertices in the order of its half-edges, divided by their sum. -/
def faceAreas {K T : Type} [Field K] [Field T] (norm : Pt K → T) (g : GSt K) : Option (List T) := do
  let areas ← g.s.mesh.faces.mapM fun c => faceArea norm (c.map fun x => g.pos x.1)
  some (areas.map fun a => a / areas.sum)

/-! ### Specification -/

def vscale {K : Type} [Field K] (t : K) (v : Pt K) : Pt K := ⟨t * v.x, t * v.y, t * v.z⟩
def vadd {K : Type} [Field K] (u v : Pt K) : Pt K := ⟨u.x + v.x, u.y + v.y, u.z + v.z⟩

/-- What is used of the norm: it is not negative, zero only for the zero vector, and the norms of vectors in the same direction add up. -/
structure IsNorm {K T : Type} [Field K] [LinearOrder K] [Field T] [LinearOrder T] (norm : Pt K → T) : Prop where
  nonneg : ∀ v, 0 ≤ norm v
  zero : ∀ v, norm v = 0 ↔ v = ⟨0, 0, 0⟩
  add : ∀ (v : Pt K) (s t : K), 0 ≤ s → 0 ≤ t → norm (vadd (vscale s v) (vscale t v)) = norm (vscale s v) + norm (vscale t v)

/-- Twice the vector area of a face: the sum of the cross products of the ends of its half-edges. Its length is twice the area of the face, whichever vertex comes first. -/
def loopVec {K : Type} [Field K] (pos : Nat → Pt K) (c : Cycle) : Pt K :=
  ((hes c).map fun h => vcross (pos h.tail) (pos h.tip)).foldr vadd ⟨0, 0, 0⟩

section
variable {K T : Type} [Field K] [LinearOrder K] [IsStrictOrderedRing K] [Field T] [LinearOrder T] [IsStrictOrderedRing T]

theorem vadd_assoc (u v w : Pt K) : vadd (vadd u v) w = vadd u (vadd v w) := by simp only [vadd]; congr 1 <;> ring
theorem vadd_comm (u v : Pt K) : vadd u v = vadd v u := by simp only [vadd]; congr 1 <;> ring
theorem vadd_zero (u : Pt K) : vadd u ⟨0, 0, 0⟩ = u := by simp [vadd]
theorem zero_vadd (u : Pt K) : vadd ⟨0, 0, 0⟩ u = u := by simp [vadd]

/-- The vectors of the fan. -/
def fanVec (pa : Pt K) : List (Pt K) → Pt K
  | pb :: pc :: l => vadd (vcross (vsub pb pa) (vsub pc pa)) (fanVec pa (pc :: l))
  | _ => ⟨0, 0, 0⟩

/-- Two vectors in a plane: their cross product is a multiple of the normal vector. -/
theorem cross_normal {n u v : Pt K} (hn : vdot n n ≠ 0) (hu : vdot n u = 0) (hv : vdot n v = 0) : vcross u v = vscale (vdet n u v / vdot n n) n := by
  have key : ∀ a b : K, a * vdot n n = vdet n u v * b → a = vdet n u v / vdot n n * b := by
    intro a b h
    field_simp
    linear_combination h
  simp only [vcross, vscale]
  congr 1
  · refine key _ _ ?_
    simp only [vdot, vdet] at *
    linear_combination (n.y * v.z - n.z * v.y) * hu - (n.y * u.z - n.z * u.y) * hv
  · refine key _ _ ?_
    simp only [vdot, vdet] at *
    linear_combination (n.z * v.x - n.x * v.z) * hu - (n.z * u.x - n.x * u.z) * hv
  · refine key _ _ ?_
    simp only [vdot, vdet] at *
    linear_combination (n.x * v.y - n.y * v.x) * hu - (n.x * u.y - n.y * u.x) * hv

/-- If every triangle of the fan is a nonnegative multiple of the normal vector, then so is their sum, and its norm is the sum of the norms. -/
theorem fan_norm {norm : Pt K → T} (hN : IsNorm norm) (n pa : Pt K) : ∀ l : List (Pt K), (∀ k pb pc, l[k]? = some pb → l[k + 1]? = some pc → ∃ t, 0 ≤ t ∧ vcross (vsub pb pa) (vsub pc pa) = vscale t n) →
    ∃ t, 0 ≤ t ∧ fanVec pa l = vscale t n ∧ fanArea norm pa l = norm (vscale t n)
  | [], _ => ⟨0, le_rfl, by simp [fanVec, vscale], by rw [fanArea, eq_comm, hN.zero]; simp [vscale]; simp⟩
  | [b], _ => ⟨0, le_rfl, by simp [fanVec, vscale], by rw [fanArea, eq_comm, hN.zero]; simp [vscale]; simp⟩
  | b :: c :: l, h => by
    obtain ⟨t, t0, e1, e2⟩ := fan_norm hN n pa (c :: l) fun k pb pc h1 h2 => h (k + 1) pb pc h1 h2
    obtain ⟨s, s0, e3⟩ := h 0 b c rfl rfl
    have e : vadd (vscale s n) (vscale t n) = vscale (s + t) n := by simp only [vadd, vscale]; congr 1 <;> ring
    refine ⟨s + t, add_nonneg s0 t0, ?_, ?_⟩
    · rw [fanVec, e1, e3, e]
    · rw [fanArea, e2, e3, ← hN.add n s t s0 t0, e]


theorem path_next : ∀ (l : Cycle) (z k : Nat) (x y : Nat × Nat), l[k]? = some x → l[k + 1]? = some y → ∃ h ∈ path l z, h.tail = x.1 ∧ h.tip = y.1
  | [], _, _, _, _, h, _ => by simp at h
  | [a], _, k, _, _, _, h => by simp at h
  | a :: b :: l, z, 0, x, y, h1, h2 => by
    simp only [List.getElem?_cons_zero, List.getElem?_cons_succ, Option.some.injEq] at h1 h2
    subst h1 h2
    exact ⟨_, List.mem_cons_self .., rfl, rfl⟩
  | a :: b :: l, z, k + 1, x, y, h1, h2 => by
    obtain ⟨h, hh, e⟩ := path_next (b :: l) z k x y h1 h2
    exact ⟨h, List.mem_cons_of_mem _ hh, e⟩

def pathVec (pos : Nat → Pt K) (l : List HE) : Pt K := (l.map fun h => vcross (pos h.tail) (pos h.tip)).foldr vadd ⟨0, 0, 0⟩

theorem fanVec_path (pos : Nat → Pt K) (z : Nat) : ∀ (b : Nat × Nat) (l : Cycle), fanVec (pos z) ((b :: l).map fun x => pos x.1) = vadd (vcross (pos z) (pos b.1)) (pathVec pos (path (b :: l) z))
  | b, [] => by
    simp only [fanVec, pathVec, path, firstTail, vadd, vcross, List.map_cons, List.map_nil, List.foldr_cons, List.foldr_nil, List.head?_nil, List.head?_cons, Option.map_none, Option.map_some,
      Option.getD_none, Option.getD_some]
    congr 1 <;> ring
  | b, c :: l => by
    have ih := fanVec_path pos z c l
    have e : pathVec pos (path (b :: c :: l) z) = vadd (vcross (pos b.1) (pos c.1)) (pathVec pos (path (c :: l) z)) := rfl
    rw [List.map_cons, List.map_cons, fanVec, ← List.map_cons (f := fun x : Nat × Nat => pos x.1), ih, e]
    simp only [vadd, vcross, vsub]
    congr 1 <;> ring

theorem fanVec_loop (pos : Nat → Pt K) (x : Nat × Nat) (l : Cycle) : fanVec (pos x.1) (l.map fun x => pos x.1) = loopVec pos (x :: l) := by
  cases l with
  | nil =>
    simp only [fanVec, loopVec, hes, path, firstTail, vadd, vcross, List.map_cons, List.map_nil, List.foldr_cons, List.foldr_nil, List.head?_nil, List.head?_cons, Option.map_none, Option.map_some,
      Option.getD_none, Option.getD_some]
    congr 1 <;> ring
  | cons b l => rw [fanVec_path]; rfl

theorem vdot_pathVec (pos : Nat → Pt K) (y : Pt K) : ∀ l : List HE, vdot (pathVec pos l) y = (l.map fun h => vdet (pos h.tail) (pos h.tip) y).sum
  | [] => by simp [pathVec, vdot]
  | h :: l => by
    have ih := vdot_pathVec pos y l
    have e : pathVec pos (h :: l) = vadd (vcross (pos h.tail) (pos h.tip)) (pathVec pos l) := rfl
    rw [List.map_cons, List.sum_cons, ← ih, e]
    simp only [vadd, vcross, vdot, vdet]; ring

theorem pathVec_perm (pos : Nat → Pt K) {l l' : List HE} (h : l.Perm l') : pathVec pos l = pathVec pos l' := by
  unfold pathVec
  refine List.Perm.foldr_eq' (h.map _) (fun x _ y _ z => ?_) _
  rw [← vadd_assoc, vadd_comm y x, vadd_assoc]

theorem pathVec_append (pos : Nat → Pt K) : ∀ l l' : List HE, pathVec pos (l ++ l') = vadd (pathVec pos l) (pathVec pos l')
  | [], l' => (zero_vadd _).symm
  | h :: l, l' => by
    have ih := pathVec_append pos l l'
    show vadd _ (pathVec pos (l ++ l')) = vadd (vadd _ (pathVec pos l)) _
    rw [ih, vadd_assoc]

theorem loopVec_ne {pos : Nat → Pt K} {A : Aff K} {c : Cycle} (f : FaceOk pos A c) : loopVec pos c ≠ ⟨0, 0, 0⟩ := by
  intro e
  obtain ⟨l, l0, hl⟩ := f.size
  have h1 := hl A.n
  have h2 : vdot (loopVec pos c) A.n = _ := vdot_pathVec pos A.n (hes c)
  rw [loopSum, ← h2, e] at h1
  have h3 : vdot (⟨0, 0, 0⟩ : Pt K) A.n = 0 := by simp [vdot]
  rw [h3] at h1
  exact mul_ne_zero l0.ne' f.normal h1.symm

/-! ### The property -/

theorem face_multiple {norm : Pt K → T} (hN : IsNorm norm) {pos : Nat → Pt K} {A : Aff K} {c : Cycle} (f : FaceOk pos A c) :
    ∃ t, 0 ≤ t ∧ loopVec pos c = vscale t A.n ∧ faceArea norm (c.map fun x => pos x.1) = some (norm (vscale t A.n)) := by
  cases c with
  | nil => have := f.three; simp at this
  | cons x l =>
    obtain ⟨t, t0, e1, e2⟩ := fan_norm hN A.n (pos x.1) (l.map fun x => pos x.1) (by
      intro k pb pc h1 h2
      rw [List.getElem?_map, Option.map_eq_some_iff] at h1 h2
      obtain ⟨b, hb, rfl⟩ := h1
      obtain ⟨c, hc, rfl⟩ := h2
      obtain ⟨h, hh, e1, e2⟩ := path_next (x :: l) x.1 (k + 1) b c hb hc
      have hx : x ∈ x :: l := List.mem_cons_self ..
      have p0 := f.plane x hx
      have p1 := f.plane b (List.mem_cons_of_mem _ (List.mem_of_getElem? hb))
      have p2 := f.plane c (List.mem_cons_of_mem _ (List.mem_of_getElem? hc))
      have q1 : vdot A.n (vsub (pos b.1) (pos x.1)) = 0 := by simp only [Aff.ev, vdot, vsub] at *; linear_combination p1 - p0
      have q2 : vdot A.n (vsub (pos c.1) (pos x.1)) = 0 := by simp only [Aff.ev, vdot, vsub] at *; linear_combination p2 - p0
      refine ⟨_, ?_, cross_normal f.normal q1 q2⟩
      have hl := f.left h hh x hx
      rw [e1, e2, turn_rot, ← turn_rot] at hl
      refine div_nonneg ?_ (by simp only [vdot]; nlinarith [mul_self_nonneg A.n.x, mul_self_nonneg A.n.y, mul_self_nonneg A.n.z])
      have e : vdet A.n (vsub (pos b.1) (pos x.1)) (vsub (pos c.1) (pos x.1)) = area A.n (pos b.1) (pos c.1) (pos x.1) := by simp only [area, vdet, vsub]; ring
      rw [e]
      exact hl)
    exact ⟨t, t0, by rw [← fanVec_loop, e1], by rw [List.map_cons, faceArea, e2]⟩

/-- C107: for a convex face `face_area` is the length of twice the vector area, and it is positive. -/
theorem c107_area {norm : Pt K → T} (hN : IsNorm norm) {pos : Nat → Pt K} {A : Aff K} {c : Cycle} (f : FaceOk pos A c) :
    faceArea norm (c.map fun x => pos x.1) = some (norm (loopVec pos c)) ∧ 0 < norm (loopVec pos c) := by
  obtain ⟨t, t0, e1, e2⟩ := face_multiple hN f
  refine ⟨by rw [e1, e2], lt_of_le_of_ne (hN.nonneg _) fun e => loopVec_ne f ((hN.zero _).1 e.symm)⟩

/-- C107: it does not matter from which half-edge the walk around the face starts. -/
theorem c107_start {norm : Pt K → T} (hN : IsNorm norm) {pos : Nat → Pt K} {A : Aff K} {c d : Cycle} (f : FaceOk pos A c) (hr : c ~r d) :
    faceArea norm (d.map fun x => pos x.1) = faceArea norm (c.map fun x => pos x.1) := by
  rw [(c107_area hN f).1, (c107_area hN (f.rot hr)).1]
  exact congrArg (fun v => some (norm v)) (pathVec_perm pos (hes_rotated hr).perm.symm)

theorem splitAt2_append {va vb : Nat} : ∀ {l p r : Cycle} {x : Nat × Nat}, splitAt2 va vb l = some (p, x, r) → l = p ++ x :: r
  | [], _, _, _, h => by simp [splitAt2] at h
  | a :: l, p, r, x, h => by
    rw [splitAt2] at h
    split at h
    · simp only [Option.some.injEq, Prod.mk.injEq] at h
      obtain ⟨rfl, rfl, rfl⟩ := h
      rfl
    · simp only [Option.bind_eq_bind, Option.bind_eq_some_iff] at h
      obtain ⟨⟨p', y, r'⟩, h1, h⟩ := h
      simp only [Option.some.injEq, Prod.mk.injEq] at h
      obtain ⟨rfl, rfl, rfl⟩ := h
      rw [splitAt2_append h1]
      rfl

/-- C107: when `split_face` cuts a face into two convex faces in the same plane, their areas add up to that of the face. -/
theorem c107_split {norm : Pt K → T} (hN : IsNorm norm) {pos : Nat → Pt K} {A : Aff K} {c c1 c2 : Cycle} {va vb n : Nat} (e : cutCycle va vb n c = some (c1, c2)) (f : FaceOk pos A c) (f1 : FaceOk pos A c1)
    (f2 : FaceOk pos A c2) : ∃ a a1 a2, faceArea norm (c.map fun x => pos x.1) = some a ∧ faceArea norm (c1.map fun x => pos x.1) = some a1 ∧ faceArea norm (c2.map fun x => pos x.1) = some a2 ∧ a = a1 + a2 := by
  obtain ⟨t1, s1, v1, e1⟩ := face_multiple hN f1
  obtain ⟨t2, s2, v2, e2⟩ := face_multiple hN f2
  refine ⟨_, _, _, (c107_area hN f).1, e1, e2, ?_⟩
  rw [← hN.add A.n t1 t2 s1 s2, ← v1, ← v2]
  congr 1
  unfold cutCycle at e
  simp only [Option.bind_eq_bind, Option.bind_eq_some_iff] at e
  obtain ⟨⟨p, x, l⟩, h1, ⟨q, y, r⟩, h2, e⟩ := e
  simp only [Option.some.injEq, Prod.mk.injEq] at e
  obtain ⟨rfl, rfl⟩ := e
  have r1 := splitAt2_append h1
  have r2 := splitAt2_append h2
  subst r2 r1
  show pathVec pos (hes _) = vadd (pathVec pos (hes _)) (pathVec pos (hes _))
  rw [pathVec_perm pos (hes_whole p q r x y), pathVec_append, hes_cutOld, hes_cutOld]
  show _ = vadd (vadd _ (pathVec pos (path (x :: q) y.1))) (vadd _ (pathVec pos (path (y :: (r ++ p)) x.1)))
  simp only [vadd, vcross]
  congr 1 <;> ring

theorem mapM_eq {α β : Type} {f : α → Option β} {h : α → β} : ∀ {l : List α}, (∀ a ∈ l, f a = some (h a)) → l.mapM f = some (l.map h)
  | [], _ => rfl
  | a :: l, e => by
    rw [List.mapM_cons, e a (List.mem_cons_self ..), mapM_eq fun b hb => e b (List.mem_cons_of_mem _ hb)]
    rfl

theorem sum_pos_of {l : List T} (h0 : l ≠ []) (h : ∀ a ∈ l, 0 < a) : 0 < l.sum := by
  cases l with
  | nil => exact absurd rfl h0
  | cons a l => exact add_pos_of_pos_of_nonneg (h a (List.mem_cons_self ..)) (List.sum_nonneg fun b hb => (h b (List.mem_cons_of_mem _ hb)).le)

theorem sum_div (t : T) : ∀ l : List T, (l.map fun a => a / t).sum = l.sum / t
  | [] => by simp
  | a :: l => by rw [List.map_cons, List.sum_cons, List.sum_cons, sum_div t l, add_div]

theorem range_getD (l : List T) : (List.range l.length).map (fun i => l.getD i 0) = l := by
  refine List.ext_getElem (by simp) fun i h1 h2 => ?_
  simp [List.getElem?_eq_getElem h2]

/-- C107: the areas in `complex_partition`. If the faces are convex polygons and there is one, then the areas are computed without panic, they are positive and sum up to 1, and they are in the ratio of the areas of
the faces. -/
theorem c107_areas {norm : Pt K → T} (hN : IsNorm norm) (g : GSt K) (hf : ∀ (i : Nat) (c : Cycle), g.s.mesh.faces[i]? = some c → FaceOk g.pos (g.pl i) c) (h0 : g.s.mesh.faces ≠ []) :
    ∃ as, faceAreas norm g = some as ∧ as.length = g.s.mesh.faces.length ∧ (∀ a ∈ as, 0 < a) ∧ as.sum = 1 ∧
      ∃ total, 0 < total ∧ ∀ (i : Nat) (c : Cycle), g.s.mesh.faces[i]? = some c → as[i]? = some (norm (loopVec g.pos c) / total) := by
  have hall : ∀ c ∈ g.s.mesh.faces, faceArea norm (c.map fun x => g.pos x.1) = some (norm (loopVec g.pos c)) ∧ 0 < norm (loopVec g.pos c) := by
    intro c hc
    obtain ⟨i, hi⟩ := List.getElem?_of_mem hc
    exact c107_area hN (hf i c hi)
  have hm := mapM_eq (f := fun c : Cycle => faceArea norm (c.map fun x => g.pos x.1)) (h := fun c => norm (loopVec g.pos c)) fun c hc => (hall c hc).1
  have hpos : 0 < (g.s.mesh.faces.map fun c => norm (loopVec g.pos c)).sum := by
    refine sum_pos_of (by simpa using h0) fun a ha => ?_
    obtain ⟨c, hc, rfl⟩ := List.mem_map.1 ha
    exact (hall c hc).2
  refine ⟨_, by rw [faceAreas, hm]; rfl, by simp, fun a ha => ?_, ?_, _, hpos, fun i c hc => ?_⟩
  · obtain ⟨b, hb, rfl⟩ := List.mem_map.1 ha
    obtain ⟨c, hc, rfl⟩ := List.mem_map.1 hb
    exact div_pos (hall c hc).2 hpos
  · rw [sum_div, div_self hpos.ne']
  · simp [List.getElem?_map, hc]

/-- C107: closed shells with an orientation in general position, with the areas of `complex_partition`. The complex is made, the areas are computed, and the cells that the cuts keep are those inside a shell. -/
theorem c107_solid {norm : Pt K → T} (hN : IsNorm norm) (ch : Choices) (hch : ch.Good) (eps : K) (lead : K → K) (hl0 : ∀ x, lead x = 0 ↔ x = 0) (hl1 : ∀ x, 0 ≤ lead x) (pts : List (Pt K)) (h4 : 4 ≤ pts.length)
    (hn : pts.length ≤ 1021) (hg : General pts) (hflat : ∀ box s, Tet.boxOf pts = some box → Tet.boxSize box = some s → ¬ Delaunay.FlatPts pts s)
    (tris : List (Nat × Nat × Nat)) (hc : ∀ c ∈ tris, Proper pts.length c) (hd : Different tris) (hcl : ∀ c ∈ tris, ∀ i : Fin 3, ∃ d ∈ tris, ∃ j : Fin 3, toTri d j = toTri c (i + 1) ∧ toTri d (j + 1) = toTri c i)
    (shells : List Nat) (nShells : Nat) (In : Nat → Pt K → Prop) (hI : ∀ sh < nShells, SurfaceOf (triAt pts tris) (fun t => t < tris.length ∧ shells.getD t 0 = sh) (In sh))
    (hout : ∀ sh < nShells, ∀ p, ¬ InHull pts p → ¬ In sh p) :
    ∃ fuel g as kept, makeProper ch eps lead fuel pts tris = some (tris, g) ∧ faceAreas norm g = some as ∧
      Good g.s ∧ Geo g.pos g.pl g.s.cl g.s.mesh.faces ∧ (∀ (i : Nat) (P : Nat × Option Nat), g.s.cl[i]? = some P → P.2 = none → ∀ p, InHull pts p → 0 ≤ (g.pl i).ev p) ∧
      (∀ fuel ≥ 1, cellKept fuel (shellsOf (triAt pts tris) (axisAt eps lead pts tris) (fun i => as.getD i 0) (fun t => shells.getD t 0) nShells g) g.s.cx = some kept) ∧ kept.length = g.s.cx.cells.length ∧
      (∀ p, InHull pts p ↔ ∃ k < g.s.cx.cells.length, Region g.pl g.s.cl k p) ∧
      (∀ k < g.s.cx.cells.length, ∀ l < g.s.cx.cells.length, k ≠ l → ∀ q, ¬ (Core (Region g.pl g.s.cl k) q ∧ Core (Region g.pl g.s.cl l) q)) ∧
      Listed (triAt pts tris) tris.length g ∧
      ∀ k < g.s.cx.cells.length, ∀ q, Core (Region g.pl g.s.cl k) q → (kept[k]? = some true ↔ ∃ sh < nShells, In sh q) := by
  obtain ⟨fuel, g, e, gd, gg, hbd, hull, hdis, hLi, r⟩ := c106_solid (T := T) ch hch eps lead hl0 hl1 pts h4 hn hg hflat tris hc hd hcl shells nShells In hI hout
  have hf := gg.face
  have hlen : g.s.mesh.faces.length = g.s.cx.faces.length := by simpa using gd.mesh.len.symm
  have h0 : g.s.mesh.faces ≠ [] := by
    intro h0
    have h1 : g.s.cx.faces = [] := List.length_eq_zero_iff.1 (by rw [← hlen, h0]; rfl)
    obtain ⟨k, hk, -⟩ := (hull _).1 (inHull_point (pts := pts) (v := 0) (by omega))
    obtain ⟨p, hp⟩ := exists_not_hull pts
    exact hp ((hull p).2 ⟨k, hk, fun i P hP => by simp [St.cl, h1] at hP⟩)
  obtain ⟨as, e1, hl, hp, hs, -⟩ := c107_areas hN g hf h0
  have hget : ∀ i < as.length, 0 < as.getD i 0 := by
    intro i hi
    rw [List.getD_eq_getElem _ _ hi]
    exact hp _ (List.getElem_mem hi)
  obtain ⟨kept, k1, k2, k3⟩ := r (fun i => as.getD i 0) ⟨fun i => by
      by_cases hi : i < as.length
      · exact (hget i hi).le
      · show 0 ≤ as.getD i 0
        rw [List.getD_eq_default _ _ (by omega)], by
      show ((List.range g.s.cx.faces.length).map fun i => as.getD i 0).sum = 1
      rw [← hlen, ← hl, range_getD, hs]⟩ (fun i hi => hget i (by omega))
  exact ⟨fuel, g, as, kept, e, e1, gd, gg, hbd, k1, k2, hull, hdis, hLi, k3⟩

end

/-! ### The norm of the code, and examples -/

/-- `norm` (`math/mod.rs` lines 11-13) with an exact square root. -/
noncomputable def euclid (v : Pt ℚ) : ℝ := Real.sqrt (((v.x * v.x + v.y * v.y + v.z * v.z : ℚ)) : ℝ)

theorem euclid_scale (t : ℚ) (ht : 0 ≤ t) (v : Pt ℚ) : euclid (vscale t v) = t * euclid v := by
  have e : ((vscale t v).x * (vscale t v).x + (vscale t v).y * (vscale t v).y + (vscale t v).z * (vscale t v).z : ℚ) = t ^ 2 * (v.x * v.x + v.y * v.y + v.z * v.z) := by simp only [vscale]; ring
  rw [euclid, e, euclid, Rat.cast_mul, Rat.cast_pow, Real.sqrt_mul (by positivity), Real.sqrt_sq (by exact_mod_cast ht)]

theorem euclid_norm : IsNorm euclid where
  nonneg v := Real.sqrt_nonneg _
  zero v := by
    have h0 : (0 : ℚ) ≤ v.x * v.x + v.y * v.y + v.z * v.z := by nlinarith [mul_self_nonneg v.x, mul_self_nonneg v.y, mul_self_nonneg v.z]
    rw [euclid, Real.sqrt_eq_zero (by exact_mod_cast h0), Rat.cast_eq_zero]
    constructor
    · intro h
      have hx : v.x = 0 := by nlinarith [mul_self_nonneg v.x, mul_self_nonneg v.y, mul_self_nonneg v.z]
      have hy : v.y = 0 := by nlinarith [mul_self_nonneg v.x, mul_self_nonneg v.y, mul_self_nonneg v.z]
      have hz : v.z = 0 := by nlinarith [mul_self_nonneg v.x, mul_self_nonneg v.y, mul_self_nonneg v.z]
      obtain ⟨x, y, z⟩ := v
      simp_all
    · rintro rfl; norm_num
  add v s t hs ht := by
    have e : vadd (vscale s v) (vscale t v) = vscale (s + t) v := by simp only [vadd, vscale]; congr 1 <;> ring
    rw [e, euclid_scale _ (add_nonneg hs ht), euclid_scale _ hs, euclid_scale _ ht, Rat.cast_add, add_mul]

/-- A rectangle with one corner cut off. -/
def penPos : Nat → Pt ℚ
  | 0 => ⟨0, 0, 1⟩ | 1 => ⟨3, 0, 1⟩ | 2 => ⟨3, 1, 1⟩ | 3 => ⟨2, 2, 1⟩ | _ => ⟨0, 2, 1⟩

def penFace : Cycle := [(0, 0), (1, 1), (2, 2), (3, 3), (4, 4)]

theorem pen_ok {c : Cycle} (hc : c = penFace ∨ c = [(3, 5), (0, 0), (1, 1), (2, 2)] ∨ c = [(0, 5), (3, 3), (4, 4)]) : FaceOk penPos ⟨⟨0, 0, 1⟩, -1⟩ c := by
  have mid : ∀ h ∈ hes c, ∀ x ∈ c, ∀ t : ℚ, 0 < t → t < 1 → penPos x.1 ≠ lerp (penPos h.tail) (penPos h.tip) t := by
    intro h hh x hx t t0 t1 e
    rcases hc with rfl | rfl | rfl <;> simp only [penFace, hes, path, firstTail, List.head?_cons, List.head?_nil, Option.map_some, Option.map_none, Option.getD_some, Option.getD_none, List.mem_cons, List.not_mem_nil, or_false] at hh hx <;>
      rcases hh with rfl | rfl | rfl | rfl | rfl <;> rcases hx with rfl | rfl | rfl | rfl | rfl <;> simp only [penPos, lerp, Pt.mk.injEq] at e <;> linarith [e.1, e.2.1]
  rcases hc with rfl | rfl | rfl <;> exact ⟨by decide +kernel, by decide +kernel, by decide +kernel, by decide +kernel, mid, by decide +kernel⟩

example : faceArea euclid (penFace.map fun x => penPos x.1) = some (euclid (loopVec penPos penFace)) ∧ 0 < euclid (loopVec penPos penFace) := c107_area euclid_norm (pen_ok (.inl rfl))
example : loopVec penPos penFace = ⟨0, 0, 11⟩ := by decide +kernel
example := c107_start euclid_norm (pen_ok (.inl rfl)) (d := [(2, 2), (3, 3), (4, 4), (0, 0), (1, 1)]) ⟨2, rfl⟩
example := c107_split euclid_norm (c := penFace) (va := 0) (vb := 3) (n := 5) (c1 := [(3, 5), (0, 0), (1, 1), (2, 2)]) (c2 := [(0, 5), (3, 3), (4, 4)]) rfl (pen_ok (.inl rfl)) (pen_ok (.inr (.inl rfl)))
  (pen_ok (.inr (.inr rfl)))

/-- C107 for the tetrahedron with a point inside and one outside. -/
example := c107_solid euclid_norm plainChoices plain_good (1 / 1000000) (fun x => |x|) (fun _ => abs_eq_zero) (fun x => abs_nonneg x) genPts (by decide) (by decide) gen_general (by
    intro box s hb hs
    have : Tet.boxOf genPts = some [0, 0, 0, 5, 6, 7] := by decide +kernel
    rw [this, Option.some.injEq] at hb
    subst hb
    have : Tet.boxSize ([0, 0, 0, 5, 6, 7] : List ℚ) = some 110 := by decide +kernel
    rw [this, Option.some.injEq] at hs
    subst hs
    unfold Delaunay.FlatPts
    decide +kernel) genCs gen_proper (by unfold Different; decide +kernel) (by decide +kernel) [0, 0, 0, 0] 1 (fun _ => InTet) (fun sh hsh => by
    obtain rfl : sh = 0 := by omega
    have h := gen_surface
    have e : ∀ t, t < 4 → ([0, 0, 0, 0] : List Nat).getD t 0 = 0 := by decide
    exact ⟨fun p q hp => h.free p q fun t ht => hp t ⟨ht.1, e t ht.1⟩, fun t ht => h.front t ⟨ht.1, rfl⟩, fun t ht => h.back t ⟨ht.1, rfl⟩⟩) (fun _ _ p hp hin => hp (gen_hull p hin))

end Verif.Bsp
