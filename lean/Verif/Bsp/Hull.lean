import Verif.Bsp.Halves
/-!
# A cell is the convex hull of its vertices

What holds at all vertices of a convex cell for an affine function, being at least zero, holds at all points of its region, the set of points on the inner side of all its faces.
A plane through the point meets the faces in a convex polygon around the point, and a line through the point in that plane meets the polygon on both sides of the point.
-/
namespace Verif.Bsp
open InSphere (Pt)
open Geom (lerp)

variable {K : Type} [Field K] [LinearOrder K] [IsStrictOrderedRing K]

/-! ### Points on a line -/

/-- A vector orthogonal to `n` and `g` is a multiple of their cross product. -/
theorem along {n g d : Pt K} (h1 : vdot n d = 0) (h2 : vdot g d = 0) : vdot (vcross n g) (vcross n g) * d.x = vdot (vcross n g) d * (vcross n g).x ∧
    vdot (vcross n g) (vcross n g) * d.y = vdot (vcross n g) d * (vcross n g).y ∧ vdot (vcross n g) (vcross n g) * d.z = vdot (vcross n g) d * (vcross n g).z := by
  simp only [vdot, vcross] at *
  refine ⟨?_, ?_, ?_⟩
  · linear_combination ((n.x * g.y - n.y * g.x) * g.y - (n.z * g.x - n.x * g.z) * g.z) * h1 - ((n.x * g.y - n.y * g.x) * n.y - (n.z * g.x - n.x * g.z) * n.z) * h2
  · linear_combination ((n.y * g.z - n.z * g.y) * g.z - (n.x * g.y - n.y * g.x) * g.x) * h1 - ((n.y * g.z - n.z * g.y) * n.z - (n.x * g.y - n.y * g.x) * n.x) * h2
  · linear_combination ((n.z * g.x - n.x * g.z) * g.x - (n.y * g.z - n.z * g.y) * g.y) * h1 - ((n.z * g.x - n.x * g.z) * n.x - (n.y * g.z - n.z * g.y) * n.y) * h2

/-- On the line where `h` and `G` vanish, the point lies to the left of a segment from the negative to the positive side of `G` if it comes after the point where the segment meets the line. -/
theorem left_along {h G : Aff K} {a b u q : Pt K} (ha : h.ev a = 0) (hb : h.ev b = 0) (hu : h.ev u = 0) (gu : G.ev u = 0) (hq : h.ev q = 0) (gq : G.ev q = 0) {t : K} (e : u = lerp a b t) :
    vdot (vcross h.n G.n) (vcross h.n G.n) * area h.n a b q = vdot h.n h.n * (G.ev b - G.ev a) * (vdot (vcross h.n G.n) q - vdot (vcross h.n G.n) u) := by
  have d1 : vdot h.n (vsub q u) = 0 := by rw [vdot_vsub, hq, hu, sub_zero]
  have d2 : vdot G.n (vsub q u) = 0 := by rw [vdot_vsub, gq, gu, sub_zero]
  have d3 : vdot h.n (vsub b a) = 0 := by rw [vdot_vsub, hb, ha, sub_zero]
  have e1 : area h.n a b q = vdet h.n (vsub b a) (vsub q u) := by subst e; simp only [area, vdet, vsub, lerp]; ring
  have e2 : G.ev b - G.ev a = vdot G.n (vsub b a) := by rw [vdot_vsub]
  have e3 : vdot (vcross h.n G.n) q - vdot (vcross h.n G.n) u = vdot (vcross h.n G.n) (vsub q u) := by simp only [vdot, vsub]; ring
  rw [e1, e2, e3]
  obtain ⟨x1, x2, x3⟩ := along d1 d2
  generalize vsub q u = d at *
  generalize vsub b a = w at *
  generalize h.n = n at *
  generalize G.n = g at *
  generalize hr : vdot (vcross n g) d = r at *
  have : vdot (vcross n g) (vcross n g) * vdet n w d = n.x * (w.y * (vdot (vcross n g) (vcross n g) * d.z) - w.z * (vdot (vcross n g) (vcross n g) * d.y)) +
      n.y * (w.z * (vdot (vcross n g) (vcross n g) * d.x) - w.x * (vdot (vcross n g) (vcross n g) * d.z)) + n.z * (w.x * (vdot (vcross n g) (vcross n g) * d.y) - w.y * (vdot (vcross n g) (vcross n g) * d.x)) := by
    simp only [vdet]; ring
  rw [this, x1, x2, x3]
  simp only [vdot, vcross] at *
  linear_combination (- (n.x * g.x + n.y * g.y + n.z * g.z) * r) * d3

/-- An affine function on the line. -/
theorem ev_along {h G B : Aff K} {u q : Pt K} (hu : h.ev u = 0) (gu : G.ev u = 0) (hq : h.ev q = 0) (gq : G.ev q = 0) :
    vdot (vcross h.n G.n) (vcross h.n G.n) * (B.ev q - B.ev u) = vdot B.n (vcross h.n G.n) * (vdot (vcross h.n G.n) q - vdot (vcross h.n G.n) u) := by
  have d1 : vdot h.n (vsub q u) = 0 := by rw [vdot_vsub, hq, hu, sub_zero]
  have d2 : vdot G.n (vsub q u) = 0 := by rw [vdot_vsub, gq, gu, sub_zero]
  have e2 : B.ev q - B.ev u = vdot B.n (vsub q u) := by rw [vdot_vsub]
  have e3 : vdot (vcross h.n G.n) q - vdot (vcross h.n G.n) u = vdot (vcross h.n G.n) (vsub q u) := by simp only [vdot, vsub]; ring
  obtain ⟨x1, x2, x3⟩ := along d1 d2
  rw [e2, e3]
  generalize vsub q u = d at *
  have : vdot (vcross h.n G.n) (vcross h.n G.n) * vdot B.n d = B.n.x * (vdot (vcross h.n G.n) (vcross h.n G.n) * d.x) + B.n.y * (vdot (vcross h.n G.n) (vcross h.n G.n) * d.y) + B.n.z * (vdot (vcross h.n G.n) (vcross h.n G.n) * d.z) := by
    simp only [vdot]; ring
  rw [this, x1, x2, x3]
  simp only [vdot]; ring

/-- The two planes are not parallel if `G` is not constant on the plane `h = 0`. -/
theorem cross_ne {h G : Aff K} (hn : vdot h.n h.n ≠ 0) {a q : Pt K} (ha : h.ev a = 0) (hq : h.ev q = 0) (gq : G.ev q = 0) (ga : G.ev a ≠ 0) : 0 < vdot (vcross h.n G.n) (vcross h.n G.n) := by
  apply vdot_pos
  intro e
  apply ga
  have d1 : vdot h.n (vsub a q) = 0 := by rw [vdot_vsub, hq, ha, sub_zero]
  have d2 : vdot G.n (vsub a q) = G.ev a := by rw [vdot_vsub, gq, sub_zero]
  rw [← d2]
  generalize vsub a q = d at *
  have : vdot h.n h.n * vdot G.n d = vdot h.n G.n * vdot h.n d + vdot (vcross h.n G.n) (vcross h.n d) := by simp only [vdot, vcross]; ring
  rw [d1, e] at this
  have h0 : vdot h.n h.n * vdot G.n d = 0 := by rw [this]; simp [vdot]
  exact (mul_eq_zero.1 h0).resolve_left hn

/-- A plane through a point with vertices of a face on both sides. -/
theorem FaceOk.exists_through {pos : Nat → Pt K} {B : Aff K} {c : Cycle} (f : FaceOk pos B c) (q : Pt K) : ∃ G : Aff K, G.ev q = 0 ∧ (∃ x ∈ c, 0 < G.ev (pos x.1)) ∧ ∃ x ∈ c, G.ev (pos x.1) < 0 := by
  obtain ⟨k, hk, z, hz, hpos⟩ := f.fat
  obtain ⟨y, hy, ey⟩ := hes_tip hk
  have hx := hes_tail hk
  obtain ⟨a, ha, haq⟩ : ∃ a ∈ c, pos a.1 ≠ q := by
    by_contra hcon
    push Not at hcon
    exact f.pos_ne hk ((hcon _ hx).trans (by rw [← ey]; exact (hcon y hy).symm))
  obtain ⟨b, hb, hbn⟩ : ∃ b ∈ c, vcross (vsub (pos a.1) q) (vsub (pos b.1) q) ≠ ⟨0, 0, 0⟩ := by
    obtain ⟨b, hb, hbn⟩ := exists_off (p := q) hpos.ne' (vsub_ne haq)
    rcases hb with rfl | rfl | rfl
    · exact ⟨_, hx, hbn⟩
    · exact ⟨y, hy, by rw [ey]; exact hbn⟩
    · exact ⟨z, hz, hbn⟩
  have hΔ := vdot_pos hbn
  generalize hA : vsub (pos a.1) q = A at *
  generalize hB : vsub (pos b.1) q = B' at *
  have hG : ∀ p, Aff.ev ⟨⟨(vdot B' B' + vdot A B') * A.x - (vdot A B' + vdot A A) * B'.x, (vdot B' B' + vdot A B') * A.y - (vdot A B' + vdot A A) * B'.y, (vdot B' B' + vdot A B') * A.z - (vdot A B' + vdot A A) * B'.z⟩,
      - vdot ⟨(vdot B' B' + vdot A B') * A.x - (vdot A B' + vdot A A) * B'.x, (vdot B' B' + vdot A B') * A.y - (vdot A B' + vdot A A) * B'.y, (vdot B' B' + vdot A B') * A.z - (vdot A B' + vdot A A) * B'.z⟩ q⟩ p =
      (vdot B' B' + vdot A B') * vdot A (vsub p q) - (vdot A B' + vdot A A) * vdot B' (vsub p q) := by
    intro p; simp only [Aff.ev, vdot, vsub]; ring
  refine ⟨⟨⟨(vdot B' B' + vdot A B') * A.x - (vdot A B' + vdot A A) * B'.x, (vdot B' B' + vdot A B') * A.y - (vdot A B' + vdot A A) * B'.y, (vdot B' B' + vdot A B') * A.z - (vdot A B' + vdot A A) * B'.z⟩,
      - vdot ⟨(vdot B' B' + vdot A B') * A.x - (vdot A B' + vdot A A) * B'.x, (vdot B' B' + vdot A B') * A.y - (vdot A B' + vdot A A) * B'.y, (vdot B' B' + vdot A B') * A.z - (vdot A B' + vdot A A) * B'.z⟩ q⟩, ?_, ⟨a, ha, ?_⟩, b, hb, ?_⟩
  · rw [hG]; simp only [vdot, vsub]; ring
  · rw [hG, hA]
    have : (vdot B' B' + vdot A B') * vdot A A - (vdot A B' + vdot A A) * vdot B' A = vdot (vcross A B') (vcross A B') := by simp only [vdot, vcross]; ring
    rw [this]; exact hΔ
  · rw [hG, hB]
    have : (vdot B' B' + vdot A B') * vdot A B' - (vdot A B' + vdot A A) * vdot B' B' = - vdot (vcross A B') (vcross A B') := by simp only [vdot, vcross]; ring
    rw [this]; linarith

theorem hes_enter {Q : Nat → Prop} {c : Cycle} (h1 : ∃ x ∈ c, ¬ Q x.1) (h2 : ∃ x ∈ c, Q x.1) : ∃ k ∈ hes c, ¬ Q k.tail ∧ Q k.tip := by
  obtain ⟨y, hy, hQ⟩ := h2
  obtain ⟨l1, l2, rfl⟩ := List.append_of_mem hy
  have hr : (l1 ++ y :: l2) ~r (y :: (l2 ++ l1)) := by simpa using rot_swap l1 (y :: l2)
  obtain ⟨x, hx, hnx⟩ := h1
  have hx' : x ∈ l2 ++ l1 := by
    rcases List.mem_cons.1 (hr.perm.mem_iff.1 hx) with rfl | h
    · exact absurd hQ hnx
    · exact h
  obtain ⟨m1, m2, e⟩ := List.append_of_mem hx'
  obtain ⟨k, hk, h3, h4⟩ := exists_enter (Q := Q) (x :: m2) y.1 ⟨x, m2, rfl, hnx⟩ hQ
  refine ⟨k, (mem_hes_rot hr k).2 ?_, h3, h4⟩
  rw [e]
  have hr2 : (y :: (m1 ++ x :: m2)) ~r ((x :: m2) ++ (y :: m1)) := by simpa using rot_swap (y :: m1) (x :: m2)
  refine (mem_hes_rot hr2 k).2 ?_
  rw [hes, path_append]
  exact List.mem_append_left _ (by simpa [firstTail] using hk)

/-- **A point to the left of all sides of a convex polygon lies in the convex hull of its vertices.** -/
theorem FaceOk.hull {pos : Nat → Pt K} {h : Aff K} {Z : Cycle} (f : FaceOk pos h Z) {q : Pt K} (hq : h.ev q = 0) (hl : ∀ k ∈ hes Z, 0 ≤ area h.n (pos k.tail) (pos k.tip) q) {B : Aff K}
    (hB : ∀ x ∈ Z, 0 ≤ B.ev (pos x.1)) : 0 ≤ B.ev q := by
  obtain ⟨G, gq, ⟨x, hx, gx⟩, y, hy, gy⟩ := f.exists_through q
  have hn := normal_pos f.normal
  have hw := cross_ne f.normal (f.plane x hx) hq gq gx.ne'
  obtain ⟨k, hk, k1, k2⟩ := hes_enter (Q := fun v => 0 < G.ev (pos v)) (c := Z) ⟨y, hy, gy.le.not_gt⟩ ⟨x, hx, gx⟩
  obtain ⟨k', hk', k1', k2'⟩ := hes_enter (Q := fun v => ¬ 0 < G.ev (pos v)) (c := Z) ⟨x, hx, not_not.2 gx⟩ ⟨y, hy, gy.le.not_gt⟩
  simp only [not_lt] at k1 k2'
  rw [not_not] at k1'
  -- where the line meets the sides
  have meet : ∀ k ∈ hes Z, G.ev (pos k.tail) ≠ G.ev (pos k.tip) → (G.ev (pos k.tail) ≤ 0 ∧ 0 ≤ G.ev (pos k.tip) ∨ 0 ≤ G.ev (pos k.tail) ∧ G.ev (pos k.tip) ≤ 0) →
      ∃ (u : Pt K) (t : K), u = lerp (pos k.tail) (pos k.tip) t ∧ h.ev u = 0 ∧ G.ev u = 0 ∧ 0 ≤ B.ev u := by
    intro k hk hne hs
    obtain ⟨v, hv, ev⟩ := hes_tip hk
    have b1 := hB _ (hes_tail hk)
    have b2 := hB v hv
    rw [ev] at b2
    have hd : G.ev (pos k.tail) - G.ev (pos k.tip) ≠ 0 := sub_ne_zero.2 hne
    have t0 : 0 ≤ G.ev (pos k.tail) / (G.ev (pos k.tail) - G.ev (pos k.tip)) := by
      rcases hs with ⟨s1, s2⟩ | ⟨s1, s2⟩
      · exact div_nonneg_of_nonpos s1 (by linarith)
      · exact div_nonneg s1 (by linarith)
    have t1 : 0 ≤ 1 - G.ev (pos k.tail) / (G.ev (pos k.tail) - G.ev (pos k.tip)) := by
      have e : 1 - G.ev (pos k.tail) / (G.ev (pos k.tail) - G.ev (pos k.tip)) = (- G.ev (pos k.tip)) / (G.ev (pos k.tail) - G.ev (pos k.tip)) := by field_simp; ring
      rw [e]
      rcases hs with ⟨s1, s2⟩ | ⟨s1, s2⟩
      · exact div_nonneg_of_nonpos (by linarith) (by linarith)
      · exact div_nonneg (by linarith) (by linarith)
    refine ⟨_, G.ev (pos k.tail) / (G.ev (pos k.tail) - G.ev (pos k.tip)), rfl, ?_, ?_, ?_⟩
    · rw [ev_lerp, f.ev_tail hk, f.ev_tip hk]; ring
    · rw [ev_lerp]; field_simp; ring
    · rw [ev_lerp]
      exact add_nonneg (mul_nonneg t1 b1) (mul_nonneg t0 b2)
  obtain ⟨u, t, eu, hu, gu, bu⟩ := meet k hk (by intro e; linarith) (Or.inl ⟨k1, k2.le⟩)
  obtain ⟨u', t', eu', hu', gu', bu'⟩ := meet k' hk' (by intro e; linarith) (Or.inr ⟨k1'.le, k2'⟩)
  have e1 := left_along (f.ev_tail hk) (f.ev_tip hk) hu gu hq gq eu
  have e2 := left_along (f.ev_tail hk') (f.ev_tip hk') hu' gu' hq gq eu'
  have e3 := ev_along (B := B) hu gu hq gq
  have e4 := ev_along (B := B) hu' gu' hq gq
  have l1 := mul_nonneg hw.le (hl k hk)
  have l2 := mul_nonneg hw.le (hl k' hk')
  rw [e1] at l1
  rw [e2] at l2
  have r1 : 0 ≤ vdot (vcross h.n G.n) q - vdot (vcross h.n G.n) u := by
    by_contra hc
    have := mul_neg_of_pos_of_neg (mul_pos hn (by linarith : 0 < G.ev (pos k.tip) - G.ev (pos k.tail))) (not_le.1 hc)
    linarith
  have r2 : vdot (vcross h.n G.n) q - vdot (vcross h.n G.n) u' ≤ 0 := by
    by_contra hc
    have := mul_neg_of_neg_of_pos (mul_neg_of_pos_of_neg hn (by linarith : G.ev (pos k'.tip) - G.ev (pos k'.tail) < 0)) (not_le.1 hc)
    linarith
  generalize vdot (vcross h.n G.n) q - vdot (vcross h.n G.n) u = α at *
  generalize vdot (vcross h.n G.n) q - vdot (vcross h.n G.n) u' = β at *
  generalize vdot (vcross h.n G.n) (vcross h.n G.n) = w at *
  by_contra hc
  rw [not_le] at hc
  have s1 : w * (B.ev q - B.ev u) < 0 := mul_neg_of_pos_of_neg hw (by linarith)
  have s2 : w * (B.ev q - B.ev u') < 0 := mul_neg_of_pos_of_neg hw (by linarith)
  rw [e3] at s1
  rw [e4] at s2
  rcases le_total 0 (vdot B.n (vcross h.n G.n)) with hs | hs
  · have := mul_nonneg hs r1; linarith
  · have := mul_nonneg_of_nonpos_of_nonpos hs r2; linarith

/-! ### The section of a cell -/

theorem Pieces.perm {pos : Nat → Pt K} {h : Aff K} {A : Nat → Aff K} {F : Nat → Prop} {fv : Nat → Pt K → Prop} {T T' : List (Nat × List (Nat × Nat))} (hp : Pieces pos h A F fv T) (e : T'.Perm T) :
    Pieces pos h A F fv T' :=
  ⟨((e.map _).nodup_iff).2 hp.faces, fun p h1 => hp.ne p (e.mem_iff.1 h1), fun p h1 => hp.chain p (e.mem_iff.1 h1), fun p h1 => hp.dir p (e.mem_iff.1 h1), fun p h1 => hp.simple p (e.mem_iff.1 h1),
    fun p h1 => hp.inj p (e.mem_iff.1 h1), fun p h1 => hp.nomid p (e.mem_iff.1 h1)⟩

/-- A plane with vertices of the cell on both sides meets the cell in a convex polygon. -/
theorem Geo.section {pos : Nat → Pt K} {pl : Nat → Aff K} {h : Aff K} {s : St} {cid : Nat} {C : Poly.Cell} (gd : Good s) (hC : s.cx.cells[cid]? = some C)
    (g : Geo pos pl s.cl s.mesh.faces) (hup : ∃ x, OfCell s.cl s.mesh.faces cid x ∧ 0 < h.ev (pos x)) (hdn : ∃ x, OfCell s.cl s.mesh.faces cid x ∧ h.ev (pos x) < 0) :
    ∃ (pos' : Nat → Pt K) (Z : Cycle), FaceOk pos' h Z ∧ (∀ z ∈ Z, ∃ a b, OfCell s.cl s.mesh.faces cid a ∧ OfCell s.cl s.mesh.faces cid b ∧ ∃ t : K, 0 ≤ t ∧ t ≤ 1 ∧ pos' z.1 = lerp (pos a) (pos b) t) ∧
      ∀ k ∈ hes Z, ∃ (i : Nat) (P : Nat × Option Nat), s.cl[i]? = some P ∧ sg P cid ≠ 0 ∧ ∃ κ : K, 0 < κ ∧ ∀ q, h.ev q = 0 → area h.n (pos' k.tail) (pos' k.tip) q = κ * ((sg P cid : K) * (pl i).ev q) := by
  have ha : Across pos h (fun x => SignType.sign (h.ev (pos x))) s.cl s.mesh.faces cid := ⟨fun _ _ => rfl, hup, hdn⟩
  obtain ⟨cf, L, m1, E, hcf, hL, hLnd, hLf, hm, gm1, v1, fE, ex, hsp, hpiece⟩ := cell_pieces (fun _ => true) gd hC (g.convexFaces gd hC ha)
  have ok := g.cutOk gd hC ha
  obtain ⟨pos', -, -, -, g1, a1, hbet⟩ := g.splitEdges gd hC ha hLnd hLf hm fE ex v1 gm1
  have cg := g1.cell gm1.len a1.up a1.down
  have hnd : ((cellSplits (fun x => SignType.sign (h.ev (pos x))) s.mesh cid cf).map Prod.fst).Nodup := by rw [hsp]; exact gd.linked.nodup cid C hC
  have hpc := Geo.pieces (L := L) (nV := s.mesh.nV) (A := m1.all) (sp := (cellSplits (fun x => SignType.sign (h.ev (pos x))) s.mesh cid cf).filter fun p => p.2.outline) g1 cg.normal a1.sgn
    (hnd.sublist (List.Sublist.map _ List.filter_sublist)) fun p hp => ⟨(List.mem_filter.1 hp).2, hpiece p (List.mem_filter.1 hp).1⟩
  obtain ⟨keys, hkeys, hk2⟩ := mapM_total (f := fun p : Nat × Split => p.2.key L s.mesh.nV) (l := (cellSplits (fun x => SignType.sign (h.ev (pos x))) s.mesh cid cf).filter fun p => p.2.outline) (by
    intro p hp
    obtain ⟨P, c1, q1, q2, q3, q4, q5⟩ := hpiece p (List.mem_filter.1 hp).1
    obtain ⟨k, hk, -⟩ := key_mem q4 q5 (List.mem_filter.1 hp).2
    exact ⟨k, hk⟩)
  obtain ⟨-, l, hl, hl0, hch, hcl⟩ := ok.loop cf keys hcf (by rw [hL]; exact hkeys)
  have hT : List.Forall₂ (fun k p => HasKey p k) keys (((cellSplits (fun x => SignType.sign (h.ev (pos x))) s.mesh cid cf).filter fun p => p.2.outline).map fun p => (p.1, p.2.arcs L s.mesh.nV)) := by
    rw [List.forall₂_map_right_iff]
    exact hk2.flip.imp fun k p hpk => arcs_key hpk
  obtain ⟨T, hT1, hT2⟩ := List.perm_comp_forall₂ hl hT
  have hpT := hpc.perm hT2
  have hsegs : List.Forall₂ Seg (T.map fun p => p.2.map fun a => (⟨a.1, 0, a.2⟩ : HE)) l := by
    rw [List.forall₂_map_left_iff]
    clear hch hcl hl hl0
    have hT1' : List.Forall₂ (fun p k => p ∈ T ∧ HasKey p k) T l := by
      clear hT2 hpT
      induction hT1 with
      | nil => exact .nil
      | cons h1 _ ih => exact .cons ⟨by simp, h1⟩ (ih.imp fun p k hp => ⟨by simp [hp.1], hp.2⟩)
    refine hT1'.imp ?_
    rintro p k ⟨hp, h1, h2⟩
    refine ⟨by simpa using hpT.ne p hp, ?_, ?_, ?_⟩
    · rw [List.isChain_map]
      exact hpT.chain p hp
    · rw [List.head?_map, Option.map_map]; exact h1
    · rw [List.getLast?_map, Option.map_map]; exact h2
  have hT0 : T ≠ [] := by
    rintro rfl
    cases hT1
    exact hl0 rfl
  obtain ⟨z1, z2, z3⟩ := segs_chain hsegs hch
  have hloop : hes ((T.map fun p => p.2.map fun a => (⟨a.1, 0, a.2⟩ : HE)).flatten.map fun k => (k.tail, k.edge)) = (T.map fun p => p.2.map fun a => (⟨a.1, 0, a.2⟩ : HE)).flatten := by
    apply hes_of_loop _ z1
    · rw [z2, z3]; exact hcl
    · intro h0
      rw [h0] at z2
      cases l with
      | nil => exact hl0 rfl
      | cons a l => simp at z2
  have hmem : ∀ k ∈ (T.map fun p => p.2.map fun a => (⟨a.1, 0, a.2⟩ : HE)).flatten, ∃ p ∈ T, (k.tail, k.tip) ∈ p.2 := by
    intro k hk
    obtain ⟨l, hl, hk⟩ := List.mem_flatten.1 hk
    obtain ⟨p, hp, rfl⟩ := List.mem_map.1 hl
    obtain ⟨a, ha, rfl⟩ := List.mem_map.1 hk
    exact ⟨p, hp, ha⟩
  have hface := hpT.face cg (segs := T.map fun p => p.2.map fun a => (⟨a.1, 0, a.2⟩ : HE)) (by
    rw [List.forall₂_map_right_iff, List.forall₂_same]
    intro p _
    simp [Function.comp_def]) hloop hT0
  have hfaceP : ∀ i, cellF s.cl cid i → ∃ P, s.cl[i]? = some P ∧ sg P cid ≠ 0 := fun i hi => sgOf_ne hi
  refine ⟨pos', _, hface, ?_, ?_⟩
  · intro z hz
    obtain ⟨k, hk, rfl⟩ := List.mem_map.1 hz
    obtain ⟨p, hp, hk⟩ := hmem k hk
    have d := hpT.dir p hp _ hk
    obtain ⟨P, hP, hs⟩ := sgOf_ne d.face
    obtain ⟨c, hc, x, hx, ex⟩ := d.fa
    obtain ⟨a, b, h1, h2, t, t0, t1, e⟩ := hbet x.1 ⟨p.1, P, c, hP, hs, hc, x, hx, rfl⟩
    exact ⟨a, b, h1, h2, t, t0, t1, by rw [← e]; exact ex.symm⟩
  · intro k hk
    rw [hloop] at hk
    obtain ⟨p, hp, hk⟩ := hmem k hk
    have d := hpT.dir p hp _ hk
    obtain ⟨P, hP, hs⟩ := sgOf_ne d.face
    obtain ⟨κ, h1, h2⟩ := d.left
    refine ⟨p.1, P, hP, hs, κ, h1, fun q hq => ?_⟩
    rw [h2 q hq, cellA, Aff.smul_ev, sgOf_some hP]

/-- **The region of a convex cell is the convex hull of its vertices.** -/
theorem Geo.hull {pos : Nat → Pt K} {pl : Nat → Aff K} {s : St} {cid : Nat} {C : Poly.Cell} (gd : Good s) (hC : s.cx.cells[cid]? = some C) (g : Geo pos pl s.cl s.mesh.faces)
    (hface : ∃ (i : Nat) (P : Nat × Option Nat), s.cl[i]? = some P ∧ sg P cid ≠ 0) {q : Pt K} (hq : Region pl s.cl cid q) {B : Aff K} (hB : ∀ x, OfCell s.cl s.mesh.faces cid x → 0 ≤ B.ev (pos x)) : 0 ≤ B.ev q := by
  obtain ⟨i, P, hP, hs⟩ := hface
  have hi : i < s.mesh.faces.length := by
    have h1 : s.cl.length = s.mesh.faces.length := gd.mesh.len
    rw [← h1]; exact (List.getElem?_eq_some_iff.1 hP).1
  have hc := List.getElem?_eq_getElem hi
  obtain ⟨h, hq0, ⟨x, hx, x0⟩, y, hy, y0⟩ := (g.face i _ hc).exists_through q
  obtain ⟨pos', Z, f, hZ, hk⟩ := g.section gd hC ⟨x.1, ⟨i, P, _, hP, hs, hc, x, hx, rfl⟩, x0⟩ ⟨y.1, ⟨i, P, _, hP, hs, hc, y, hy, rfl⟩, y0⟩
  refine f.hull hq0 ?_ ?_
  · intro k hk'
    obtain ⟨j, Q, hQ, hsQ, κ, κ0, e⟩ := hk k hk'
    rw [e q hq0]
    exact mul_nonneg κ0.le (hq j Q hQ hsQ)
  · intro z hz
    obtain ⟨a, b, oa, ob, t, t0, t1, e⟩ := hZ z hz
    rw [e, ev_lerp]
    exact add_nonneg (mul_nonneg (by linarith) (hB a oa)) (mul_nonneg t0 (hB b ob))

end Verif.Bsp
