import Verif.Bsp.FaceHits
/-!
# C105: constraints in general position reach every tetrahedron
-/
namespace Verif.Bsp
open InSphere (Pt Ori orient3d)
open Geom (lerp orient2dByAxis Collinear Coplanar InClosedTriangle)
open Delaunay (Comb IsDelaunay SolidTet Sees)
open Constraint (insertConstraints marksAt Proper Vertices Touched Spread Meets FaceOver FaceIn InTet InsideTet Crossed Diagonal)
open Tet (TriFace Mesh)

variable {K : Type} [Field K] [LinearOrder K] [IsStrictOrderedRing K]

/-- What a tetrahedron has in common with the one across a face. -/
theorem nei_facts {pts : List (Pt K)} {m : Mesh} (hD : IsDelaunay pts m) {t : Nat} {x : Tet.Tet} (hx : m.tets[t]? = some x) {i : Fin 4} {h : TriFace} (hn : x.nei i = some h) :
    ∃ y j n, m.tets[h.tet]? = some y ∧ y.nei j = some n ∧ n.tet = t ∧ (∀ l, l ≠ i → ∃ k, k ≠ j ∧ y.data k = x.data l) ∧ ∀ k, k ≠ j → ∃ l, l ≠ i ∧ x.data l = y.data k := by
  have hl : t < m.tets.length := (List.getElem?_eq_some_iff.1 hx).1
  have hv := Tet.face_verOfFace i
  obtain ⟨g, y, e, hgl, gl, hs⟩ := Delaunay.glued_sees (h := ⟨t, Tet.verOfFace i⟩) hD.whole hl (⟨hx, rfl, rfl, rfl, rfl⟩ : Sees m ⟨t, Tet.verOfFace i⟩ x _ _ _ _)
  obtain ⟨n, hn', e'⟩ := Delaunay.nei_of_glued hx gl
  obtain ⟨n2, hn2, e2⟩ := Delaunay.nei_of_glued hs.get gl.symm
  have hv' : Tet.face (⟨t, Tet.verOfFace i⟩ : TriFace).ver = i := hv
  rw [hv', hn] at hn'
  cases hn'
  refine ⟨y, Tet.face g.ver, n2, by rw [e']; exact hs.get, hn2, e2, fun l hne => ?_, fun k hk => ?_⟩
  · rw [← hv, Constraint.face_oppo] at hne
    rcases Constraint.pivot_cases (Tet.verOfFace i) l with rfl | rfl | rfl | rfl
    · exact ⟨_, by rw [Constraint.face_oppo]; exact pivots_ne _ |>.2.1, hs.dest⟩
    · exact ⟨_, by rw [Constraint.face_oppo]; exact pivots_ne _ |>.1, hs.org⟩
    · exact ⟨_, by rw [Constraint.face_oppo]; exact pivots_ne _ |>.2.2, hs.apex⟩
    · exact absurd rfl hne
  · rw [Constraint.face_oppo] at hk
    have hne := pivots_ne (Tet.verOfFace i)
    rw [← Constraint.face_oppo, hv] at hne
    rcases Constraint.pivot_cases g.ver k with rfl | rfl | rfl | rfl
    · exact ⟨_, hne.2.1, hs.org.symm⟩
    · exact ⟨_, hne.1, hs.dest.symm⟩
    · exact ⟨_, hne.2.2, hs.apex.symm⟩
    · exact absurd rfl hk
where pivots_ne : ∀ v : Tet.Ver, Tet.orgPivot v ≠ Tet.oppoPivot v ∧ Tet.destPivot v ≠ Tet.oppoPivot v ∧ Tet.apexPivot v ≠ Tet.oppoPivot v := by decide

/-- If the sides of the triangle do not touch the tetrahedron, the section with its plane lies inside the triangle or outside. -/
theorem section_in {T : Fin 4 → Pt K} {A B C : Pt K} (hf : ¬ Touched T A B C) {p q : Pt K} (hp : InTet T p) (ht : InClosedTriangle p A B C) (hq : InTet T q) (hco : Coplanar q A B C) :
    ∃ a b c, 0 < a ∧ 0 < b ∧ 0 < c ∧ a + b + c = 1 ∧ q = Geom.comb a b c A B C := by
  refine Constraint.open_of_closed ?_ fun hs => hf ⟨q, hq, hs⟩
  obtain ⟨a, b, c, ha, hb, hc, hs, ep⟩ := Constraint.open_of_closed ht fun hs => hf ⟨p, hp, hs⟩
  obtain ⟨a', b', c', hs', eq⟩ := hco
  by_contra hno
  have hneg : ∃ l, (![a', b', c'] : Fin 3 → K) l < 0 := by
    by_contra hn
    push Not at hn
    exact hno ⟨a', b', c', hn 0, hn 1, hn 2, hs', eq⟩
  obtain ⟨u, u0, u1, hall, l, hl⟩ := weights_zero (a := ![a, b, c]) (by intro l; fin_cases l <;> assumption) hneg
  obtain ⟨w, w0, hw⟩ := hp
  obtain ⟨w', w0', hw'⟩ := hq
  refine hf ⟨lerp p q u, ?_, ?_⟩
  · exact ⟨_, fun l => add_nonneg (mul_nonneg (by linarith) (w0 l)) (mul_nonneg u0 (w0' l)), Constraint.comb_lerp hw hw' u⟩
  · rw [ep, eq, Constraint.comb3_lerp]
    refine Constraint.onSides_of_zero (hall 0) (hall 1) (hall 2) ?_ ?_
    · show (1 - u) * a + u * a' + ((1 - u) * b + u * b') + ((1 - u) * c + u * c') = 1
      linear_combination (1 - u) * hs + u * hs'
    · fin_cases l
      · exact Or.inl hl
      · exact Or.inr (Or.inl hl)
      · exact Or.inr (Or.inr hl)

/-- Where an edge crosses a plane. -/
def edgeHit (H : Aff K) (p q : Pt K) : Pt K := lerp p q (H.ev p / (H.ev p - H.ev q))

omit [LinearOrder K] [IsStrictOrderedRing K] in
theorem corner_comb (T : Fin 4 → Pt K) (i : Fin 4) : Comb T (fun l => if l = i then 1 else 0) (T i) := by constructor <;> simp

theorem edgeHit_spec (H : Aff K) (T : Fin 4 → Pt K) {i j : Fin 4} (hi : 0 < H.ev (T i)) (hj : H.ev (T j) < 0) :
    H.ev (edgeHit H (T i) (T j)) = 0 ∧ ∃ w, (∀ l, 0 ≤ w l) ∧ Comb T w (edgeHit H (T i) (T j)) ∧ 0 < w i ∧ 0 < w j ∧ ∀ l, l ≠ i → l ≠ j → w l = 0 := by
  have hd : 0 < H.ev (T i) - H.ev (T j) := by linarith
  have h0 := div_pos hi hd
  have h1 : H.ev (T i) / (H.ev (T i) - H.ev (T j)) < 1 := by rw [div_lt_one hd]; linarith
  have hij : i ≠ j := by rintro rfl; linarith
  refine ⟨?_, _, fun l => ?_, Constraint.comb_lerp (corner_comb T i) (corner_comb T j) _, ?_, ?_, fun l h2 h3 => ?_⟩
  · rw [edgeHit, ev_lerp]; field_simp; ring
  · refine add_nonneg (mul_nonneg (by linarith) ?_) (mul_nonneg h0.le ?_) <;> split <;> simp
  · simp only [if_true, if_neg hij]; linarith
  · simp only [if_true, if_neg hij.symm]; linarith
  · simp only [if_neg h2, if_neg h3]; ring

/-- A plane with corners of a tetrahedron on both sides meets its inside. -/
theorem inside_hit (H : Aff K) (T : Fin 4 → Pt K) {i j : Fin 4} (hi : 0 < H.ev (T i)) (hj : H.ev (T j) < 0) : ∃ p, InsideTet T p ∧ H.ev p = 0 := by
  have hij : i ≠ j := by rintro rfl; linarith
  -- some inside point, moved along the edge
  set s := ∑ l, H.ev (T l) with hs
  obtain ⟨a, b, ha, hb, hab⟩ : ∃ a b : K, 0 ≤ a ∧ 0 ≤ b ∧ s + a * H.ev (T i) + b * H.ev (T j) = 0 := by
    rcases le_total 0 s with h | h
    · refine ⟨0, s / -H.ev (T j), le_refl _, div_nonneg h (by linarith), ?_⟩
      have : H.ev (T j) ≠ 0 := hj.ne
      field_simp; ring
    · refine ⟨-s / H.ev (T i), 0, div_nonneg (by linarith) hi.le, le_refl _, ?_⟩
      have : H.ev (T i) ≠ 0 := hi.ne'
      field_simp; ring
  have hN : 0 < 4 + a + b := by linarith
  let w : Fin 4 → K := fun l => (1 + (if l = i then a else 0) + if l = j then b else 0) / (4 + a + b)
  have hw : ∀ l, 0 < w l := fun l => by
    refine div_pos ?_ hN
    have : (0 : K) ≤ if l = i then a else 0 := by split <;> simp [ha]
    have : (0 : K) ≤ if l = j then b else 0 := by split <;> simp [hb]
    linarith
  have hsum : ∑ l, w l = 1 := by
    show ∑ l, (1 + (if l = i then a else 0) + if l = j then b else 0) / (4 + a + b) = 1
    rw [← Finset.sum_div, Finset.sum_add_distrib, Finset.sum_add_distrib]
    simp
    exact hN.ne'
  refine ⟨⟨∑ l, w l * (T l).x, ∑ l, w l * (T l).y, ∑ l, w l * (T l).z⟩, ⟨w, hw, ⟨hsum, rfl, rfl, rfl⟩⟩, ?_⟩
  rw [ev_of_comb (⟨hsum, rfl, rfl, rfl⟩ : Comb T w _) H]
  show ∑ l, (1 + (if l = i then a else 0) + if l = j then b else 0) / (4 + a + b) * H.ev (T l) = 0
  have : ∀ l, (1 + (if l = i then a else 0) + if l = j then b else 0) / (4 + a + b) * H.ev (T l) = (H.ev (T l) + (if l = i then a * H.ev (T l) else 0) + if l = j then b * H.ev (T l) else 0) / (4 + a + b) := by
    intro l; split <;> split <;> ring
  simp only [this]
  rw [← Finset.sum_div, Finset.sum_add_distrib, Finset.sum_add_distrib]
  simp only [Finset.sum_ite_eq', Finset.mem_univ, if_true]
  rw [← hs, hab, zero_div]

/-- On the section of a tetrahedron an affine function is largest at an edge. -/
theorem section_max (H L : Aff K) (T : Fin 4 → Pt K) (hT : ∀ l, H.ev (T l) ≠ 0) {M : K} (hM : ∀ i j, 0 < H.ev (T i) → H.ev (T j) < 0 → L.ev (edgeHit H (T i) (T j)) ≤ M) {q : Pt K} (hq : InTet T q) (h0 : H.ev q = 0) :
    L.ev q ≤ M := by
  obtain ⟨w, w0, hw⟩ := hq
  have e1 := ev_of_comb hw H
  have e2 := ev_of_comb hw L
  rw [h0] at e1
  obtain ⟨μ, hμ⟩ : ∃ μ, ∀ l, L.ev (T l) - M ≤ μ * H.ev (T l) := by
    by_cases hp : ∃ i, 0 < H.ev (T i)
    · obtain ⟨i0, hi0⟩ := hp
      obtain ⟨i, hi, hmax⟩ := Finset.exists_max_image (Finset.univ.filter fun i => 0 < H.ev (T i)) (fun i => (L.ev (T i) - M) / H.ev (T i)) ⟨i0, by simpa using hi0⟩
      simp only [Finset.mem_filter, Finset.mem_univ, true_and] at hi hmax
      refine ⟨(L.ev (T i) - M) / H.ev (T i), fun l => ?_⟩
      rcases lt_or_gt_of_ne (hT l) with hl | hl
      · have h := hM i l hi hl
        have hd : 0 < H.ev (T i) - H.ev (T l) := by linarith
        rw [edgeHit, ev_lerp] at h
        have h' : (1 - H.ev (T i) / (H.ev (T i) - H.ev (T l))) * L.ev (T i) + H.ev (T i) / (H.ev (T i) - H.ev (T l)) * L.ev (T l) = (-H.ev (T l) * L.ev (T i) + H.ev (T i) * L.ev (T l)) / (H.ev (T i) - H.ev (T l)) := by
          field_simp; ring
        rw [h', div_le_iff₀ hd] at h
        rw [div_mul_eq_mul_div, le_div_iff₀ hi]
        linarith
      · have := hmax l hl
        rw [div_le_iff₀ hl] at this
        exact this
    · push Not at hp
      have hn : ∀ l, H.ev (T l) < 0 := fun l => lt_of_le_of_ne (hp l) (hT l)
      exfalso
      have : ∑ l, w l * H.ev (T l) < 0 := by
        obtain ⟨i, hi⟩ : ∃ i, 0 < w i := by
          by_contra hno
          push Not at hno
          have : ∑ l, w l ≤ 0 := Finset.sum_nonpos fun l _ => hno l
          rw [hw.sum] at this
          exact absurd this (not_le.2 one_pos)
        refine Finset.sum_neg' (fun l _ => mul_nonpos_of_nonneg_of_nonpos (w0 l) (hn l).le) ⟨i, Finset.mem_univ _, mul_neg_of_pos_of_neg hi (hn i)⟩
      linarith
  have : ∑ l, w l * (L.ev (T l) - M) ≤ ∑ l, w l * (μ * H.ev (T l)) := Finset.sum_le_sum fun l _ => mul_le_mul_of_nonneg_left (hμ l) (w0 l)
  have e3 : ∑ l, w l * (μ * H.ev (T l)) = 0 := by
    rw [← mul_zero μ, e1, Finset.mul_sum]
    exact Finset.sum_congr rfl fun l _ => by ring
  have e4 : ∑ l, w l * (L.ev (T l) - M) = L.ev q - M := by
    simp only [mul_sub, Finset.sum_sub_distrib]
    rw [← Finset.sum_mul, hw.sum, ← e2, one_mul]
  linarith

section
variable {pts : List (Pt K)} {m : Mesh} {A B C : Pt K}

/-- Specification: no other point lies in the plane of the triangle. -/
def Alone (pts : List (Pt K)) (A B C : Pt K) : Prop := ∀ e ∈ pts, Coplanar e A B C → e = A ∨ e = B ∨ e = C

theorem coplanar_plane (hn : ¬ Collinear A B C) (q : Pt K) : Coplanar q A B C ↔ (through A B C).ev q = 0 := by
  rw [Geom.coplanar_iff (by rwa [← Geom.collinear_iff_flat]), ← ev_through]

omit [IsStrictOrderedRing K] in
theorem solid_mem {t : Nat} {c : Fin 4 → Pt K} (h : SolidTet pts m t c) (i : Fin 4) : c i ∈ pts := by
  obtain ⟨x, -, -, hc⟩ := h
  exact List.mem_of_getElem? (hc i)

/-- No corner of a tetrahedron that the sides do not touch lies in the plane. -/
theorem alone_corner (hn : ¬ Collinear A B C) (hg : Alone pts A B C) {t : Nat} {c : Fin 4 → Pt K} (h : SolidTet pts m t c) (hf : ¬ Touched c A B C) (i : Fin 4) : (through A B C).ev (c i) ≠ 0 := by
  intro e
  refine hf ⟨c i, ⟨_, fun l => ?_, corner_comb c i⟩, ?_⟩
  · split <;> simp
  rcases hg _ (solid_mem h i) ((coplanar_plane hn _).2 e) with e | e | e <;> rw [e]
  · exact .inl ⟨0, le_rfl, zero_le_one, (lerp_zero _ _).symm⟩
  · exact .inl ⟨1, zero_le_one, le_rfl, (lerp_one _ _).symm⟩
  · exact .inr (.inl ⟨1, zero_le_one, le_rfl, (lerp_one _ _).symm⟩)

theorem solid_volume (hD : IsDelaunay pts m) {t : Nat} {c : Fin 4 → Pt K} (h : SolidTet pts m t c) : 0 < volume c := by
  have := (hD.sphere t c h).1
  simp only [volume, vdet, vsub, orient3d] at this ⊢; linarith

/-- The plane of a face on the boundary of the hull. -/
theorem ghost_plane (hD : IsDelaunay pts m) {t g : Nat} {x y : Tet.Tet} {c : Fin 4 → Pt K} (hs : SolidTet pts m t c) (hx : m.tets[t]? = some x) (hy : m.tets[g]? = some y) (hy3 : y.data 3 = pts.length) {j : Fin 4}
    (hl : ∀ l, l ≠ 3 → ∃ i, i ≠ j ∧ x.data i = y.data l) : ∃ G : Aff K, (∀ e ∈ pts, 0 ≤ G.ev e) ∧ (∀ l, l ≠ j → G.ev (c l) = 0) ∧ G.ev (c j) ≠ 0 := by
  have hv := solid_volume hD hs
  obtain ⟨x', hx', h3, hc⟩ := hs
  rw [hx] at hx'; cases hx'
  have hcp : ∀ l, c l = posOf pts (x.data l) := fun l => by rw [posOf, hc l]; rfl
  obtain ⟨p0, p1, p2, -⟩ := hD.point _ y hy
  obtain ⟨hin, -⟩ := hD.hull _ y _ _ _ hy hy3 (posOf_some p0) (posOf_some p1) (posOf_some p2)
  have hyi : Function.Injective y.data := by
    obtain ⟨y', hy', h⟩ := hD.whole.corners _ (List.getElem?_eq_some_iff.1 hy).1
    rw [hy] at hy'; cases hy'; exact h
  obtain ⟨i0, n0, d0⟩ := hl 0 (by decide)
  obtain ⟨i1, n1, d1⟩ := hl 1 (by decide)
  obtain ⟨i2, n2, d2⟩ := hl 2 (by decide)
  have n01 : i0 ≠ i1 := fun h => absurd (hyi (by rw [← d0, h, d1] : y.data 0 = y.data 1)) (by decide)
  have n02 : i0 ≠ i2 := fun h => absurd (hyi (by rw [← d0, h, d2] : y.data 0 = y.data 2)) (by decide)
  have n12 : i1 ≠ i2 := fun h => absurd (hyi (by rw [← d1, h, d2] : y.data 1 = y.data 2)) (by decide)
  have hσ : Function.Injective (![i0, i1, i2, j] : Fin 4 → Fin 4) := by
    intro a b h
    fin_cases a <;> fin_cases b <;> first | rfl | (exfalso; simp only [Fin.zero_eta, Fin.mk_one, Fin.reduceFinMk, Matrix.cons_val] at h; first | exact n0 h | exact n1 h | exact n2 h | exact n01 h | exact n02 h | exact n12 h | exact n0 h.symm | exact n1 h.symm | exact n2 h.symm | exact n01 h.symm | exact n02 h.symm | exact n12 h.symm)
  have hcov : ∀ i0 i1 i2 j : Fin 4, i0 ≠ j → i1 ≠ j → i2 ≠ j → i0 ≠ i1 → i0 ≠ i2 → i1 ≠ i2 → ∀ l, l ≠ j → l = i0 ∨ l = i1 ∨ l = i2 := by decide +kernel
  have hcov := hcov i0 i1 i2 j n0 n1 n2 n01 n02 n12
  have hG : ∀ p, (through (posOf pts (y.data 0)) (posOf pts (y.data 2)) (posOf pts (y.data 1))).ev p = orient3d (posOf pts (y.data 0)) (posOf pts (y.data 1)) (posOf pts (y.data 2)) p := by
    intro p
    simp only [through, Aff.ev, vdot, vsub, orient3d]; ring
  refine ⟨through (posOf pts (y.data 0)) (posOf pts (y.data 2)) (posOf pts (y.data 1)), fun e he => by rw [hG]; exact hin e he, fun l hl => ?_, fun h => ?_⟩
  · rw [hG, hcp]
    rcases hcov l hl with rfl | rfl | rfl
    · rw [d0]; simp only [orient3d]; ring
    · rw [d1]; simp only [orient3d]; ring
    · rw [d2]; simp only [orient3d]; ring
  · have := through_perm c (Equiv.ofBijective _ (Finite.injective_iff_bijective.1 hσ))
    simp only [Equiv.ofBijective_apply, Matrix.cons_val] at this
    have e : (through (c i0) (c i1) (c i2)).ev (c j) = - (through (posOf pts (y.data 0)) (posOf pts (y.data 2)) (posOf pts (y.data 1))).ev (c j) := by
      rw [hG, ev_through, hcp i0, hcp i1, hcp i2, d0, d1, d2]; simp only [orient3d]; ring
    rw [e, h, neg_zero, mul_zero] at this
    exact hv.ne this

theorem const_of_normal {G : Aff K} (h : vdot G.n G.n = 0) (p q : Pt K) : G.ev p = G.ev q := by
  simp only [vdot] at h
  have h1 := mul_self_nonneg G.n.x
  have h2 := mul_self_nonneg G.n.y
  have h3 := mul_self_nonneg G.n.z
  have e1 := mul_self_eq_zero.1 (le_antisymm (by linarith) h1)
  have e2 := mul_self_eq_zero.1 (le_antisymm (by linarith) h2)
  have e3 := mul_self_eq_zero.1 (le_antisymm (by linarith) h3)
  simp only [Aff.ev, vdot, e1, e2, e3, zero_mul]

/-- The tetrahedron is cut by the triangle, but not reached from its sides. -/
def Lost (pts : List (Pt K)) (m : Mesh) (A B C : Pt K) (t : Nat) : Prop :=
  ∃ c, SolidTet pts m t c ∧ Crossed c A B C ∧ ¬ Touched c A B C ∧ ¬ Spread m (fun t => ∃ T, SolidTet pts m t T ∧ Touched T A B C) (Meets pts m A B C) t

/-- Then so are its neighbours over the faces with corners on both sides. -/
theorem lost_step (hD : IsDelaunay pts m) (hA : A ∈ pts) (hB : B ∈ pts) (hC : C ∈ pts) (hn : ¬ Collinear A B C) (hg : Alone pts A B C) {t : Nat} (h : Lost pts m A B C t) {x : Tet.Tet} (hx : m.tets[t]? = some x)
    {i : Fin 4} {n : TriFace} (hi : x.nei i = some n) {a b : Fin 4} (ha : a ≠ i) (hb : b ≠ i) (pa : 0 < (through A B C).ev (posOf pts (x.data a))) (pb : (through A B C).ev (posOf pts (x.data b)) < 0) :
    Lost pts m A B C n.tet := by
  obtain ⟨c, hc, ⟨p, hp, hpt⟩, hf, hs⟩ := h
  obtain ⟨x', hx', h3, hcx⟩ := hc
  rw [hx] at hx'; cases hx'
  have hcp : ∀ l, posOf pts (x.data l) = c l := fun l => by rw [posOf, hcx l]; rfl
  rw [hcp] at pa pb
  obtain ⟨z, w, w0, hw, wa, wb, wl⟩ := edgeHit_spec (through A B C) c pa pb
  set r := edgeHit (through A B C) (c a) (c b)
  have hrin : InTet c r := ⟨w, w0, hw⟩
  obtain ⟨u1, u2, u3, hu1, hu2, hu3, hus, er⟩ := section_in hf (by obtain ⟨v, v0, hv⟩ := hp; exact ⟨v, fun l => (v0 l).le, hv⟩) hpt hrin ((coplanar_plane hn r).2 z)
  obtain ⟨y, j, n', hy, hj, hj', hshare, hshare'⟩ := nei_facts hD hx hi
  have hcr : Crossed c A B C := ⟨p, hp, hpt⟩
  have hsol : SolidTet pts m t c := ⟨x, hx, h3, hcx⟩
  rcases Constraint.solid_or_ghost hD hy with hgst | ⟨c', hc'⟩
  · -- a ghost
    exfalso
    have hlt : ∀ l, x.data l < pts.length := fun l => (List.getElem?_eq_some_iff.1 (hcx l)).1
    have hj3 : j = 3 := by
      by_contra hne
      obtain ⟨l, -, hl⟩ := hshare' 3 fun h => hne h.symm
      have := hlt l
      rw [hl, hgst, hD.num] at this
      exact lt_irrefl _ this
    subst hj3
    obtain ⟨G, hG, hGz, hGi⟩ := ghost_plane hD hsol hx hy (by rw [hgst, hD.num]) (j := i) hshare'
    have hGr : G.ev r = 0 := by
      rw [ev_of_comb hw G]
      refine Finset.sum_eq_zero fun l _ => ?_
      by_cases hli : l = i
      · rw [hli, wl i ha.symm hb.symm, zero_mul]
      · rw [hGz l hli, mul_zero]
    have hABC : G.ev r = u1 * G.ev A + u2 * G.ev B + u3 * G.ev C := by
      rw [er]
      obtain rfl : u1 = 1 - u2 - u3 := by linarith
      simp only [Aff.ev, vdot, Geom.comb]; ring
    have gA := mul_nonneg hu1.le (hG A hA)
    have gB := mul_nonneg hu2.le (hG B hB)
    have gC := mul_nonneg hu3.le (hG C hC)
    have zA : G.ev A = 0 := (mul_eq_zero.1 (le_antisymm (by linarith) gA)).resolve_left hu1.ne'
    have zB : G.ev B = 0 := (mul_eq_zero.1 (le_antisymm (by linarith) gB)).resolve_left hu2.ne'
    have zC : G.ev C = 0 := (mul_eq_zero.1 (le_antisymm (by linarith) gC)).resolve_left hu3.ne'
    have hGn : vdot G.n G.n ≠ 0 := fun e => hGi (by rw [const_of_normal e (c i) r, hGr])
    obtain ⟨μ, μ0, hμ⟩ := plane_of_tri hGn (t := ⟨A, B, C⟩) (normal_of_flat hn) (by
      intro X hX
      simp only [Tri3.corners, List.mem_cons, List.not_mem_nil, or_false] at hX
      rcases hX with rfl | rfl | rfl <;> assumption)
    have := hμ (c a)
    rw [hGz a ha] at this
    rcases mul_eq_zero.1 this.symm with h | h
    · exact μ0 h
    · exact pa.ne' h
  · have hc0 := hc'
    obtain ⟨y', hy', hy3, hcy⟩ := hc0
    rw [hy] at hy'; cases hy'
    obtain ⟨ka, kaj, eka⟩ := hshare a ha
    obtain ⟨kb, kbj, ekb⟩ := hshare b hb
    have eca : c' ka = c a := by have := hcy ka; rw [eka, hcx a] at this; exact (Option.some.inj this).symm
    have ecb : c' kb = c b := by have := hcy kb; rw [ekb, hcx b] at this; exact (Option.some.inj this).symm
    have hnt : ¬ Touched c' A B C := fun ht => hs (by
      have := Spread.first (m := m) (S := fun t => ∃ T, SolidTet pts m t T ∧ Touched T A B C) (P := Meets pts m A B C) ⟨c', hc', ht⟩ hy hj (by rw [hj']; rintro ⟨T, hT, hT'⟩; rw [Constraint.solid_unique hT hsol] at hT'; exact hf hT')
        (by rw [hj']; exact ⟨c, hsol, .inl hcr⟩)
      rwa [hj'] at this)
    have pa' : 0 < (through A B C).ev (c' ka) := by rw [eca]; exact pa
    have pb' : (through A B C).ev (c' kb) < 0 := by rw [ecb]; exact pb
    obtain ⟨p', hp', hp0⟩ := inside_hit (through A B C) c' pa' pb'
    have hr' : InTet c' r := by
      obtain ⟨-, w', w0', hw', -⟩ := edgeHit_spec (through A B C) c' pa' pb'
      rw [eca, ecb] at hw'
      exact ⟨w', w0', hw'⟩
    obtain ⟨v1, v2, v3, h1, h2, h3', hvs, ep'⟩ := section_in hnt hr' ⟨u1, u2, u3, hu1.le, hu2.le, hu3.le, hus, er⟩ (by obtain ⟨v, v0, hv⟩ := hp'; exact ⟨v, fun l => (v0 l).le, hv⟩) ((coplanar_plane hn p').2 hp0)
    have hcr' : Crossed c' A B C := ⟨p', hp', v1, v2, v3, h1.le, h2.le, h3'.le, hvs, ep'⟩
    refine ⟨c', hc', hcr', hnt, fun hsp => hs ?_⟩
    have := Spread.next (m := m) hsp hy hj (by rw [hj']; rintro ⟨T, hT, hT'⟩; rw [Constraint.solid_unique hT hsol] at hT'; exact hf hT') (by rw [hj']; exact ⟨c, hsol, .inl hcr⟩)
    rwa [hj'] at this

/-- Near a point of the triangle on the way to the third corner there are points in a tetrahedron of the point. -/
theorem toward (hD : IsDelaunay pts m) (hA : A ∈ pts) (hB : B ∈ pts) (hC : C ∈ pts) {r : Pt K} {u1 u2 u3 : K} (hu1 : 0 ≤ u1) (hu2 : 0 ≤ u2) (hu3 : 0 ≤ u3) (hus : u1 + u2 + u3 = 1) (er : r = Geom.comb u1 u2 u3 A B C) :
    ∃ s c' e, 0 < e ∧ e ≤ 1 ∧ SolidTet pts m s c' ∧ InTet c' r ∧ InTet c' (lerp r C e) := by
  classical
  have hsmall : ∀ t < m.tets.length, ∃ e : K, 0 < e ∧ ∀ u, 0 < u → u < e → ∀ c', SolidTet pts m t c' → InTet c' (lerp r C u) → InTet c' r := by
    intro t _
    by_cases hex : ∃ x, Constraint.Sol pts m t x ∧ ¬ Constraint.In pts x r
    · obtain ⟨x, S, hno⟩ := hex
      unfold Constraint.In at hno
      push Not at hno
      obtain ⟨v, hv⟩ := hno
      have hp : 0 < |Constraint.wt pts x v C - Constraint.wt pts x v r| + 1 := by positivity
      refine ⟨-Constraint.wt pts x v r / (|Constraint.wt pts x v C - Constraint.wt pts x v r| + 1), div_pos (by linarith) hp, fun u hu hue c' hc' hin => ?_⟩
      exfalso
      obtain ⟨x', hx', h3, hc⟩ := hc'
      rw [S.get] at hx'; cases hx'
      have ec : (fun j => Delaunay.pt pts (x.data j)) = c' := by
        funext j
        exact Option.some.inj ((Delaunay.get_pt (S.lt hD j)).symm.trans (hc j))
      rw [← ec] at hin
      have := (S.in_iff hD _).2 hin v
      rw [S.wt_lerp hD] at this
      rw [lt_div_iff₀ hp] at hue
      have := mul_le_mul_of_nonneg_left (le_abs_self (Constraint.wt pts x v C - Constraint.wt pts x v r)) hu.le
      nlinarith
    · push Not at hex
      refine ⟨1, one_pos, fun u _ _ c' hc' _ => ?_⟩
      obtain ⟨x', hx', h3, hc⟩ := hc'
      have S : Constraint.Sol pts m t x' := ⟨hx', h3⟩
      have ec : (fun j => Delaunay.pt pts (x'.data j)) = c' := by
        funext j
        exact Option.some.inj ((Delaunay.get_pt (S.lt hD j)).symm.trans (hc j))
      rw [← ec]
      exact (S.in_iff hD _).1 (hex x' S)
  obtain ⟨e, e0, he⟩ := Constraint.all_eps hsmall
  have hm : 0 < min e 1 := lt_min e0 one_pos
  set u := min e 1 / 2 with hu
  have u0 : 0 < u := by positivity
  have ue : u < e := by have := min_le_left e 1; rw [hu]; linarith
  have ul : u ≤ 1 := by have := min_le_right e 1; rw [hu]; linarith
  obtain ⟨ia, hia, ea⟩ := List.mem_iff_getElem.1 hA
  obtain ⟨ib, hib, eb⟩ := List.mem_iff_getElem.1 hB
  obtain ⟨ic, hic, ec⟩ := List.mem_iff_getElem.1 hC
  have hcomb : Comb (fun i : Fin pts.length => pts[i]) (fun i => (if i = ⟨ia, hia⟩ then (1 - u) * u1 else 0) + (if i = ⟨ib, hib⟩ then (1 - u) * u2 else 0) + (if i = ⟨ic, hic⟩ then (1 - u) * u3 + u else 0)) (lerp r C u) := by
    have ea : pts[(⟨ia, hia⟩ : Fin pts.length)] = A := ea
    have eb : pts[(⟨ib, hib⟩ : Fin pts.length)] = B := eb
    have ec : pts[(⟨ic, hic⟩ : Fin pts.length)] = C := ec
    constructor
    · rw [Finset.sum_add_distrib, Finset.sum_add_distrib, Finset.sum_ite_eq', Finset.sum_ite_eq', Finset.sum_ite_eq']
      simp only [Finset.mem_univ, if_true]
      linear_combination (1 - u) * hus
    all_goals
      simp only [add_mul, ite_mul, zero_mul]
      rw [Finset.sum_add_distrib, Finset.sum_add_distrib, Finset.sum_ite_eq', Finset.sum_ite_eq', Finset.sum_ite_eq']
      simp only [Finset.mem_univ, if_true, ea, eb, ec, lerp, er, Geom.comb]
      ring
  have n1 : 0 ≤ 1 - u := by linarith
  obtain ⟨t, c, w, hs, hw, hc⟩ := hD.cover _ _ (fun i => by
    have := mul_nonneg n1 hu1
    have := mul_nonneg n1 hu2
    have := mul_nonneg n1 hu3
    exact add_nonneg (add_nonneg (by split <;> linarith) (by split <;> linarith)) (by split <;> linarith)) hcomb
  obtain ⟨x, hx, -⟩ := id hs
  exact ⟨t, c, u, u0, ul, hs, he t (List.getElem?_eq_some_iff.1 hx).1 u u0 ue c hs ⟨w, hw, hc⟩, ⟨w, hw, hc⟩⟩

/-- In general position every tetrahedron that the triangle cuts is reached. -/
theorem not_lost (hD : IsDelaunay pts m) (hA : A ∈ pts) (hB : B ∈ pts) (hC : C ∈ pts) (hn : ¬ Collinear A B C) (hg : Alone pts A B C) (t0 : Nat) : ¬ Lost pts m A B C t0 := by
  classical
  intro h0
  -- the barycentric coordinate of C
  have hnn := normal_of_flat (t := ⟨A, B, C⟩) hn
  set H := through A B C with hH
  let L : Aff K := areaAff H.n A B
  have hLA : L.ev A = 0 := by rw [areaAff_ev]; simp only [area, vdet, vsub]; ring
  have hLB : L.ev B = 0 := by rw [areaAff_ev]; simp only [area, vdet, vsub]; ring
  have hLC : 0 < L.ev C := by
    rw [areaAff_ev]
    have : area H.n A B C = vdot H.n H.n := by simp only [hH, through, area, vdet, vdot, vsub]
    rw [this]
    exact normal_pos hnn
  -- all edges of lost tetrahedra that cross the plane
  let E : Finset (Nat × Fin 4 × Fin 4) := (Finset.range m.tets.length ×ˢ Finset.univ).filter fun e => ∃ x, m.tets[e.1]? = some x ∧ Lost pts m A B C e.1 ∧ 0 < H.ev (posOf pts (x.data e.2.1)) ∧ H.ev (posOf pts (x.data e.2.2)) < 0
  let val : Nat × Fin 4 × Fin 4 → K := fun e => match m.tets[e.1]? with
    | some x => L.ev (edgeHit H (posOf pts (x.data e.2.1)) (posOf pts (x.data e.2.2)))
    | none => 0
  have corner : ∀ {t : Nat} {x : Tet.Tet} {c : Fin 4 → Pt K}, m.tets[t]? = some x → SolidTet pts m t c → ∀ l, c l = posOf pts (x.data l) := by
    intro t x c hx hc l
    obtain ⟨x', hx', -, hc⟩ := hc
    rw [hx] at hx'; cases hx'
    rw [posOf, hc l]; rfl
  have hne : E.Nonempty := by
    obtain ⟨c, hc, ⟨p, ⟨w, w0, hw⟩, hpt⟩, hf, hs⟩ := id h0
    obtain ⟨x, hx, -⟩ := id hc
    have hz : H.ev p = 0 := (coplanar_plane hn p).1 (by obtain ⟨a, b, c, -, -, -, h⟩ := hpt; exact ⟨a, b, c, h⟩)
    have e := ev_of_comb hw H
    rw [hz] at e
    have hnz := alone_corner hn hg hc hf
    obtain ⟨i, hi⟩ : ∃ i, 0 < H.ev (c i) := by
      by_contra hno
      push Not at hno
      have : ∑ l, w l * H.ev (c l) < 0 := Finset.sum_neg (fun l _ => mul_neg_of_pos_of_neg (w0 l) (lt_of_le_of_ne (hno l) (hnz l))) ⟨0, Finset.mem_univ _⟩
      linarith
    obtain ⟨j, hj⟩ : ∃ j, H.ev (c j) < 0 := by
      by_contra hno
      push Not at hno
      have : 0 < ∑ l, w l * H.ev (c l) := Finset.sum_pos (fun l _ => mul_pos (w0 l) (lt_of_le_of_ne (hno l) (hnz l).symm)) ⟨0, Finset.mem_univ _⟩
      linarith
    refine ⟨(t0, i, j), ?_⟩
    simp only [E, Finset.mem_filter, Finset.mem_product, Finset.mem_range, Finset.mem_univ, and_true]
    exact ⟨(List.getElem?_eq_some_iff.1 hx).1, x, hx, h0, by rw [← corner hx hc]; exact hi, by rw [← corner hx hc]; exact hj⟩
  obtain ⟨⟨t, a, b⟩, hmem, hmax⟩ := Finset.exists_max_image E val hne
  simp only [E, Finset.mem_filter, Finset.mem_product, Finset.mem_range, Finset.mem_univ, and_true] at hmem
  obtain ⟨htl, x, hx, hlost, pa, pb⟩ := hmem
  obtain ⟨c, hc, ⟨p, hp, hpt⟩, hf, hs⟩ := id hlost
  rw [← corner hx hc] at pa pb
  obtain ⟨z, w, w0, hw, wa, wb, wl⟩ := edgeHit_spec H c pa pb
  set r := edgeHit H (c a) (c b) with hr
  obtain ⟨u1, u2, u3, hu1, hu2, hu3, hus, er⟩ := section_in hf (by obtain ⟨v, v0, hv⟩ := hp; exact ⟨v, fun l => (v0 l).le, hv⟩) hpt ⟨w, w0, hw⟩ ((coplanar_plane hn r).2 z)
  have hLr : L.ev r < L.ev C := by
    have : L.ev r = u1 * L.ev A + u2 * L.ev B + u3 * L.ev C := by
      rw [er]
      obtain rfl : u1 = 1 - u2 - u3 := by linarith
      simp only [Aff.ev, vdot, Geom.comb]; ring
    rw [this, hLA, hLB]
    have : u3 < 1 := by linarith
    nlinarith
  -- a tetrahedron with the hit and a point further towards C
  obtain ⟨s, c', e, e0, e1, hc', hr', hre⟩ : ∃ s c' e, 0 < e ∧ e ≤ 1 ∧ SolidTet pts m s c' ∧ InTet c' r ∧ InTet c' (lerp r C e) := toward hD hA hB hC hu1.le hu2.le hu3.le hus er
  obtain ⟨y, hy, -⟩ := id hc'
  -- it is around the edge
  have hring : Lost pts m A B C s := by
    obtain ⟨w', w0', hw'⟩ := hr'
    have m1 := hD.meet t s x y c c' w w' r hx hy hc hc' w0 w0' hw hw' a wa
    have m2 := hD.meet t s x y c c' w w' r hx hy hc hc' w0 w0' hw hw' b wb
    have R := hD.ring _ _ t s x y hx hy ⟨a, rfl⟩ ⟨b, rfl⟩ m1 m2
    have key : ∀ s, Delaunay.Ring m (x.data a) (x.data b) t s → Lost pts m A B C s ∧ ∃ y, m.tets[s]? = some y ∧ (∃ i, y.data i = x.data a) ∧ ∃ i, y.data i = x.data b := by
      intro s R
      induction R with
      | base => exact ⟨hlost, x, hx, ⟨a, rfl⟩, ⟨b, rfl⟩⟩
      | @step t' z i h _ hz ha hb hn' ih =>
        obtain ⟨il, y', hy', ⟨ia, hia⟩, ⟨ib, hib⟩⟩ := ih
        rw [hz] at hy'; cases hy'
        have nia := fun e : ia = i => ha (e ▸ hia)
        have nib := fun e : ib = i => hb (e ▸ hib)
        refine ⟨lost_step hD hA hB hC hn hg il hz hn' nia nib (by rw [hia, ← corner hx hc]; exact pa) (by rw [hib, ← corner hx hc]; exact pb), ?_⟩
        obtain ⟨y2, j, -, hy2, -, -, hsh, -⟩ := nei_facts hD hz hn'
        obtain ⟨k1, -, e1⟩ := hsh ia nia
        obtain ⟨k2, -, e2⟩ := hsh ib nib
        exact ⟨y2, hy2, ⟨k1, e1.trans hia⟩, ⟨k2, e2.trans hib⟩⟩
    exact (key s R).1
  obtain ⟨c'', hc'', -, hf', -⟩ := id hring
  rw [Constraint.solid_unique hc'' hc'] at hf'
  -- where the function is larger than at all edges
  have hle := section_max H L c' (alone_corner hn hg hc' hf') (M := L.ev r) (fun i j hi hj => by
    have := hmax (s, i, j) (by
      simp only [E, Finset.mem_filter, Finset.mem_product, Finset.mem_range, Finset.mem_univ, and_true]
      exact ⟨(List.getElem?_eq_some_iff.1 hy).1, y, hy, hring, by rw [← corner hy hc']; exact hi, by rw [← corner hy hc']; exact hj⟩)
    simp only [val, hx, hy] at this
    rw [← corner hx hc, ← corner hx hc, ← corner hy hc', ← corner hy hc'] at this
    exact this) hre (by
    have hHC : H.ev C = 0 := by rw [hH, ev_through]; simp only [orient3d]; ring
    rw [ev_lerp, z, hHC]; ring)
  rw [ev_lerp] at hle
  nlinarith

theorem nodup4 {a b c d : Nat} (h1 : a ≠ b) (h2 : a ≠ c) (h3 : a ≠ d) (h4 : b ≠ c) (h5 : b ≠ d) (h6 : c ≠ d) : [a, b, c, d].Nodup := by
  simp [h1, h2, h3, h4, h5, h6]

/-- Specification: no four of the points lie in one plane. -/
def General (pts : List (Pt K)) : Prop :=
  ∀ a < pts.length, ∀ b < pts.length, ∀ c < pts.length, ∀ d < pts.length, [a, b, c, d].Nodup → orient3d (posOf pts a) (posOf pts b) (posOf pts c) (posOf pts d) ≠ 0

theorem vertices_pos {c : Nat × Nat × Nat} (hv : Vertices pts c A B C) : A = posOf pts c.1 ∧ B = posOf pts c.2.1 ∧ C = posOf pts c.2.2 := by
  obtain ⟨h1, h2, h3⟩ := hv
  simp [posOf, h1, h2, h3]

theorem General.alone (hg : General pts) {c : Nat × Nat × Nat} (hp : Proper pts.length c) (hn : ¬ Collinear A B C) (hv : Vertices pts c A B C) {v : Nat} (h : v < pts.length) (hco : Coplanar (posOf pts v) A B C) :
    v = c.1 ∨ v = c.2.1 ∨ v = c.2.2 := by
  by_contra hno
  push Not at hno
  obtain ⟨rfl, rfl, rfl⟩ := vertices_pos hv
  have := (coplanar_plane hn _).1 hco
  rw [ev_through] at this
  obtain ⟨p1, p2, p3, p4, p5, p6⟩ := hp
  exact hg v h c.1 (by assumption) c.2.1 (by assumption) c.2.2 (by assumption) (nodup4 hno.1 hno.2.1 hno.2.2 p4 p6.symm p5) this

theorem General.alone' (hg : General pts) {c : Nat × Nat × Nat} (hp : Proper pts.length c) (hn : ¬ Collinear A B C) (hv : Vertices pts c A B C) : Alone pts A B C := by
  intro e he hco
  obtain ⟨v, hv', rfl⟩ := List.mem_iff_getElem.1 he
  have e1 : pts[v] = posOf pts v := by simp [posOf, hv']
  rw [e1] at hco ⊢
  obtain ⟨h1, h2, h3⟩ := vertices_pos hv
  rcases hg.alone hp hn hv hv' hco with h | h | h <;> subst h
  · exact Or.inl h1.symm
  · exact Or.inr (Or.inl h2.symm)
  · exact Or.inr (Or.inr h3.symm)

theorem touched_corner {T : Fin 4 → Pt K} {l : Fin 4} (h : T l = A ∨ T l = B ∨ T l = C) : Touched T A B C := by
  refine ⟨T l, Constraint.inTet_corner T l, ?_⟩
  rcases h with e | e | e <;> rw [e]
  · exact Or.inl ⟨0, le_rfl, zero_le_one, by simp [lerp]⟩
  · exact Or.inl ⟨1, zero_le_one, le_rfl, by simp [lerp]⟩
  · exact Or.inr (Or.inl ⟨1, zero_le_one, le_rfl, by simp [lerp]⟩)

/-- In general position no side meets two opposite edges. -/
theorem General.not_diagonal (hg : General pts) {c : Nat × Nat × Nat} (hp : Proper pts.length c) (hv : Vertices pts c A B C) {t : Nat} {T : Fin 4 → Pt K} (hT : SolidTet pts m t T) (hD : IsDelaunay pts m) (hn : ¬ Collinear A B C) :
    ¬ Diagonal T A B C := by
  rintro ⟨hno, U, V, hUV, i, j, k, l, hnd, ⟨p, ⟨-, s, s0, s1, ep⟩, ⟨-, r, r0, r1, ep'⟩⟩, -⟩
  obtain ⟨x, hx, h3, hc⟩ := id hT
  have hxi : Function.Injective x.data := by
    obtain ⟨y', hy', h⟩ := hD.whole.corners _ (List.getElem?_eq_some_iff.1 hx).1
    rw [hx] at hy'; cases hy'; exact h
  have hlt : ∀ l, x.data l < pts.length := fun l => (List.getElem?_eq_some_iff.1 (hc l)).1
  have hcp : ∀ l, T l = posOf pts (x.data l) := fun l => by rw [posOf, hc l]; rfl
  have hij : i ≠ j := by
    rintro rfl; simp at hnd
  obtain ⟨eA, eB, eC⟩ := vertices_pos hv
  have hcorner : ∀ l, x.data l ≠ c.1 ∧ x.data l ≠ c.2.1 ∧ x.data l ≠ c.2.2 := by
    intro l
    have h := hno l
    rw [hcp, coplanar_plane hn, ev_through] at h
    refine ⟨fun e => h ?_, fun e => h ?_, fun e => h ?_⟩ <;> rw [e]
    · rw [← eA]; simp only [orient3d]; ring
    · rw [← eB]; simp only [orient3d]; ring
    · rw [← eC]; simp only [orient3d]; ring
  have hz : orient3d U V (T i) (T j) = 0 := by
    have h1 : orient3d U V (T i) p = 0 := by rw [ep']; simp only [orient3d, lerp]; ring
    have h2 : orient3d U V (T i) p = s * orient3d U V (T i) (T j) := by rw [ep]; simp only [orient3d, lerp]; ring
    exact (mul_eq_zero.1 (h2.symm.trans h1)).resolve_left s0.ne'
  obtain ⟨q1, q2, q3, q4, q5, q6⟩ := hp
  have hne : x.data i ≠ x.data j := fun e => hij (hxi e)
  have hi := hcorner i
  have hj := hcorner j
  rw [hcp, hcp] at hz
  rcases hUV with ⟨rfl, rfl⟩ | ⟨rfl, rfl⟩ | ⟨rfl, rfl⟩
  · rw [eA, eB] at hz
    exact hg _ q1 _ q2 _ (hlt i) _ (hlt j) (nodup4 q4 hi.1.symm hj.1.symm hi.2.1.symm hj.2.1.symm hne) hz
  · rw [eB, eC] at hz
    exact hg _ q2 _ q3 _ (hlt i) _ (hlt j) (nodup4 q5 hi.2.1.symm hj.2.1.symm hi.2.2.symm hj.2.2.symm hne) hz
  · rw [eC, eA] at hz
    exact hg _ q3 _ q1 _ (hlt i) _ (hlt j) (nodup4 q6 hi.2.2.symm hj.2.2.symm hi.1.symm hj.1.symm hne) hz

/-- In general position no triangle is degenerate. -/
theorem General.not_collinear (hg : General pts) (hD : IsDelaunay pts m) (hs : ∃ x ∈ m.tets, x.data 3 ≠ pts.length) {c : Nat × Nat × Nat} (hp : Proper pts.length c) : ¬ Collinear (posOf pts c.1) (posOf pts c.2.1) (posOf pts c.2.2) := by
  obtain ⟨x, hxm, h3⟩ := hs
  obtain ⟨t, hx⟩ := List.getElem?_of_mem hxm
  have hxi : Function.Injective x.data := by
    obtain ⟨y', hy', h⟩ := hD.whole.corners _ (List.getElem?_eq_some_iff.1 hx).1
    rw [hx] at hy'; cases hy'; exact h
  obtain ⟨p0, p1, p2, p3⟩ := hD.point t x hx
  have hlt : ∀ l, x.data l < pts.length := by
    intro l
    fin_cases l
    · exact p0
    · exact p1
    · exact p2
    · exact lt_of_le_of_ne p3 h3
  obtain ⟨l, hl⟩ : ∃ l, x.data l ≠ c.1 ∧ x.data l ≠ c.2.1 ∧ x.data l ≠ c.2.2 := by
    by_contra hno
    push Not at hno
    have hall : ∀ l, x.data l ∈ ({c.1, c.2.1, c.2.2} : Finset Nat) := by
      intro l
      simp only [Finset.mem_insert, Finset.mem_singleton]
      by_cases h1 : x.data l = c.1
      · exact Or.inl h1
      by_cases h2 : x.data l = c.2.1
      · exact Or.inr (Or.inl h2)
      exact Or.inr (Or.inr (hno l h1 h2))
    have h1 := Finset.card_le_card (Finset.image_subset_iff.2 fun l (_ : l ∈ Finset.univ) => hall l)
    rw [Finset.card_image_of_injective _ hxi] at h1
    have := Finset.card_le_three (a := c.1) (b := c.2.1) (c := c.2.2)
    simp only [Finset.card_univ, Fintype.card_fin] at h1
    omega
  intro hcol
  rw [Geom.collinear_iff_flat] at hcol
  obtain ⟨f1, f2, f3⟩ := hcol
  obtain ⟨q1, q2, q3, q4, q5, q6⟩ := hp
  obtain ⟨l1, l2, l3⟩ := hl
  refine hg _ (hlt l) c.1 (by assumption) c.2.1 (by assumption) c.2.2 (by assumption) (nodup4 l1 l2 l3 q4 q6.symm q5) ?_
  rw [← ev_through]
  simp only [Geom.nXY, Geom.nYZ, Geom.nXZ, Geom.orient2d, Geom.xy, Geom.yz, Geom.xz] at f1 f2 f3
  have : (through (posOf pts c.1) (posOf pts c.2.1) (posOf pts c.2.2)).n = ⟨0, 0, 0⟩ := by
    simp only [through, Pt.mk.injEq]
    refine ⟨?_, ?_, ?_⟩ <;> simp only [vsub] <;> linarith
  have h0 : vdot (through (posOf pts c.1) (posOf pts c.2.1) (posOf pts c.2.2)).n (through (posOf pts c.1) (posOf pts c.2.1) (posOf pts c.2.2)).n = 0 := by rw [this]; simp [vdot]
  rw [const_of_normal h0 _ (posOf pts c.1), ev_through]
  simp only [orient3d]; ring

/-- C105: in general position the search from the sides of a constraint reaches every tetrahedron that the constraint cuts. -/
theorem c105_reached (pts : List (Pt K)) (m : Mesh) (hD : IsDelaunay pts m) (hs : ∃ x ∈ m.tets, x.data 3 ≠ pts.length) (hg : General pts) (cs : List (Nat × Nat × Nat)) (hc : ∀ c ∈ cs, Proper pts.length c) : AllReached pts m cs := by
  intro i c A B C hi hv t T hT hcr
  have hp := hc c (List.mem_of_getElem? hi)
  have hn : ¬ Collinear A B C := by
    obtain ⟨rfl, rfl, rfl⟩ := vertices_pos hv
    exact hg.not_collinear hD hs hp
  by_cases ht : Touched T A B C
  · exact Or.inl ⟨ht, hg.not_diagonal hp hv hT hD hn⟩
  · right
    by_contra hsp
    exact not_lost hD (List.mem_of_getElem? hv.1) (List.mem_of_getElem? hv.2) (List.mem_of_getElem? hv.3) hn (hg.alone' hp hn hv) t ⟨T, hT, hcr, ht, hsp⟩

/-- C105: in general position a constraint over a face has a corner of the face. -/
theorem c105_faced (pts : List (Pt K)) (m : Mesh) (hD : IsDelaunay pts m) (hs : ∃ x ∈ m.tets, x.data 3 ≠ pts.length) (hg : General pts) (cs : List (Nat × Nat × Nat)) (hc : ∀ c ∈ cs, Proper pts.length c) (nOri : Nat) : AllFaced pts m cs nOri := by
  intro i c A B C _ hi hv t T hT j ⟨hco, _⟩
  have hp := hc c (List.mem_of_getElem? hi)
  have hn : ¬ Collinear A B C := by
    obtain ⟨rfl, rfl, rfl⟩ := vertices_pos hv
    exact hg.not_collinear hD hs hp
  obtain ⟨l, hl⟩ : ∃ l, l ≠ j := by
    by_cases h : j = 0
    · exact ⟨1, by rw [h]; decide⟩
    · exact ⟨0, fun e => h e.symm⟩
  exact Or.inl (touched_corner (hg.alone' hp hn hv _ (solid_mem hT l) (hco l hl)))

/-- C105: in general position `insert_constraints` gives each constraint to every tetrahedron it cuts and to exactly the faces that lie in it. -/
theorem c105_marks (pts : List (Pt K)) (m : Mesh) (hD : IsDelaunay pts m) (hs : ∃ x ∈ m.tets, x.data 3 ≠ pts.length) (hg : General pts) (cs : List (Nat × Nat × Nat)) (hc : ∀ c ∈ cs, Proper pts.length c) (fuel : Nat) (hf : m.tets.length < fuel) :
    ∃ marks, insertConstraints fuel pts m cs = some (m, marks) ∧ ∀ (i : Nat) (c : Nat × Nat × Nat) (A B C : Pt K), cs[i]? = some c → Vertices pts c A B C → ∀ t T, SolidTet pts m t T →
      (Crossed T A B C → i ∈ marksAt marks 4 t) ∧ ∀ j : Fin 4, i ∈ marksAt marks j t ↔ FaceOver T j A B C := by
  obtain ⟨marks, e, -⟩ := Constraint.c93_insert hD cs hc fuel hf
  refine ⟨marks, e, fun i c A B C hi hv t T hT => ?_⟩
  have hp := hc c (List.mem_of_getElem? hi)
  have hn : ¬ Collinear A B C := by
    obtain ⟨rfl, rfl, rfl⟩ := vertices_pos hv
    exact hg.not_collinear hD hs hp
  refine ⟨fun hcr => ?_, fun j => ?_⟩
  · rcases c105_reached pts m hD hs hg cs hc i c A B C hi hv t T hT hcr with ⟨h1, h2⟩ | h
    · exact (Constraint.c94_cut hD cs hc fuel hf m marks e i c hi A B C hv hn t T hT).2 h1 hcr h2
    · exact (Constraint.c88_insert_partial hD cs hc fuel hf m marks e i c hi A B C hv hn t T hT h).1 hcr
  · have h94 := Constraint.c94_faces hD cs hc fuel hf m marks e i c hi A B C hv hn t T hT j
    refine ⟨h94.1, fun h => h94.2 ?_ h⟩
    obtain ⟨l, hl⟩ : ∃ l, l ≠ j := by
      by_cases h : j = 0
      · exact ⟨1, by rw [h]; decide⟩
      · exact ⟨0, fun e => h e.symm⟩
    exact touched_corner (hg.alone' hp hn hv _ (solid_mem hT l) (h.1 l hl))

end

end Verif.Bsp
