import Verif.Delaunay.Tile
import Verif.Tet.Incident
/-!
# Delaunay complexes are simplicial complexes: tetrahedra meet in common faces, and the tetrahedra at a vertex or an edge hang together
-/
namespace Verif.Delaunay
open Tet
open InSphere (Pt orient3d)
open scoped BigOperators

variable {K : Type} [Field K] [LinearOrder K] [IsStrictOrderedRing K]

section
variable {pts : List (Pt K)} {V : Nat → Vec K} {p0 p1 p2 p3 : Nat} {m : Mesh} {live U : Nat → Prop} (D : Dt pts V p0 p1 p2 p3 m live U)
include D

/-- A point common to two solid tetrahedra lies in a common face: the corners of the first that carry it are corners of the second. -/
theorem Dt.meet {s t : Nat} {x y : Tet.Tet} (hs : live s) (ht : live t) (hx : m.tets[s]? = some x) (hy : m.tets[t]? = some y) (h3 : x.data 3 ≠ pts.length)
    (h3' : y.data 3 ≠ pts.length) {w w' : Fin 4 → K} {p : Pt K} (hw : ∀ i, 0 ≤ w i) (hw' : ∀ i, 0 ≤ w' i)
    (hc : Comb (fun i => pt pts (x.data i)) w p) (hc' : Comb (fun i => pt pts (y.data i)) w' p) (i : Fin 4) (hi : 0 < w i) : ∃ j, y.data j = x.data i := by
  obtain ⟨h, e⟩ := D.comb hs hx h3 hc
  obtain ⟨h', e'⟩ := D.comb ht hy h3' hc'
  have hd : lifted p h - lifted p h' = (h - h') • (up : Vec K) := by
    ext j; fin_cases j <;> simp [lifted, up]
  have z : ∀ (x : Tet.Tet) (w : Fin 4 → K), phi V x (∑ i, w i • V (x.data i)) = 0 := by
    intro x w
    rw [map_sum]
    refine Finset.sum_eq_zero fun i _ => ?_
    rw [map_smul, phi_corner, smul_zero]
  have n1 : 0 ≤ phi V y (∑ i, w i • V (x.data i)) := by
    rw [map_sum]
    refine Finset.sum_nonneg fun i _ => ?_
    rw [map_smul, smul_eq_mul]
    exact mul_nonneg (hw i) (D.reg.nonneg ht hy (D.reg.mem _ _ _ hs hx))
  have n2 : 0 ≤ phi V x (∑ i, w' i • V (y.data i)) := by
    rw [map_sum]
    refine Finset.sum_nonneg fun i _ => ?_
    rw [map_smul, smul_eq_mul]
    exact mul_nonneg (hw' i) (D.reg.nonneg hs hx (D.reg.mem _ _ _ ht hy))
  have k1 := congrArg (phi V y) hd
  have k2 := congrArg (phi V x) hd
  rw [map_sub, ← e, ← e', z, map_smul, smul_eq_mul] at k1 k2
  have u1 := D.up_pos ht hy
  have u2 := D.up_pos hs hx
  have d0 : 0 ≤ h - h' := by
    by_contra hcon
    push Not at hcon
    have := mul_neg_of_neg_of_pos hcon u1
    linarith
  have d1 := mul_nonneg d0 u2.le
  have d2 : h - h' = 0 := by
    rcases mul_eq_zero.1 (by linarith : (h - h') * phi V x up = 0) with h | h
    · exact h
    · exact absurd h u2.ne'
  rw [d2, zero_mul, sub_zero] at k1
  by_contra hcon
  push Not at hcon
  have hp := D.reg.pos t y (x.data i) ht hy (D.reg.mem _ _ _ hs hx) hcon
  rw [map_sum] at k1
  have := (Finset.sum_eq_zero_iff_of_nonneg (fun i _ => by
    rw [map_smul, smul_eq_mul]
    exact mul_nonneg (hw i) (D.reg.nonneg ht hy (D.reg.mem _ _ _ hs hx)))).1 k1 i (Finset.mem_univ i)
  rw [map_smul, smul_eq_mul] at this
  rcases mul_eq_zero.1 this with h | h
  · exact hi.ne' h
  · exact hp.ne' h

/-- A set of tetrahedra with the common corners `W` contains all of them if it is closed under passing through faces with these corners
that leave a corner of the tetrahedron aimed at on the far side. -/
theorem Dt.around (W : Finset Nat) (Q : Nat → Prop) (hQ : ∀ t, Q t → live t ∧ ∃ x, m.tets[t]? = some x ∧ ∀ w ∈ W, ∃ i, x.data i = w)
    {t0 t1 : Nat} {x0 : Tet.Tet} (h0 : live t0) (hx0 : m.tets[t0]? = some x0) (hW : ∀ w ∈ W, ∃ i, x0.data i = w) (h1 : Q t1)
    (hcl : ∀ (h g : TriFace) x y a b c d e, Q h.tet → live g.tet → Glued m h g → Sees m h x a b c d → Sees m g y b a c e →
      d ∉ W → (∃ i, br (V a) (V b) (V c) (V (x0.data i)) up < 0) → Q g.tet) : Q t0 := by
  classical
  set S := V (x0.data 0) + V (x0.data 1) + V (x0.data 2) + V (x0.data 3) with hS
  have ev : ∀ᶠ N : K in Filter.atTop, ∀ t ∈ Finset.range m.tets.length, ∀ ver ∈ (Finset.univ : Finset Ver), ∀ x, live t → m.tets[t]? = some x →
      -br (V (x.data (orgPivot ver))) (V (x.data (destPivot ver))) (V (x.data (apexPivot ver))) S up < N * phi V x up := by
    refine (Filter.eventually_all_finset _).2 fun t _ => (Filter.eventually_all_finset _).2 fun ver _ => ?_
    by_cases hl : live t
    · obtain ⟨x, hx, -⟩ := D.reg.cons.corners _ hl
      filter_upwards [eventually_lt_mul (-br (V (x.data (orgPivot ver))) (V (x.data (destPivot ver))) (V (x.data (apexPivot ver))) S up) (D.up_pos hl hx)] with N hN
      intro y _ hy
      rw [hx] at hy; cases hy
      exact hN
    · filter_upwards with N
      intro y h; exact absurd h hl
  obtain ⟨N, hN, hN0⟩ := (ev.and (Filter.eventually_gt_atTop 0)).exists
  set z := N • ∑ w ∈ W, V w + S with hz
  have brz : ∀ a b c, br (V a) (V b) (V c) z up = N * ∑ w ∈ W, br (V a) (V b) (V c) (V w) up + br (V a) (V b) (V c) S up := by
    intro a b c
    have hL : ∀ q, br (V a) (V b) (V c) q up = (-(brL (V a) (V b) (V c) up)) q := by
      intro q; rw [LinearMap.neg_apply, brL_apply, br_34]
    simp only [hL, hz, map_add, map_smul, map_sum, smul_eq_mul]
  have brS : ∀ a b c, br (V a) (V b) (V c) S up = br (V a) (V b) (V c) (V (x0.data 0)) up + br (V a) (V b) (V c) (V (x0.data 1)) up +
      br (V a) (V b) (V c) (V (x0.data 2)) up + br (V a) (V b) (V c) (V (x0.data 3)) up := by
    intro a b c
    have hL : ∀ q, br (V a) (V b) (V c) q up = (-(brL (V a) (V b) (V c) up)) q := by
      intro q; rw [LinearMap.neg_apply, brL_apply, br_34]
    simp only [hL, hS, map_add]
  obtain ⟨t, x, hPt, hx, hf⟩ := D.reg.walk Q (fun t ht => (hQ t ht).1) z up (fun t x ht hx => D.up_pos (hQ t ht).1 hx) (by
    intro h g x y a b c d e hP gl hg hs gs hlt
    have hl := (hQ _ hP).1
    -- the face is crossed outwards
    have hbr : br (V a) (V b) (V c) z up < 0 := by
      have n1 := hs.ne (D.reg.inj hl hs.get)
      have hd : 0 < phi V y (V d) := by
        rw [gs.phi]
        exact D.reg.spos gl gs (D.reg.memO hl hs).2.2.2 (Ne.symm n1.2.2.2.2.1) (Ne.symm n1.2.2.1) (Ne.symm n1.2.2.2.2.2) (D.reg.oppo_ne hl gl hs gs)
      have pl := plucker (V a) (V b) (V c) (V d) up (V e) z
      have e1 : ∀ q, br (V a) (V b) (V c) (V e) q = - phi V y q := by intro q; rw [gs.phi, br_01]
      simp only [e1] at pl
      rw [← hs.phi, ← hs.phi] at pl
      by_contra hcon
      push Not at hcon
      have := mul_nonneg hcon hd.le
      linarith
    have hWx : ∀ w ∈ W, w = a ∨ w = b ∨ w = c ∨ w = d := by
      obtain ⟨x', hx', hw⟩ := (hQ _ hP).2
      rw [hs.get] at hx'; cases hx'
      exact fun w h => (hs.corner w).1 (hw w h)
    have hdW : d ∉ W := by
      intro hd
      have hsum : ∑ w ∈ W, br (V a) (V b) (V c) (V w) up = phi V x up := by
        rw [Finset.sum_eq_single d, hs.phi]
        · intro w hw hne
          rcases hWx w hw with h | h | h | h
          · subst h; rw [br_34, br_rep0, neg_zero]
          · subst h; rw [br_34, br_rep1, neg_zero]
          · subst h; rw [br_34, br_rep2, neg_zero]
          · exact absurd h hne
        · intro h; exact absurd hd h
      have := hN h.tet (Finset.mem_range.2 (List.getElem?_eq_some_iff.1 hs.get).1) h.ver (Finset.mem_univ _) x hl hs.get
      rw [hs.org, hs.dest, hs.apex] at this
      rw [brz, hsum] at hbr
      linarith
    refine hcl h g x y a b c d e hP gl hg hs gs hdW ?_
    by_contra hcon
    push Not at hcon
    have hWn : 0 ≤ ∑ w ∈ W, br (V a) (V b) (V c) (V w) up := by
      refine Finset.sum_nonneg fun w hw => ?_
      obtain ⟨i, rfl⟩ := hW w hw
      exact hcon i
    have := mul_nonneg hN0.le hWn
    rw [brz, brS] at hbr
    have := hcon 0; have := hcon 1; have := hcon 2; have := hcon 3
    linarith) t1 h1
  have hl := (hQ t hPt).1
  have hk := hf (phi V x0) (fun i => D.reg.nonneg h0 hx0 (D.reg.mem _ _ _ hl hx))
  have hz0 : phi V x0 z = 0 := by
    rw [hz, map_add, map_smul, map_sum, Finset.sum_eq_zero, smul_zero, zero_add, hS, map_add, map_add, map_add, phi_corner, phi_corner, phi_corner, phi_corner]
    · simp
    · intro w hw
      obtain ⟨i, rfl⟩ := hW w hw
      exact phi_corner x0 i
  rw [hz0, mul_zero] at hk
  have hle : phi V x z ≤ 0 := by
    by_contra hcon
    push Not at hcon
    have := mul_pos hcon (D.up_pos h0 hx0)
    linarith
  have hWz : 0 ≤ phi V x (∑ w ∈ W, V w) := by
    rw [map_sum]
    refine Finset.sum_nonneg fun w hw => ?_
    obtain ⟨i, rfl⟩ := hW w hw
    exact D.reg.nonneg hl hx (D.reg.mem _ _ _ h0 hx0)
  have := mul_nonneg hN0.le hWz
  rw [hz, map_add, map_smul, smul_eq_mul] at hle
  have := D.reg.sum_pos h0 hx0 hl hx (by rw [← hS]; linarith)
  rw [← this]
  exact hPt

omit D [IsStrictOrderedRing K] [LinearOrder K] [Field K] in
theorem nei_of_glued {h g : TriFace} {x : Tet.Tet} (hx : m.tets[h.tet]? = some x) (hg : Glued m h g) : ∃ n, x.nei (face h.ver) = some n ∧ n.tet = g.tet := by
  have hf := hg.fwd
  rw [Mesh.fsym_eq] at hf
  simp only [Mesh.slot, hx, Option.bind_some, Option.map_eq_some_iff] at hf
  obtain ⟨n, hn, e⟩ := hf
  exact ⟨n, hn, by rw [← e]⟩

/-- The solid tetrahedra at a vertex hang together by faces at the vertex. -/
theorem Dt.star (hU : ∀ q < pts.length, U q) {t0 t1 v : Nat} {x0 x1 : Tet.Tet} (h0 : live t0) (h1 : live t1) (hx0 : m.tets[t0]? = some x0) (hx1 : m.tets[t1]? = some x1)
    (s0 : x0.data 3 ≠ pts.length) (s1 : x1.data 3 ≠ pts.length) (v0 : ∃ i, x0.data i = v) (v1 : ∃ i, x1.data i = v) : Star m v t1 t0 := by
  refine (D.around {v} (fun t => Star m v t1 t ∧ live t ∧ ∃ x, m.tets[t]? = some x ∧ x.data 3 ≠ pts.length ∧ ∃ i, x.data i = v) ?_ h0 hx0 ?_
    ⟨.base, h1, x1, hx1, s1, v1⟩ ?_).1
  · rintro t ⟨-, hl, x, hx, -, hv⟩
    exact ⟨hl, x, hx, by simpa using hv⟩
  · simpa using v0
  · rintro h g x y a b c d e ⟨hst, hl, x', hx', hsol, i, hi⟩ gl hg hs gs hd ⟨k, hk⟩
    rw [hs.get] at hx'; cases hx'
    have hdv : d ≠ v := by simpa using hd
    have hlt : ∀ j, x.data j < pts.length := D.solid_lt hl hs.get hsol
    have ha : a < pts.length := hs.org ▸ hlt _
    have hb : b < pts.length := hs.dest ▸ hlt _
    have hc : c < pts.length := hs.apex ▸ hlt _
    have hv : v = a ∨ v = b ∨ v = c := by
      rcases (hs.corner v).1 ⟨i, hi⟩ with e | e | e | e
      · exact .inl e
      · exact .inr (.inl e)
      · exact .inr (.inr e)
      · exact absurd e.symm hdv
    have ysol : y.data 3 ≠ pts.length := by
      intro h3
      have he : e = pts.length := by
        rcases (gs.corner pts.length).1 ⟨3, h3⟩ with e | e | e | e <;> omega
      subst he
      have hq := D.solid_lt h0 hx0 s0 k
      rw [D.lift.br_up ha hb hc hq] at hk
      have ho : orient3d (pt pts b) (pt pts a) (pt pts c) (pt pts (x0.data k)) = - orient3d (pt pts a) (pt pts b) (pt pts c) (pt pts (x0.data k)) := by
        simp only [orient3d]; ring
      have hneg : orient3d (pt pts b) (pt pts a) (pt pts c) (pt pts (x0.data k)) < 0 := by linarith
      have h2 := D.ghost_sign gs hb ha hc hq hneg.ne
      have h3 := D.reg.nonneg gl gs.get (hU _ hq)
      have := mul_nonpos_of_nonneg_of_nonpos h3 hneg.le
      linarith
    obtain ⟨n, hn, hnt⟩ := nei_of_glued hs.get hg
    have hop : face h.ver = oppoPivot h.ver := by
      generalize h.ver = u
      revert u; decide
    have hst' : Star m v t1 g.tet := by
      rw [← hnt]
      refine .step (x := x) (y := y) hst hs.get ?_ hn (by rw [hnt]; exact gs.get) (by rw [D.num]; exact ysol)
      rw [hop, hs.oppo]
      exact hdv
    refine ⟨hst', gl, y, gs.get, ysol, (gs.corner v).2 ?_⟩
    tauto

/-- The tetrahedra at an edge hang together by faces at the edge. -/
theorem Dt.ring {t0 t1 a b : Nat} {x0 x1 : Tet.Tet} (h0 : live t0) (h1 : live t1) (hx0 : m.tets[t0]? = some x0) (hx1 : m.tets[t1]? = some x1)
    (a0 : ∃ i, x0.data i = a) (b0 : ∃ i, x0.data i = b) (a1 : ∃ i, x1.data i = a) (b1 : ∃ i, x1.data i = b) : Ring m a b t1 t0 := by
  refine (D.around {a, b} (fun t => Ring m a b t1 t ∧ live t ∧ ∃ x, m.tets[t]? = some x ∧ (∃ i, x.data i = a) ∧ ∃ i, x.data i = b) ?_ h0 hx0 ?_
    ⟨.base, h1, x1, hx1, a1, b1⟩ ?_).1
  · rintro t ⟨-, hl, x, hx, ha, hb⟩
    refine ⟨hl, x, hx, ?_⟩
    simpa using ⟨ha, hb⟩
  · simpa using ⟨a0, b0⟩
  · rintro h g x y a' b' c' d e ⟨hr, hl, x', hx', hxa, hxb⟩ gl hg hs gs hd -
    rw [hs.get] at hx'; cases hx'
    have hd2 : d ≠ a ∧ d ≠ b := by simpa using hd
    obtain ⟨n, hn, hnt⟩ := nei_of_glued hs.get hg
    have hop : face h.ver = oppoPivot h.ver := by
      generalize h.ver = u
      revert u; decide
    have hr' : Ring m a b t1 g.tet := by
      rw [← hnt]
      refine .step (x := x) hr hs.get ?_ ?_ hn
      · rw [hop, hs.oppo]; exact hd2.1
      · rw [hop, hs.oppo]; exact hd2.2
    have h1 := (hs.corner a).1 hxa
    have h2 := (hs.corner b).1 hxb
    obtain ⟨k1, k2⟩ := hd2
    refine ⟨hr', gl, y, gs.get, (gs.corner a).2 ?_, (gs.corner b).2 ?_⟩
    · rcases h1 with h | h | h | h
      · exact .inr (.inl h)
      · exact .inl h
      · exact .inr (.inr (.inl h))
      · exact absurd h.symm k1
    · rcases h2 with h | h | h | h
      · exact .inr (.inl h)
      · exact .inl h
      · exact .inr (.inr (.inl h))
      · exact absurd h.symm k2

end
end Verif.Delaunay
