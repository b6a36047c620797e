import Verif.Delaunay.Walk
/-!
# The solid tetrahedra of a complete Delaunay complex have empty circumspheres and tile the convex hull
-/
namespace Verif.Delaunay
open Tet
open InSphere (Pt orient3d insphere insphereS doubleToSign Ori)
open scoped BigOperators

variable {K : Type} [Field K] [LinearOrder K] [IsStrictOrderedRing K]

omit [LinearOrder K] [IsStrictOrderedRing K] in
/-- The in-sphere determinant is a multiple of the power of the last point with respect to a sphere. -/
theorem insphere_poly (a b c d e : Pt K) : insphere a b c d e = - orient3d a b c d * (e.x ^ 2 + e.y ^ 2 + e.z ^ 2) +
    (insphere a b c d ⟨1, 0, 0⟩ - insphere a b c d ⟨0, 0, 0⟩ + orient3d a b c d) * e.x +
    (insphere a b c d ⟨0, 1, 0⟩ - insphere a b c d ⟨0, 0, 0⟩ + orient3d a b c d) * e.y +
    (insphere a b c d ⟨0, 0, 1⟩ - insphere a b c d ⟨0, 0, 0⟩ + orient3d a b c d) * e.z + insphere a b c d ⟨0, 0, 0⟩ := by
  simp only [insphere, orient3d]; ring

/-- A sphere through four points that are not coplanar; its power is the in-sphere determinant up to the orientation. -/
theorem exists_sphere (a b c d : Pt K) (ho : orient3d a b c d < 0) :
    ∃ o r, ∀ e, insphere a b c d e = - orient3d a b c d * (dist2 o e - r) := by
  set O := orient3d a b c d with hO
  set A := insphere a b c d ⟨1, 0, 0⟩ - insphere a b c d ⟨0, 0, 0⟩ + O
  set B := insphere a b c d ⟨0, 1, 0⟩ - insphere a b c d ⟨0, 0, 0⟩ + O
  set C := insphere a b c d ⟨0, 0, 1⟩ - insphere a b c d ⟨0, 0, 0⟩ + O
  set D := insphere a b c d ⟨0, 0, 0⟩
  have hO0 : O ≠ 0 := ho.ne
  refine ⟨⟨A / (2 * O), B / (2 * O), C / (2 * O)⟩, (A / (2 * O)) ^ 2 + (B / (2 * O)) ^ 2 + (C / (2 * O)) ^ 2 + D / O, ?_⟩
  intro e
  rw [insphere_poly a b c d e]
  simp only [dist2]
  change - O * (e.x ^ 2 + e.y ^ 2 + e.z ^ 2) + A * e.x + B * e.y + C * e.z + D = _
  field_simp
  ring

omit [LinearOrder K] [IsStrictOrderedRing K] in
theorem insphere_self (a b c d : Pt K) : insphere a b c d a = 0 ∧ insphere a b c d b = 0 ∧ insphere a b c d c = 0 ∧ insphere a b c d d = 0 := by
  refine ⟨?_, ?_, ?_, ?_⟩ <;> simp only [insphere] <;> ring

theorem insphere_nonneg {p : Nat → Pt K} {a b c d e : Nat} (h : insphereS p a b c d e ≠ .negative) : 0 ≤ insphere (p a) (p b) (p c) (p d) (p e) := by
  by_contra hcon
  push Not at hcon
  apply h
  have : insphereS p a b c d e = doubleToSign (insphere (p a) (p b) (p c) (p d) (p e)) := by
    simp only [insphereS]; rw [if_pos hcon.ne]
  rw [this]
  simp [doubleToSign, hcon, not_lt_of_ge hcon.le]

section
variable {pts : List (Pt K)} {V : Nat → Vec K} {p0 p1 p2 p3 : Nat} {m : Mesh} {live U : Nat → Prop} (D : Dt pts V p0 p1 p2 p3 m live U)
include D

/-- The height direction lies on the positive side of every tetrahedron. -/
theorem Dt.up_pos {t : Nat} {x : Tet.Tet} (hl : live t) (hx : m.tets[t]? = some x) : 0 < phi V x up := by
  by_cases h3 : x.data 3 = pts.length
  · have hs : Sees m ⟨t, 11⟩ x (x.data 0) (x.data 1) (x.data 2) (x.data 3) := ⟨hx, rfl, rfl, rfl, rfl⟩
    rw [h3] at hs
    obtain ⟨g, y, e, gl, hg, gs⟩ := glued_sees D.reg.cons (h := ⟨t, 11⟩) hl hs
    exact D.lean (h := ⟨t, 11⟩) hl gl hs gs
  · exact D.solid t x hl hx h3

/-- Corners of a solid tetrahedron are points. -/
theorem Dt.solid_lt {t : Nat} {x : Tet.Tet} (hl : live t) (hx : m.tets[t]? = some x) (h3 : x.data 3 ≠ pts.length) (i : Fin 4) : x.data i < pts.length := by
  have hn : x.data i ≠ pts.length := fun e => h3 (by rw [← D.num] at e ⊢; have := D.last t hl x hx i e; rw [this] at e; exact e)
  have := D.le _ (D.reg.mem t x i hl hx)
  omega

theorem Dt.sphere {t : Nat} {x : Tet.Tet} (hl : live t) (hx : m.tets[t]? = some x) (h3 : x.data 3 ≠ pts.length) :
    InSphere.orient3d (pt pts (x.data 0)) (pt pts (x.data 1)) (pt pts (x.data 2)) (pt pts (x.data 3)) < 0 ∧
    ∃ o r, (∀ i, dist2 o (pt pts (x.data i)) = r) ∧ ∀ q < pts.length, U q → r ≤ dist2 o (pt pts q) := by
  have hs : Sees m ⟨t, 11⟩ x (x.data 0) (x.data 1) (x.data 2) (x.data 3) := ⟨hx, rfl, rfl, rfl, rfl⟩
  have hlt := D.solid_lt hl hx h3
  have ho : InSphere.orient3d (pt pts (x.data 0)) (pt pts (x.data 1)) (pt pts (x.data 2)) (pt pts (x.data 3)) < 0 := by
    have := D.solid t x hl hx h3
    rw [D.solid_orient hs (hlt 0) (hlt 1) (hlt 2) (hlt 3)] at this
    linarith
  refine ⟨ho, ?_⟩
  obtain ⟨o, r, hor⟩ := exists_sphere _ _ _ _ ho
  have hor' : ∀ e, 0 ≤ InSphere.insphere (pt pts (x.data 0)) (pt pts (x.data 1)) (pt pts (x.data 2)) (pt pts (x.data 3)) e → r ≤ dist2 o e := by
    intro e he
    rw [hor] at he
    by_contra hcon
    push Not at hcon
    have := mul_neg_of_pos_of_neg (neg_pos.2 ho) (by linarith : dist2 o e - r < 0)
    linarith
  have z : ∀ e, InSphere.insphere (pt pts (x.data 0)) (pt pts (x.data 1)) (pt pts (x.data 2)) (pt pts (x.data 3)) e = 0 → dist2 o e = r := by
    intro e he
    rw [hor] at he
    rcases mul_eq_zero.1 he with h | h
    · exact absurd h (neg_pos.2 ho).ne'
    · linarith
  obtain ⟨z0, z1, z2, z3⟩ := insphere_self (pt pts (x.data 0)) (pt pts (x.data 1)) (pt pts (x.data 2)) (pt pts (x.data 3))
  refine ⟨o, r, ?_, ?_⟩
  · intro i
    fin_cases i
    exacts [z _ z0, z _ z1, z _ z2, z _ z3]
  · intro q hq hU
    by_cases hc : ∃ i, x.data i = q
    · obtain ⟨i, rfl⟩ := hc
      fin_cases i
      exacts [(z _ z0).ge, (z _ z1).ge, (z _ z2).ge, (z _ z3).ge]
    · push Not at hc
      apply hor'
      apply insphere_nonneg
      have hinj := D.reg.inj hl hx
      have hne : ∀ i j : Fin 4, i ≠ j → x.data i ≠ x.data j := fun i j hij h => hij (hinj h)
      have n01 := hne 0 1 (by decide); have n02 := hne 0 2 (by decide); have n03 := hne 0 3 (by decide)
      have n12 := hne 1 2 (by decide); have n13 := hne 1 3 (by decide); have n23 := hne 2 3 (by decide)
      rw [(D.lift.sphere _ _ _ _ q (hlt 0) (hlt 1) (hlt 2) (hlt 3) hq (by simp [n01, n02, n03, n12, n13, n23, hc]) ho.ne).1, ← hs.phi]
      have hp := D.reg.pos t x q hl hx hU hc
      simp [doubleToSign, hp]

theorem Dt.hull (hU : ∀ q < pts.length, U q) {t : Nat} {x : Tet.Tet} (hl : live t) (hx : m.tets[t]? = some x) (h3 : x.data 3 = pts.length) :
    x.data 0 < pts.length ∧ x.data 1 < pts.length ∧ x.data 2 < pts.length ∧
    ∀ q < pts.length, 0 ≤ orient3d (pt pts (x.data 0)) (pt pts (x.data 1)) (pt pts (x.data 2)) (pt pts q) := by
  have hs : Sees m ⟨t, 11⟩ x (x.data 0) (x.data 1) (x.data 2) (x.data 3) := ⟨hx, rfl, rfl, rfl, rfl⟩
  rw [h3] at hs
  obtain ⟨g, y, e, gl, hg, gs⟩ := glued_sees D.reg.cons (h := ⟨t, 11⟩) hl hs
  obtain ⟨ha, hb, hc, -⟩ := D.behind (h := ⟨t, 11⟩) hl gl hs gs
  refine ⟨ha, hb, hc, fun q hq => ?_⟩
  by_contra hneg
  push Not at hneg
  have h1 := D.ghost_sign hs ha hb hc hq hneg.ne
  have h2 := D.reg.nonneg hl hx (hU q hq)
  have := mul_nonpos_of_nonneg_of_nonpos h2 hneg.le
  linarith

/-- A combination of the lifted corners lies above the combination of the corners. -/
theorem Dt.comb {t : Nat} {x : Tet.Tet} (hl : live t) (hx : m.tets[t]? = some x) (h3 : x.data 3 ≠ pts.length) {w : Fin 4 → K} {p : Pt K}
    (hc : Comb (fun i => pt pts (x.data i)) w p) : ∃ h, ∑ i, w i • V (x.data i) = lifted p h := by
  have hlt := D.solid_lt hl hx h3
  choose H hH using fun i => D.lift.point (x.data i) (hlt i)
  refine ⟨∑ i, w i * H i, ?_⟩
  ext j
  rw [Finset.sum_apply]
  fin_cases j
  · simpa [hH, lifted] using hc.x.symm
  · simpa [hH, lifted] using hc.y.symm
  · simpa [hH, lifted] using hc.z.symm
  · simp [hH, lifted]
  · simpa [hH, lifted] using hc.sum

theorem Dt.apart {s t : Nat} {x y : Tet.Tet} (hs : live s) (ht : live t) (hx : m.tets[s]? = some x) (hy : m.tets[t]? = some y) (h3 : x.data 3 ≠ pts.length)
    (h3' : y.data 3 ≠ pts.length) {w w' : Fin 4 → K} {p : Pt K} (hw : ∀ i, 0 < w i) (hw' : ∀ i, 0 < w' i)
    (hc : Comb (fun i => pt pts (x.data i)) w p) (hc' : Comb (fun i => pt pts (y.data i)) w' p) : s = t := by
  obtain ⟨h, e⟩ := D.comb hs hx h3 hc
  obtain ⟨h', e'⟩ := D.comb ht hy h3' hc'
  have hd : lifted p h - lifted p h' = (h - h') • (up : Vec K) := by
    ext j; fin_cases j <;> simp [lifted, up]
  have z : ∀ (x : Tet.Tet) (w : Fin 4 → K), phi V x (∑ i, w i • V (x.data i)) = 0 := by
    intro x w
    rw [map_sum]
    refine Finset.sum_eq_zero fun i _ => ?_
    rw [map_smul, phi_corner, smul_zero]
  have n1 : 0 ≤ phi V y (∑ i, w i • V (x.data i)) := by
    rw [map_sum]
    refine Finset.sum_nonneg fun i _ => ?_
    rw [map_smul, smul_eq_mul]
    exact mul_nonneg (hw i).le (D.reg.nonneg ht hy (D.reg.mem _ _ _ hs hx))
  have n2 : 0 ≤ phi V x (∑ i, w' i • V (y.data i)) := by
    rw [map_sum]
    refine Finset.sum_nonneg fun i _ => ?_
    rw [map_smul, smul_eq_mul]
    exact mul_nonneg (hw' i).le (D.reg.nonneg hs hx (D.reg.mem _ _ _ ht hy))
  have k1 := congrArg (phi V y) hd
  have k2 := congrArg (phi V x) hd
  rw [map_sub, ← e, ← e', z, map_smul, smul_eq_mul] at k1 k2
  have u1 := D.up_pos ht hy
  have u2 := D.up_pos hs hx
  have d0 : 0 ≤ h - h' := by
    by_contra hcon
    push Not at hcon
    have := mul_neg_of_neg_of_pos hcon u1
    linarith
  have d1 := mul_nonneg d0 u2.le
  have d2 : h - h' = 0 := by
    rcases mul_eq_zero.1 (by linarith : (h - h') * phi V x up = 0) with h | h
    · exact h
    · exact absurd h u2.ne'
  rw [d2, zero_mul, sub_zero] at k1
  refine D.reg.uniq s t x y hs ht hx hy ?_
  intro i
  by_contra hcon
  push Not at hcon
  have hp := D.reg.pos t y (x.data i) ht hy (D.reg.mem _ _ _ hs hx) (fun j h => hcon j h.symm)
  rw [map_sum] at k1
  have := (Finset.sum_eq_zero_iff_of_nonneg (fun i _ => by
    rw [map_smul, smul_eq_mul]
    exact mul_nonneg (hw i).le (D.reg.nonneg ht hy (D.reg.mem _ _ _ hs hx)))).1 k1 i (Finset.mem_univ i)
  rw [map_smul, smul_eq_mul] at this
  rcases mul_eq_zero.1 this with h | h
  · exact (hw i).ne' h
  · exact hp.ne' h

omit D in
/-- Weights on the corners seen from a handle are weights on the corners. -/
theorem Sees.comb {h : TriFace} {x : Tet.Tet} {a b c d : Nat} (hs : Sees m h x a b c d) (wa wb wc wd : K) (h0 : 0 ≤ wa) (h1 : 0 ≤ wb) (h2 : 0 ≤ wc) (h3 : 0 ≤ wd) :
    ∃ w : Fin 4 → K, (∀ i, 0 ≤ w i) ∧ ∀ f : Nat → K, ∑ i, w i * f (x.data i) = wa * f a + wb * f b + wc * f c + wd * f d := by
  refine ⟨fun i => if i = orgPivot h.ver then wa else if i = destPivot h.ver then wb else if i = apexPivot h.ver then wc else wd, ?_, ?_⟩
  · intro i
    dsimp only
    split_ifs <;> assumption
  · intro f
    rw [← hs.org, ← hs.dest, ← hs.apex, ← hs.oppo, Fin.sum_univ_four]
    generalize x.data = g
    generalize h.ver = v
    revert v
    intro v
    fin_cases v <;> simp [orgPivot, destPivot, apexPivot, oppoPivot] <;> ring

theorem Dt.cover (hU : ∀ q < pts.length, U q) (t1 : Nat) (h1 : live t1) (p : Pt K) (w : Fin pts.length → K) (hw : ∀ i, 0 ≤ w i)
    (hc : Comb (fun i => pt pts i.val) w p) : ∃ t x w', live t ∧ m.tets[t]? = some x ∧ x.data 3 ≠ pts.length ∧ (∀ i : Fin 4, 0 ≤ w' i) ∧
      Comb (fun i => pt pts (x.data i)) w' p := by
  obtain ⟨t, x, hl, hx, hf⟩ := D.reg.walk live (fun _ h => h) (lifted p 0) up (fun t x hl hx => D.up_pos hl hx) (fun _ _ _ _ _ _ _ _ _ _ gl _ _ _ _ => gl) t1 h1
  have hup := D.up_pos hl hx
  set z := lifted p 0 with hz
  -- the weights
  have pos : ∀ (h : TriFace) (a b c d : Nat), h.tet = t → Sees m h x a b c d → 0 ≤ br (V a) (V b) (V c) z up := by
    intro h a b c d ht hs
    have k := hf (-(brL (V a) (V b) (V c) up)) (by
      intro i
      rw [LinearMap.neg_apply, brL_apply]
      rcases (hs.corner (x.data i)).1 ⟨i, rfl⟩ with e | e | e | e <;> rw [e]
      · rw [br_rep0, neg_zero]
      · rw [br_rep1, neg_zero]
      · rw [br_rep2, neg_zero]
      · rw [br_34, neg_neg, ← hs.phi]; exact hup.le)
    rw [LinearMap.neg_apply, LinearMap.neg_apply, brL_apply, brL_apply, br_rep3, neg_zero, mul_zero, br_34, neg_neg] at k
    by_contra hcon
    push Not at hcon
    have := mul_neg_of_pos_of_neg hup hcon
    linarith
  have hs : Sees m ⟨t, 11⟩ x (x.data 0) (x.data 1) (x.data 2) (x.data 3) := ⟨hx, rfl, rfl, rfl, rfl⟩
  obtain ⟨A0, A1, A2⟩ : x.data 0 < pts.length ∧ x.data 1 < pts.length ∧ x.data 2 < pts.length := by
    by_cases h3 : x.data 3 = pts.length
    · obtain ⟨a, b, c, -⟩ := D.hull hU hl hx h3
      exact ⟨a, b, c⟩
    · have := D.solid_lt hl hx h3
      exact ⟨this 0, this 1, this 2⟩
  obtain ⟨H0, e0⟩ := D.lift.point _ A0
  obtain ⟨H1, e1⟩ := D.lift.point _ A1
  obtain ⟨H2, e2⟩ := D.lift.point _ A2
  have hP : phi V x up = br (V (x.data 0)) (V (x.data 1)) (V (x.data 2)) (V (x.data 3)) up := hs.phi _
  generalize hgP : phi V x up = P at hup hP
  have w3 := pos _ _ _ _ _ rfl hs
  have w0 : 0 ≤ br z (V (x.data 1)) (V (x.data 2)) (V (x.data 3)) up := by
    have := pos _ _ _ _ _ rfl hs.enextEsym
    rw [br_12, br_01, br_12, br_23]
    simpa using this
  have w1 : 0 ≤ br (V (x.data 0)) z (V (x.data 2)) (V (x.data 3)) up := by
    have := pos _ _ _ _ _ rfl hs.eprevEsym
    rw [br_12, br_23]
    simpa using this
  have w2 : 0 ≤ br (V (x.data 0)) (V (x.data 1)) z (V (x.data 3)) up := by
    have := pos _ _ _ _ _ rfl hs.esym
    rw [br_01, br_23]
    simpa using this
  have cr := fun j => congrFun (cramer (V (x.data 0)) (V (x.data 1)) (V (x.data 2)) (V (x.data 3)) up z) j
  rw [← hP] at cr
  simp only [Pi.smul_apply, Pi.add_apply, smul_eq_mul] at cr
  generalize br z (V (x.data 1)) (V (x.data 2)) (V (x.data 3)) up = W0 at *
  generalize br (V (x.data 0)) z (V (x.data 2)) (V (x.data 3)) up = W1 at *
  generalize br (V (x.data 0)) (V (x.data 1)) z (V (x.data 3)) up = W2 at *
  generalize br (V (x.data 0)) (V (x.data 1)) (V (x.data 2)) (V (x.data 3)) z = W4 at *
  have hP0 : P ≠ 0 := hup.ne'
  by_cases h3 : x.data 3 = pts.length
  · have hull := (D.hull hU hl hx h3).2.2.2
    have hz0 : br (V (x.data 0)) (V (x.data 1)) (V (x.data 2)) z up = 0 := by
      refine le_antisymm ?_ w3
      have hsum : z = ∑ i, w i • lifted (pt pts i.val) 0 := by
        ext j
        rw [Finset.sum_apply]
        fin_cases j
        · simpa [lifted, hz] using hc.x
        · simpa [lifted, hz] using hc.y
        · simpa [lifted, hz] using hc.z
        · simp [lifted, hz]
        · simpa [lifted, hz] using hc.sum.symm
      rw [br_34, neg_nonpos, ← brL_apply, hsum, map_sum]
      refine Finset.sum_nonneg fun i _ => ?_
      rw [map_smul, smul_eq_mul, brL_apply]
      refine mul_nonneg (hw i) ?_
      rw [br_34, e0, e1, e2, br_up, neg_neg]
      exact hull _ i.isLt
    rw [hz0] at cr
    rw [h3] at hs
    obtain ⟨g, y, e, gl, hg, gs⟩ := glued_sees D.reg.cons (h := ⟨t, 11⟩) hl hs
    obtain ⟨-, -, -, -, -, hy3⟩ := D.behind (h := ⟨t, 11⟩) hl gl hs gs
    obtain ⟨w', hw', hsum⟩ := gs.comb (W1 / P) (W0 / P) (W2 / P) 0 (by positivity) (by positivity) (by positivity) le_rfl
    have f0 := cr 0; have f1 := cr 1; have f2 := cr 2; have f4 := cr 4
    simp [e0, e1, e2, up, lifted, hz] at f0 f1 f2 f4
    refine ⟨g.tet, y, w', gl, gs.get, hy3, hw', ⟨?_, ?_, ?_, ?_⟩⟩
    · have := hsum (fun _ => 1)
      simp only [mul_one] at this
      rw [this]
      field_simp
      linarith
    · rw [hsum (fun i => (pt pts i).x)]
      field_simp
      linarith
    · rw [hsum (fun i => (pt pts i).y)]
      field_simp
      linarith
    · rw [hsum (fun i => (pt pts i).z)]
      field_simp
      linarith
  · obtain ⟨H3, e3⟩ := D.lift.point _ (D.solid_lt hl hx h3 3)
    generalize br (V (x.data 0)) (V (x.data 1)) (V (x.data 2)) z up = W3 at *
    have f0 := cr 0; have f1 := cr 1; have f2 := cr 2; have f4 := cr 4
    simp [e0, e1, e2, e3, up, lifted, hz] at f0 f1 f2 f4
    refine ⟨t, x, ![W0 / P, W1 / P, W2 / P, W3 / P], hl, hx, h3, ?_, ⟨?_, ?_, ?_, ?_⟩⟩
    · intro i
      fin_cases i
      · exact div_nonneg w0 hup.le
      · exact div_nonneg w1 hup.le
      · exact div_nonneg w2 hup.le
      · exact div_nonneg w3 hup.le
    all_goals
      simp only [Fin.sum_univ_four, Matrix.cons_val]
      field_simp
      linarith

end
end Verif.Delaunay
