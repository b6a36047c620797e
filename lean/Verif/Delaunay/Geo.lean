import Verif.Delaunay.Grow
import Verif.Delaunay.Lift
import Verif.Tet.Locate
/-!
# The tests of the insertion are signs of determinants
-/
namespace Verif.Delaunay
open Tet
open InSphere (Pt orient3d insphere insphereS doubleToSign liftedDet Ori)

variable {K : Type} [Field K] [LinearOrder K] [IsStrictOrderedRing K]

/-- The coordinates of a point, as in `Mesh.cavityTest`. -/
def pt (pts : List (Pt K)) (i : Nat) : Pt K := pts.getD i ⟨0, 0, 0⟩

/-- A Delaunay complex under construction: `U` are the vertices inserted so far, with the ghost vertex. -/
structure Dt (pts : List (Pt K)) (V : Nat → Vec K) (p0 p1 p2 p3 : Nat) (m : Mesh) (live U : Nat → Prop) : Prop where
  reg : Reg V m live U
  lift : Lift (pt pts) pts.length p0 p1 p2 p3 V
  dist : ∀ i < pts.length, ∀ j < pts.length, i ≠ j → pt pts i ≠ pt pts j
  num : m.nPoints = pts.length
  le : ∀ q, U q → q ≤ pts.length
  base0 : U p0 ∧ p0 < pts.length
  base1 : U p1 ∧ p1 < pts.length
  base2 : U p2 ∧ p2 < pts.length
  base3 : U p3 ∧ p3 < pts.length
  base : orient3d (pt pts p0) (pt pts p1) (pt pts p2) (pt pts p3) ≠ 0
  last : GhostLast m live
  solid : ∀ t x, live t → m.tets[t]? = some x → x.data 3 ≠ pts.length → 0 < phi V x up

section
variable {pts : List (Pt K)} {V : Nat → Vec K} {p0 p1 p2 p3 : Nat} {m : Mesh} {live U : Nat → Prop}

omit [IsStrictOrderedRing K] in
theorem Lift.br_up (L : Lift (pt pts) pts.length p0 p1 p2 p3 V) {a b c d : Nat} (ha : a < pts.length) (hb : b < pts.length) (hc : c < pts.length) (hd : d < pts.length) :
    br (V a) (V b) (V c) (V d) up = - orient3d (pt pts a) (pt pts b) (pt pts c) (pt pts d) := by
  obtain ⟨_, ea⟩ := L.point a ha
  obtain ⟨_, eb⟩ := L.point b hb
  obtain ⟨_, ec⟩ := L.point c hc
  obtain ⟨_, ed⟩ := L.point d hd
  rw [ea, eb, ec, ed, Delaunay.br_up]

variable (D : Dt pts V p0 p1 p2 p3 m live U)
include D

omit [IsStrictOrderedRing K] in
/-- A tetrahedron without the ghost vertex has all its corners among the points and is positive upwards. -/
theorem Dt.solidS {h : TriFace} {x : Tet.Tet} {a b c d : Nat} (hl : live h.tet) (hs : Sees m h x a b c d) (ha : a ≠ pts.length) (hb : b ≠ pts.length) (hc : c ≠ pts.length)
    (hd : d ≠ pts.length) : 0 < phi V x up ∧ x.data 3 ≠ pts.length := by
  have : x.data 3 ≠ pts.length := by
    intro e
    rcases (hs.corner _).1 ⟨3, rfl⟩ with e' | e' | e' | e' <;> rw [e] at e'
    exacts [ha e'.symm, hb e'.symm, hc e'.symm, hd e'.symm]
  exact ⟨D.solid _ _ hl hs.get this, this⟩

omit [IsStrictOrderedRing K] in
theorem Dt.lt {h : TriFace} {x : Tet.Tet} {a b c d : Nat} (hl : live h.tet) (hs : Sees m h x a b c d) :
    (a ≠ pts.length → a < pts.length) ∧ (b ≠ pts.length → b < pts.length) ∧ (c ≠ pts.length → c < pts.length) ∧ (d ≠ pts.length → d < pts.length) := by
  obtain ⟨h1, h2, h3, h4⟩ := D.reg.memO hl hs
  have := D.le _ h1; have := D.le _ h2; have := D.le _ h3; have := D.le _ h4
  omega

omit [IsStrictOrderedRing K] in
/-- The tetrahedron behind the base of a ghost is solid. -/
theorem Dt.behind {h g : TriFace} {x y : Tet.Tet} {a b c e : Nat} (hl : live h.tet) (gl : live g.tet) (hs : Sees m h x a b c pts.length) (gs : Sees m g y b a c e) :
    a < pts.length ∧ b < pts.length ∧ c < pts.length ∧ e < pts.length ∧ 0 < phi V y up ∧ y.data 3 ≠ pts.length := by
  obtain ⟨n1, n2, n3, n4, n5, n6⟩ := hs.ne (D.reg.inj hl hs.get)
  have ne := (D.reg.oppo_ne hl gl hs gs).symm
  obtain ⟨q1, q2, q3, q4⟩ := D.lt gl gs
  exact ⟨q2 n3, q1 n5, q3 n6, q4 ne, D.solidS gl gs n5 n3 n6 ne⟩

omit [IsStrictOrderedRing K] in
theorem Dt.solid_orient {h : TriFace} {x : Tet.Tet} {a b c d : Nat} (hs : Sees m h x a b c d) (ha : a < pts.length) (hb : b < pts.length) (hc : c < pts.length)
    (hd : d < pts.length) : phi V x up = - orient3d (pt pts a) (pt pts b) (pt pts c) (pt pts d) := by
  rw [hs.phi, D.lift.br_up ha hb hc hd]

/-- For a point off the plane of its base the side of a ghost is that of the base. -/
theorem Dt.ghost_sign {h : TriFace} {x : Tet.Tet} {a b c q : Nat} (hs : Sees m h x a b c pts.length) (ha : a < pts.length) (hb : b < pts.length) (hc : c < pts.length)
    (hq : q < pts.length) (ho : orient3d (pt pts a) (pt pts b) (pt pts c) (pt pts q) ≠ 0) : 0 < phi V x (V q) * orient3d (pt pts a) (pt pts b) (pt pts c) (pt pts q) := by
  have := D.lift.far a b c q ha hb hc hq ho
  rw [hs.phi, br_34]
  linarith

/-- The ghost vertex leans away from the inside of the hull. -/
theorem Dt.lean {h g : TriFace} {x y : Tet.Tet} {a b c e : Nat} (hl : live h.tet) (gl : live g.tet) (hs : Sees m h x a b c pts.length) (gs : Sees m g y b a c e) :
    0 < phi V x up := by
  obtain ⟨ha, hb, hc, he, hup, -⟩ := D.behind hl gl hs gs
  have hnn : ∀ q, U q → q < pts.length → 0 ≤ orient3d (pt pts a) (pt pts b) (pt pts c) (pt pts q) := by
    intro q hq hlt
    by_contra hneg
    push Not at hneg
    have h1 := D.ghost_sign hs ha hb hc hlt hneg.ne
    have h2 := D.reg.nonneg hl hs.get hq
    have := mul_nonpos_of_nonneg_of_nonpos h2 hneg.le
    linarith
  have h0 := hnn p0 D.base0.1 D.base0.2
  have h1 := hnn p1 D.base1.1 D.base1.2
  have h2 := hnn p2 D.base2.1 D.base2.2
  have h3 := hnn p3 D.base3.1 D.base3.2
  have key : ∀ q, q < pts.length → br (V a) (V b) (V c) up (V q) = orient3d (pt pts a) (pt pts b) (pt pts c) (pt pts q) := by
    intro q hq; rw [br_34, D.lift.br_up ha hb hc hq, neg_neg]
  obtain ⟨M, hM⟩ := D.lift.ghost
  have e1 : phi V x up = orient3d (pt pts a) (pt pts b) (pt pts c) (pt pts p0) + orient3d (pt pts a) (pt pts b) (pt pts c) (pt pts p1) +
      orient3d (pt pts a) (pt pts b) (pt pts c) (pt pts p2) + orient3d (pt pts a) (pt pts b) (pt pts c) (pt pts p3) := by
    rw [hs.phi, br_34, ← brL_apply, hM, map_sub, map_smul, map_add, map_add, map_add, brL_apply, brL_apply, brL_apply, brL_apply, brL_apply,
      key _ D.base0.2, key _ D.base1.2, key _ D.base2.2, key _ D.base3.2, br_rep3]
    simp
  rw [e1]
  by_contra hcon
  push Not at hcon
  have z0 : orient3d (pt pts a) (pt pts b) (pt pts c) (pt pts p0) = 0 := by linarith
  have z1 : orient3d (pt pts a) (pt pts b) (pt pts c) (pt pts p1) = 0 := by linarith
  have z2 : orient3d (pt pts a) (pt pts b) (pt pts c) (pt pts p2) = 0 := by linarith
  have z3 : orient3d (pt pts a) (pt pts b) (pt pts c) (pt pts p3) = 0 := by linarith
  have cr := cramer_apply (brL (V a) (V b) (V c) up) (V p0) (V p1) (V p2) (V p3) up (V e)
  simp only [brL_apply] at cr
  rw [key _ D.base0.2, key _ D.base1.2, key _ D.base2.2, key _ D.base3.2, z0, z1, z2, z3, br_rep3, key _ he, D.lift.br_up D.base0.2 D.base1.2 D.base2.2 D.base3.2] at cr
  have e2 := D.solid_orient gs hb ha hc he
  rw [orient_flip] at e2
  have : orient3d (pt pts a) (pt pts b) (pt pts c) (pt pts e) ≠ 0 := by intro z; rw [z] at e2; linarith
  have := D.base
  simp_all

/-- For a point in the plane of its base a ghost answers as the solid tetrahedron behind it. -/
theorem Dt.tie {h g : TriFace} {x y : Tet.Tet} {a b c e q : Nat} (hl : live h.tet) (gl : live g.tet) (hs : Sees m h x a b c pts.length) (gs : Sees m g y b a c e)
    (hq : q < pts.length) (ho : orient3d (pt pts a) (pt pts b) (pt pts c) (pt pts q) = 0) : ∃ α β : K, 0 < α ∧ 0 < β ∧ α * phi V y (V q) = β * phi V x (V q) := by
  obtain ⟨ha, hb, hc, he, hup, -⟩ := D.behind hl gl hs gs
  refine ⟨phi V x up, phi V y up, D.lean hl gl hs gs, hup, ?_⟩
  have pl := plucker (V a) (V b) (V c) (V pts.length) up (V e) (V q)
  have e1 : ∀ q, br (V a) (V b) (V c) (V e) q = - phi V y q := by intro q; rw [gs.phi, br_01]
  rw [D.lift.br_up ha hb hc hq, ho, e1 (V q), e1 up, ← hs.phi, ← hs.phi] at pl
  linarith

omit D [Field K] [IsStrictOrderedRing K] in
theorem sign_negative [Field K] (v : K) : doubleToSign v = .negative ↔ v < 0 := by
  unfold doubleToSign
  split
  · rename_i h; simp; exact h.le
  · split <;> simp_all

omit D [Field K] [IsStrictOrderedRing K] in
theorem sign_zero [Field K] (v : K) : doubleToSign v = .zero ↔ v = 0 := by
  unfold doubleToSign
  split
  · rename_i h; simp; exact ne_of_gt h
  · split
    · rename_i h; simp; exact ne_of_lt h
    · rename_i h1 h2; simp; exact le_antisymm (not_lt.1 h1) (not_lt.1 h2)

omit [IsStrictOrderedRing K] in
/-- The symbolic in-sphere test of a solid tetrahedron is the sign of its determinant. -/
theorem Dt.insphere {h : TriFace} {x : Tet.Tet} {a b c d pid : Nat} [IsStrictOrderedRing K] (hl : live h.tet) (hs : Sees m h x a b c d) (ha : a < pts.length) (hb : b < pts.length) (hc : c < pts.length)
    (hd : d < pts.length) (hp : pid < pts.length) (hpU : ¬ U pid) :
    insphereS (pt pts) a b c d pid = doubleToSign (phi V x (V pid)) ∧ phi V x (V pid) ≠ 0 := by
  obtain ⟨n1, n2, n3, n4, n5, n6⟩ := hs.ne (D.reg.inj hl hs.get)
  obtain ⟨u1, u2, u3, u4⟩ := D.reg.memO hl hs
  have k1 : a ≠ pid := fun e => hpU (e ▸ u1)
  have k2 : b ≠ pid := fun e => hpU (e ▸ u2)
  have k3 : c ≠ pid := fun e => hpU (e ▸ u3)
  have k4 : d ≠ pid := fun e => hpU (e ▸ u4)
  have hup := (D.solidS hl hs ha.ne hb.ne hc.ne hd.ne).1
  rw [D.solid_orient hs ha hb hc hd] at hup
  obtain ⟨s1, s2⟩ := D.lift.sphere a b c d pid ha hb hc hd hp (by simp; tauto) (by intro z; rw [z] at hup; linarith)
  rw [← hs.phi] at s1
  refine ⟨s1, fun z => s2 ?_⟩
  rw [s1, z, sign_zero]

/-- `cavityTest` answers whether the new vertex is in conflict, and there are no ties. -/
theorem Dt.test {t pid : Nat} {x : Tet.Tet} (hl : live t) (hx : m.tets[t]? = some x) (hp : pid < pts.length) (hpU : ¬ U pid) :
    (m.cavityTest pts pid t = true ↔ phi V x (V pid) < 0) ∧ phi V x (V pid) ≠ 0 := by
  have hs : Sees m ⟨t, 11⟩ x (x.data 0) (x.data 1) (x.data 2) (x.data 3) := ⟨hx, rfl, rfl, rfl, rfl⟩
  have solidCase : ∀ t x, live t → m.tets[t]? = some x → x.data 3 ≠ pts.length →
      ((insphereS (pt pts) (x.data 0) (x.data 1) (x.data 2) (x.data 3) pid == .negative) = true ↔ phi V x (V pid) < 0) ∧ phi V x (V pid) ≠ 0 := by
    intro t x hl hx h3
    have hs : Sees m ⟨t, 11⟩ x (x.data 0) (x.data 1) (x.data 2) (x.data 3) := ⟨hx, rfl, rfl, rfl, rfl⟩
    have hn : ∀ i, x.data i ≠ pts.length := fun i e => h3 (by rw [← D.num] at e ⊢; have := D.last t hl x hx i e; rw [this] at e; exact e)
    obtain ⟨l1, l2, l3, l4⟩ := D.lt (h := ⟨t, 11⟩) hl hs
    obtain ⟨e1, e2⟩ := D.insphere (h := ⟨t, 11⟩) hl hs (l1 (hn 0)) (l2 (hn 1)) (l3 (hn 2)) (l4 (hn 3)) hp hpU
    refine ⟨?_, e2⟩
    rw [e1, beq_iff_eq, sign_negative]
  by_cases h3 : x.data 3 = pts.length
  · rw [h3] at hs
    obtain ⟨g, y, e, gl, hg, gs⟩ := glued_sees D.reg.cons (h := ⟨t, 11⟩) hl hs
    obtain ⟨ha, hb, hc, he, hup, hy3⟩ := D.behind (h := ⟨t, 11⟩) hl gl hs gs
    have hn3 : (x.nei 3).bind (fun h => m.tets[h.tet]?) = some y := by
      have hf := hg.fwd
      simp only [Mesh.fsym, hx, Option.bind_eq_bind, Option.bind_eq_some_iff, Option.pure_def, Option.some.injEq, exists_eq_left'] at hf
      obtain ⟨nf, hnf, hh⟩ := hf
      have : face (11 : Ver) = 3 := rfl
      rw [this] at hnf
      rw [hnf, Option.bind_some]
      have := gs.get
      rw [← hh] at this
      exact this
    have et : m.cavityTest pts pid t = (if orient3d (pt pts (x.data 0)) (pt pts (x.data 1)) (pt pts (x.data 2)) (pt pts pid) < 0 then true
        else if orient3d (pt pts (x.data 0)) (pt pts (x.data 1)) (pt pts (x.data 2)) (pt pts pid) = 0 then
          (insphereS (pt pts) (y.data 0) (y.data 1) (y.data 2) (y.data 3) pid == .negative) else false) := by
      simp only [Mesh.cavityTest, hx, D.num, h3, ne_eq, not_true_eq_false, if_false, hn3]
      rfl
    rw [et]
    by_cases ho : orient3d (pt pts (x.data 0)) (pt pts (x.data 1)) (pt pts (x.data 2)) (pt pts pid) = 0
    · rw [if_neg (by rw [ho]; simp), if_pos ho]
      obtain ⟨k1, k2⟩ := solidCase _ y gl gs.get hy3
      obtain ⟨α, β, hα, hβ, heq⟩ := D.tie (h := ⟨t, 11⟩) hl gl hs gs hp ho
      rw [k1]
      refine ⟨⟨fun h => ?_, fun h => ?_⟩, fun z => k2 ?_⟩
      · have := mul_neg_of_pos_of_neg hα h
        rw [heq] at this
        exact neg_of_mul_neg_right this hβ.le
      · have := mul_neg_of_pos_of_neg hβ h
        rw [← heq] at this
        exact neg_of_mul_neg_right this hα.le
      · rw [z, mul_zero] at heq
        exact (mul_eq_zero.1 heq).resolve_left hα.ne'
    · have hsg := D.ghost_sign hs ha hb hc hp ho
      refine ⟨?_, fun z => by rw [z, zero_mul] at hsg; exact lt_irrefl _ hsg⟩
      rcases lt_or_gt_of_ne ho with hlt | hgt
      · rw [if_pos hlt]
        refine ⟨fun _ => ?_, fun _ => rfl⟩
        exact neg_of_mul_pos_left hsg hlt.le
      · rw [if_neg (not_lt.2 hgt.le), if_neg ho]
        refine ⟨fun h => by simp at h, fun h => ?_⟩
        have := mul_neg_of_neg_of_pos h hgt
        linarith
  · have et : m.cavityTest pts pid t = (insphereS (pt pts) (x.data 0) (x.data 1) (x.data 2) (x.data 3) pid == .negative) := by
      simp only [Mesh.cavityTest, hx, D.num, h3, ne_eq, not_false_eq_true, if_true]
      rfl
    rw [et]
    exact solidCase t x hl hx h3

/-- A new tetrahedron without the ghost vertex is not flat and has the right orientation. -/
theorem Dt.new_solid {h g : TriFace} {x y : Tet.Tet} {a b c d e pid : Nat} (hl : live h.tet) (gl : live g.tet) (hs : Sees m h x a b c d) (gs : Sees m g y b a c e)
    (hx : phi V x (V pid) < 0) (hy : 0 < phi V y (V pid)) (ha : a ≠ pts.length) (hb : b ≠ pts.length) (hc : c ≠ pts.length) (hp : pid < pts.length) :
    0 < br (V a) (V b) (V c) (V pid) up := by
  obtain ⟨la, lb, lc, ld⟩ := D.lt hl hs
  obtain ⟨-, -, -, le⟩ := D.lt gl gs
  have hde := D.reg.oppo_ne hl gl hs gs
  obtain ⟨n1, n2, n3, n4, n5, n6⟩ := hs.ne (D.reg.inj hl hs.get)
  by_cases hd : d = pts.length
  · subst hd
    rw [D.lift.br_up (la ha) (lb hb) (lc hc) hp]
    by_cases ho : orient3d (pt pts a) (pt pts b) (pt pts c) (pt pts pid) = 0
    · exfalso
      obtain ⟨α, β, hα, hβ, heq⟩ := D.tie hl gl hs gs hp ho
      have := mul_pos hα hy
      have := mul_neg_of_pos_of_neg hβ hx
      linarith
    · have := D.ghost_sign hs (la ha) (lb hb) (lc hc) hp ho
      have := neg_of_mul_pos_right this hx.le
      linarith
  · by_cases he : e = pts.length
    · subst he
      rw [D.lift.br_up (la ha) (lb hb) (lc hc) hp, ← orient_flip]
      by_cases ho : orient3d (pt pts b) (pt pts a) (pt pts c) (pt pts pid) = 0
      · exfalso
        obtain ⟨α, β, hα, hβ, heq⟩ := D.tie gl hl gs hs hp ho
        have := mul_neg_of_pos_of_neg hα hx
        have := mul_pos hβ hy
        linarith
      · have := D.ghost_sign gs (lb hb) (la ha) (lc hc) hp ho
        exact (pos_iff_pos_of_mul_pos this).1 hy
    · have u1 := (D.solidS hl hs ha hb hc hd).1
      have u2 := (D.solidS gl gs hb ha hc he).1
      have pl := plucker (V a) (V b) (V c) (V d) (V e) (V pid) up
      have e1 : ∀ q, br (V a) (V b) (V c) (V e) q = - phi V y q := by intro q; rw [gs.phi, br_01]
      have e2 : ∀ q, br (V a) (V b) (V c) q (V e) = phi V y q := by intro q; rw [br_34, e1, neg_neg]
      have e3 : br (V a) (V b) (V c) (V pid) (V d) = - phi V x (V pid) := by rw [hs.phi, br_34]
      rw [e2 up, e2 (V pid), e3, ← hs.phi, ← hs.phi] at pl
      have k1 : 0 < phi V x (V e) := by
        rw [hs.phi]
        obtain ⟨-, -, w1, -, w2, w3⟩ := gs.ne (D.reg.inj gl gs.get)
        exact D.reg.spos hl hs (D.reg.memO gl gs).2.2.2 w2.symm w1.symm w3.symm hde.symm
      have k2 := mul_pos u1 hy
      have k3 := mul_pos u2 (neg_pos.2 hx)
      have : 0 < phi V x (V e) * br (V a) (V b) (V c) (V pid) up := by rw [pl]; linarith
      exact (pos_iff_pos_of_mul_pos this).1 k1

end
end Verif.Delaunay
