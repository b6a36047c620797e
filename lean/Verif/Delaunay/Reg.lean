import Verif.Delaunay.Algebra
import Verif.Tet.Seeds
import Mathlib.Order.Filter.AtTopBot.Basic
import Mathlib.Order.Filter.Finite
import Mathlib.Algebra.Order.Field.Basic
import Mathlib.Tactic.Linarith
import Mathlib.Tactic.Positivity
/-!
# Regular complexes: the combinatorial consequences of positive determinants

A complex of tetrahedra whose corners carry vectors of a five-dimensional space such that every vector lies on the positive
side of every tetrahedron of which it is not a corner. For Delaunay tetrahedralizations the vectors are the points lifted to
a paraboloid; the statements here are about any vectors.
-/
namespace Verif.Delaunay
open Tet

variable {K : Type} [Field K] [LinearOrder K] [IsStrictOrderedRing K]

/-- The side on which `q` lies of the hyperplane through the corners of a tetrahedron. -/
def phi (V : Nat → Vec K) (x : Tet.Tet) : Vec K →ₗ[K] K := brL (V (x.data 0)) (V (x.data 1)) (V (x.data 2)) (V (x.data 3))

/-- The corners of a tetrahedron seen from a handle. -/
structure Sees (m : Mesh) (h : TriFace) (x : Tet.Tet) (a b c d : Nat) : Prop where
  get : m.tets[h.tet]? = some x
  org : x.data (orgPivot h.ver) = a
  dest : x.data (destPivot h.ver) = b
  apex : x.data (apexPivot h.ver) = c
  oppo : x.data (oppoPivot h.ver) = d

theorem even_versions : ∀ v : Ver, ∃ τ : Equiv.Perm (Fin 5), Equiv.Perm.sign τ = 1 ∧ τ 0 = (orgPivot v).castSucc ∧ τ 1 = (destPivot v).castSucc ∧
    τ 2 = (apexPivot v).castSucc ∧ τ 3 = (oppoPivot v).castSucc ∧ τ 4 = 4 := by decide +kernel

omit [LinearOrder K] [IsStrictOrderedRing K] in
theorem br_version (f : Fin 4 → Vec K) (q : Vec K) (v : Ver) :
    br (f (orgPivot v)) (f (destPivot v)) (f (apexPivot v)) (f (oppoPivot v)) q = br (f 0) (f 1) (f 2) (f 3) q := by
  obtain ⟨τ, hs, h0, h1, h2, h3, h4⟩ := even_versions v
  have h := Matrix.det_permute τ (Matrix.of ![f 0, f 1, f 2, f 3, q])
  rw [hs] at h
  have e : (Matrix.of ![f 0, f 1, f 2, f 3, q]).submatrix τ id = Matrix.of ![f (orgPivot v), f (destPivot v), f (apexPivot v), f (oppoPivot v), q] := by
    have key : ∀ i : Fin 4, ![f 0, f 1, f 2, f 3, q] i.castSucc = f i := by intro i; fin_cases i <;> rfl
    ext i j
    fin_cases i
    · show ![f 0, f 1, f 2, f 3, q] (τ 0) j = f (orgPivot v) j
      rw [h0, key]
    · show ![f 0, f 1, f 2, f 3, q] (τ 1) j = f (destPivot v) j
      rw [h1, key]
    · show ![f 0, f 1, f 2, f 3, q] (τ 2) j = f (apexPivot v) j
      rw [h2, key]
    · show ![f 0, f 1, f 2, f 3, q] (τ 3) j = f (oppoPivot v) j
      rw [h3, key]
    · show ![f 0, f 1, f 2, f 3, q] (τ 4) j = q j
      rw [h4]; rfl
  rw [e] at h
  unfold br
  rw [h]; simp

section Handles
variable {m : Mesh} {live : Nat → Prop} {V : Nat → Vec K} {h : TriFace} {x : Tet.Tet} {a b c d : Nat}

omit [LinearOrder K] [IsStrictOrderedRing K] in
theorem Sees.phi (hs : Sees m h x a b c d) (q : Vec K) : phi V x q = br (V a) (V b) (V c) (V d) q := by
  have := br_version (fun i => V (x.data i)) q h.ver
  simp only [hs.org, hs.dest, hs.apex, hs.oppo] at this
  rw [this, Delaunay.phi, brL_apply]

theorem pivots_cover : ∀ (v : Ver) (i : Fin 4), i = orgPivot v ∨ i = destPivot v ∨ i = apexPivot v ∨ i = oppoPivot v := by decide +kernel
theorem pivots_ne : ∀ v : Ver, orgPivot v ≠ destPivot v ∧ orgPivot v ≠ apexPivot v ∧ orgPivot v ≠ oppoPivot v ∧ destPivot v ≠ apexPivot v ∧
    destPivot v ≠ oppoPivot v ∧ apexPivot v ≠ oppoPivot v := by decide +kernel
theorem no_odd : ∀ v w : Ver, orgPivot w = destPivot v → destPivot w = orgPivot v → apexPivot w ≠ apexPivot v := by decide +kernel

theorem Sees.corner (hs : Sees m h x a b c d) (q : Nat) : (∃ i, x.data i = q) ↔ q = a ∨ q = b ∨ q = c ∨ q = d := by
  constructor
  · rintro ⟨i, rfl⟩
    rcases pivots_cover h.ver i with e | e | e | e <;> rw [e]
    · exact .inl hs.org
    · exact .inr (.inl hs.dest)
    · exact .inr (.inr (.inl hs.apex))
    · exact .inr (.inr (.inr hs.oppo))
  · rintro (e | e | e | e)
    · exact ⟨_, hs.org.trans e.symm⟩
    · exact ⟨_, hs.dest.trans e.symm⟩
    · exact ⟨_, hs.apex.trans e.symm⟩
    · exact ⟨_, hs.oppo.trans e.symm⟩

theorem sees_of_get (hx : m.tets[h.tet]? = some x) : Sees m h x (x.data (orgPivot h.ver)) (x.data (destPivot h.ver)) (x.data (apexPivot h.ver)) (x.data (oppoPivot h.ver)) :=
  ⟨hx, rfl, rfl, rfl, rfl⟩

theorem Sees.ne (hs : Sees m h x a b c d) (hi : Function.Injective x.data) : a ≠ b ∧ a ≠ c ∧ a ≠ d ∧ b ≠ c ∧ b ≠ d ∧ c ≠ d := by
  obtain ⟨h1, h2, h3, h4, h5, h6⟩ := pivots_ne h.ver
  rw [← hs.org, ← hs.dest, ← hs.apex, ← hs.oppo]
  exact ⟨fun e => h1 (hi e), fun e => h2 (hi e), fun e => h3 (hi e), fun e => h4 (hi e), fun e => h5 (hi e), fun e => h6 (hi e)⟩

theorem Sees.enextEsym (hs : Sees m h x a b c d) : Sees m h.enextEsym x c b d a := by
  obtain ⟨h1, h2, h3, h4⟩ := tbl_enextEsym h.ver
  refine ⟨hs.get, ?_, ?_, ?_, ?_⟩ <;> simp only [TriFace.enextEsym, h1, h2, h3, h4]
  exacts [hs.apex, hs.dest, hs.oppo, hs.org]
theorem Sees.eprevEsym (hs : Sees m h x a b c d) : Sees m h.eprevEsym x a c d b := by
  obtain ⟨h1, h2, h3, h4⟩ := tbl_eprevEsym h.ver
  refine ⟨hs.get, ?_, ?_, ?_, ?_⟩ <;> simp only [TriFace.eprevEsym, h1, h2, h3, h4]
  exacts [hs.org, hs.apex, hs.oppo, hs.dest]
theorem Sees.esym (hs : Sees m h x a b c d) : Sees m h.esym x b a d c := by
  obtain ⟨h1, h2, h3, h4⟩ := tbl_esym h.ver
  refine ⟨hs.get, ?_, ?_, ?_, ?_⟩ <;> simp only [TriFace.esym, h1, h2, h3, h4]
  exacts [hs.dest, hs.org, hs.oppo, hs.apex]

/-- The handle on the other side of a face. -/
theorem glued_sees (hc : Consistent m live) (hl : live h.tet) (hs : Sees m h x a b c d) :
    ∃ g y e, live g.tet ∧ Glued m h g ∧ Sees m g y b a c e := by
  obtain ⟨g, hgl, gl⟩ := hc.mate hl
  obtain ⟨y, hy, -⟩ := hc.corners _ hgl
  have h1 := gl.org
  have h2 := gl.dest
  have h3 := gl.apex
  simp only [Mesh.org, Mesh.dest, Mesh.apex, hy, hs.get, Option.map_some, Option.some.injEq, hs.org, hs.dest, hs.apex] at h1 h2 h3
  exact ⟨g, y, _, hgl, gl, hy, h1, h2, h3, rfl⟩

end Handles

/-- Every vertex in use lies strictly on the positive side of every live tetrahedron of which it is not a corner, and no two live
tetrahedra have the same corners. -/
structure Reg (V : Nat → Vec K) (m : Mesh) (live U : Nat → Prop) : Prop where
  cons : Consistent m live
  mem : ∀ t x i, live t → m.tets[t]? = some x → U (x.data i)
  pos : ∀ t x q, live t → m.tets[t]? = some x → U q → (∀ i, x.data i ≠ q) → 0 < phi V x (V q)
  uniq : ∀ s t x y, live s → live t → m.tets[s]? = some x → m.tets[t]? = some y → (∀ i, ∃ j, x.data i = y.data j) → s = t

section Reg
variable {V : Nat → Vec K} {m : Mesh} {live U : Nat → Prop} (R : Reg V m live U)
include R

omit [IsStrictOrderedRing K] in
theorem Reg.inj {t : Nat} {x : Tet.Tet} (hl : live t) (hx : m.tets[t]? = some x) : Function.Injective x.data := by
  obtain ⟨y, hy, hi⟩ := R.cons.corners _ hl
  rw [hx] at hy; cases hy; exact hi

omit [LinearOrder K] [IsStrictOrderedRing K] R in
theorem phi_corner (x : Tet.Tet) (i : Fin 4) : phi V x (V (x.data i)) = 0 := by
  rw [phi, brL_apply]
  fin_cases i
  · exact br_rep0 _ _ _ _
  · exact br_rep1 _ _ _ _
  · exact br_rep2 _ _ _ _
  · exact br_rep3 _ _ _ _

omit [IsStrictOrderedRing K] in
theorem Reg.nonneg {t : Nat} {x : Tet.Tet} {q : Nat} (hl : live t) (hx : m.tets[t]? = some x) (hq : U q) : 0 ≤ phi V x (V q) := by
  by_cases h : ∃ i, x.data i = q
  · obtain ⟨i, rfl⟩ := h
    exact (phi_corner x i).ge
  · exact (R.pos t x q hl hx hq (by simpa using h)).le

omit [IsStrictOrderedRing K] in
theorem Reg.same {h g : TriFace} {x y : Tet.Tet} {a b c d a' b' c' d' : Nat} (hl : live h.tet) (gl : live g.tet) (hs : Sees m h x a b c d) (gs : Sees m g y a' b' c' d')
    (ha : a = a' ∨ a = b' ∨ a = c' ∨ a = d') (hb : b = a' ∨ b = b' ∨ b = c' ∨ b = d') (hc : c = a' ∨ c = b' ∨ c = c' ∨ c = d')
    (hd : d = a' ∨ d = b' ∨ d = c' ∨ d = d') : h.tet = g.tet := by
  refine R.uniq _ _ _ _ hl gl hs.get gs.get ?_
  intro i
  have h1 := (hs.corner (x.data i)).1 ⟨i, rfl⟩
  have : ∃ j, y.data j = x.data i := by
    rw [gs.corner]
    rcases h1 with e | e | e | e <;> rw [e] <;> assumption
  obtain ⟨j, hj⟩ := this
  exact ⟨j, hj.symm⟩

omit [IsStrictOrderedRing K] in
theorem Reg.spos {h : TriFace} {x : Tet.Tet} {a b c d q : Nat} (hl : live h.tet) (hs : Sees m h x a b c d) (hq : U q) (h1 : q ≠ a) (h2 : q ≠ b) (h3 : q ≠ c) (h4 : q ≠ d) :
    0 < br (V a) (V b) (V c) (V d) (V q) := by
  rw [← hs.phi]
  refine R.pos _ _ _ hl hs.get hq ?_
  intro i hi
  rcases (hs.corner q).1 ⟨i, hi⟩ with e | e | e | e
  exacts [h1 e, h2 e, h3 e, h4 e]

omit [IsStrictOrderedRing K] in
theorem Reg.memO {h : TriFace} {x : Tet.Tet} {a b c d : Nat} (hl : live h.tet) (hs : Sees m h x a b c d) : U a ∧ U b ∧ U c ∧ U d := by
  refine ⟨?_, ?_, ?_, ?_⟩
  · rw [← hs.org]; exact R.mem _ _ _ hl hs.get
  · rw [← hs.dest]; exact R.mem _ _ _ hl hs.get
  · rw [← hs.apex]; exact R.mem _ _ _ hl hs.get
  · rw [← hs.oppo]; exact R.mem _ _ _ hl hs.get

/-- A face with a side belongs to one tetrahedron only. -/
theorem Reg.same_side {h g : TriFace} {x y : Tet.Tet} {a b c d e : Nat} (hl : live h.tet) (gl : live g.tet) (hs : Sees m h x a b c d) (gs : Sees m g y a b c e) : h = g := by
  have n1 := hs.ne (R.inj hl hs.get)
  have n2 := gs.ne (R.inj gl gs.get)
  have ht : h.tet = g.tet := by
    by_cases hde : d = e
    · subst hde
      exact R.same hl gl hs gs (by simp) (by simp) (by simp) (by simp)
    · exfalso
      have p1 := R.spos hl hs (R.memO gl gs).2.2.2 (by tauto) (by tauto) (by tauto) (by tauto)
      have p2 := R.spos gl gs (R.memO hl hs).2.2.2 (by tauto) (by tauto) (by tauto) (by tauto)
      rw [br_34] at p2
      linarith
  refine handle_unique R.cons gl ht ?_ ?_
  · simp [Mesh.org, hs.get, gs.get, hs.org, gs.org]
  · simp [Mesh.dest, hs.get, gs.get, hs.dest, gs.dest]

omit [IsStrictOrderedRing K] in
/-- The corners opposite to a common face differ. -/
theorem Reg.oppo_ne {h g : TriFace} {x y : Tet.Tet} {a b c d e : Nat} (hl : live h.tet) (gl : live g.tet) (hs : Sees m h x a b c d) (gs : Sees m g y b a c e) : d ≠ e := by
  rintro rfl
  have ht := R.same hl gl hs gs (by simp) (by simp) (by simp) (by simp)
  have hx := hs.get
  rw [ht, gs.get] at hx; cases hx
  have hi := R.inj gl gs.get
  exact no_odd h.ver g.ver (hi (gs.org.trans hs.dest.symm)) (hi (gs.dest.trans hs.org.symm)) (hi (gs.apex.trans hs.apex.symm))

/-- Crossing a face of which `z` lies on the far side, seen from the inner vector `O`, lowers the ratio of `z` to `O`. -/
theorem Reg.cross {h g : TriFace} {x y : Tet.Tet} {a b c d e : Nat} (hl : live h.tet) (gl : live g.tet) (hs : Sees m h x a b c d) (gs : Sees m g y b a c e)
    (z O : Vec K) (hz : br (V a) (V b) (V c) z O < 0) : phi V x O * phi V y z < phi V x z * phi V y O := by
  have n1 := hs.ne (R.inj hl hs.get)
  have hd : 0 < phi V y (V d) := by
    rw [gs.phi]
    exact R.spos gl gs (R.memO hl hs).2.2.2 (by tauto) (by tauto) (by tauto) (R.oppo_ne hl gl hs gs)
  have pl := plucker (V a) (V b) (V c) (V d) O (V e) z
  have e1 : ∀ q, br (V a) (V b) (V c) (V e) q = - phi V y q := by intro q; rw [gs.phi, br_01]
  simp only [e1] at pl
  rw [← hs.phi, ← hs.phi] at pl
  have : br (V a) (V b) (V c) z O * phi V y (V d) < 0 := mul_neg_of_neg_of_pos hz hd
  linarith

/-- From any tetrahedron of a set closed under such crossings one gets to one in whose cone (with apex direction `O`) the vector `z` lies. -/
theorem Reg.walk (P : Nat → Prop) (hP : ∀ t, P t → live t) (z O : Vec K) (hO : ∀ t x, P t → m.tets[t]? = some x → 0 < phi V x O)
    (hcl : ∀ (h g : TriFace) x y a b c d e, P h.tet → live g.tet → Glued m h g → Sees m h x a b c d → Sees m g y b a c e →
      phi V x O * phi V y z < phi V x z * phi V y O → P g.tet)
    (t1 : Nat) (h1 : P t1) :
    ∃ t x, P t ∧ m.tets[t]? = some x ∧ ∀ f : Vec K →ₗ[K] K, (∀ i, 0 ≤ f (V (x.data i))) → phi V x z * f O ≤ phi V x O * f z := by
  classical
  let gauge : Nat → K := fun t => match m.tets[t]? with | some x => phi V x z / phi V x O | none => 0
  have hlt : ∀ t, P t → t < m.tets.length := fun t ht => by
    obtain ⟨x, hx, -⟩ := R.cons.corners _ (hP t ht)
    exact (List.getElem?_eq_some_iff.1 hx).1
  obtain ⟨t, ht, hmin⟩ := Finset.exists_min_image ((Finset.range m.tets.length).filter P) gauge ⟨t1, by simp [h1, hlt t1 h1]⟩
  have hPt : P t := (Finset.mem_filter.1 ht).2
  obtain ⟨x, hx, -⟩ := R.cons.corners _ (hP t hPt)
  have hOx := hO t x hPt hx
  have key : ∀ (h : TriFace) a b c d, h.tet = t → Sees m h x a b c d → 0 ≤ br (V a) (V b) (V c) z O := by
    intro h a b c d ht hs
    subst ht
    by_contra hneg
    push Not at hneg
    obtain ⟨g, y, e, gl, hg, gs⟩ := glued_sees R.cons (hP _ hPt) hs
    have hlt' := R.cross (hP _ hPt) gl hs gs z O hneg
    have hPg := hcl h g x y a b c d e hPt gl hg hs gs hlt'
    have := hmin g.tet (by simp [hPg, hlt _ hPg])
    have hOy := hO _ y hPg gs.get
    simp only [gauge, hx, gs.get] at this
    rw [div_le_div_iff₀ hOx hOy] at this
    linarith
  refine ⟨t, x, hPt, hx, ?_⟩
  intro f hf
  have hs : Sees m ⟨t, 11⟩ x (x.data 0) (x.data 1) (x.data 2) (x.data 3) := ⟨hx, rfl, rfl, rfl, rfl⟩
  have cr := cramer_apply f (V (x.data 0)) (V (x.data 1)) (V (x.data 2)) (V (x.data 3)) O z
  have k0 := key _ _ _ _ _ rfl hs
  have k1 := key _ _ _ _ _ rfl hs.enextEsym
  have k2 := key _ _ _ _ _ rfl hs.eprevEsym
  have k3 := key _ _ _ _ _ rfl hs.esym
  rw [← hs.phi, ← hs.phi] at cr
  have s1 : br (V (x.data 2)) (V (x.data 1)) (V (x.data 3)) z O = br z (V (x.data 1)) (V (x.data 2)) (V (x.data 3)) O := by
    rw [br_23 _ _ z, br_12 _ z, br_01 z, br_12 z (V (x.data 1))]; ring
  have s2 : br (V (x.data 0)) (V (x.data 2)) (V (x.data 3)) z O = br (V (x.data 0)) z (V (x.data 2)) (V (x.data 3)) O := by
    rw [br_23, br_12]; ring
  have s3 : br (V (x.data 1)) (V (x.data 0)) (V (x.data 3)) z O = br (V (x.data 0)) (V (x.data 1)) z (V (x.data 3)) O := by
    rw [br_01, br_23]; ring
  rw [s1] at k1; rw [s2] at k2; rw [s3] at k3
  have m0 := mul_nonneg k0 (hf 3)
  have m1 := mul_nonneg k1 (hf 0)
  have m2 := mul_nonneg k2 (hf 1)
  have m3 := mul_nonneg k3 (hf 2)
  linarith

/-- The tetrahedra on whose negative side `p` lies. -/
def InConflict (V : Nat → Vec K) (m : Mesh) (live : Nat → Prop) (p : Vec K) (t : Nat) : Prop := live t ∧ ∃ x, m.tets[t]? = some x ∧ phi V x p < 0

omit [IsStrictOrderedRing K] in
/-- The sum of the corners of one tetrahedron lies strictly on the positive side of any other. -/
theorem Reg.sum_pos {t0 t : Nat} {x0 x : Tet.Tet} (h0 : live t0) (hx0 : m.tets[t0]? = some x0) (hl : live t) (hx : m.tets[t]? = some x) [IsStrictOrderedRing K]
    (hne : phi V x (V (x0.data 0) + V (x0.data 1) + V (x0.data 2) + V (x0.data 3)) ≤ 0) : t = t0 := by
  have hn : ∀ i, 0 ≤ phi V x (V (x0.data i)) := fun i => R.nonneg hl hx (R.mem _ _ _ h0 hx0)
  simp only [map_add] at hne
  symm
  refine R.uniq _ _ _ _ h0 hl hx0 hx ?_
  intro i
  by_contra hcon
  push Not at hcon
  have hp := R.pos t x (x0.data i) hl hx (R.mem _ _ _ h0 hx0) (fun j e => hcon j e.symm)
  have h0 := hn 0; have h1 := hn 1; have h2 := hn 2; have h3 := hn 3
  fin_cases i <;> simp only [Fin.zero_eta, Fin.mk_one, Fin.reduceFinMk] at hp <;> linarith

omit R [IsStrictOrderedRing K] in
theorem eventually_lt_mul [IsStrictOrderedRing K] (c : K) {a : K} (ha : 0 < a) : ∀ᶠ s in Filter.atTop, c < s * a := by
  filter_upwards [Filter.eventually_gt_atTop (c / a)] with s hs
  exact (div_lt_iff₀ ha).1 hs

/-- A vector on the positive side of everything, from which `p` is seen in the interior of a given tetrahedron in conflict. -/
theorem Reg.eventually_inner {t0 : Nat} {x0 : Tet.Tet} {p : Vec K} (h0 : live t0) (hx0 : m.tets[t0]? = some x0) (hp : phi V x0 p < 0) :
    ∀ᶠ s : K in Filter.atTop, ∀ t x, live t → m.tets[t]? = some x →
      0 < phi V x (s • (V (x0.data 0) + V (x0.data 1) + V (x0.data 2) + V (x0.data 3)) - p) := by
  classical
  have : ∀ t ∈ Finset.range m.tets.length, ∀ᶠ s : K in Filter.atTop, ∀ x, live t → m.tets[t]? = some x →
      0 < phi V x (s • (V (x0.data 0) + V (x0.data 1) + V (x0.data 2) + V (x0.data 3)) - p) := by
    intro t ht
    by_cases hl : live t
    · obtain ⟨x, hx, -⟩ := R.cons.corners _ hl
      by_cases hs : 0 < phi V x (V (x0.data 0) + V (x0.data 1) + V (x0.data 2) + V (x0.data 3))
      · filter_upwards [eventually_lt_mul (phi V x p) hs] with s h
        intro y _ hy
        rw [hx] at hy; cases hy
        rw [map_sub, map_smul, smul_eq_mul]; linarith
      · have := R.sum_pos h0 hx0 hl hx (not_lt.1 hs)
        subst this
        rw [hx0] at hx; cases hx
        filter_upwards with s
        intro y _ hy
        rw [hx0] at hy; cases hy
        rw [map_sub, map_smul, map_add, map_add, map_add, phi_corner, phi_corner, phi_corner, phi_corner]
        simpa using hp
    · filter_upwards with s
      intro y h; exact absurd h hl
  have := (Filter.eventually_all_finset _).2 this
  filter_upwards [this] with s h t x hl hx
  exact h t (Finset.mem_range.2 (List.getElem?_eq_some_iff.1 hx).1) x hl hx

/-- Tetrahedra in conflict reachable from one through faces between tetrahedra in conflict. -/
inductive Linked (V : Nat → Vec K) (m : Mesh) (live : Nat → Prop) (p : Vec K) (t0 : Nat) : Nat → Prop
  | base : InConflict V m live p t0 → Linked V m live p t0 t0
  | step {h g : TriFace} : Linked V m live p t0 h.tet → Glued m h g → InConflict V m live p g.tet → Linked V m live p t0 g.tet

omit R [IsStrictOrderedRing K] in
theorem Linked.conf {p : Vec K} {t0 t : Nat} (h : Linked V m live p t0 t) : InConflict V m live p t := by
  cases h <;> assumption

/-- The tetrahedra in conflict with a vector are connected through their faces. -/
theorem Reg.connected {p : Vec K} {t0 t1 : Nat} (h0 : InConflict V m live p t0) (h1 : InConflict V m live p t1) : Linked V m live p t1 t0 := by
  obtain ⟨l0, x0, hx0, hp0⟩ := h0
  obtain ⟨s, hs, hs0⟩ := ((R.eventually_inner l0 hx0 hp0).and (Filter.eventually_gt_atTop 0)).exists
  set O := s • (V (x0.data 0) + V (x0.data 1) + V (x0.data 2) + V (x0.data 3)) - p with hO
  obtain ⟨t, x, hPt, hx, hf⟩ := R.walk (Linked V m live p t1) (fun t ht => ht.conf.1) p O (fun t x ht hx => hs t x ht.conf.1 hx) (by
    intro h g x y a b c d e hP gl hg hsee gsee hlt
    refine Linked.step hP hg ⟨gl, y, gsee.get, ?_⟩
    obtain ⟨hl, x', hx', hneg⟩ := hP.conf
    rw [hsee.get] at hx'; cases hx'
    have h1 := hs _ _ hl hsee.get
    have h2 := hs _ _ gl gsee.get
    by_contra hge
    push Not at hge
    have := mul_nonneg h1.le hge
    have := mul_neg_of_neg_of_pos hneg h2
    linarith) t1 (Linked.base h1)
  have hlt := hPt.conf.1
  have h3 := hf (phi V x0) (fun i => R.nonneg l0 hx0 (R.mem _ _ _ hlt hx))
  have e0 : phi V x0 O = - phi V x0 p := by
    rw [hO, map_sub, map_smul, map_add, map_add, map_add, phi_corner, phi_corner, phi_corner, phi_corner]; simp
  rw [e0] at h3
  have h4 : phi V x O + phi V x p ≤ 0 := by
    by_contra hcon
    push Not at hcon
    have := mul_neg_of_pos_of_neg hcon hp0
    linarith
  have e1 : phi V x O + phi V x p = s * phi V x (V (x0.data 0) + V (x0.data 1) + V (x0.data 2) + V (x0.data 3)) := by
    rw [hO, map_sub, map_smul, smul_eq_mul]; ring
  rw [e1] at h4
  have h5 : phi V x (V (x0.data 0) + V (x0.data 1) + V (x0.data 2) + V (x0.data 3)) ≤ 0 := by
    by_contra hcon
    push Not at hcon
    have := mul_pos hs0 hcon
    linarith
  have := R.sum_pos l0 hx0 hlt hx h5
  exact this ▸ hPt

/-- If all vectors lie in an open half space, not everything is in conflict: some tetrahedron in conflict has a neighbour that is not. -/
theorem Reg.exists_outer {p : Vec K} {t0 : Nat} (h0 : InConflict V m live p t0) (l : Vec K →ₗ[K] K) (hl : ∀ q, U q → 0 < l (V q)) (hlp : 0 < l p) :
    ∃ H, Outer m live (InConflict V m live p) H := by
  by_contra hno
  push Not at hno
  obtain ⟨l0, x0, hx0, hp0⟩ := h0
  have hm : ∀ i, 0 < l (V (x0.data i)) := fun i => hl _ (R.mem _ _ _ l0 hx0)
  have hsum : 0 < l (V (x0.data 0) + V (x0.data 1) + V (x0.data 2) + V (x0.data 3)) := by
    simp only [map_add]; have := hm 0; have := hm 1; have := hm 2; have := hm 3; linarith
  obtain ⟨s, hs, hs0⟩ := ((R.eventually_inner l0 hx0 hp0).and (eventually_lt_mul (l p) hsum)).exists
  set O := s • (V (x0.data 0) + V (x0.data 1) + V (x0.data 2) + V (x0.data 3)) - p with hO
  obtain ⟨t, x, hPt, hx, hf⟩ := R.walk (InConflict V m live p) (fun t ht => ht.1) (-p) O (fun t x ht hx => hs t x ht.1 hx) (by
    intro h g x y a b c d e hP gl hg hsee gsee _
    by_contra hng
    exact hno g ⟨gl, hng, h, hg.bwd, hP⟩) t0 ⟨l0, x0, hx0, hp0⟩
  have h3 := hf l (fun i => (hl _ (R.mem _ _ _ hPt.1 hx)).le)
  have h4 : 0 < l O := by rw [hO, map_sub, map_smul, smul_eq_mul]; linarith
  have h5 := hs _ _ hPt.1 hx
  obtain ⟨-, x', hx', hneg⟩ := hPt
  rw [hx] at hx'; cases hx'
  have h6 : 0 < phi V x (-p) := by rw [map_neg]; linarith
  have h7 : l (-p) < 0 := by rw [map_neg]; linarith
  have := mul_pos h6 h4
  have := mul_neg_of_pos_of_neg h5 h7
  linarith

/-- The tetrahedron joining a boundary face of the conflict set with the new vector is positive for all other vertices. -/
theorem Reg.new_pos {p : Vec K} {h g : TriFace} {x y : Tet.Tet} {a b c d e : Nat} (hl : live h.tet) (gl : live g.tet) (hs : Sees m h x a b c d) (gs : Sees m g y b a c e)
    (hx : phi V x p < 0) (hy : 0 < phi V y p) {q : Nat} (hq : U q) (h1 : q ≠ a) (h2 : q ≠ b) (h3 : q ≠ c) : 0 < br (V a) (V b) (V c) p (V q) := by
  have n1 := hs.ne (R.inj hl hs.get)
  have n2 := gs.ne (R.inj gl gs.get)
  have hde := R.oppo_ne hl gl hs gs
  have pl := plucker (V a) (V b) (V c) (V d) (V e) p (V q)
  have e1 : ∀ q, br (V a) (V b) (V c) (V e) q = - phi V y q := by intro q; rw [gs.phi, br_01]
  have e2 : ∀ q, br (V a) (V b) (V c) q (V e) = phi V y q := by intro q; rw [br_34, e1, neg_neg]
  have e3 : br (V a) (V b) (V c) p (V d) = - phi V x p := by rw [hs.phi, br_34]
  rw [e2 (V q), e2 p, e3, ← hs.phi, ← hs.phi] at pl
  have k1 : 0 < phi V x (V e) := by
    rw [hs.phi]; exact R.spos hl hs (R.memO gl gs).2.2.2 (by tauto) (by tauto) (by tauto) (by tauto)
  have k2 := R.nonneg hl hs.get hq
  have k3 := R.nonneg gl gs.get hq
  have k4 : 0 < phi V x (V q) ∨ 0 < phi V y (V q) := by
    by_cases hd : q = d
    · right
      rw [gs.phi]; exact R.spos gl gs hq (by tauto) (by tauto) (by tauto) (by rw [hd]; exact hde)
    · left
      rw [hs.phi]; exact R.spos hl hs hq (by tauto) (by tauto) (by tauto) (by tauto)
  have : 0 < phi V x (V e) * br (V a) (V b) (V c) p (V q) := by
    rw [pl]
    have hx' : 0 < - phi V x p := by linarith
    rcases k4 with k4 | k4
    · have := mul_pos k4 hy
      have := mul_nonneg k3 hx'.le
      linarith
    · have := mul_nonneg k2 hy.le
      have := mul_pos k4 hx'
      linarith
  exact (pos_iff_pos_of_mul_pos this).1 k1

/-- The boundary of the conflict set is an edge-manifold surface. -/
theorem Reg.edgeManifold {p : Vec K} (hgen : ∀ t x, live t → m.tets[t]? = some x → phi V x p ≠ 0) : EdgeManifold m live (InConflict V m live p) := by
  have desc : ∀ H, Outer m live (InConflict V m live p) H → ∃ (h : TriFace) (x y : Tet.Tet) (a b c d e : Nat), live h.tet ∧ live H.tet ∧ Sees m h x a b c d ∧ Sees m H y b a c e ∧ phi V x p < 0 ∧ 0 < phi V y p := by
    rintro H ⟨hl, hn, g, hg, hgl, x, hx, hneg⟩
    obtain ⟨-, gl⟩ := R.cons.glued_of_fsym hl hg
    obtain ⟨y, hy, -⟩ := R.cons.corners _ hl
    obtain ⟨g', x', e, gl', hg', gs⟩ := glued_sees R.cons hl (sees_of_get hy)
    have := hg'.fwd
    rw [hg] at this; cases this
    rw [gs.get] at hx; cases hx
    refine ⟨g, x, y, _, _, _, _, _, gl', hl, gs, sees_of_get hy, hneg, ?_⟩
    refine lt_of_le_of_ne ?_ (Ne.symm (hgen _ _ hl hy))
    by_contra hlt
    exact hn ⟨hl, y, hy, not_le.1 hlt⟩
  intro H1 H2 o1 o2 ho hd
  obtain ⟨h1, x1, y1, a, b, c1, d1, e1, l1, L1, s1, S1, n1, p1⟩ := desc _ o1
  obtain ⟨h2, x2, y2, a', b', c2, d2, e2, l2, L2, s2, S2, n2, p2⟩ := desc _ o2
  simp only [Mesh.org, Mesh.dest, S1.get, S2.get, Option.map_some, Option.some.injEq, S1.org, S2.org, S1.dest, S2.dest] at ho hd
  subst ho hd
  have m1 := S1.ne (R.inj L1 S1.get)
  have m2 := S2.ne (R.inj L2 S2.get)
  by_cases hc : c1 = c2
  · subst hc
    exact R.same_side L1 L2 S1 S2
  · exfalso
    have q1 := R.new_pos l1 L1 s1 S1 n1 p1 (R.memO L2 S2).2.2.1 (by tauto) (by tauto) (by tauto)
    have q2 := R.new_pos l2 L2 s2 S2 n2 p2 (R.memO L1 S1).2.2.1 (by tauto) (by tauto) (by tauto)
    have : br (V a) (V b) (V c2) p (V c1) = - br (V a) (V b) (V c1) p (V c2) := by
      rw [br_23, br_34, br_23]; ring
    linarith

end Reg
end Verif.Delaunay
