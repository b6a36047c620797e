import Verif.Constraint.Around
import Verif.Delaunay.Walk
/-!
# Barycentric coordinates in the tetrahedra of a mesh
-/
namespace Verif.Constraint
open InSphere (Pt orient3d)
open Tet (Mesh TriFace)
open Delaunay (Comb SolidTet IsDelaunay pt get_pt)
open Geom

variable {K : Type} [Field K] [LinearOrder K] {m : Mesh} {pts : List (Pt K)}

/-- Volume. -/
def vol (c : Fin 4 → Pt K) : K := orient3d (c 0) (c 1) (c 2) (c 3)

/-- Barycentric coordinates. -/
def co (c : Fin 4 → Pt K) (p : Pt K) : Fin 4 → K :=
  ![orient3d p (c 1) (c 2) (c 3) / vol c, orient3d (c 0) p (c 2) (c 3) / vol c, orient3d (c 0) (c 1) p (c 3) / vol c, orient3d (c 0) (c 1) (c 2) p / vol c]

omit [LinearOrder K] in
theorem co_comb {c : Fin 4 → Pt K} (hv : vol c ≠ 0) (p : Pt K) : Comb c (co c p) p := by
  constructor <;> rw [Fin.sum_univ_four] <;> simp only [co, Matrix.cons_val] <;> field_simp <;> simp only [vol, orient3d] <;> ring

omit [LinearOrder K] in
theorem co_unique {c : Fin 4 → Pt K} (hv : vol c ≠ 0) {p : Pt K} {w : Fin 4 → K} (h : Comb c w p) : w = co c p := by
  obtain ⟨hs, hx, hy, hz⟩ := h
  rw [Fin.sum_univ_four] at *
  have h3 : w 3 = 1 - w 0 - w 1 - w 2 := by linear_combination hs
  funext i
  fin_cases i <;> simp only [co, Matrix.cons_val, Fin.zero_eta, Fin.mk_one, Fin.reduceFinMk] <;> rw [eq_div_iff hv] <;>
    simp only [vol, orient3d, hx, hy, hz, h3] <;> ring

/-- Barycentric coordinate of `p` with respect to the corner `v`; zero if `v` is not a corner. -/
def wt (pts : List (Pt K)) (x : Tet.Tet) (v : Nat) (p : Pt K) : K := ∑ i, if x.data i = v then co (fun j => pt pts (x.data j)) p i else 0

/-- A solid tetrahedron of the mesh. -/
structure Sol (pts : List (Pt K)) (m : Mesh) (t : Nat) (x : Tet.Tet) : Prop where
  get : m.tets[t]? = some x
  real : x.data 3 ≠ pts.length

/-- The corners in some order. -/
def Four (x : Tet.Tet) (a b c d : Nat) : Prop := [a, b, c, d].Perm (corners x)

section
variable [IsStrictOrderedRing K] (hD : IsDelaunay pts m)
include hD

omit [IsStrictOrderedRing K] in
theorem Sol.lt {t : Nat} {x : Tet.Tet} (S : Sol pts m t x) (i : Fin 4) : x.data i < pts.length := by
  obtain ⟨h0, h1, h2, h3⟩ := hD.point t x S.get
  have := S.real
  fin_cases i <;> simp <;> omega

omit [IsStrictOrderedRing K] in
theorem Sol.solid {t : Nat} {x : Tet.Tet} (S : Sol pts m t x) : SolidTet pts m t (fun i => pt pts (x.data i)) :=
  ⟨x, S.get, S.real, fun i => get_pt (S.lt hD i)⟩

omit [IsStrictOrderedRing K] in
theorem Sol.vol {t : Nat} {x : Tet.Tet} (S : Sol pts m t x) : vol (fun i => pt pts (x.data i)) ≠ 0 := (hD.sphere t _ (S.solid hD)).1.ne

omit [IsStrictOrderedRing K] in
theorem Sol.inj {t : Nat} {x : Tet.Tet} (S : Sol pts m t x) : Function.Injective x.data := by
  obtain ⟨y, hy, hi⟩ := hD.whole.corners t (List.getElem?_eq_some_iff.1 S.get).1
  rw [S.get] at hy; cases hy
  exact hi

omit [IsStrictOrderedRing K] in
theorem Sol.wt_data {t : Nat} {x : Tet.Tet} (S : Sol pts m t x) (i : Fin 4) (p : Pt K) : wt pts x (x.data i) p = co (fun j => pt pts (x.data j)) p i := by
  unfold wt
  rw [Finset.sum_eq_single i]
  · simp
  · intro j _ hne
    rw [if_neg fun e => hne (S.inj hD e)]
  · simp

omit [LinearOrder K] [IsStrictOrderedRing K] hD in
theorem wt_none {x : Tet.Tet} {v : Nat} (h : ∀ i, x.data i ≠ v) (p : Pt K) : wt pts x v p = 0 := by
  unfold wt
  exact Finset.sum_eq_zero fun i _ => if_neg (h i)

omit [LinearOrder K] [IsStrictOrderedRing K] hD in
theorem corner_of_wt {x : Tet.Tet} {v : Nat} {p : Pt K} (h : wt pts x v p ≠ 0) : ∃ i, x.data i = v := by
  by_contra hc
  push Not at hc
  exact h (wt_none hc p)

omit [IsStrictOrderedRing K] in
theorem Sol.comb {t : Nat} {x : Tet.Tet} (S : Sol pts m t x) (p : Pt K) : Comb (fun j => pt pts (x.data j)) (fun i => wt pts x (x.data i) p) p := by
  have := co_comb (S.vol hD) p
  simp only [S.wt_data hD]
  exact this

omit [IsStrictOrderedRing K] in
theorem Sol.unique {t : Nat} {x : Tet.Tet} (S : Sol pts m t x) {p : Pt K} {w : Fin 4 → K} (h : Comb (fun j => pt pts (x.data j)) w p) (i : Fin 4) : w i = wt pts x (x.data i) p := by
  rw [S.wt_data hD, co_unique (S.vol hD) h]

omit [IsStrictOrderedRing K] in
theorem Sol.wt_lerp {t : Nat} {x : Tet.Tet} (S : Sol pts m t x) (v : Nat) (p q : Pt K) (s : K) :
    wt pts x v (lerp p q s) = (1 - s) * wt pts x v p + s * wt pts x v q := by
  by_cases h : ∃ i, x.data i = v
  · obtain ⟨i, rfl⟩ := h
    exact (S.unique hD (comb_lerp (S.comb hD p) (S.comb hD q) s) i).symm
  · push Not at h
    rw [wt_none h, wt_none h, wt_none h]; ring

omit [IsStrictOrderedRing K] in
theorem Sol.wt_corner {t : Nat} {x : Tet.Tet} (S : Sol pts m t x) {u : Nat} (hu : ∃ i, x.data i = u) (v : Nat) : wt pts x v (pt pts u) = if v = u then 1 else 0 := by
  obtain ⟨i, rfl⟩ := hu
  by_cases h : ∃ j, x.data j = v
  · obtain ⟨j, rfl⟩ := h
    have := S.unique hD (comb_corner (fun j => pt pts (x.data j)) i) j
    rw [← this, Pi.single_apply]
    by_cases hij : j = i
    · simp [hij]
    · rw [if_neg hij, if_neg fun e => hij (S.inj hD e)]
  · push Not at h
    rw [wt_none h, if_neg fun e => h i e.symm]

/-- The point lies in the closed tetrahedron. -/
def In (pts : List (Pt K)) (x : Tet.Tet) (p : Pt K) : Prop := ∀ v, 0 ≤ wt pts x v p

omit [IsStrictOrderedRing K] in
theorem Sol.in_iff {t : Nat} {x : Tet.Tet} (S : Sol pts m t x) (p : Pt K) : In pts x p ↔ InTet (fun j => pt pts (x.data j)) p := by
  constructor
  · intro h
    exact ⟨_, fun i => h _, S.comb hD p⟩
  · rintro ⟨w, hw, hc⟩ v
    by_cases h : ∃ i, x.data i = v
    · obtain ⟨i, rfl⟩ := h
      rw [← S.unique hD hc]
      exact hw i
    · push Not at h
      rw [wt_none h]

omit [IsStrictOrderedRing K] in
/-- If the corners that carry the point belong to another tetrahedron, then the point has the same coordinates there. -/
theorem Sol.transfer {t s : Nat} {x y : Tet.Tet} (S : Sol pts m t x) (S' : Sol pts m s y) {p : Pt K} (h : ∀ v, wt pts x v p ≠ 0 → ∃ j, y.data j = v) (j : Fin 4) :
    wt pts x (y.data j) p = wt pts y (y.data j) p := by
  refine S'.unique hD (w := fun j => wt pts x (y.data j) p) ?_ j
  have key : ∀ g : Nat → K, ∑ j, wt pts x (y.data j) p * g (y.data j) = ∑ i, wt pts x (x.data i) p * g (x.data i) := by
    intro g
    have e1 : ∀ j, wt pts x (y.data j) p * g (y.data j) = ∑ i, if x.data i = y.data j then wt pts x (x.data i) p * g (x.data i) else 0 := by
      intro j
      rw [wt, Finset.sum_mul]
      refine Finset.sum_congr rfl fun i _ => ?_
      split
      · next e => rw [S.wt_data hD, e]
      · rw [zero_mul]
    simp only [e1]
    rw [Finset.sum_comm]
    refine Finset.sum_congr rfl fun i _ => ?_
    by_cases hi : ∃ k, y.data k = x.data i
    · obtain ⟨k, hk⟩ := hi
      rw [Finset.sum_eq_single k]
      · rw [if_pos hk.symm]
      · intro l _ hne
        rw [if_neg fun e => hne (S'.inj hD (e.symm.trans hk.symm))]
      · simp
    · have hz : wt pts x (x.data i) p = 0 := by
        by_contra hne
        exact hi (h _ hne)
      rw [hz, zero_mul]
      exact Finset.sum_eq_zero fun l _ => by split <;> rfl
  have hc := S.comb hD p
  refine ⟨?_, ?_, ?_, ?_⟩
  · have := key (fun _ => 1); simp only [mul_one] at this; rw [this]; exact hc.sum
  · exact hc.x.trans (key fun v => (pt pts v).x).symm
  · exact hc.y.trans (key fun v => (pt pts v).y).symm
  · exact hc.z.trans (key fun v => (pt pts v).z).symm

omit [IsStrictOrderedRing K] in
theorem Sol.in_of_carriers {t s : Nat} {x y : Tet.Tet} (S : Sol pts m t x) (S' : Sol pts m s y) {p : Pt K} (hin : In pts x p) (h : ∀ v, 0 < wt pts x v p → ∃ j, y.data j = v) : In pts y p := by
  intro v
  by_cases hv : ∃ j, y.data j = v
  · obtain ⟨j, rfl⟩ := hv
    rw [← S.transfer hD S' fun v hne => h v (lt_of_le_of_ne (hin v) (Ne.symm hne))]
    exact hin _
  · push Not at hv
    rw [wt_none hv]

omit [IsStrictOrderedRing K] in
/-- A point common to two tetrahedra has the same coordinates in both. -/
theorem Sol.agree {t s : Nat} {x y : Tet.Tet} (S : Sol pts m t x) (S' : Sol pts m s y) {p : Pt K} (h : In pts x p) (h' : In pts y p) (v : Nat) : wt pts x v p = wt pts y v p := by
  have half : ∀ {t s : Nat} {x y : Tet.Tet}, Sol pts m t x → Sol pts m s y → In pts x p → In pts y p → ∀ j, wt pts x (y.data j) p = wt pts y (y.data j) p := by
    intro t s x y S S' h h' j
    refine S.transfer hD S' (fun v hne => ?_) j
    obtain ⟨i, rfl⟩ := corner_of_wt hne
    have hpos := lt_of_le_of_ne (h (x.data i)) (Ne.symm hne)
    exact hD.meet t s x y _ _ _ _ p S.get S'.get (S.solid hD) (S'.solid hD) (fun i => h _) (fun i => h' _) (S.comb hD p) (S'.comb hD p) i hpos
  by_cases hy : ∃ j, y.data j = v
  · obtain ⟨j, rfl⟩ := hy
    exact half S S' h h' j
  by_cases hx : ∃ j, x.data j = v
  · obtain ⟨j, rfl⟩ := hx
    exact (half S' S h' h j).symm
  push Not at hx hy
  rw [wt_none hx, wt_none hy]

/-- Every solid tetrahedron that contains a vertex has it as a corner. -/
theorem Sol.corner_of_in {t : Nat} {x : Tet.Tet} (S : Sol pts m t x) {v : Nat} (hv : v < pts.length) (h : In pts x (pt pts v)) : ∃ i, x.data i = v := by
  obtain ⟨s, y, -, hy, hc, h3⟩ := hD.vertex v hv
  have S' : Sol pts m s y := ⟨hy, by rw [← hD.num]; exact h3⟩
  have e := S'.wt_corner hD hc
  have h' : In pts y (pt pts v) := fun u => by rw [e]; split <;> simp
  refine corner_of_wt (pts := pts) (p := pt pts v) ?_
  rw [S.agree hD S' h h', e]
  simp

/-- The vertices have different coordinates. -/
theorem pt_inj {u v : Nat} (hu : u < pts.length) (hv : v < pts.length) (e : pt pts u = pt pts v) : u = v := by
  obtain ⟨s, y, -, hy, hc, h3⟩ := hD.vertex v hv
  have S : Sol pts m s y := ⟨hy, by rw [← hD.num]; exact h3⟩
  have hin : In pts y (pt pts v) := fun w => by rw [S.wt_corner hD hc]; split <;> simp
  have hcu := S.corner_of_in hD hu (by rw [e]; exact hin)
  have h1 := S.wt_corner hD hcu u
  rw [e, S.wt_corner hD hc] at h1
  by_contra hne
  simp [hne] at h1

end

/-! ### Named corners -/

theorem Four.perm {x : Tet.Tet} {a b c d a' b' c' d' : Nat} (h : Four x a b c d) (hp : [a', b', c', d'].Perm [a, b, c, d]) : Four x a' b' c' d' := hp.trans h

theorem Four.swap01 {x : Tet.Tet} {a b c d : Nat} (h : Four x a b c d) : Four x b a c d := h.perm (List.Perm.swap _ _ _)
theorem Four.swap12 {x : Tet.Tet} {a b c d : Nat} (h : Four x a b c d) : Four x a c b d := h.perm ((List.Perm.swap _ _ _).cons _)
theorem Four.swap23 {x : Tet.Tet} {a b c d : Nat} (h : Four x a b c d) : Four x a b d c := h.perm (((List.Perm.swap _ _ _).cons _).cons _)

theorem Four.mem {x : Tet.Tet} {a b c d : Nat} (h : Four x a b c d) (v : Nat) : (∃ i, x.data i = v) ↔ v = a ∨ v = b ∨ v = c ∨ v = d := by
  have := h.mem_iff (a := v)
  simp only [corners, List.mem_cons, List.not_mem_nil, or_false] at this
  rw [this]
  constructor
  · rintro ⟨i, rfl⟩
    fin_cases i <;> simp
  · rintro (e | e | e | e)
    exacts [⟨0, e.symm⟩, ⟨1, e.symm⟩, ⟨2, e.symm⟩, ⟨3, e.symm⟩]

theorem Four.sum {x : Tet.Tet} {a b c d : Nat} (h : Four x a b c d) {M : Type} [AddCommMonoid M] (g : Nat → M) : g a + g b + g c + g d = ∑ i, g (x.data i) := by
  have := (List.Perm.map g h).sum_eq
  simp only [corners, List.map_cons, List.map_nil, List.sum_cons, List.sum_nil, add_zero] at this
  rw [Fin.sum_univ_four]
  simpa [add_assoc] using this

section
variable [IsStrictOrderedRing K] (hD : IsDelaunay pts m) {t : Nat} {x : Tet.Tet} {a b c d : Nat}
include hD

omit [IsStrictOrderedRing K] in
theorem Four.ne (h : Four x a b c d) (S : Sol pts m t x) : a ≠ b ∧ a ≠ c ∧ a ≠ d ∧ b ≠ c ∧ b ≠ d ∧ c ≠ d := by
  have hn : (corners x).Nodup := by
    have hi := S.inj hD
    simp only [corners, List.nodup_cons, List.mem_cons, List.not_mem_nil, or_false, not_or, List.nodup_nil, not_false_eq_true, and_true, hi.eq_iff]
    decide
  have := h.nodup_iff.2 hn
  simp only [List.nodup_cons, List.mem_cons, List.not_mem_nil, or_false, not_or, List.nodup_nil, not_false_eq_true, and_true] at this
  tauto

omit [IsStrictOrderedRing K] in
theorem Four.lt (h : Four x a b c d) (S : Sol pts m t x) : a < pts.length ∧ b < pts.length ∧ c < pts.length ∧ d < pts.length := by
  have key : ∀ v, (∃ i, x.data i = v) → v < pts.length := by rintro v ⟨i, rfl⟩; exact S.lt hD i
  exact ⟨key _ ((h.mem a).2 (by simp)), key _ ((h.mem b).2 (by simp)), key _ ((h.mem c).2 (by simp)), key _ ((h.mem d).2 (by simp))⟩

omit [IsStrictOrderedRing K] in
/-- A point is the combination of the corners with its coordinates. -/
theorem Four.expand (h : Four x a b c d) (S : Sol pts m t x) (p : Pt K) :
    wt pts x a p + wt pts x b p + wt pts x c p + wt pts x d p = 1 ∧
    p.x = wt pts x a p * (pt pts a).x + wt pts x b p * (pt pts b).x + wt pts x c p * (pt pts c).x + wt pts x d p * (pt pts d).x ∧
    p.y = wt pts x a p * (pt pts a).y + wt pts x b p * (pt pts b).y + wt pts x c p * (pt pts c).y + wt pts x d p * (pt pts d).y ∧
    p.z = wt pts x a p * (pt pts a).z + wt pts x b p * (pt pts b).z + wt pts x c p * (pt pts c).z + wt pts x d p * (pt pts d).z := by
  have hc := S.comb hD p
  refine ⟨?_, ?_, ?_, ?_⟩
  · rw [h.sum fun v => wt pts x v p]; exact hc.sum
  · rw [h.sum fun v => wt pts x v p * (pt pts v).x]; exact hc.x
  · rw [h.sum fun v => wt pts x v p * (pt pts v).y]; exact hc.y
  · rw [h.sum fun v => wt pts x v p * (pt pts v).z]; exact hc.z

omit [IsStrictOrderedRing K] in
/-- The coordinates are unique. -/
theorem Four.unique (h : Four x a b c d) (S : Sol pts m t x) {p : Pt K} {wa wb wc wd : K} (hs : wa + wb + wc + wd = 1)
    (hx : p.x = wa * (pt pts a).x + wb * (pt pts b).x + wc * (pt pts c).x + wd * (pt pts d).x)
    (hy : p.y = wa * (pt pts a).y + wb * (pt pts b).y + wc * (pt pts c).y + wd * (pt pts d).y)
    (hz : p.z = wa * (pt pts a).z + wb * (pt pts b).z + wc * (pt pts c).z + wd * (pt pts d).z) :
    wt pts x a p = wa ∧ wt pts x b p = wb ∧ wt pts x c p = wc ∧ wt pts x d p = wd := by
  obtain ⟨n1, n2, n3, n4, n5, n6⟩ := h.ne hD S
  let w : Nat → K := fun v => if v = a then wa else if v = b then wb else if v = c then wc else wd
  have ea : w a = wa := by simp [w]
  have eb : w b = wb := by simp [w, n1.symm]
  have ec : w c = wc := by simp [w, n2.symm, n4.symm]
  have ed : w d = wd := by simp [w, n3.symm, n5.symm, n6.symm]
  have hcomb : Comb (fun j => pt pts (x.data j)) (fun i => w (x.data i)) p := by
    refine ⟨?_, ?_, ?_, ?_⟩
    · rw [← h.sum w, ea, eb, ec, ed]; exact hs
    · rw [← h.sum fun v => w v * (pt pts v).x, ea, eb, ec, ed]; exact hx
    · rw [← h.sum fun v => w v * (pt pts v).y, ea, eb, ec, ed]; exact hy
    · rw [← h.sum fun v => w v * (pt pts v).z, ea, eb, ec, ed]; exact hz
  have key : ∀ v, (∃ i, x.data i = v) → wt pts x v p = w v := by
    rintro v ⟨i, rfl⟩
    exact (S.unique hD hcomb i).symm
  refine ⟨?_, ?_, ?_, ?_⟩
  · rw [key a ((h.mem a).2 (by simp)), ea]
  · rw [key b ((h.mem b).2 (by simp)), eb]
  · rw [key c ((h.mem c).2 (by simp)), ec]
  · rw [key d ((h.mem d).2 (by simp)), ed]

omit [IsStrictOrderedRing K] in
theorem Four.corner (h : Four x a b c d) (S : Sol pts m t x) : wt pts x a (pt pts a) = 1 ∧ wt pts x b (pt pts a) = 0 ∧ wt pts x c (pt pts a) = 0 ∧ wt pts x d (pt pts a) = 0 := by
  obtain ⟨n1, n2, n3, -⟩ := h.ne hD S
  have hc : ∃ i, x.data i = a := (h.mem a).2 (by simp)
  refine ⟨?_, ?_, ?_, ?_⟩ <;> rw [S.wt_corner hD hc] <;> simp [n1.symm, n2.symm, n3.symm]

omit [IsStrictOrderedRing K] in
/-- The height over the face opposite to `d`. -/
theorem Four.height (h : Four x a b c d) (S : Sol pts m t x) (p : Pt K) :
    orient3d p (pt pts a) (pt pts b) (pt pts c) = wt pts x d p * orient3d (pt pts d) (pt pts a) (pt pts b) (pt pts c) := by
  obtain ⟨hs, hx, hy, hz⟩ := h.expand hD S p
  generalize wt pts x a p = wa at *
  generalize wt pts x b p = wb at *
  generalize wt pts x c p = wc at *
  generalize wt pts x d p = wd at *
  have : wd = 1 - wa - wb - wc := by linear_combination hs
  simp only [orient3d, hx, hy, hz, this]
  ring

theorem Four.volume (h : Four x a b c d) (S : Sol pts m t x) : orient3d (pt pts d) (pt pts a) (pt pts b) (pt pts c) ≠ 0 := by
  intro h0
  have hv := S.vol hD
  have hh : ∀ p, orient3d p (pt pts a) (pt pts b) (pt pts c) = 0 := fun p => by rw [h.height hD S, h0, mul_zero]
  -- the three corners lie on a line
  have hflat : Flat (pt pts a) (pt pts b) (pt pts c) := by
    have e0 := hh ⟨(pt pts a).x, (pt pts a).y, (pt pts a).z⟩
    have e1 := hh ⟨(pt pts a).x + 1, (pt pts a).y, (pt pts a).z⟩
    have e2 := hh ⟨(pt pts a).x, (pt pts a).y + 1, (pt pts a).z⟩
    have e3 := hh ⟨(pt pts a).x, (pt pts a).y, (pt pts a).z + 1⟩
    simp only [orient3d] at e0 e1 e2 e3
    refine ⟨?_, ?_, ?_⟩ <;> simp only [nXY, nYZ, nXZ, orient2d, xy, yz, xz]
    · linear_combination e3 - e0
    · linear_combination e1 - e0
    · linear_combination e0 - e2
  obtain ⟨o, dd, r, s, u, ea, eb, ec⟩ := collinear_iff_flat.2 hflat
  have hne : r ≠ s := fun e => (h.ne hD S).1 (pt_inj hD (h.lt hD S).1 (h.lt hD S).2.1 (by rw [ea, eb, e]))
  have hsr : s - r ≠ 0 := sub_ne_zero.2 (Ne.symm hne)
  have := h.unique hD S (p := pt pts c) (wa := (s - u) / (s - r)) (wb := (u - r) / (s - r)) (wc := 0) (wd := 0) (by field_simp; ring)
    (by rw [ea, eb, ec]; simp only [onLine]; field_simp; ring) (by rw [ea, eb, ec]; simp only [onLine]; field_simp; ring)
    (by rw [ea, eb, ec]; simp only [onLine]; field_simp; ring)
  have hc := ((h.swap12.swap01).corner hD S).1
  rw [this.2.2.1] at hc
  exact zero_ne_one hc

theorem Four.not_flat (h : Four x a b c d) (S : Sol pts m t x) : ¬ Flat (pt pts a) (pt pts b) (pt pts c) := by
  intro hf
  apply h.volume hD S
  obtain ⟨o, dd, r, s, u, ea, eb, ec⟩ := collinear_iff_flat.2 hf
  rw [ea, eb, ec]
  simp only [orient3d, onLine]; ring

end

end Verif.Constraint
