import Verif.Constraint.SideWalk
import Verif.Constraint.Type
import Verif.Constraint.Room
/-!
# Where a constraint cuts a tetrahedron
-/
namespace Verif.Constraint
open InSphere (Pt orient3d)
open Tet (Mesh)
open Delaunay (Comb SolidTet IsDelaunay pt get_pt)
open Geom

variable {K : Type} [Field K] [LinearOrder K] [IsStrictOrderedRing K] {m : Mesh} {pts : List (Pt K)}

/-- A constraint: three different vertices. -/
structure Proper (n : Nat) (c : Nat × Nat × Nat) : Prop where
  lt1 : c.1 < n
  lt2 : c.2.1 < n
  lt3 : c.2.2 < n
  ne1 : c.1 ≠ c.2.1
  ne2 : c.2.1 ≠ c.2.2
  ne3 : c.2.2 ≠ c.1

theorem Proper.side {n : Nat} {c : Nat × Nat × Nat} (h : Proper n c) {e : Nat × Nat} (he : e ∈ sidesOf c) : e.1 < n ∧ e.2 < n ∧ e.1 ≠ e.2 := by
  simp only [sidesOf, List.mem_cons, List.not_mem_nil, or_false] at he
  rcases he with rfl | rfl | rfl
  exacts [⟨h.lt1, h.lt2, h.ne1⟩, ⟨h.lt2, h.lt3, h.ne2⟩, ⟨h.lt3, h.lt1, h.ne3⟩]

theorem onSides_iff {c : Nat × Nat × Nat} {p : Pt K} : OnSides p (pt pts c.1) (pt pts c.2.1) (pt pts c.2.2) ↔ ∃ e ∈ sidesOf c, InClosedSegment p (pt pts e.1) (pt pts e.2) := by
  simp [OnSides, sidesOf]

theorem lerp_rev (A B : Pt K) (s : K) : lerp A B s = lerp B A (1 - s) := by
  apply pt_ext <;> simp only [lerp] <;> ring

section
variable (hD : IsDelaunay pts m) {t : Nat} {x : Tet.Tet}
include hD

/-- The height of a point over a plane, from the heights of the corners. -/
theorem Four.level {p q u k : Nat} (F : Four x p q u k) (S : Sol pts m t x) (y A B C : Pt K) :
    orient3d y A B C = wt pts x p y * orient3d (pt pts p) A B C + wt pts x q y * orient3d (pt pts q) A B C + wt pts x u y * orient3d (pt pts u) A B C + wt pts x k y * orient3d (pt pts k) A B C := by
  rw [F.sum fun v => wt pts x v y * orient3d (pt pts v) A B C]
  exact height_comb (S.comb hD y) A B C

/-- The point lies in the open face with the corners `Z`. -/
def Rel (pts : List (Pt K)) (x : Tet.Tet) (Z : Nat → Prop) (y : Pt K) : Prop := ∀ v, (Z v → 0 < wt pts x v y) ∧ (¬ Z v → wt pts x v y = 0)

omit hD in
theorem Rel.in {Z : Nat → Prop} {y : Pt K} (h : Rel pts x Z y) : In pts x y := fun v => by
  by_cases hz : Z v
  · exact ((h v).1 hz).le
  · exact ((h v).2 hz).ge

/-- If the triangle meets an open face in a point, then a side does, or the triangle holds all of the closed face that lies in its plane. -/
theorem side_or_all (S : Sol pts m t x) {Z : Nat → Prop} {A B C p : Pt K} (hp : Rel pts x Z p) (hi : InClosedTriangle p A B C) :
    (∃ r, Rel pts x Z r ∧ OnSides r A B C) ∨ ∀ q, In pts x q → (∀ v, ¬ Z v → wt pts x v q = 0) → Coplanar q A B C → InClosedTriangle q A B C := by
  by_cases hr : ∃ r, Rel pts x Z r ∧ OnSides r A B C
  · exact .inl hr
  refine .inr fun q hq hqz hc => ?_
  obtain ⟨a, b, c, ha, hb, hg, hs, rfl⟩ := open_of_closed hi fun h => hr ⟨p, hp, h⟩
  obtain ⟨a', b', c', hs', rfl⟩ := hc
  by_cases hv : 0 < a' ∧ 0 < b' ∧ 0 < c'
  · exact ⟨a', b', c', hv.1.le, hv.2.1.le, hv.2.2.le, hs', rfl⟩
  obtain ⟨s, s0, s1, g1, g2, g3, gz⟩ := first_zero ha hb hg hv
  have hside := onSides_of_zero (A := A) (B := B) (C := C) g1 g2 g3 (by linear_combination (1 - s) * hs + s * hs') gz
  rcases lt_or_eq_of_le s1 with h | rfl
  · refine absurd ⟨_, fun v => ?_, hside⟩ hr
    rw [← comb3_lerp, S.wt_lerp hD]
    refine ⟨fun hz => ?_, fun hz => ?_⟩
    · have h1 := mul_pos (sub_pos.2 h) ((hp v).1 hz)
      have h2 := mul_nonneg s0.le (hq v)
      linarith
    · rw [(hp v).2 hz, hqz v hz]; ring
  · simp only [sub_self, zero_mul, one_mul, zero_add] at g1 g2 g3
    exact ⟨a', b', c', g1, g2, g3, hs', rfl⟩

/-- A side leaves the open face `Z` at a point that some corner of `Z` does not carry. -/
theorem leave (S : Sol pts m t x) {Z : Nat → Prop} {a b : Nat} (hb : b < pts.length) (hZ : ∀ v, ∃ w, Z w ∧ w ≠ v) {s : K} (h0 : 0 ≤ s) (h1 : s ≤ 1) (hs : Rel pts x Z (lerp (pt pts a) (pt pts b) s))
    (hpl : ∀ v, ¬ Z v → ∀ u, wt pts x v (lerp (pt pts a) (pt pts b) u) = 0) :
    ∃ r, s < r ∧ r ≤ 1 ∧ In pts x (lerp (pt pts a) (pt pts b) r) ∧ ∃ k, Z k ∧ wt pts x k (lerp (pt pts a) (pt pts b) r) = 0 := by
  have h1' : s < 1 := by
    refine lt_of_le_of_ne h1 fun e => ?_
    subst e
    rw [lerp_one] at hs
    have hc := S.corner_of_in hD hb hs.in
    obtain ⟨w, hw, hne⟩ := hZ b
    have := (hs w).1 hw
    rw [S.wt_corner hD hc, if_neg hne] at this
    exact lt_irrefl _ this
  obtain ⟨r, g1, g2, g3, -, g4⟩ := S.exit hD h1 hs.in
  rcases lt_or_eq_of_le g2 with h | rfl
  · obtain ⟨k, e1, e2⟩ := g4 h
    have hk : Z k := by
      by_contra hk
      have := hpl k hk 1
      rw [lerp_one] at this
      linarith
    refine ⟨r, lt_of_le_of_ne g1 fun e => ?_, g2, g3, k, hk, e1⟩
    subst e
    have := (hs k).1 hk
    linarith
  · obtain ⟨w, hw, hne⟩ := hZ b
    refine ⟨1, h1', le_rfl, g3, w, hw, ?_⟩
    rw [lerp_one] at g3 ⊢
    rw [S.wt_corner hD (S.corner_of_in hD hb g3), if_neg hne]

/-- Both ends of the part of a side in the open face `Z`. -/
theorem leave_both (S : Sol pts m t x) {Z : Nat → Prop} {a b : Nat} (ha : a < pts.length) (hb : b < pts.length) (hZ : ∀ v, ∃ w, Z w ∧ w ≠ v) {s : K} (h0 : 0 ≤ s) (h1 : s ≤ 1)
    (hs : Rel pts x Z (lerp (pt pts a) (pt pts b) s)) (hpl : ∀ v, ¬ Z v → ∀ u, wt pts x v (lerp (pt pts a) (pt pts b) u) = 0) :
    ∃ r0 r1, 0 ≤ r0 ∧ r0 < s ∧ s < r1 ∧ r1 ≤ 1 ∧ In pts x (lerp (pt pts a) (pt pts b) r0) ∧ In pts x (lerp (pt pts a) (pt pts b) r1) ∧
      (∃ k, Z k ∧ wt pts x k (lerp (pt pts a) (pt pts b) r0) = 0) ∧ (∃ k, Z k ∧ wt pts x k (lerp (pt pts a) (pt pts b) r1) = 0) ∧
      ∀ v, Z v → wt pts x v (lerp (pt pts a) (pt pts b) r0) = 0 → 0 < wt pts x v (lerp (pt pts a) (pt pts b) r1) := by
  obtain ⟨r1, g1, g2, g3, g4⟩ := leave hD S hb hZ h0 h1 hs hpl
  obtain ⟨r0, e1, e2, e3, e4⟩ := leave hD (a := b) (b := a) (s := 1 - s) S ha hZ (by linarith) (by linarith) (by rw [← lerp_rev]; exact hs)
    (fun v hv u => by have := hpl v hv (1 - u); rwa [lerp_rev, sub_sub_cancel] at this)
  have er : ∀ u, lerp (pt pts b) (pt pts a) u = lerp (pt pts a) (pt pts b) (1 - u) := fun u => lerp_rev _ _ _
  rw [er] at e3
  simp only [er] at e4
  refine ⟨1 - r0, r1, by linarith, by linarith, g1, g2, e3, g3, e4, g4, fun v hv hz => ?_⟩
  rw [S.aff hD] at hz ⊢
  have := (hs v).1 hv
  rw [S.aff hD] at this
  exact aff_pos_after (by linarith) hz this (by linarith)

/-- No vertex lies in an open face with more than one corner. -/
theorem inner_param (S : Sol pts m t x) {a b : Nat} (ha : a < pts.length) (hb : b < pts.length) {r : K} (h0 : 0 ≤ r) (h1 : r ≤ 1) {p q : Nat} (hpq : p ≠ q) (hin : In pts x (lerp (pt pts a) (pt pts b) r))
    (hp : 0 < wt pts x p (lerp (pt pts a) (pt pts b) r)) (hq : 0 < wt pts x q (lerp (pt pts a) (pt pts b) r)) : 0 < r ∧ r < 1 := by
  have key : ∀ v, v < pts.length → lerp (pt pts a) (pt pts b) r ≠ pt pts v := by
    intro v hv e
    rw [e] at hin hp hq
    have hc := S.corner_of_in hD hv hin
    rw [S.wt_corner hD hc] at hp hq
    have e1 : p = v := by by_contra h; rw [if_neg h] at hp; exact lt_irrefl _ hp
    have e2 : q = v := by by_contra h; rw [if_neg h] at hq; exact lt_irrefl _ hq
    exact hpq (e1.trans e2.symm)
  refine ⟨lt_of_le_of_ne h0 fun e => key a ha ?_, lt_of_le_of_ne h1 fun e => key b hb ?_⟩
  · rw [← e, lerp_zero]
  · rw [e, lerp_one]

/-- The side `a b` crosses an open face of the tetrahedron, away from the point at `s`. -/
def Pierces (pts : List (Pt K)) (x : Tet.Tet) (a b : Nat) (s : K) : Prop :=
  ∃ k r, (∃ i, x.data i = k) ∧ 0 < r ∧ r < 1 ∧ r ≠ s ∧ wt pts x k (lerp (pt pts a) (pt pts b) r) = 0 ∧ ∀ v, (∃ i, x.data i = v) → v ≠ k → 0 < wt pts x v (lerp (pt pts a) (pt pts b) r)

omit hD in
theorem Four.pierces {p q u k a b : Nat} {r s : K} (F : Four x p q u k) (h0 : 0 < r) (h1 : r < 1) (hs : r ≠ s) (hp : 0 < wt pts x p (lerp (pt pts a) (pt pts b) r)) (hq : 0 < wt pts x q (lerp (pt pts a) (pt pts b) r))
    (hu : 0 < wt pts x u (lerp (pt pts a) (pt pts b) r)) (hk : wt pts x k (lerp (pt pts a) (pt pts b) r) = 0) : Pierces pts x a b s := by
  refine ⟨k, r, (F.mem k).2 (by simp), h0, h1, hs, hk, fun v hv hne => ?_⟩
  rcases (F.mem v).1 hv with rfl | rfl | rfl | rfl
  · exact hp
  · exact hq
  · exact hu
  · exact absurd rfl hne

/-- The side `a b` runs from an edge of the tetrahedron to the opposite one. -/
def EdgeToEdge (pts : List (Pt K)) (x : Tet.Tet) (a b : Nat) : Prop :=
  ∃ p q u k r0 r1, Four x p q u k ∧ 0 < r0 ∧ r0 < 1 ∧ 0 < r1 ∧ r1 < 1 ∧ 0 < wt pts x p (lerp (pt pts a) (pt pts b) r0) ∧ 0 < wt pts x q (lerp (pt pts a) (pt pts b) r0) ∧
    wt pts x u (lerp (pt pts a) (pt pts b) r0) = 0 ∧ wt pts x k (lerp (pt pts a) (pt pts b) r0) = 0 ∧ wt pts x p (lerp (pt pts a) (pt pts b) r1) = 0 ∧ wt pts x q (lerp (pt pts a) (pt pts b) r1) = 0 ∧
    0 < wt pts x u (lerp (pt pts a) (pt pts b) r1) ∧ 0 < wt pts x k (lerp (pt pts a) (pt pts b) r1)

omit hD in
/-- One of the two edges has the corner `v`. -/
theorem EdgeToEdge.at {a b : Nat} (h : EdgeToEdge pts x a b) {v : Nat} (hv : ∃ i, x.data i = v) :
    ∃ q u k r0 r1, Four x v q u k ∧ 0 < r0 ∧ r0 < 1 ∧ 0 < r1 ∧ r1 < 1 ∧ 0 < wt pts x v (lerp (pt pts a) (pt pts b) r0) ∧ 0 < wt pts x q (lerp (pt pts a) (pt pts b) r0) ∧
      wt pts x u (lerp (pt pts a) (pt pts b) r0) = 0 ∧ wt pts x k (lerp (pt pts a) (pt pts b) r0) = 0 ∧ wt pts x v (lerp (pt pts a) (pt pts b) r1) = 0 ∧ wt pts x q (lerp (pt pts a) (pt pts b) r1) = 0 ∧
      0 < wt pts x u (lerp (pt pts a) (pt pts b) r1) ∧ 0 < wt pts x k (lerp (pt pts a) (pt pts b) r1) := by
  obtain ⟨p, q, u, k, r0, r1, F, g1, g2, g3, g4, a1, a2, a3, a4, b1, b2, b3, b4⟩ := h
  have G : Four x u k p q := F.perm (by exact (List.perm_append_comm (l₁ := [u, k]) (l₂ := [p, q])))
  rcases (F.mem v).1 hv with rfl | rfl | rfl | rfl
  · exact ⟨q, u, k, r0, r1, F, g1, g2, g3, g4, a1, a2, a3, a4, b1, b2, b3, b4⟩
  · exact ⟨p, u, k, r0, r1, F.swap01, g1, g2, g3, g4, a2, a1, a3, a4, b2, b1, b3, b4⟩
  · exact ⟨k, p, q, r1, r0, G, g3, g4, g1, g2, b3, b4, b1, b2, a3, a4, a1, a2⟩
  · exact ⟨u, p, q, r1, r0, G.swap01, g3, g4, g1, g2, b4, b3, b1, b2, a4, a3, a1, a2⟩

/-- A side through the inside of a tetrahedron crosses an open face, or runs from an edge to the opposite one. -/
theorem through_inside (S : Sol pts m t x) {a b : Nat} (ha : a < pts.length) (hb : b < pts.length) {s : K} (h0 : 0 ≤ s) (h1 : s ≤ 1)
    (hs : Rel pts x (fun v => ∃ i, x.data i = v) (lerp (pt pts a) (pt pts b) s)) : Pierces pts x a b s ∨ EdgeToEdge pts x a b := by
  have hZ : ∀ v, ∃ w, (∃ i, x.data i = w) ∧ w ≠ v := by
    intro v
    by_cases h : x.data 0 = v
    · refine ⟨_, ⟨1, rfl⟩, fun e => ?_⟩
      exact absurd (S.inj hD (h.trans e.symm)) (by decide)
    · exact ⟨_, ⟨0, rfl⟩, h⟩
  obtain ⟨r0, r1, g0, g1, g2, g3, i0, i1, ⟨k0, c0, z0⟩, ⟨k1, c1, z1⟩, hpos⟩ := leave_both hD S ha hb hZ h0 h1 hs (fun v hv u => by push Not at hv; exact wt_none (pts := pts) hv _)
  have hpos' : ∀ v, (∃ i, x.data i = v) → wt pts x v (lerp (pt pts a) (pt pts b) r1) = 0 → 0 < wt pts x v (lerp (pt pts a) (pt pts b) r0) := fun v hv hz => by
    rcases (i0 v).lt_or_eq with h | h
    · exact h
    · have := hpos v hv h.symm
      linarith
  obtain ⟨q, u, k, F0⟩ := Four.exists hD S c1
  have F : Four x q u k k1 := F0.swap01.swap12.swap23
  -- the corners other than `k1` at `r1`
  have alt1 : ∀ {p q u k}, Four x p q u k → 0 < wt pts x p (lerp (pt pts a) (pt pts b) r1) → 0 < wt pts x q (lerp (pt pts a) (pt pts b) r1) → 0 < wt pts x u (lerp (pt pts a) (pt pts b) r1) →
      wt pts x k (lerp (pt pts a) (pt pts b) r1) = 0 → Pierces pts x a b s := fun {p q u k} F hp hq hu hk =>
    F.pierces (inner_param hD S ha hb (by linarith) g3 (F.ne hD S).1 i1 hp hq).1 (inner_param hD S ha hb (by linarith) g3 (F.ne hD S).1 i1 hp hq).2 g2.ne' hp hq hu hk
  have two : ∀ {p q u k}, Four x p q u k → wt pts x u (lerp (pt pts a) (pt pts b) r1) = 0 → wt pts x k (lerp (pt pts a) (pt pts b) r1) = 0 → Pierces pts x a b s ∨ EdgeToEdge pts x a b := fun {p q u k} F hu hk => by
    have cor : ∀ v, v = p ∨ v = q ∨ v = u ∨ v = k → ∃ i, x.data i = v := fun v hv => (F.mem v).2 hv
    have hu0 := hpos' u (cor u (by simp)) hu
    have hk0 := hpos' k (cor k (by simp)) hk
    have hne := (F.ne hD S).2.2.2.2.2
    obtain ⟨s0, s1⟩ := inner_param hD S ha hb g0 (by linarith) hne i0 hu0 hk0
    have sub : ∀ {p q}, Four x p q u k → wt pts x p (lerp (pt pts a) (pt pts b) r0) = 0 → Pierces pts x a b s ∨ EdgeToEdge pts x a b := fun {p q} F hp => by
      have cor : ∀ v, v = p ∨ v = q ∨ v = u ∨ v = k → ∃ i, x.data i = v := fun v hv => (F.mem v).2 hv
      have hp1 := hpos p (cor p (by simp)) hp
      rcases (i0 q).lt_or_eq with h | h
      · exact .inl (F.swap01.swap12.swap23.pierces s0 s1 g1.ne h hu0 hk0 hp)
      · have hq1 := hpos q (cor q (by simp)) h.symm
        obtain ⟨t0, t1⟩ := inner_param hD S ha hb (by linarith) g3 (F.ne hD S).1 i1 hp1 hq1
        exact .inr ⟨u, k, p, q, r0, r1, F.perm (by exact (List.perm_append_comm (l₁ := [u, k]) (l₂ := [p, q]))), s0, s1, t0, t1, hu0, hk0, hp, h.symm, hu, hk, hp1, hq1⟩
    rcases (F.mem k0).1 c0 with rfl | rfl | rfl | rfl
    · exact sub F z0
    · exact sub F.swap01 z0
    · linarith
    · linarith
  rcases (i1 q).lt_or_eq with hq | hq
  · rcases (i1 u).lt_or_eq with hu | hu
    · rcases (i1 k).lt_or_eq with hk | hk
      · exact .inl (alt1 F hq hu hk z1)
      · exact two F hk.symm z1
    · exact two F.swap12 hu.symm z1
  · exact two F.swap01.swap12 hq.symm z1

/-- A side that lies in the plane of a face and meets the open face crosses an open edge of it. -/
theorem through_face (S : Sol pts m t x) {z0 z1 z2 o : Nat} (F : Four x z0 z1 z2 o) {a b : Nat} (ha : a < pts.length) (hb : b < pts.length) {s : K} (h0 : 0 ≤ s) (h1 : s ≤ 1)
    (hs : Rel pts x (fun v => v = z0 ∨ v = z1 ∨ v = z2) (lerp (pt pts a) (pt pts b) s)) (hpl : ∀ u, wt pts x o (lerp (pt pts a) (pt pts b) u) = 0) :
    ∃ p q u r, Four x p q u o ∧ 0 < r ∧ r < 1 ∧ r ≠ s ∧ 0 < wt pts x p (lerp (pt pts a) (pt pts b) r) ∧ 0 < wt pts x q (lerp (pt pts a) (pt pts b) r) ∧ wt pts x u (lerp (pt pts a) (pt pts b) r) = 0 := by
  obtain ⟨n1, n2, n3, n4, n5, n6⟩ := F.ne hD S
  have hZ : ∀ v, ∃ w, (w = z0 ∨ w = z1 ∨ w = z2) ∧ w ≠ v := by
    intro v
    by_cases h : z0 = v
    · exact ⟨z1, by simp, by rw [← h]; exact n1.symm⟩
    · exact ⟨z0, by simp, h⟩
  obtain ⟨r0, r1, g0, g1, g2, g3, i0, i1, ⟨k0, c0, e0⟩, ⟨k1, c1, e1⟩, hpos⟩ := leave_both hD S ha hb hZ h0 h1 hs (fun v hv u => by
    by_cases hc : ∃ i, x.data i = v
    · rcases (F.mem v).1 hc with h | h | h | h
      · exact absurd (.inl h) hv
      · exact absurd (.inr (.inl h)) hv
      · exact absurd (.inr (.inr h)) hv
      · rw [h]; exact hpl u
    · push Not at hc
      exact wt_none (pts := pts) hc _)
  have hpos' : ∀ v, (v = z0 ∨ v = z1 ∨ v = z2) → wt pts x v (lerp (pt pts a) (pt pts b) r1) = 0 → 0 < wt pts x v (lerp (pt pts a) (pt pts b) r0) := fun v hv hz => by
    rcases (i0 v).lt_or_eq with h | h
    · exact h
    · have := hpos v hv h.symm
      linarith
  have main : ∀ {p q u}, Four x p q u o → (∀ v, v = p ∨ v = q ∨ v = u ↔ v = z0 ∨ v = z1 ∨ v = z2) → wt pts x u (lerp (pt pts a) (pt pts b) r1) = 0 →
      ∃ p q u r, Four x p q u o ∧ 0 < r ∧ r < 1 ∧ r ≠ s ∧ 0 < wt pts x p (lerp (pt pts a) (pt pts b) r) ∧ 0 < wt pts x q (lerp (pt pts a) (pt pts b) r) ∧ wt pts x u (lerp (pt pts a) (pt pts b) r) = 0 := by
    intro p q u F hm hu
    obtain ⟨n1, n2, n3, n4, n5, n6⟩ := F.ne hD S
    have hu0 := hpos' u ((hm u).1 (by simp)) hu
    -- two corners vanish at `r1`
    have sub : ∀ {p q}, Four x p q u o → (∀ v, v = p ∨ v = q ∨ v = u ↔ v = z0 ∨ v = z1 ∨ v = z2) → wt pts x q (lerp (pt pts a) (pt pts b) r1) = 0 →
        ∃ p q u r, Four x p q u o ∧ 0 < r ∧ r < 1 ∧ r ≠ s ∧ 0 < wt pts x p (lerp (pt pts a) (pt pts b) r) ∧ 0 < wt pts x q (lerp (pt pts a) (pt pts b) r) ∧ wt pts x u (lerp (pt pts a) (pt pts b) r) = 0 := by
      intro p q F hm hq
      have hq0 := hpos' q ((hm q).1 (by simp)) hq
      obtain ⟨s0, s1⟩ := inner_param hD S ha hb g0 (by linarith) (F.ne hD S).2.2.2.1 i0 hq0 hu0
      have hp0 : wt pts x p (lerp (pt pts a) (pt pts b) r0) = 0 := by
        rcases (hm k0).2 c0 with rfl | rfl | rfl
        · exact e0
        · linarith
        · linarith
      exact ⟨q, u, p, r0, F.swap01.swap12, s0, s1, g1.ne, hq0, hu0, hp0⟩
    rcases (i1 p).lt_or_eq with hp | hp
    · rcases (i1 q).lt_or_eq with hq | hq
      · obtain ⟨s0, s1⟩ := inner_param hD S ha hb (by linarith) g3 n1 i1 hp hq
        exact ⟨p, q, u, r1, F, s0, s1, g2.ne', hp, hq, hu⟩
      · exact sub F hm hq.symm
    · exact sub F.swap01 (fun v => by rw [← hm v]; constructor <;> rintro (h | h | h) <;> simp [h]) hp.symm
  rcases c1 with rfl | rfl | rfl
  · exact main F.swap01.swap12 (fun v => by constructor <;> rintro (h | h | h) <;> simp [h]) e1
  · exact main F.swap12 (fun v => by constructor <;> rintro (h | h | h) <;> simp [h]) e1
  · exact main F (fun v => Iff.rfl) e1

end
end Verif.Constraint
