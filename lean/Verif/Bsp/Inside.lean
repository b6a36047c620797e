import Verif.Bsp.GeoLoop
/-!
# Points inside faces and cells
-/
namespace Verif.Bsp
open InSphere (Pt)
open Geom (lerp)

variable {K : Type} [Field K] [LinearOrder K] [IsStrictOrderedRing K]

section
omit [IsStrictOrderedRing K]

/-- Specification: the points of a face. -/
def InFace (pos : Nat → Pt K) (A : Aff K) (c : Cycle) (q : Pt K) : Prop := A.ev q = 0 ∧ ∀ k ∈ hes c, 0 ≤ area A.n (pos k.tail) (pos k.tip) q

/-- Specification: the points inside a face, without its boundary. -/
def InsideFace (pos : Nat → Pt K) (A : Aff K) (c : Cycle) (q : Pt K) : Prop := A.ev q = 0 ∧ ∀ k ∈ hes c, 0 < area A.n (pos k.tail) (pos k.tip) q
end

/-- Near `q`, on the way to `p`, all functions are positive. -/
theorem go_in (q p : Pt K) : ∀ L : List (Aff K), (∀ A ∈ L, 0 < A.ev q ∨ (A.ev q = 0 ∧ 0 < A.ev p)) → ∃ t : K, 0 < t ∧ t ≤ 1 ∧ ∀ A ∈ L, ∀ u, 0 < u → u ≤ t → 0 < A.ev (lerp q p u)
  | [], _ => ⟨1, one_pos, le_refl _, by simp⟩
  | A :: L, h => by
    obtain ⟨t, t0, t1, ht⟩ := go_in q p L fun B hB => h B (List.mem_cons_of_mem _ hB)
    rcases h A (by simp) with hA | ⟨hA, hp⟩
    · have hd : 0 < 2 * (A.ev q + |A.ev p|) := mul_pos two_pos (add_pos_of_pos_of_nonneg hA (abs_nonneg _))
      refine ⟨min t (A.ev q / (2 * (A.ev q + |A.ev p|))), lt_min t0 (div_pos hA hd), le_trans (min_le_left _ _) t1, fun B hB u u0 u1 => ?_⟩
      rcases List.mem_cons.1 hB with rfl | hB
      · have := (le_div_iff₀ hd).1 (le_trans u1 (min_le_right _ _))
        rw [ev_lerp]
        have := neg_abs_le (B.ev p)
        nlinarith [mul_nonneg u0.le (abs_nonneg (B.ev p))]
      · exact ht B hB u u0 (le_trans u1 (min_le_left _ _))
    · refine ⟨t, t0, t1, fun B hB u u0 u1 => ?_⟩
      rcases List.mem_cons.1 hB with rfl | hB
      · rw [ev_lerp, hA, mul_zero, zero_add]; exact mul_pos u0 hp
      · exact ht B hB u u0 u1

/-- The functions that are positive inside a cell. -/
def walls (pl : Nat → Aff K) (cl : List (Nat × Option Nat)) (k : Nat) : List (Aff K) :=
  (List.range cl.length).filterMap fun i => (cl[i]?).bind fun P => if sg P k ≠ 0 then some ((pl i).smul (sg P k : K)) else none

omit [IsStrictOrderedRing K] in
theorem mem_walls {pl : Nat → Aff K} {cl : List (Nat × Option Nat)} {k : Nat} {A : Aff K} : A ∈ walls pl cl k ↔ ∃ i P, cl[i]? = some P ∧ sg P k ≠ 0 ∧ A = (pl i).smul (sg P k : K) := by
  rw [walls, List.mem_filterMap]
  constructor
  · rintro ⟨i, -, e⟩
    obtain ⟨P, hP, e⟩ := Option.bind_eq_some_iff.1 e
    split at e
    · cases e; exact ⟨i, P, hP, ‹_›, rfl⟩
    · cases e
  · rintro ⟨i, P, hP, hs, rfl⟩
    exact ⟨i, List.mem_range.2 (List.getElem?_eq_some_iff.1 hP).1, by rw [hP, Option.bind_some, if_pos hs]⟩

theorem region_walls {pl : Nat → Aff K} {cl : List (Nat × Option Nat)} {k : Nat} {q : Pt K} : Region pl cl k q ↔ ∀ A ∈ walls pl cl k, 0 ≤ A.ev q := by
  constructor
  · intro h A hA
    obtain ⟨i, P, hP, hs, rfl⟩ := mem_walls.1 hA
    rw [Aff.smul_ev]; exact h i P hP hs
  · intro h i P hP hs
    have := h _ (mem_walls.2 ⟨i, P, hP, hs, rfl⟩)
    rwa [Aff.smul_ev] at this

/-- A point on the inner side of all faces of a cell is inside it. -/
theorem core_of_walls {pl : Nat → Aff K} {cl : List (Nat × Option Nat)} {k : Nat} {q : Pt K} (h : ∀ A ∈ walls pl cl k, 0 < A.ev q) : Core (Region pl cl k) q := by
  intro p
  obtain ⟨t, t0, -, ht⟩ := go_in q p _ fun A hA => Or.inl (h A hA)
  exact ⟨t, t0, region_walls.2 fun A hA => (ht A hA t t0 (le_refl _)).le⟩

theorem core_region {pl : Nat → Aff K} {cl : List (Nat × Option Nat)} {k : Nat} {q : Pt K} (h : ∀ i ∈ List.range cl.length, ∀ P ∈ cl[i]?, sg P k ≠ 0 → 0 < (sg P k : K) * (pl i).ev q) : Core (Region pl cl k) q := by
  refine core_of_walls fun A hA => ?_
  obtain ⟨i, P, hP, hs, rfl⟩ := mem_walls.1 hA
  rw [Aff.smul_ev]
  exact h i (List.mem_range.2 (List.getElem?_eq_some_iff.1 hP).1) P hP hs

/-- Inside a cell all these functions are positive. -/
theorem Core.walls {pos : Nat → Pt K} {pl : Nat → Aff K} {cl : List (Nat × Option Nat)} {fs : List Cycle} (g : Geo pos pl cl fs) {k : Nat} {q : Pt K} (h : Core (Region pl cl k) q) : ∀ A ∈ walls pl cl k, 0 < A.ev q := by
  intro A hA
  obtain ⟨i, P, hP, hs, rfl⟩ := mem_walls.1 hA
  obtain ⟨x, -, hx⟩ := g.strict k i P hP hs
  exact h.pos (A := (pl i).smul (sg P k : K)) (fun y hy => by rw [Aff.smul_ev]; exact hy i P hP hs) (x := pos x) (by rw [Aff.smul_ev]; exact mul_ne_zero (by exact_mod_cast hs) hx)

theorem sg_sq {P : Nat × Option Nat} {k : Nat} (h : sg P k ≠ 0) : (sg P k : K) * (sg P k : K) = 1 := by
  have : sg P k = 1 ∨ sg P k = -1 := by
    unfold sg at *
    split_ifs at * <;> simp at *
  rcases this with e | e <;> rw [e] <;> simp

/-- Going from a point of a face to a point inside stays inside. -/
theorem InFace.toward {pos : Nat → Pt K} {A : Aff K} {c : Cycle} {p q : Pt K} (hp : InFace pos A c p) (hq : InsideFace pos A c q) {t : K} (t0 : 0 ≤ t) (t1 : t < 1) : InsideFace pos A c (lerp q p t) := by
  refine ⟨by rw [ev_lerp, hp.1, hq.1]; ring, fun k hk => ?_⟩
  have h1 := hp.2 k hk
  have h2 := hq.2 k hk
  rw [← areaAff_ev] at *
  rw [ev_lerp]
  nlinarith [mul_pos (sub_pos.2 t1) h2, mul_nonneg t0 h1]

/-- A function that is not negative on a face and does not vanish on it is positive inside it. -/
theorem InsideFace.pos {pos : Nat → Pt K} {A B : Aff K} {c : Cycle} (f : FaceOk pos A c) {q : Pt K} (hq : InsideFace pos A c q) (hB : ∀ x ∈ c, 0 ≤ B.ev (pos x.1)) (hne : ∃ x ∈ c, B.ev (pos x.1) ≠ 0) : 0 < B.ev q := by
  obtain ⟨x, hx, hx0⟩ := hne
  have hx1 : 0 < B.ev (pos x.1) := lt_of_le_of_ne (hB x hx) (Ne.symm hx0)
  obtain ⟨t, t0, -, ht⟩ := go_in q (lerp q (pos x.1) (-1)) ((hes c).map fun k => areaAff A.n (pos k.tail) (pos k.tip)) (by
    intro B hB
    obtain ⟨k, hk, rfl⟩ := List.mem_map.1 hB
    rw [areaAff_ev]; exact Or.inl (hq.2 k hk))
  have h0 := f.hull (q := lerp q (lerp q (pos x.1) (-1)) t) (by rw [ev_lerp, ev_lerp, hq.1, f.plane x hx]; ring) (fun k hk => by
    rw [← areaAff_ev]; exact (ht _ (List.mem_map.2 ⟨k, hk, rfl⟩) t t0 (le_refl _)).le) hB
  rw [ev_lerp, ev_lerp] at h0
  nlinarith [mul_pos t0 hx1]

/-- From a point inside a face of a cell one comes into the cell at once, whenever one goes to its side of the plane. -/
theorem enter {pos : Nat → Pt K} {pl : Nat → Aff K} {cl : List (Nat × Option Nat)} {fs : List Cycle} (g : Geo pos pl cl fs) {k i : Nat} {P : Nat × Option Nat} {c : Cycle} (hP : cl[i]? = some P) (hs : sg P k ≠ 0) (hc : fs[i]? = some c)
    {q W : Pt K} (hq : InsideFace pos (pl i) c q) (hW : 0 < (sg P k : K) * (pl i).ev W) : ∃ t : K, 0 < t ∧ t ≤ 1 ∧ ∀ u, 0 < u → u ≤ t → Core (Region pl cl k) (lerp q W u) := by
  have f := g.face i c hc
  obtain ⟨t, t0, t1, ht⟩ := go_in q W (walls pl cl k) (by
    intro A hA
    obtain ⟨j, Q, hQ, hs', rfl⟩ := mem_walls.1 hA
    have hnn : ∀ x ∈ c, 0 ≤ ((pl j).smul (sg Q k : K)).ev (pos x.1) := fun x hx => by
      rw [Aff.smul_ev]; exact g.side k j Q hQ hs' x.1 ⟨i, P, c, hP, hs, hc, x, hx, rfl⟩
    by_cases hne : ∃ x ∈ c, ((pl j).smul (sg Q k : K)).ev (pos x.1) ≠ 0
    · exact Or.inl (hq.pos f hnn hne)
    · push Not at hne
      obtain ⟨μ, hμ⟩ := f.vanish hne
      refine Or.inr ⟨by rw [hμ, hq.1, mul_zero], ?_⟩
      obtain ⟨x, hx, hx0⟩ := g.strict k j Q hQ hs'
      have h1 := g.side k j Q hQ hs' x hx
      have h2 := g.side k i P hP hs x hx
      have h3 : 0 < (sg Q k : K) * (pl j).ev (pos x) := lt_of_le_of_ne h1 (Ne.symm (mul_ne_zero (by exact_mod_cast hs') hx0))
      rw [← Aff.smul_ev, hμ] at h3
      have hsq := sg_sq (K := K) hs
      rw [hμ]
      have e1 : μ * (pl i).ev (pos x) = (μ * (sg P k : K)) * ((sg P k : K) * (pl i).ev (pos x)) := by linear_combination (- μ * (pl i).ev (pos x)) * hsq
      have e2 : μ * (pl i).ev W = (μ * (sg P k : K)) * ((sg P k : K) * (pl i).ev W) := by linear_combination (- μ * (pl i).ev W) * hsq
      rw [e1] at h3
      rw [e2]
      exact mul_pos (pos_of_mul_pos_left h3 h2) hW)
  exact ⟨t, t0, t1, fun u u0 u1 => core_of_walls fun A hA => ht A hA u u0 u1⟩

/-! ### Faces are covered as a whole or not at all -/

/-- The first moment when one of the numbers becomes zero. -/
theorem first_zero : ∀ L : List (K × K), (∀ p ∈ L, 0 ≤ p.1) → (∃ p ∈ L, p.2 < 0) → ∃ s : K, 0 ≤ s ∧ s < 1 ∧ (∀ p ∈ L, 0 ≤ (1 - s) * p.1 + s * p.2) ∧ ∃ p ∈ L, (1 - s) * p.1 + s * p.2 = 0
  | [], _, h => by obtain ⟨p, hp, -⟩ := h; cases hp
  | p :: L, h0, h1 => by
    have hp := h0 p (by simp)
    have hL := fun q hq => h0 q (List.mem_cons_of_mem p hq)
    by_cases hex : ∃ q ∈ L, q.2 < 0
    · obtain ⟨s, s0, s1, hs, q, hq, e⟩ := first_zero L hL hex
      by_cases hv : 0 ≤ (1 - s) * p.1 + s * p.2
      · exact ⟨s, s0, s1, fun r hr => by rcases List.mem_cons.1 hr with rfl | hr; exacts [hv, hs r hr], q, List.mem_cons_of_mem _ hq, e⟩
      · have h2 : p.2 < 0 := by
          by_contra hc
          exact hv (add_nonneg (mul_nonneg (by linarith) hp) (mul_nonneg s0 (not_lt.1 hc)))
        have hd : 0 < p.1 - p.2 := by linarith
        have e0 : (1 - p.1 / (p.1 - p.2)) * p.1 + p.1 / (p.1 - p.2) * p.2 = 0 := by field_simp; ring
        have hle : p.1 / (p.1 - p.2) ≤ s := by rw [div_le_iff₀ hd]; nlinarith
        refine ⟨p.1 / (p.1 - p.2), div_nonneg hp hd.le, by rw [div_lt_one hd]; linarith, fun r hr => ?_, p, by simp, e0⟩
        rcases List.mem_cons.1 hr with rfl | hr
        · exact e0.ge
        · have r0 := hL r hr
          have r1 := hs r hr
          have := div_nonneg hp hd.le
          rcases s0.eq_or_lt with e | s0
          · have : p.1 / (p.1 - p.2) = 0 := le_antisymm (by rw [e]; exact hle) this
            rw [this]; simpa using r0
          · have h5 : 0 ≤ s * ((1 - p.1 / (p.1 - p.2)) * r.1 + p.1 / (p.1 - p.2) * r.2) := by
              nlinarith [mul_nonneg this r1, mul_nonneg (sub_nonneg.2 hle) r0]
            exact nonneg_of_mul_nonneg_right h5 s0
    · push Not at hex
      obtain ⟨r, hr, h2⟩ := h1
      rcases List.mem_cons.1 hr with rfl | hr
      swap
      · exact absurd h2 (not_lt.2 (hex r hr))
      have hd : 0 < r.1 - r.2 := by linarith
      have e0 : (1 - r.1 / (r.1 - r.2)) * r.1 + r.1 / (r.1 - r.2) * r.2 = 0 := by field_simp; ring
      refine ⟨r.1 / (r.1 - r.2), div_nonneg hp hd.le, by rw [div_lt_one hd]; linarith, fun q hq => ?_, r, by simp, e0⟩
      rcases List.mem_cons.1 hq with rfl | hq
      · exact e0.ge
      · have : r.1 / (r.1 - r.2) < 1 := by rw [div_lt_one hd]; linarith
        exact add_nonneg (mul_nonneg (by linarith) (hL q hq)) (mul_nonneg (div_nonneg hp hd.le) (hex q hq))

theorem InTri.corner {t : Tri3 K} {x : Pt K} (h : x ∈ t.corners) : InTri t x := by
  simp only [Tri3.corners, List.mem_cons, List.not_mem_nil, or_false] at h
  rcases h with rfl | rfl | rfl
  · exact ⟨1, 0, 0, by norm_num, by norm_num, by norm_num, by norm_num, by simp, by simp, by simp⟩
  · exact ⟨0, 1, 0, by norm_num, by norm_num, by norm_num, by norm_num, by simp, by simp, by simp⟩
  · exact ⟨0, 0, 1, by norm_num, by norm_num, by norm_num, by norm_num, by simp, by simp, by simp⟩

theorem InTri.lerp {t : Tri3 K} {p q : Pt K} (hp : InTri t p) (hq : InTri t q) {s : K} (s0 : 0 ≤ s) (s1 : s ≤ 1) : InTri t (lerp p q s) := by
  obtain ⟨u, v, w, hu, hv, hw, h1, x1, y1, z1⟩ := hp
  obtain ⟨u', v', w', hu', hv', hw', h1', x2, y2, z2⟩ := hq
  refine ⟨(1 - s) * u + s * u', (1 - s) * v + s * v', (1 - s) * w + s * w', ?_, ?_, ?_, by linear_combination (1 - s) * h1 + s * h1', ?_, ?_, ?_⟩
  iterate 3 exact add_nonneg (mul_nonneg (by linarith) (by assumption)) (mul_nonneg s0 (by assumption))
  · simp only [Geom.lerp]; rw [x1, x2]; ring
  · simp only [Geom.lerp]; rw [y1, y2]; ring
  · simp only [Geom.lerp]; rw [z1, z2]; ring

/-- The coordinates of a point in the plane of a triangle with respect to its corners. -/
theorem tri_coords {t : Tri3 K} (hn : vdot t.plane.n t.plane.n ≠ 0) {x : Pt K} (hx : t.plane.ev x = 0) :
    ∃ u v w : K, u + v + w = 1 ∧ x.x = u * t.a.x + v * t.b.x + w * t.c.x ∧ x.y = u * t.a.y + v * t.b.y + w * t.c.y ∧ x.z = u * t.a.z + v * t.b.z + w * t.c.z := by
  set N := vdot t.plane.n t.plane.n with hN
  refine ⟨1 - area t.plane.n t.a x t.c / N - area t.plane.n t.a t.b x / N, area t.plane.n t.a x t.c / N, area t.plane.n t.a t.b x / N, by ring, ?_, ?_, ?_⟩
  · field_simp
    simp only [hN, Tri3.plane, through, Aff.ev, area, vdet, vdot, vsub] at hx ⊢
    linear_combination ((t.b.y - t.a.y) * (t.c.z - t.a.z) - (t.b.z - t.a.z) * (t.c.y - t.a.y)) * hx
  · field_simp
    simp only [hN, Tri3.plane, through, Aff.ev, area, vdet, vdot, vsub] at hx ⊢
    linear_combination ((t.b.z - t.a.z) * (t.c.x - t.a.x) - (t.b.x - t.a.x) * (t.c.z - t.a.z)) * hx
  · field_simp
    simp only [hN, Tri3.plane, through, Aff.ev, area, vdet, vdot, vsub] at hx ⊢
    linear_combination ((t.b.x - t.a.x) * (t.c.y - t.a.y) - (t.b.y - t.a.y) * (t.c.x - t.a.x)) * hx

/-- The way from a point of a triangle to a point of its plane outside leaves the triangle on a side. -/
theorem InTri.leave {t : Tri3 K} (hn : vdot t.plane.n t.plane.n ≠ 0) {q x : Pt K} (hq : InTri t q) (hx : t.plane.ev x = 0) (hout : ¬ InTri t x) :
    ∃ s : K, 0 ≤ s ∧ s < 1 ∧ ∃ e ∈ t.sides, ∃ r : K, 0 ≤ r ∧ r ≤ 1 ∧ Geom.lerp q x s = Geom.lerp e.1 e.2 r := by
  obtain ⟨u, v, w, hu, hv, hw, h1, x1, y1, z1⟩ := hq
  obtain ⟨u', v', w', h1', x2, y2, z2⟩ := tri_coords hn hx
  have hneg : ∃ p ∈ [(u, u'), (v, v'), (w, w')], p.2 < 0 := by
    by_contra hc
    push Not at hc
    exact hout ⟨u', v', w', hc (u, u') (by simp), hc (v, v') (by simp), hc (w, w') (by simp), h1', x2, y2, z2⟩
  obtain ⟨s, s0, s1, hs, p, hp, e⟩ := first_zero [(u, u'), (v, v'), (w, w')] (by
    intro p hp
    simp only [List.mem_cons, List.not_mem_nil, or_false] at hp
    rcases hp with rfl | rfl | rfl <;> assumption) hneg
  have ha := hs (u, u') (by simp)
  have hb := hs (v, v') (by simp)
  have hc := hs (w, w') (by simp)
  simp only at ha hb hc
  have hsum : ((1 - s) * u + s * u') + ((1 - s) * v + s * v') + ((1 - s) * w + s * w') = 1 := by linear_combination (1 - s) * h1 + s * h1'
  refine ⟨s, s0, s1, ?_⟩
  simp only [List.mem_cons, List.not_mem_nil, or_false] at hp
  simp only [Tri3.sides]
  rcases hp with rfl | rfl | rfl <;> simp only at e
  · refine ⟨(t.b, t.c), by simp, (1 - s) * w + s * w', hc, by linarith, ?_⟩
    have ev' : (1 - s) * v + s * v' = 1 - ((1 - s) * w + s * w') := by linear_combination hsum - e
    simp only [Geom.lerp, Pt.mk.injEq, ← ev', x1, y1, z1, x2, y2, z2]
    exact ⟨by linear_combination t.a.x * e, by linear_combination t.a.y * e, by linear_combination t.a.z * e⟩
  · refine ⟨(t.c, t.a), by simp, (1 - s) * u + s * u', ha, by linarith, ?_⟩
    have ev' : (1 - s) * w + s * w' = 1 - ((1 - s) * u + s * u') := by linear_combination hsum - e
    simp only [Geom.lerp, Pt.mk.injEq, ← ev', x1, y1, z1, x2, y2, z2]
    exact ⟨by linear_combination t.b.x * e, by linear_combination t.b.y * e, by linear_combination t.b.z * e⟩
  · refine ⟨(t.a, t.b), by simp, (1 - s) * v + s * v', hb, by linarith, ?_⟩
    have ev' : (1 - s) * u + s * u' = 1 - ((1 - s) * v + s * v') := by linear_combination hsum - e
    simp only [Geom.lerp, Pt.mk.injEq, ← ev', x1, y1, z1, x2, y2, z2]
    exact ⟨by linear_combination t.c.x * e, by linear_combination t.c.y * e, by linear_combination t.c.z * e⟩

/-- The plane of a face that contains a triangle is the plane of the triangle. -/
theorem plane_of_tri {A : Aff K} (hA : vdot A.n A.n ≠ 0) {t : Tri3 K} (hn : vdot t.plane.n t.plane.n ≠ 0) (ht : ∀ x ∈ t.corners, A.ev x = 0) : ∃ μ, μ ≠ 0 ∧ ∀ q, A.ev q = μ * t.plane.ev q := by
  have hpl := t.plane_corners
  have harea : area t.plane.n t.a t.b t.c ≠ 0 := by
    have : area t.plane.n t.a t.b t.c = vdot t.plane.n t.plane.n := by simp only [Tri3.plane, through, area, vdet, vdot, vsub]
    rw [this]; exact hn
  obtain ⟨μ, hμ⟩ := three_points (A := t.plane) (G := A) (hpl _ (by simp [Tri3.corners])) (hpl _ (by simp [Tri3.corners])) (hpl _ (by simp [Tri3.corners])) harea
    (ht _ (by simp [Tri3.corners])) (ht _ (by simp [Tri3.corners])) (ht _ (by simp [Tri3.corners]))
  refine ⟨μ, ?_, hμ⟩
  rintro rfl
  obtain ⟨y, hy⟩ := normal_point hA
  rw [hμ, zero_mul] at hy
  exact hy rfl

/-- **C100.** When no triangle passes through the inside of a cell, then a face in the plane of a triangle is covered by this triangle as a whole or not at all, provided that each side of the triangle is also
a side of a triangle that leaves the plane to the side of a cell of the face. -/
theorem c100_whole_faces {pos : Nat → Pt K} {pl : Nat → Aff K} {cl : List (Nat × Option Nat)} {fs : List Cycle} (g : Geo pos pl cl fs) (tri : Nat → Tri3 K) (n : Nat)
    (hpass : ∀ k, ∀ t < n, (∃ P ∈ cl, sg P k ≠ 0) → ¬ Passes (tri t) (Region pl cl k)) (i : Nat) (P : Nat × Option Nat) (c : Cycle) (hP : cl[i]? = some P) (hc : fs[i]? = some c) (t : Nat)
    (hn : vdot (tri t).plane.n (tri t).plane.n ≠ 0) (ht : ∀ x ∈ (tri t).corners, (pl i).ev x = 0)
    (hside : ∀ e ∈ (tri t).sides, ∃ t' < n, e.1 ∈ (tri t').corners ∧ e.2 ∈ (tri t').corners ∧ ∃ W ∈ (tri t').corners, ∃ k, sg P k ≠ 0 ∧ 0 < (sg P k : K) * (pl i).ev W)
    (q : Pt K) (hq : InsideFace pos (pl i) c q) (hqt : InTri (tri t) q) : ∀ x, InFace pos (pl i) c x → InTri (tri t) x := by
  intro x hx
  by_contra hout
  obtain ⟨μ, μ0, hμ⟩ := plane_of_tri (g.face i c hc).normal hn ht
  have hxt : (tri t).plane.ev x = 0 := by
    have := hx.1
    rw [hμ] at this
    exact (mul_eq_zero.1 this).resolve_left μ0
  obtain ⟨s, s0, s1, e, he, r, r0, r1, eb⟩ := hqt.leave hn hxt hout
  obtain ⟨t', ht', h1, h2, W, hW, k, hs, hWk⟩ := hside e he
  have hb := hx.toward hq s0 s1
  obtain ⟨v, v0, v1, hv⟩ := enter g hP hs hc hb hWk
  refine hpass k t' ht' ⟨P, List.mem_of_getElem? hP, hs⟩ ⟨_, ?_, hv v v0 (le_refl _)⟩
  rw [eb]
  exact ((InTri.corner h1).lerp (InTri.corner h2) r0 r1).lerp (InTri.corner hW) v0.le v1

end Verif.Bsp
