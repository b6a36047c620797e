import Verif.Constraint.Tests
/-!
# A segment between two vertices of a Delaunay tetrahedralization
-/
namespace Verif.Constraint
open InSphere (Pt orient3d)
open Tet (Mesh TriFace)
open Delaunay (Comb SolidTet IsDelaunay pt get_pt)
open Geom

variable {K : Type} [Field K] [LinearOrder K] [IsStrictOrderedRing K] {m : Mesh} {pts : List (Pt K)}

/-! ### Affine functions -/

section
variable {p q s t : K}

/-- Value at `s` of the affine function with the values `p` at zero and `q` at one. -/
def aff (p q s : K) : K := (1 - s) * p + s * q

/-- The value at a point between. -/
theorem aff_between (h : s < t) {u : K} : (t - s) * aff p q u = (t - u) * aff p q s + (u - s) * aff p q t := by unfold aff; ring

theorem aff_neg_after (hst : s < t) (hs : 0 < aff p q s) (ht : aff p q t = 0) {u : K} (hu : t < u) : aff p q u < 0 := by
  have h := aff_between (p := p) (q := q) hst (u := u)
  rw [ht, mul_zero, add_zero] at h
  have : (t - s) * aff p q u < 0 := by rw [h]; exact mul_neg_of_neg_of_pos (by linarith) hs
  by_contra hc
  have := mul_nonneg (by linarith : 0 ≤ t - s) (not_lt.1 hc)
  linarith

theorem aff_pos_before (hst : s < t) (hs : 0 < aff p q s) (ht : aff p q t = 0) {u : K} (hu : u < t) : 0 < aff p q u := by
  have h := aff_between (p := p) (q := q) hst (u := u)
  rw [ht, mul_zero, add_zero] at h
  have h2 : 0 < (t - s) * aff p q u := by rw [h]; exact mul_pos (by linarith) hs
  by_contra hc
  have := mul_nonneg (by linarith : 0 ≤ t - s) (neg_nonneg.2 (not_lt.1 hc))
  linarith

theorem aff_pos_after (hst : s < t) (hs : aff p q s = 0) (ht : 0 < aff p q t) {u : K} (hu : s < u) : 0 < aff p q u := by
  have h := aff_between (p := p) (q := q) hst (u := u)
  rw [hs, mul_zero, zero_add] at h
  have h2 : 0 < (t - s) * aff p q u := by rw [h]; exact mul_pos (by linarith) ht
  by_contra hc
  have := mul_nonneg (by linarith : 0 ≤ t - s) (neg_nonneg.2 (not_lt.1 hc))
  linarith

theorem aff_zero (hst : s ≠ t) (hs : aff p q s = 0) (ht : aff p q t = 0) (u : K) : aff p q u = 0 := by
  have h : (t - s) * aff p q u = (t - u) * aff p q s + (u - s) * aff p q t := by unfold aff; ring
  rw [hs, ht, mul_zero, mul_zero, add_zero] at h
  exact (mul_eq_zero.1 h).resolve_left (sub_ne_zero.2 (Ne.symm hst))

/-- A zero after a positive value at zero and a positive value at `s` comes after `s`. -/
theorem aff_lt_of_pos (h0 : 0 < aff p q 0) (hs : 0 < aff p q s) (ht : aff p q t = 0) (t0 : 0 < t) : s < t := by
  by_contra hc
  rcases lt_or_eq_of_le (not_lt.1 hc) with h | h
  · have := aff_neg_after t0 h0 ht h
    linarith
  · rw [h] at ht; linarith

/-- A positive value comes after the zero of an increasing function. -/
theorem aff_lt_of_inc (hs : aff p q s = 0) (h1 : s < 1) (hp : 0 < aff p q 1) (ht : 0 < aff p q t) : s < t := by
  by_contra hc
  have h := aff_between (p := p) (q := q) h1 (u := t)
  rw [hs, mul_zero, zero_add] at h
  have h2 : 0 < (1 - s) * aff p q t := mul_pos (by linarith) ht
  have h3 : (t - s) * aff p q 1 ≤ 0 := mul_nonpos_of_nonpos_of_nonneg (by linarith [not_lt.1 hc]) hp.le
  linarith

/-- Nonnegative as near as you like, hence nonnegative. -/
theorem aff_nonneg_of_near (h : ∀ e, 0 < e → ∃ u, s < u ∧ u < s + e ∧ 0 ≤ aff p q u) : 0 ≤ aff p q s := by
  by_contra hc
  have hs := not_le.1 hc
  obtain ⟨u1, a1, b1, c1⟩ := h 1 one_pos
  obtain ⟨u, a, b, c⟩ := h (((-aff p q s) * (u1 - s)) / (aff p q u1 - aff p q s)) (div_pos (mul_pos (by linarith) (by linarith)) (by linarith))
  have hd : 0 < aff p q u1 - aff p q s := by linarith
  have h1 : u - s < ((-aff p q s) * (u1 - s)) / (aff p q u1 - aff p q s) := by linarith
  rw [lt_div_iff₀ hd] at h1
  have h2 := aff_between (p := p) (q := q) a1 (u := u)
  have h3 := mul_nonneg (by linarith : 0 ≤ u1 - s) c
  rw [h2] at h3
  nlinarith

end

/-! ### The points of the segment -/

/-- The coordinate along the segment is affine. -/
theorem Sol.aff (hD : IsDelaunay pts m) {t : Nat} {x : Tet.Tet} (S : Sol pts m t x) (v : Nat) (A B : Pt K) (s : K) : wt pts x v (lerp A B s) = aff (wt pts x v A) (wt pts x v B) s := S.wt_lerp hD v A B s

/-- Every point of the segment lies in a solid tetrahedron. -/
theorem covered (hD : IsDelaunay pts m) {a b : Nat} (ha : a < pts.length) (hb : b < pts.length) {s : K} (h0 : 0 ≤ s) (h1 : s ≤ 1) :
    ∃ t x, Sol pts m t x ∧ In pts x (lerp (pt pts a) (pt pts b) s) := by
  have hcomb : Comb (fun i : Fin pts.length => pts[i]) (fun i => (if i = ⟨a, ha⟩ then 1 - s else 0) + (if i = ⟨b, hb⟩ then s else 0)) (lerp (pt pts a) (pt pts b) s) := by
    have ea : pts[(⟨a, ha⟩ : Fin pts.length)] = pt pts a := Option.some.inj ((List.getElem?_eq_getElem ha).symm.trans (get_pt ha))
    have eb : pts[(⟨b, hb⟩ : Fin pts.length)] = pt pts b := Option.some.inj ((List.getElem?_eq_getElem hb).symm.trans (get_pt hb))
    constructor
    · rw [Finset.sum_add_distrib, Finset.sum_ite_eq', Finset.sum_ite_eq']; simp
    all_goals
      simp only [add_mul, ite_mul, zero_mul]
      rw [Finset.sum_add_distrib, Finset.sum_ite_eq', Finset.sum_ite_eq']
      simp only [Finset.mem_univ, if_true, ea, eb, lerp]
  obtain ⟨t, c, w, hs, hw, hc⟩ := hD.cover _ _ (fun i => add_nonneg (by split <;> linarith) (by split <;> linarith)) hcomb
  obtain ⟨x, hx, h3, hcx⟩ := hs
  have S : Sol pts m t x := ⟨hx, h3⟩
  refine ⟨t, x, S, (S.in_iff hD _).2 ⟨w, hw, ?_⟩⟩
  have : (fun j => pt pts (x.data j)) = c := by
    funext j
    exact Option.some.inj ((get_pt (S.lt hD j)).symm.trans (hcx j))
  rw [this]
  exact hc

theorem all_eps {n : Nat} {P : Nat → K → Prop} (h : ∀ i < n, ∃ e, 0 < e ∧ ∀ u, 0 < u → u < e → P i u) : ∃ e, 0 < e ∧ ∀ i < n, ∀ u, 0 < u → u < e → P i u := by
  induction n with
  | zero => exact ⟨1, one_pos, fun i hi => absurd hi (by omega)⟩
  | succ n ih =>
    obtain ⟨e1, p1, h1⟩ := ih fun i hi => h i (by omega)
    obtain ⟨e2, p2, h2⟩ := h n (by omega)
    refine ⟨min e1 e2, lt_min p1 p2, fun i hi u hu hue => ?_⟩
    by_cases hin : i = n
    · subst hin
      exact h2 u hu (lt_of_lt_of_le hue (min_le_right _ _))
    · exact h1 i (by omega) u hu (lt_of_lt_of_le hue (min_le_left _ _))

section
variable (hD : IsDelaunay pts m) {t : Nat} {x : Tet.Tet}
include hD

/-- The points of the segment in a tetrahedron are an interval. -/
theorem Sol.convex (S : Sol pts m t x) {A B : Pt K} {s u r : K} (hs : In pts x (lerp A B s)) (hr : In pts x (lerp A B r)) (h1 : s ≤ u) (h2 : u ≤ r) : In pts x (lerp A B u) := by
  intro v
  rcases lt_or_eq_of_le (h1.trans h2) with h | h
  · have e := aff_between (p := wt pts x v A) (q := wt pts x v B) h (u := u)
    have g1 := hs v
    have g2 := hr v
    rw [S.aff hD] at g1 g2 ⊢
    have : 0 ≤ (r - s) * Constraint.aff (wt pts x v A) (wt pts x v B) u := by
      rw [e]; exact add_nonneg (mul_nonneg (by linarith) g1) (mul_nonneg (by linarith) g2)
    exact nonneg_of_mul_nonneg_right this (by linarith)
  · have : u = s := by linarith
    rw [this]; exact hs v

/-- A tetrahedron is left at a last point, where a coordinate vanishes. -/
theorem Sol.exit (S : Sol pts m t x) {A B : Pt K} {s : K} (hs : s ≤ 1) (hin : In pts x (lerp A B s)) :
    ∃ r, s ≤ r ∧ r ≤ 1 ∧ In pts x (lerp A B r) ∧ (∀ u, r < u → u ≤ 1 → ¬ In pts x (lerp A B u)) ∧ (r < 1 → ∃ k, wt pts x k (lerp A B r) = 0 ∧ wt pts x k B < 0) := by
  by_cases h1 : In pts x (lerp A B 1)
  · exact ⟨1, hs, le_rfl, h1, fun u hu hu' => absurd hu (not_lt.2 hu'), fun h => absurd h (lt_irrefl _)⟩
  have hs1 : s < 1 := lt_of_le_of_ne hs (by rintro rfl; exact h1 hin)
  let f : Fin 4 → K → K := fun i u => Constraint.aff (wt pts x (x.data i) A) (wt pts x (x.data i) B) u
  have hf : ∀ i u, wt pts x (x.data i) (lerp A B u) = f i u := fun i u => S.aff hD _ _ _ _
  have hBl : lerp A B 1 = B := lerp_one A B
  have hf1 : ∀ i, f i 1 = wt pts x (x.data i) B := fun i => by rw [← hf, hBl]
  let N : Finset (Fin 4) := Finset.univ.filter fun i => f i 1 < 0
  have hN : N.Nonempty := by
    unfold In at h1
    push Not at h1
    obtain ⟨v, hv⟩ := h1
    obtain ⟨i, rfl⟩ := corner_of_wt hv.ne
    exact ⟨i, by simp only [N, Finset.mem_filter, Finset.mem_univ, true_and]; rw [hf] at hv; exact hv⟩
  let z : Fin 4 → K := fun i => s + (1 - s) * (f i s / (f i s - f i 1))
  obtain ⟨k, hk, hmin⟩ := N.exists_min_image z hN
  have hneg : ∀ i ∈ N, f i 1 < 0 := fun i hi => by simpa [N] using hi
  have hfs : ∀ i, 0 ≤ f i s := fun i => by rw [← hf]; exact hin _
  have hz : ∀ i ∈ N, s ≤ z i ∧ z i < 1 ∧ f i (z i) = 0 := by
    intro i hi
    have h2 := hneg i hi
    have h3 := hfs i
    have h4 : 0 < f i s - f i 1 := by linarith
    have h5 : 0 ≤ f i s / (f i s - f i 1) := div_nonneg h3 h4.le
    have h6 : f i s / (f i s - f i 1) < 1 := by rw [div_lt_one h4]; linarith
    refine ⟨?_, ?_, ?_⟩
    · have := mul_nonneg (by linarith : 0 ≤ 1 - s) h5
      simp only [z]; linarith
    · have := mul_lt_of_lt_one_right (by linarith : 0 < 1 - s) h6
      simp only [z]; linarith
    · have e : f i (z i) = f i s + (f i s / (f i s - f i 1)) * (f i 1 - f i s) := by simp only [f, z, Constraint.aff]; ring
      rw [e]
      field_simp
      ring
  obtain ⟨k1, k2, k3⟩ := hz k hk
  refine ⟨z k, k1, k2.le, fun v => ?_, fun u hu hu1 hu2 => ?_, fun _ => ⟨x.data k, by rw [hf]; exact k3, by rw [← hf1]; exact hneg k hk⟩⟩
  · by_cases hv : ∃ i, x.data i = v
    · obtain ⟨i, rfl⟩ := hv
      rw [hf]
      by_cases hi : i ∈ N
      · obtain ⟨i1, i2, i3⟩ := hz i hi
        have hle := hmin i hi
        rcases lt_or_eq_of_le i1 with h | h
        · have e := aff_between (p := wt pts x (x.data i) A) (q := wt pts x (x.data i) B) h (u := z k)
          have : 0 ≤ (z i - s) * f i (z k) := by
            show 0 ≤ (z i - s) * Constraint.aff (wt pts x (x.data i) A) (wt pts x (x.data i) B) (z k)
            rw [e]
            have g1 : Constraint.aff (wt pts x (x.data i) A) (wt pts x (x.data i) B) (z i) = 0 := i3
            have g2 : 0 ≤ Constraint.aff (wt pts x (x.data i) A) (wt pts x (x.data i) B) s := hfs i
            rw [g1, mul_zero, add_zero]
            exact mul_nonneg (by linarith) g2
          exact nonneg_of_mul_nonneg_right this (by linarith)
        · have : z k = z i := le_antisymm hle (by linarith)
          rw [this, i3]
      · have h3 : 0 ≤ f i 1 := by simpa [N] using hi
        have e := aff_between (p := wt pts x (x.data i) A) (q := wt pts x (x.data i) B) hs1 (u := z k)
        have : 0 ≤ (1 - s) * f i (z k) := by
          show 0 ≤ (1 - s) * Constraint.aff (wt pts x (x.data i) A) (wt pts x (x.data i) B) (z k)
          rw [e]
          exact add_nonneg (mul_nonneg (by linarith) (hfs i)) (mul_nonneg (by linarith) h3)
        exact nonneg_of_mul_nonneg_right this (by linarith)
    · push Not at hv
      rw [wt_none hv]
  · have g := hu2 (x.data k)
    rw [hf] at g
    have e := aff_between (p := wt pts x (x.data k) A) (q := wt pts x (x.data k) B) k2 (u := u)
    have g1 : Constraint.aff (wt pts x (x.data k) A) (wt pts x (x.data k) B) (z k) = 0 := k3
    rw [g1, mul_zero, zero_add] at e
    have h3 : (u - z k) * Constraint.aff (wt pts x (x.data k) A) (wt pts x (x.data k) B) 1 < 0 := mul_neg_of_pos_of_neg (by linarith) (hneg k hk)
    have h4 := mul_nonneg (by linarith : 0 ≤ 1 - z k) g
    simp only [f] at h4
    linarith

/-- After every point of the segment but the last comes a tetrahedron that contains the next piece of it. -/
theorem next_tet {a b : Nat} (ha : a < pts.length) (hb : b < pts.length) {s : K} (h0 : 0 ≤ s) (h1 : s < 1) :
    ∃ t x r, Sol pts m t x ∧ s < r ∧ r ≤ 1 ∧ In pts x (lerp (pt pts a) (pt pts b) s) ∧ In pts x (lerp (pt pts a) (pt pts b) r) ∧
      (∀ u, r < u → u ≤ 1 → ¬ In pts x (lerp (pt pts a) (pt pts b) u)) ∧
      (r < 1 → ∃ k, wt pts x k (lerp (pt pts a) (pt pts b) r) = 0 ∧ 0 < wt pts x k (lerp (pt pts a) (pt pts b) s)) := by
  -- a tetrahedron with points as near as you like
  have near : ∃ t x, Sol pts m t x ∧ ∀ e, 0 < e → ∃ u, s < u ∧ u < s + e ∧ u ≤ 1 ∧ In pts x (lerp (pt pts a) (pt pts b) u) := by
    by_contra hc
    push Not at hc
    obtain ⟨e, he, hall⟩ := all_eps (n := m.tets.length) (P := fun t u => ∀ x, Sol pts m t x → s + u ≤ 1 → ¬ In pts x (lerp (pt pts a) (pt pts b) (s + u))) (by
      intro t ht
      by_cases hS : ∃ x, Sol pts m t x
      · obtain ⟨x, S⟩ := hS
        obtain ⟨e, he, h⟩ := hc t x S
        refine ⟨e, he, fun u hu hue y S' hle => ?_⟩
        have : y = x := Option.some.inj (S'.get.symm.trans S.get)
        subst this
        exact h (s + u) (by linarith) (by linarith) hle
      · exact ⟨1, one_pos, fun u _ _ x S => absurd ⟨x, S⟩ hS⟩)
    have hm : 0 < min (e / 2) (1 - s) := lt_min (by linarith) (by linarith)
    have hle : s + min (e / 2) (1 - s) ≤ 1 := by linarith [min_le_right (e / 2) (1 - s)]
    obtain ⟨t, x, S, hin⟩ := covered hD ha hb (s := s + min (e / 2) (1 - s)) (by linarith) hle
    exact hall t (List.getElem?_eq_some_iff.1 S.get).1 _ hm (by linarith [min_le_left (e / 2) (1 - s)]) x S hle hin
  obtain ⟨t, x, S, hn⟩ := near
  obtain ⟨u, hu, -, hu1, hin⟩ := hn 1 one_pos
  obtain ⟨r, hr1, hr2, hr3, hr4, hr5⟩ := S.exit hD hu1 hin
  refine ⟨t, x, r, S, by linarith, hr2, fun v => ?_, hr3, hr4, fun h => ?_⟩
  · rw [S.aff hD]
    refine aff_nonneg_of_near fun e he => ?_
    obtain ⟨w, w1, w2, -, w3⟩ := hn e he
    exact ⟨w, w1, w2, by rw [← S.aff hD]; exact w3 v⟩
  · obtain ⟨k, k1, k2⟩ := hr5 h
    refine ⟨k, k1, ?_⟩
    rw [S.aff hD] at k1 ⊢
    have e := aff_between (p := wt pts x k (pt pts a)) (q := wt pts x k (pt pts b)) h (u := s)
    have g : Constraint.aff (wt pts x k (pt pts a)) (wt pts x k (pt pts b)) 1 = wt pts x k (pt pts b) := by simp [Constraint.aff]
    rw [k1, mul_zero, zero_add, g] at e
    have h3 : 0 < (s - r) * wt pts x k (pt pts b) := mul_pos_of_neg_of_neg (by linarith) k2
    rw [← e] at h3
    exact (mul_pos_iff_of_pos_left (by linarith)).1 h3

end

end Verif.Constraint
