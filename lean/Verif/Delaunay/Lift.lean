import Verif.Delaunay.Reg
import Verif.InSphere.Props
/-!
# Lifting the points: one choice of heights that explains all answers of `insphere_s` and the treatment of the ghost vertex
-/
namespace Verif.Delaunay
open Tet
open InSphere (Pt orient3d insphere insphereS doubleToSign liftedDet perturbed Ori)

variable {K : Type} [Field K] [LinearOrder K]

/-- The direction of the height. -/
def up : Vec K := ![0, 0, 0, 1, 0]

/-- A point with a height. -/
def lifted (p : Pt K) (h : K) : Vec K := ![p.x, p.y, p.z, h, 1]

theorem br_lifted (a b c d e : Pt K) (ha hb hc hd he : K) :
    br (lifted a ha) (lifted b hb) (lifted c hc) (lifted d hd) (lifted e he) =
      -(ha * orient3d b c d e) + hb * orient3d a c d e - hc * orient3d a b d e + hd * orient3d a b c e - he * orient3d a b c d := by
  have := InSphere.liftedDet_eq (fun i => ([a, b, c, d, e]).getD i a) (fun i => ([ha, hb, hc, hd, he]).getD i ha) 0 1 2 3 4
  simp only [List.getD_cons_zero, List.getD_cons_succ] at this
  exact this

theorem br_up (a b c d : Pt K) (ha hb hc hd : K) : br (lifted a ha) (lifted b hb) (lifted c hc) (lifted d hd) up = - orient3d a b c d := by
  have e : (up : Vec K) = lifted a 1 - lifted a 0 := by ext i; fin_cases i <;> simp [up, lifted]
  rw [e, ← brL_apply, map_sub, brL_apply, brL_apply, br_lifted, br_lifted]
  ring

variable [IsStrictOrderedRing K]

/-- Heights under which all in-sphere answers are signs of determinants; the ghost vertex is far up, leaning away from the first four points. -/
structure Lift (at' : Nat → Pt K) (n p0 p1 p2 p3 : Nat) (V : Nat → Vec K) : Prop where
  point : ∀ i < n, ∃ h, V i = lifted (at' i) h
  ghost : ∃ M : K, V n = M • up - (V p0 + V p1 + V p2 + V p3)
  sphere : ∀ a b c d e, a < n → b < n → c < n → d < n → e < n → [a, b, c, d, e].Nodup → orient3d (at' a) (at' b) (at' c) (at' d) ≠ 0 →
    insphereS at' a b c d e = doubleToSign (br (V a) (V b) (V c) (V d) (V e)) ∧ insphereS at' a b c d e ≠ .zero
  far : ∀ a b c d, a < n → b < n → c < n → d < n → orient3d (at' a) (at' b) (at' c) (at' d) ≠ 0 →
    br (V a) (V b) (V c) (V d) (V n) * orient3d (at' a) (at' b) (at' c) (at' d) < 0
  half : ∃ l : Vec K →ₗ[K] K, ∀ q ≤ n, 0 < l (V q)
  ext : ∀ i < n, ∃ g : Vec K →ₗ[K] K, g (V i) = 0 ∧ ∀ q ≤ n, q ≠ i → 0 < g (V q)

theorem eventually_all_lt {n : Nat} {f : Filter K} {P : Nat → K → Prop} (h : ∀ i < n, ∀ᶠ s in f, P i s) : ∀ᶠ s in f, ∀ i < n, P i s := by
  have := (Filter.eventually_all_finset (Finset.range n)).2 (fun i hi => h i (Finset.mem_range.1 hi))
  filter_upwards [this] with s hs i hi
  exact hs i (Finset.mem_range.2 hi)

/-- The height above the tangent plane of the paraboloid at a point. -/
def tangent (p : Pt K) (c : K) : Vec K →ₗ[K] K :=
  LinearMap.proj 3 - (2 * p.x) • LinearMap.proj 0 - (2 * p.y) • LinearMap.proj 1 - (2 * p.z) • LinearMap.proj 2 + c • LinearMap.proj 4

omit [LinearOrder K] [IsStrictOrderedRing K] in
theorem tangent_lifted (p q : Pt K) (c h : K) : tangent p c (lifted q h) = h - 2 * p.x * q.x - 2 * p.y * q.y - 2 * p.z * q.z + c := by
  simp [tangent, lifted]

omit [LinearOrder K] [IsStrictOrderedRing K] in
theorem tangent_up (p : Pt K) (c : K) : tangent p c up = 1 := by simp [tangent, up]

theorem dist_pos {p q : Pt K} (h : p ≠ q) : 0 < (q.x - p.x) ^ 2 + (q.y - p.y) ^ 2 + (q.z - p.z) ^ 2 := by
  by_contra hcon
  have hx := sq_nonneg (q.x - p.x)
  have hy := sq_nonneg (q.y - p.y)
  have hz := sq_nonneg (q.z - p.z)
  have e1 : (q.x - p.x) ^ 2 = 0 := by linarith
  have e2 : (q.y - p.y) ^ 2 = 0 := by linarith
  have e3 : (q.z - p.z) ^ 2 = 0 := by linarith
  apply h
  obtain ⟨a, b, c⟩ := p
  obtain ⟨a', b', c'⟩ := q
  simp only [pow_eq_zero_iff (two_ne_zero), sub_eq_zero] at e1 e2 e3
  rw [e1, e2, e3]

/-- Such heights exist for distinct points. -/
theorem exists_lift (at' : Nat → Pt K) (n p0 p1 p2 p3 : Nat) (hd : ∀ i < n, ∀ j < n, i ≠ j → at' i ≠ at' j) (h0 : p0 < n) (h1 : p1 < n) (h2 : p2 < n) (h3 : p3 < n) :
    ∃ V, Lift at' n p0 p1 p2 p3 V := by
  classical
  -- the perturbation
  have hE : ∀ᶠ s : K in Filter.atTop, ∀ a < n, ∀ b < n, ∀ c < n, ∀ d < n, ∀ e < n, [a, b, c, d, e].Nodup → orient3d (at' a) (at' b) (at' c) (at' d) ≠ 0 →
      insphereS at' a b c d e = doubleToSign (liftedDet at' (perturbed at' s⁻¹) a b c d e) ∧ insphereS at' a b c d e ≠ .zero := by
    refine eventually_all_lt fun a ha => eventually_all_lt fun b hb => eventually_all_lt fun c hc => eventually_all_lt fun d hd' => eventually_all_lt fun e he => ?_
    by_cases hn : [a, b, c, d, e].Nodup ∧ orient3d (at' a) (at' b) (at' c) (at' d) ≠ 0
    · have hlt : ∀ i ∈ [a, b, c, d, e], i < n := by simp; omega
      obtain ⟨hz, δ, hδ, h⟩ := InSphere.c38_symbolic_perturbation at' a b c d e hn.1 (fun i hi j hj hij => hd i (hlt i hi) j (hlt j hj) hij) hn.2
      filter_upwards [Filter.eventually_gt_atTop δ⁻¹, Filter.eventually_gt_atTop 0] with s hs hs0 _ _
      exact ⟨h s⁻¹ (inv_pos.2 hs0) ((inv_lt_comm₀ hδ hs0).1 hs), hz⟩
    · filter_upwards with s h1 h2
      exact absurd ⟨h1, h2⟩ hn
  have hT : ∀ᶠ s : K in Filter.atTop, ∀ i < n, ∀ j < n, i ≠ j →
      s⁻¹ ^ (j + 1) < ((at' j).x - (at' i).x) ^ 2 + ((at' j).y - (at' i).y) ^ 2 + ((at' j).z - (at' i).z) ^ 2 + s⁻¹ ^ (i + 1) := by
    refine eventually_all_lt fun i hi => eventually_all_lt fun j hj => ?_
    by_cases hij : i = j
    · filter_upwards with s h; exact absurd hij h
    · have hd0 := dist_pos (hd i hi j hj hij)
      filter_upwards [Filter.eventually_gt_atTop 1, Filter.eventually_gt_atTop
        (((at' j).x - (at' i).x) ^ 2 + ((at' j).y - (at' i).y) ^ 2 + ((at' j).z - (at' i).z) ^ 2)⁻¹] with s h1 h2 _
      have s0 : 0 < s := by linarith
      have i0 : 0 < s⁻¹ := inv_pos.2 s0
      have i1 : s⁻¹ ≤ 1 := inv_le_one_of_one_le₀ h1.le
      have k1 : s⁻¹ ^ (j + 1) ≤ s⁻¹ := pow_le_of_le_one i0.le i1 (by omega)
      have k2 : s⁻¹ < ((at' j).x - (at' i).x) ^ 2 + ((at' j).y - (at' i).y) ^ 2 + ((at' j).z - (at' i).z) ^ 2 := (inv_lt_comm₀ hd0 s0).1 h2
      have k3 := pow_pos i0 (i + 1)
      linarith
  obtain ⟨s, hs, hsT⟩ := (hE.and hT).exists
  set W : Nat → Vec K := fun i => lifted (at' i) (perturbed at' s⁻¹ i) with hW
  have hC : ∀ᶠ C : K in Filter.atTop, ∀ i < n, 0 < perturbed at' s⁻¹ i + C := by
    refine eventually_all_lt fun i _ => ?_
    filter_upwards [Filter.eventually_gt_atTop (- perturbed at' s⁻¹ i)] with C h
    linarith
  obtain ⟨C, hC⟩ := hC.exists
  let l : Vec K →ₗ[K] K := LinearMap.proj 3 + C • LinearMap.proj 4
  have hlW : ∀ i < n, 0 < l (W i) := by
    intro i hi
    have := hC i hi
    simpa [l, hW, lifted] using this
  have hM1 : ∀ᶠ M : K in Filter.atTop, 0 < l (M • up - (W p0 + W p1 + W p2 + W p3)) := by
    filter_upwards [Filter.eventually_gt_atTop (l (W p0 + W p1 + W p2 + W p3))] with M h
    have e : l up = 1 := by simp [l, up]
    rw [map_sub, map_smul, e, smul_eq_mul]; linarith
  have hM2 : ∀ᶠ M : K in Filter.atTop, ∀ a < n, ∀ b < n, ∀ c < n, ∀ d < n, orient3d (at' a) (at' b) (at' c) (at' d) ≠ 0 →
      br (W a) (W b) (W c) (W d) (M • up - (W p0 + W p1 + W p2 + W p3)) * orient3d (at' a) (at' b) (at' c) (at' d) < 0 := by
    refine eventually_all_lt fun a ha => eventually_all_lt fun b hb => eventually_all_lt fun c hc => eventually_all_lt fun d hd' => ?_
    by_cases ho : orient3d (at' a) (at' b) (at' c) (at' d) = 0
    · filter_upwards with M h; exact absurd ho h
    · have hsq : 0 < orient3d (at' a) (at' b) (at' c) (at' d) * orient3d (at' a) (at' b) (at' c) (at' d) := mul_self_pos.2 ho
      filter_upwards [eventually_lt_mul (- (br (W a) (W b) (W c) (W d) (W p0 + W p1 + W p2 + W p3) * orient3d (at' a) (at' b) (at' c) (at' d))) hsq] with M h _
      have e : br (W a) (W b) (W c) (W d) (M • up - (W p0 + W p1 + W p2 + W p3)) = - (M * orient3d (at' a) (at' b) (at' c) (at' d)) - br (W a) (W b) (W c) (W d) (W p0 + W p1 + W p2 + W p3) := by
        rw [← brL_apply, map_sub, map_smul, brL_apply, brL_apply, hW, br_up, smul_eq_mul]; ring
      rw [e]
      linarith
  let g : Nat → Vec K →ₗ[K] K := fun i => tangent (at' i) (2 * ((at' i).x ^ 2 + (at' i).y ^ 2 + (at' i).z ^ 2) - perturbed at' s⁻¹ i)
  have hg0 : ∀ i, g i (W i) = 0 := by
    intro i; simp only [g, hW, tangent_lifted]; ring
  have hg1 : ∀ i < n, ∀ j < n, i ≠ j → 0 < g i (W j) := by
    intro i hi j hj hij
    have := hsT i hi j hj hij
    simp only [g, hW, tangent_lifted, perturbed, InSphere.lift]
    nlinarith
  have hM3 : ∀ᶠ M : K in Filter.atTop, ∀ i < n, 0 < g i (M • up - (W p0 + W p1 + W p2 + W p3)) := by
    refine eventually_all_lt fun i _ => ?_
    filter_upwards [Filter.eventually_gt_atTop (g i (W p0 + W p1 + W p2 + W p3))] with M h
    rw [map_sub, map_smul, show g i up = 1 from tangent_up _ _, smul_eq_mul]; linarith
  obtain ⟨M, hM1, hM2, hM3⟩ := (hM1.and (hM2.and hM3)).exists
  let V : Nat → Vec K := fun i => if i < n then W i else M • up - (W p0 + W p1 + W p2 + W p3)
  have hV : ∀ i < n, V i = W i := fun i hi => if_pos hi
  have hVn : V n = M • up - (W p0 + W p1 + W p2 + W p3) := if_neg (lt_irrefl n)
  refine ⟨V, ⟨fun i hi => ⟨_, hV i hi⟩, ⟨M, by rw [hVn, hV _ h0, hV _ h1, hV _ h2, hV _ h3]⟩, ?_, ?_, ⟨l, ?_⟩, fun i hi => ⟨g i, by rw [hV i hi]; exact hg0 i, ?_⟩⟩⟩
  · intro a b c d e ha hb hc hd' he hn ho
    rw [hV a ha, hV b hb, hV c hc, hV d hd', hV e he]
    exact hs a ha b hb c hc d hd' e he hn ho
  · intro a b c d ha hb hc hd' ho
    rw [hV a ha, hV b hb, hV c hc, hV d hd', hVn]
    exact hM2 a ha b hb c hc d hd' ho
  · intro q hq
    rcases Nat.lt_or_ge q n with h | h
    · rw [hV q h]; exact hlW q h
    · have : q = n := by omega
      rw [this, hVn]; exact hM1
  · intro q hq hne
    rcases Nat.lt_or_ge q n with h | h
    · rw [hV q h]; exact hg1 i hi q h (Ne.symm hne)
    · have : q = n := by omega
      rw [this, hVn]; exact hM3 i hi

end Verif.Delaunay
