import Verif.Delaunay.Count
/-!
# No vertex disappears inside a cavity
-/
namespace Verif.Delaunay
open Tet

variable {K : Type} [Field K] [LinearOrder K] [IsStrictOrderedRing K]
variable {V : Nat → Vec K} {m : Mesh} {live U : Nat → Prop} (R : Reg V m live U)
include R

/-- A vertex that is extreme, also compared with `p`, and is a corner of a tetrahedron in conflict with `p`, lies on the boundary
of the cavity. -/
theorem Reg.keeps {p : Vec K} {v : Nat} (F : Finset Nat) (hF : ∀ q, U q ↔ q ∈ F) (g : Vec K →ₗ[K] K) (hgv : g (V v) = 0)
    (hg : ∀ q, U q → q ≠ v → 0 < g (V q)) (hgp : 0 < g p) {t0 : Nat} {x0 : Tet.Tet} (h0 : InConflict V m live p t0)
    (hx0 : m.tets[t0]? = some x0) (hv0 : ∃ i, x0.data i = v) (hvU : U v) :
    ∃ H y a b c d, Outer m live (InConflict V m live p) H ∧ Sees m H y a b c d ∧ (v = a ∨ v = b ∨ v = c) := by
  classical
  by_contra hno
  have hw : ∀ t x, live t → m.tets[t]? = some x → 0 < phi V x (∑ q ∈ F, V q) := fun t x hl hx => R.inner F hF hl hx
  have hgO : 0 ≤ g (∑ q ∈ F, V q) := by
    rw [map_sum]
    refine Finset.sum_nonneg fun q hq => ?_
    by_cases h : q = v
    · rw [h, hgv]
    · exact (hg q ((hF q).2 hq) h).le
  set O := ∑ q ∈ F, V q
  let P : Nat → Prop := fun t => InConflict V m live p t ∧ ∃ x, m.tets[t]? = some x ∧ ∃ i, x.data i = v
  have hev : ∀ᶠ s : K in Filter.atTop, ∀ t ∈ Finset.range m.tets.length, ∀ t' ∈ Finset.range m.tets.length, ∀ x y,
      live t → live t' → m.tets[t]? = some x → m.tets[t']? = some y → (∀ i, y.data i ≠ v) →
      phi V x O * phi V y p - phi V x p * phi V y O < s * (phi V x O * phi V y (V v)) := by
    refine (Filter.eventually_all_finset _).2 fun t ht => (Filter.eventually_all_finset _).2 fun t' ht' => ?_
    rw [Finset.mem_range] at ht ht'
    by_cases h : live t ∧ live t' ∧ ∀ i, (m.tets[t']).data i ≠ v
    · have hx := List.getElem?_eq_getElem ht
      have hy := List.getElem?_eq_getElem ht'
      have a0 := mul_pos (hw _ _ h.1 hx) (R.pos _ _ v h.2.1 hy hvU h.2.2)
      filter_upwards [eventually_lt_mul (phi V m.tets[t] O * phi V m.tets[t'] p - phi V m.tets[t] p * phi V m.tets[t'] O) a0] with s hs x y _ _ hx' hy' _
      rw [hx] at hx'; cases hx'
      rw [hy] at hy'; cases hy'
      exact hs
    · filter_upwards with s x y h1 h2 _ hy' h3
      rw [List.getElem?_eq_getElem ht'] at hy'; cases hy'
      exact absurd ⟨h1, h2, h3⟩ h
  obtain ⟨s, hs⟩ := hev.exists
  have hlt : ∀ {t : Nat} {x : Tet.Tet}, m.tets[t]? = some x → t ∈ Finset.range m.tets.length := fun hx =>
    Finset.mem_range.2 (List.getElem?_eq_some_iff.1 hx).1
  have hz : ∀ x : Tet.Tet, phi V x (s • V v - p) = s * phi V x (V v) - phi V x p := fun x => by
    rw [map_sub, map_smul, smul_eq_mul]
  have hzv : ∀ x : Tet.Tet, (∃ i, x.data i = v) → phi V x (s • V v - p) = - phi V x p := by
    rintro x ⟨i, hi⟩
    have := phi_corner (V := V) x i
    rw [hi] at this
    rw [hz, this]; ring
  obtain ⟨t, x, hPt, hx, hf⟩ := R.walk P (fun t ht => ht.1.1) (s • V v - p) O (fun t x ht hx => hw t x ht.1.1 hx) (by
    intro h g' x y a b c d e hP gl hglue hsee gsee hlow
    obtain ⟨⟨hl, x', hx', hneg⟩, x'', hx'', hvx⟩ := hP
    rw [hsee.get] at hx' hx''; cases hx'; cases hx''
    by_cases hvy : ∃ i, y.data i = v
    · refine ⟨⟨gl, y, gsee.get, ?_⟩, y, gsee.get, hvy⟩
      by_contra hcon
      apply hno
      refine ⟨g', y, b, a, c, e, ⟨gl, ?_, h, hglue.bwd, hl, x, hsee.get, hneg⟩, gsee, ?_⟩
      · rintro ⟨-, y', hy', hn⟩
        rw [gsee.get] at hy'; cases hy'
        exact hcon hn
      · have h1 := (hsee.corner v).1 hvx
        have h2 := (gsee.corner v).1 hvy
        have hde := R.oppo_ne hl gl hsee gsee
        rcases h2 with h2 | h2 | h2 | h2
        · exact .inl h2
        · exact .inr (.inl h2)
        · exact .inr (.inr h2)
        · exfalso
          have n2 := gsee.ne (R.inj gl gsee.get)
          rcases h1 with h1 | h1 | h1 | h1
          · exact n2.2.2.2.2.1 (h1.symm.trans h2)
          · exact n2.2.2.1 (h1.symm.trans h2)
          · exact n2.2.2.2.2.2 (h1.symm.trans h2)
          · exact hde (h1.symm.trans h2)
    · exfalso
      push Not at hvy
      have k := hs _ (hlt hsee.get) _ (hlt gsee.get) x y hl gl hsee.get gsee.get hvy
      rw [hz y, hzv x hvx] at hlow
      linarith) t0 ⟨h0, x0, hx0, hv0⟩
  obtain ⟨⟨hl, x', hx', hneg⟩, x'', hx'', hvx⟩ := hPt
  rw [hx] at hx' hx''; cases hx'; cases hx''
  have k := hf g (fun i => by
    by_cases h : x.data i = v
    · rw [h, hgv]
    · exact (hg _ (R.mem _ _ _ hl hx) h).le)
  rw [hzv x hvx, map_sub, map_smul, hgv, smul_zero, zero_sub] at k
  have h1 := mul_nonneg (neg_nonneg.2 hneg.le) hgO
  have h2 := mul_pos (hw _ _ hl hx) hgp
  linarith

end Verif.Delaunay
