import Verif.Delaunay.Grow
import Mathlib.Algebra.Module.Submodule.Union
import Mathlib.Algebra.BigOperators.Group.Finset.Basic
import Mathlib.Algebra.Order.BigOperators.Group.Finset
import Mathlib.Data.Finset.Card
import Mathlib.Tactic.LinearCombination
/-!
# A vertex of a regular complex with `k` other vertices has at most `2 k` tetrahedra

Take a generic vector and write it in terms of the corners of each tetrahedron at `p` and of an inner vector. Two of the three
coefficients at the corners other than `p` have the same sign. That sign and the third corner determine the tetrahedron.
-/
namespace Verif.Delaunay
open Tet

variable {K : Type} [Field K] [LinearOrder K] [IsStrictOrderedRing K]
variable {V : Nat → Vec K} {m : Mesh} {live U : Nat → Prop} (R : Reg V m live U)
include R

/-- The sum of all vectors lies on the positive side of every tetrahedron. -/
theorem Reg.inner (F : Finset Nat) (hF : ∀ q, U q ↔ q ∈ F) {t : Nat} {x : Tet.Tet} (hl : live t) (hx : m.tets[t]? = some x) :
    0 < phi V x (∑ q ∈ F, V q) := by
  have hs := sees_of_get (h := ⟨t, 0⟩) hx
  obtain ⟨g, y, e, gl, hg, gs⟩ := glued_sees R.cons (h := ⟨t, 0⟩) hl hs
  have hne := R.oppo_ne (h := ⟨t, 0⟩) hl gl hs gs
  have n := gs.ne (R.inj gl gs.get)
  have hU := (R.memO gl gs).2.2.2
  rw [map_sum]
  refine Finset.sum_pos' (fun q hq => R.nonneg hl hx ((hF q).2 hq)) ⟨e, (hF e).1 hU, ?_⟩
  have := R.spos (h := ⟨t, 0⟩) hl hs hU (Ne.symm n.2.2.2.2.1) (Ne.symm n.2.2.1) (Ne.symm n.2.2.2.2.2) (Ne.symm hne)
  rwa [← hs.phi] at this

/-- A vector in general position. -/
theorem Reg.generic (w : Vec K) (hw : ∀ t x, live t → m.tets[t]? = some x → 0 < phi V x w) :
    ∃ v : Vec K, ∀ (h : TriFace) x a b c d, live h.tet → Sees m h x a b c d → br (V a) (V b) (V c) v w ≠ 0 := by
  let cor : Fin m.tets.length → Fin 4 → Nat := fun t => (m.tets[t]).data
  let ι := {t : Fin m.tets.length // live t.val} × Ver
  let f : ι → Module.Dual K (Vec K) := fun i => brL (V (cor i.1 (orgPivot i.2))) (V (cor i.1 (destPivot i.2))) (V (cor i.1 (apexPivot i.2))) w
  haveI : Infinite K := inferInstance
  obtain ⟨v, hv⟩ := Module.Dual.exists_forall_ne_zero_of_forall_exists f (by
    rintro ⟨⟨t, ht⟩, v⟩
    have hx : m.tets[t.val]? = some m.tets[t] := List.getElem?_eq_getElem t.2
    have hs := sees_of_get (h := ⟨t.val, v⟩) hx
    refine ⟨V (cor t (oppoPivot v)), ?_⟩
    have h1 := hw _ _ ht hx
    rw [hs.phi] at h1
    show brL _ _ _ w _ ≠ 0
    rw [brL_apply, br_34]
    exact neg_ne_zero.2 h1.ne')
  refine ⟨v, ?_⟩
  intro h x a b c d hl hs
  have hlt := (List.getElem?_eq_some_iff.1 hs.get)
  have := hv (⟨⟨h.tet, hlt.1⟩, hl⟩, h.ver)
  have hxe : m.tets[h.tet]'hlt.1 = x := hlt.2
  simp only [f, cor, brL_apply] at this
  rw [br_34] at this
  simp only [Fin.getElem_fin, hxe, hs.org, hs.dest, hs.apex] at this
  exact fun h0 => this (by rw [h0, neg_zero])

omit R in
/-- The tetrahedron of the handle has corners `p`, `u` and two more at which the coefficients of `v` have the sign `σ`. -/
def SameSign (V : Nat → Vec K) (m : Mesh) (v w : Vec K) (p : Nat) (σ : K) (u : Nat) (h : TriFace) : Prop :=
  ∃ x a b, Sees m h x p u a b ∧ 0 < σ * br (V p) (V u) (V a) v w ∧ 0 < σ * br (V p) (V b) (V u) v w

omit R in
theorem exists_sameSign {v w : Vec K} {h : TriFace} {x : Tet.Tet} {p b c d : Nat} (hs : Sees m h x p b c d)
    (hv : ∀ (h : TriFace) x a b c d, live h.tet → Sees m h x a b c d → br (V a) (V b) (V c) v w ≠ 0) (hl : live h.tet) :
    ∃ σ, (σ = 1 ∨ σ = -1) ∧ ∃ g u, g.tet = h.tet ∧ SameSign V m v w p σ u g := by
  have h1 := hv _ _ _ _ _ _ hl hs
  have h2 := hv h.eprevEsym _ _ _ _ _ hl hs.eprevEsym
  have h3 := hv h.eprevEsym.eprevEsym _ _ _ _ _ hl hs.eprevEsym.eprevEsym
  have key : ∀ k1 k2 k3 : K, k1 ≠ 0 → k2 ≠ 0 → k3 ≠ 0 → ∃ σ : K, (σ = 1 ∨ σ = -1) ∧
      ((0 < σ * k1 ∧ 0 < σ * k3) ∨ (0 < σ * k2 ∧ 0 < σ * k1) ∨ (0 < σ * k3 ∧ 0 < σ * k2)) := by
    intro k1 k2 k3 n1 n2 n3
    rcases lt_or_gt_of_ne n1 with a1 | a1 <;> rcases lt_or_gt_of_ne n2 with a2 | a2 <;> rcases lt_or_gt_of_ne n3 with a3 | a3
    · exact ⟨-1, .inr rfl, .inl ⟨by linarith, by linarith⟩⟩
    · exact ⟨-1, .inr rfl, .inr (.inl ⟨by linarith, by linarith⟩)⟩
    · exact ⟨-1, .inr rfl, .inl ⟨by linarith, by linarith⟩⟩
    · exact ⟨1, .inl rfl, .inr (.inr ⟨by linarith, by linarith⟩)⟩
    · exact ⟨-1, .inr rfl, .inr (.inr ⟨by linarith, by linarith⟩)⟩
    · exact ⟨1, .inl rfl, .inl ⟨by linarith, by linarith⟩⟩
    · exact ⟨1, .inl rfl, .inr (.inl ⟨by linarith, by linarith⟩)⟩
    · exact ⟨1, .inl rfl, .inl ⟨by linarith, by linarith⟩⟩
  obtain ⟨σ, hσ, hc⟩ := key _ _ _ h1 h2 h3
  refine ⟨σ, hσ, ?_⟩
  rcases hc with ⟨a1, a2⟩ | ⟨a1, a2⟩ | ⟨a1, a2⟩
  · exact ⟨h, b, rfl, x, c, d, hs, a1, a2⟩
  · exact ⟨h.eprevEsym, c, rfl, x, d, b, hs.eprevEsym, a1, a2⟩
  · exact ⟨h.eprevEsym.eprevEsym, d, rfl, x, b, c, hs.eprevEsym.eprevEsym, a1, a2⟩

theorem Reg.sameSign_uniq {v w : Vec K} {p u : Nat} {σ : K}
    {h g : TriFace} (hl : live h.tet) (gl : live g.tet) (hh : SameSign V m v w p σ u h) (hg : SameSign V m v w p σ u g) : h.tet = g.tet := by
  obtain ⟨x, a, b, hs, h1, h2⟩ := hh
  obtain ⟨y, a', b', gs, g1, g2⟩ := hg
  have e1 := cramer_apply (phi V y) (V p) (V u) (V a) (V b) w v
  have e2 := cramer_apply (phi V x) (V p) (V u) (V a') (V b') w v
  have cy : ∀ b : Nat, br (V p) (V u) v (V b) w = br (V p) (V b) (V u) v w := by
    intro b
    rw [br_23, ← br_12]
  have z : ∀ (z : Tet.Tet) q, (∃ i, z.data i = q) → phi V z (V q) = 0 := by
    rintro z q ⟨i, rfl⟩; exact phi_corner z i
  have zx := hs.corner
  have zy := gs.corner
  rw [cy, z y p ((zy p).2 (by simp)), z y u ((zy u).2 (by simp)), ← hs.phi, ← hs.phi] at e1
  rw [cy, z x p ((zx p).2 (by simp)), z x u ((zx u).2 (by simp)), ← gs.phi, ← gs.phi] at e2
  obtain ⟨-, -, ua, ub⟩ := R.memO hl hs
  obtain ⟨-, -, ua', ub'⟩ := R.memO gl gs
  have p1 := R.nonneg gl gs.get ua
  have p2 := R.nonneg gl gs.get ub
  have p3 := R.nonneg hl hs.get ua'
  have p4 := R.nonneg hl hs.get ub'
  have s0 : σ * br (V p) (V b) (V u) v w * phi V y (V a) + σ * br (V p) (V u) (V a) v w * phi V y (V b) +
      (σ * br (V p) (V b') (V u) v w * phi V x (V a') + σ * br (V p) (V u) (V a') v w * phi V x (V b')) = 0 := by
    linear_combination (-σ) * e1 + (-σ) * e2
  have q1 := mul_nonneg h2.le p1
  have q2 := mul_nonneg h1.le p2
  have q3 := mul_nonneg g2.le p3
  have q4 := mul_nonneg g1.le p4
  have k1 : phi V y (V a) = 0 := by
    rcases mul_eq_zero.1 (by linarith : σ * br (V p) (V b) (V u) v w * phi V y (V a) = 0) with h | h
    · exact absurd h h2.ne'
    · exact h
  have k2 : phi V y (V b) = 0 := by
    rcases mul_eq_zero.1 (by linarith : σ * br (V p) (V u) (V a) v w * phi V y (V b) = 0) with h | h
    · exact absurd h h1.ne'
    · exact h
  have c : ∀ q, U q → phi V y (V q) = 0 → q = p ∨ q = u ∨ q = a' ∨ q = b' := by
    intro q hq h0
    rw [← zy]
    by_contra hcon
    push Not at hcon
    exact (R.pos _ _ q gl gs.get hq hcon).ne' h0
  exact R.same hl gl hs gs (by simp) (by simp) (c a ua k1) (c b ub k2)

/-- A vertex of a regular complex with `k` other vertices has at most `2 k` tetrahedra. -/
theorem Reg.star_card (p : Nat) (F : Finset Nat) (hF : ∀ q, U q ↔ q ∈ F) (T : Finset Nat)
    (hT : ∀ t ∈ T, live t ∧ ∃ x, m.tets[t]? = some x ∧ ∃ i, x.data i = p) : T.card ≤ 2 * (F.erase p).card := by
  classical
  have hw : ∀ t x, live t → m.tets[t]? = some x → 0 < phi V x (∑ q ∈ F, V q) := fun t x hl hx => R.inner F hF hl hx
  set w := ∑ q ∈ F, V q
  obtain ⟨v, hv⟩ := R.generic w hw
  have hex : ∀ t : {t // t ∈ T}, ∃ k : Bool × Nat, k.2 ∈ F.erase p ∧ ∃ g : TriFace, g.tet = t.val ∧
      SameSign V m v w p (if k.1 then 1 else -1) k.2 g := by
    rintro ⟨t, ht⟩
    obtain ⟨hl, x, hx, i, hi⟩ := hT t ht
    obtain ⟨v', hv'⟩ : ∃ v' : Ver, orgPivot v' = i := by
      have : ∀ i : Fin 4, ∃ v' : Ver, orgPivot v' = i := by decide +kernel
      exact this i
    have hs : Sees m ⟨t, v'⟩ x p _ _ _ := ⟨hx, by rw [hv', hi], rfl, rfl, rfl⟩
    obtain ⟨σ, hσ, g, u, hg, hss⟩ := exists_sameSign (h := ⟨t, v'⟩) hs hv hl
    have hu : u ∈ F.erase p := by
      obtain ⟨x', a, b, hs', -⟩ := hss
      have hgl : live g.tet := by rw [hg]; exact hl
      exact Finset.mem_erase.2 ⟨Ne.symm (hs'.ne (R.inj hgl hs'.get)).1, (hF u).1 (R.memO hgl hs').2.1⟩
    rcases hσ with rfl | rfl
    · exact ⟨(true, u), hu, g, hg, hss⟩
    · exact ⟨(false, u), hu, g, hg, hss⟩
  choose key hk1 hk2 using hex
  have hinj : Function.Injective key := by
    intro s t hst
    obtain ⟨g, hg, h1⟩ := hk2 s
    obtain ⟨g', hg', h2⟩ := hk2 t
    rw [hst] at h1
    have := R.sameSign_uniq (by rw [hg]; exact (hT _ s.2).1) (by rw [hg']; exact (hT _ t.2).1) h1 h2
    rw [hg, hg'] at this
    exact Subtype.ext this
  have h1 : T.card = (T.attach.image key).card := by rw [Finset.card_image_of_injective _ hinj, Finset.card_attach]
  rw [h1]
  calc (T.attach.image key).card ≤ ((Finset.univ : Finset Bool) ×ˢ (F.erase p)).card := by
        apply Finset.card_le_card
        intro k hk
        obtain ⟨t, -, rfl⟩ := Finset.mem_image.1 hk
        exact Finset.mem_product.2 ⟨Finset.mem_univ _, hk1 t⟩
    _ = 2 * (F.erase p).card := by rw [Finset.card_product]; rfl

end Verif.Delaunay
