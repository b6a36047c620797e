import Verif.Constraint.SideWalk
/-!
# The tetrahedra that the sides of a constraint touch
-/
namespace Verif.Constraint
open InSphere (Pt orient3d)
open Tet (Mesh TriFace face vpivot)
open Delaunay (Comb SolidTet IsDelaunay pt get_pt)
open Geom

variable {K : Type} [Field K] [LinearOrder K] [IsStrictOrderedRing K] {m : Mesh} {pts : List (Pt K)} {a b : Nat}
local notation "P" => lerp (pt pts a) (pt pts b)

section
variable (hD : IsDelaunay pts m) {t : Nat} {x : Tet.Tet} {s : K}
include hD

/-- Between two points of a tetrahedron lie no others than those that contain the first. -/
theorem star_between (S : Sol pts m t x) {r τ : K} (hs : In pts x (P s)) (hr : In pts x (P r)) (h1 : s ≤ τ) (h2 : τ < r) {w : Nat} {z : Tet.Tet} (Z : Sol pts m w z) (hz : In pts z (P τ)) : In pts z (P s) := by
  have hsr : s < r := lt_of_le_of_lt h1 h2
  have hτ := S.convex hD hs hr h1 h2.le
  refine S.in_of_carriers hD Z hs fun v hv => ?_
  refine corner_of_wt (pts := pts) (p := P τ) ?_
  rw [Z.agree hD S hz hτ]
  have e0 := S.aff hD v (pt pts a) (pt pts b) s
  have e1 := S.aff hD v (pt pts a) (pt pts b) r
  have e2 := S.aff hD v (pt pts a) (pt pts b) τ
  have hb := aff_between (p := wt pts x v (pt pts a)) (q := wt pts x v (pt pts b)) hsr (u := τ)
  rw [← e0, ← e1, ← e2] at hb
  have p1 : 0 < (r - τ) * wt pts x v (P s) := mul_pos (by linarith) hv
  have p2 : 0 ≤ (τ - s) * wt pts x v (P r) := mul_nonneg (by linarith) (hr v)
  have p3 : 0 < (r - s) * wt pts x v (P τ) := by linarith
  exact (pos_of_mul_pos_right p3 (by linarith)).ne'

/-- One round of the loop. -/
theorem round_spec (ha : a < pts.length) (hb : b < pts.length) (hab : a ≠ b) {fuel : Nat} (hf : m.tets.length < fuel) {l : List Nat} (L : Leaves pts m a b t x l s) (h0 : 0 ≤ s) (h1 : s < 1)
    {σ : Info} (ok : σ.Ok) (hvis : t ∈ σ.visited) :
    ∃ r, StepOk pts m a b s σ r ∧ ∀ n, sideLoop pts a b fuel (n + 1) m σ t l = sideLoop pts a b fuel n m r.1 r.2.1 r.2.2 := by
  have corner : ∀ v ∈ l, ∃ i, x.data i = v := fun v hv => corner_of_wt (pts := pts) (p := P s) ((L.carry v).1 hv).ne'
  have inj := L.sol.inj hD
  have nb : ∀ v ∈ l, v ≠ b := by
    rintro v hv rfl
    apply L.beyond 1 h1 le_rfl
    rw [lerp_one]
    exact (L.sol.in_vertex hD hb).2 (corner _ hv)
  have hidx : ∀ i, x.index (x.data i) = some i := by
    intro i
    obtain ⟨p, e, h⟩ := Tet.Mesh.index_spec (x := x) (v := x.data i) ⟨i, rfl⟩
    rw [e, inj h]
  have hnum : ∀ v ∈ l, v < pts.length := fun v hv => by
    obtain ⟨i, rfl⟩ := corner v hv
    exact L.sol.lt hD i
  match l, L, corner, nb, hnum with
  | [], L, _, _, _ =>
    exfalso
    have hz : ∀ v, wt pts x v (P s) = 0 := by
      intro v
      by_contra hne
      have := (L.carry v).2 (lt_of_le_of_ne (L.inn v) (Ne.symm hne))
      simp at this
    have := (L.sol.comb hD (P s)).sum
    simp [hz] at this
  | [v], L, corner, nb, hnum =>
    obtain ⟨i, rfl⟩ := corner v (by simp)
    have hvP : pt pts (x.data i) = P s := by
      have hz : ∀ j, j ≠ i → wt pts x (x.data j) (P s) = 0 := by
        intro j hj
        by_contra hne
        have := (L.carry _).2 (lt_of_le_of_ne (L.inn (x.data j)) (Ne.symm hne))
        simp only [List.mem_cons, List.not_mem_nil, or_false] at this
        exact hj (inj this)
      have hc := L.sol.comb hD (P s)
      have h1' : wt pts x (x.data i) (P s) = 1 := by
        have := hc.sum
        rwa [Finset.sum_eq_single i (fun j _ hj => hz j hj) (by simp)] at this
      have hx := hc.x
      have hy := hc.y
      have hzz := hc.z
      rw [Finset.sum_eq_single i (fun j _ hj => by rw [hz j hj, zero_mul]) (by simp), h1', one_mul] at hx hy hzz
      generalize P s = q at *
      cases q
      simp only at hx hy hzz
      subst hx hy hzz
      rfl
    obtain ⟨r, e, h⟩ := vertexOnSide_spec hD ha hb hab hf (hnum _ (by simp)) hvP h0 h1 (prev := some t) (by
      intro t' x' e S' u u0 u1
      cases e
      have : x' = x := Option.some.inj (S'.get.symm.trans L.sol.get)
      subst this
      exact L.beyond u u0 u1) ok
    refine ⟨r, h, fun n => ?_⟩
    conv_lhs => unfold sideLoop
    rw [List.getElem?_cons_zero, some_bind, if_neg (nb _ (by simp))]
    dsimp only
    rw [e, some_bind]
  | [v0, v1], L, corner, nb, hnum =>
    obtain ⟨i, rfl⟩ := corner v0 (by simp)
    obtain ⟨j, rfl⟩ := corner v1 (by simp)
    have hij : i ≠ j := by
      rintro rfl
      simpa using L.nodup
    obtain ⟨v, ev, ho, hd⟩ := findEdge_spec L.sol.get inj hij
    obtain ⟨r, e, h⟩ := edgeCross_spec hD ha hb hab hf.le L h0 h1 (edge := ⟨t, v⟩) rfl (by simp [Mesh.org, L.sol.get, ho]) (by simp [Mesh.dest, L.sol.get, hd]) ok hvis
    refine ⟨r, h, fun n => ?_⟩
    conv_lhs => unfold sideLoop
    rw [List.getElem?_cons_zero, some_bind, if_neg (nb _ (by simp))]
    dsimp only
    rw [L.sol.get, some_bind, hidx, some_bind, ev, some_bind, e, some_bind]
  | [v0, v1, v2], L, corner, nb, hnum =>
    obtain ⟨i, rfl⟩ := corner v0 (by simp)
    obtain ⟨j, rfl⟩ := corner v1 (by simp)
    obtain ⟨k, rfl⟩ := corner v2 (by simp)
    have hn := L.nodup
    simp only [List.nodup_cons, List.mem_cons, List.not_mem_nil, or_false, not_or, inj.eq_iff, not_false_eq_true, List.nodup_nil, and_true] at hn
    obtain ⟨v, ev, ho, hda⟩ := findFace_spec L.sol.get inj hn.1.1 hn.1.2 hn.2
    have hcar : ∀ w, 0 < wt pts x w (P s) ↔ w = x.data (Tet.orgPivot v) ∨ w = x.data (Tet.destPivot v) ∨ w = x.data (Tet.apexPivot v) := by
      intro w
      rw [← L.carry, ho]
      simp only [List.mem_cons, List.not_mem_nil, or_false]
      rcases hda with ⟨h, h'⟩ | ⟨h, h'⟩ <;> rw [h, h']
      exact or_congr_right or_comm
    obtain ⟨t', y, l', e, hg, S', hin', hall⟩ := facePierced_spec hD ha hb (tri := ⟨t, v⟩) L.sol (by simp [Mesh.org, L.sol.get]) (by simp [Mesh.dest, L.sol.get]) (by simp [Mesh.apex, L.sol.get]) h0 h1 L.inn hcar L.beyond σ
    obtain ⟨k1, k2⟩ := ok.touch t'
    refine ⟨(σ.touch t', t', l'), ⟨hg, k1, fun w => ?_⟩, fun n => ?_⟩
    · rw [k2]
      constructor
      · rintro (h | rfl)
        · exact .inl h
        · exact .inr ⟨y, S', hin'⟩
      · rintro (h | ⟨z, Z, hz⟩)
        · exact .inl h
        · rcases hall w z Z hz with h | h
          · subst h
            exact .inl hvis
          · exact .inr h
    · conv_lhs => unfold sideLoop
      rw [List.getElem?_cons_zero, some_bind, if_neg (nb _ (by simp))]
      dsimp only
      rw [L.sol.get, some_bind, hidx, some_bind, ev, some_bind, e, some_bind]
  | _ :: _ :: _ :: _ :: _, L, _, _, _ =>
    have := L.short
    simp only [List.length_cons] at this
    omega

omit hD in
open Classical in
/-- The tetrahedra still to come. -/
noncomputable def later (pts : List (Pt K)) (m : Mesh) (a b : Nat) (s : K) : Finset Nat :=
  (Finset.range m.tets.length).filter fun t => ∃ x r, Sol pts m t x ∧ s < r ∧ r ≤ 1 ∧ In pts x (lerp (pt pts a) (pt pts b) r)

omit hD in
open Classical in
theorem mem_later {u : Nat} : u ∈ later pts m a b s ↔ ∃ x r, Sol pts m u x ∧ s < r ∧ r ≤ 1 ∧ In pts x (P r) := by
  unfold later
  rw [Finset.mem_filter, Finset.mem_range, and_iff_right_iff_imp]
  rintro ⟨x, r, S, -⟩
  exact (List.getElem?_eq_some_iff.1 S.get).1

omit hD in
theorem later_lt {l : List Nat} {r : K} (L : Leaves pts m a b t x l r) (h : s < r) : (later pts m a b r).card < (later pts m a b s).card := by
  refine Finset.card_lt_card ⟨fun u hu => ?_, fun hsub => ?_⟩
  · rw [mem_later] at hu ⊢
    obtain ⟨x, q, S, h1, h2, h3⟩ := hu
    exact ⟨x, q, S, h.trans h1, h2, h3⟩
  · have := hsub (mem_later.2 ⟨x, r, L.sol, h, L.le1, L.inn⟩)
    obtain ⟨y, q, S, h1, h2, h3⟩ := mem_later.1 this
    have e : y = x := Option.some.inj (S.get.symm.trans L.sol.get)
    subst e
    exact L.beyond q h1 h2 h3

/-- What the rest of the walk from the parameter `s` on adds. -/
def Adds (pts : List (Pt K)) (m : Mesh) (a b : Nat) (s : K) (σ σ' : Info) : Prop :=
  σ'.Ok ∧ (∀ w ∈ σ.visited, w ∈ σ'.visited) ∧
    (∀ w ∈ σ'.visited, w ∈ σ.visited ∨ ∃ z τ, Sol pts m w z ∧ s ≤ τ ∧ τ ≤ 1 ∧ In pts z (lerp (pt pts a) (pt pts b) τ)) ∧
    ∀ w z τ, Sol pts m w z → s ≤ τ → τ < 1 → In pts z (lerp (pt pts a) (pt pts b) τ) → w ∈ σ'.visited

theorem StepOk.adds {σ σ' : Info} {r : Info × Nat × List Nat} {q : K} (h1 : s < 1) (h : StepOk pts m a b s σ r) (hsq : s < q) {y : Tet.Tet} (L : Leaves pts m a b r.2.1 y r.2.2 q) (hy : In pts y (P s))
    (A : Adds pts m a b q r.1 σ') : Adds pts m a b s σ σ' := by
  obtain ⟨-, ok, hm⟩ := h
  obtain ⟨A1, A2, A3, A4⟩ := A
  refine ⟨A1, fun w hw => A2 w ((hm w).2 (.inl hw)), fun w hw => ?_, fun w z τ Z h0 h1 hz => ?_⟩
  · rcases A3 w hw with h | ⟨z, τ, Z, g0, g1, g2⟩
    · rcases (hm w).1 h with h | ⟨z, Z, hz⟩
      · exact .inl h
      · exact .inr ⟨z, s, Z, le_rfl, h1.le, hz⟩
    · exact .inr ⟨z, τ, Z, hsq.le.trans g0, g1, g2⟩
  · rcases lt_or_ge τ q with h | h
    · exact A2 w ((hm w).2 (.inr ⟨z, Z, star_between hD L.sol hy L.inn h0 h Z hz⟩))
    · exact A4 w z τ Z h h1 hz

theorem sideLoop_spec (ha : a < pts.length) (hb : b < pts.length) (hab : a ≠ b) {fuel : Nat} (hf : m.tets.length < fuel) : ∀ (n t : Nat) (x : Tet.Tet) (l : List Nat) (s : K) (σ : Info),
    Leaves pts m a b t x l s → 0 ≤ s → (later pts m a b s).card < n → σ.Ok → t ∈ σ.visited →
    ∃ σ', sideLoop pts a b fuel n m σ t l = some (m, σ') ∧ Adds pts m a b s σ σ'
  | 0, _, _, _, _, _, _, _, h, _, _ => absurd h (by omega)
  | n + 1, t, x, l, s, σ, L, h0, hn, ok, hvis => by
    rcases lt_or_eq_of_le L.le1 with h1 | h1
    · obtain ⟨r, hr, e⟩ := round_spec hD ha hb hab hf L h0 h1 ok hvis
      obtain ⟨y, q, hsq, L', hy⟩ := hr.1
      obtain ⟨σ', e', A⟩ := sideLoop_spec ha hb hab hf n _ y _ q r.1 L' (h0.trans hsq.le) (by
        have := later_lt L' hsq
        omega) hr.2.1 ((hr.2.2 _).2 (.inr ⟨y, L'.sol, hy⟩))
      exact ⟨σ', (e n).trans e', hr.adds hD h1 hsq L' hy A⟩
    · subst h1
      have hl : ∀ v ∈ l, v = b := by
        intro v hv
        have := (L.carry v).1 hv
        have hin := L.inn
        rw [lerp_one] at this hin
        rw [L.sol.wt_corner hD (L.sol.corner_of_in hD hb hin)] at this
        by_contra hne
        rw [if_neg hne] at this
        exact lt_irrefl _ this
      have hbl : b ∈ l := by
        have hin := L.inn
        rw [L.carry, lerp_one]
        rw [lerp_one] at hin
        rw [L.sol.wt_corner hD (L.sol.corner_of_in hD hb hin), if_pos rfl]
        exact one_pos
      obtain ⟨v, l', rfl⟩ := List.exists_cons_of_ne_nil (List.ne_nil_of_mem hbl)
      refine ⟨σ, ?_, ok, fun w h => h, fun w h => .inl h, fun w z τ Z g0 g1 => absurd g1 (not_lt.2 g0)⟩
      unfold sideLoop
      rw [List.getElem?_cons_zero, some_bind, if_pos (hl v (by simp))]
      rfl

theorem side_spec (ha : a < pts.length) (hb : b < pts.length) (hab : a ≠ b) {fuel : Nat} (hf : m.tets.length < fuel) {σ : Info} (ok : σ.Ok) :
    ∃ σ', side fuel m pts a b σ = some (m, σ') ∧ Adds pts m a b 0 σ σ' := by
  have h1 : (0 : K) < 1 := one_pos
  obtain ⟨r, e, hr⟩ := vertexOnSide_spec hD (s := (0 : K)) ha hb hab hf ha (lerp_zero _ _).symm le_rfl h1 (prev := none) (by simp) ok
  obtain ⟨y, q, hsq, L', hy⟩ := hr.1
  obtain ⟨σ', e', A⟩ := sideLoop_spec hD ha hb hab hf fuel _ y _ q r.1 L' hsq.le (by
    have h' : (later pts m a b q).card ≤ m.tets.length := by
      have : later pts m a b q ⊆ Finset.range m.tets.length := fun u hu => by
        obtain ⟨x, -, S, -⟩ := mem_later.1 hu
        exact Finset.mem_range.2 (List.getElem?_eq_some_iff.1 S.get).1
      simpa using Finset.card_le_card this
    omega) hr.2.1 ((hr.2.2 _).2 (.inr ⟨y, L'.sol, hy⟩))
  refine ⟨σ', ?_, hr.adds hD h1 hsq L' hy A⟩
  unfold side
  rw [e, some_bind]
  exact e'

/-- C92. In a Delaunay tetrahedralization `constraint_sides_intersections` returns for all constraints of three different vertices: the walk along each side arrives. It leaves the mesh as it is and
lists the solid tetrahedra that a side touches - all of them, no other, and each once -, and marks exactly these. -/
theorem c92_sides (c : Nat × Nat × Nat) (h1 : c.1 < pts.length) (h2 : c.2.1 < pts.length) (h3 : c.2.2 < pts.length) (n1 : c.1 ≠ c.2.1) (n2 : c.2.1 ≠ c.2.2) (n3 : c.2.2 ≠ c.1)
    {A B C : Pt K} (hA : pts[c.1]? = some A) (hB : pts[c.2.1]? = some B) (hC : pts[c.2.2]? = some C) (fuel : Nat) (hf : m.tets.length < fuel) :
    ∃ S V, sides fuel m pts c ⟨[], []⟩ = some (m, ⟨S, V⟩) ∧ S.Nodup ∧ (∀ t, t ∈ V ↔ t ∈ S) ∧ ∀ t, t ∈ S ↔ ∃ T, SolidTet pts m t T ∧ Touched T A B C := by
  obtain ⟨c0, c1, c2⟩ := c
  dsimp only at *
  have ok0 : Info.Ok ⟨[], []⟩ := ⟨by simp, by simp⟩
  obtain ⟨s1, e1, o1, -, u1, v1⟩ := side_spec hD h1 h2 n1 hf ok0
  obtain ⟨s2, e2, o2, i2, u2, v2⟩ := side_spec hD h2 h3 n2 hf o1
  obtain ⟨s3, e3, o3, i3, u3, v3⟩ := side_spec hD h3 h1 n3 hf o2
  have gA : pt pts c0 = A := Option.some.inj ((get_pt h1).symm.trans hA)
  have gB : pt pts c1 = B := Option.some.inj ((get_pt h2).symm.trans hB)
  have gC : pt pts c2 = C := Option.some.inj ((get_pt h3).symm.trans hC)
  rw [gA, gB] at u1 v1
  rw [gB, gC] at u2 v2
  rw [gC, gA] at u3 v3
  refine ⟨s3.intersected, s3.visited, ?_, o3.1, o3.2, fun t => ?_⟩
  · simp only [sides, e1, e2, e3, Option.bind_eq_bind, Option.bind_some]
  rw [← o3.2]
  constructor
  · intro ht
    have key : ∃ z p, Sol pts m t z ∧ OnSides p A B C ∧ In pts z p := by
      rcases u3 t ht with h | ⟨z, τ, Z, q0, q1, h⟩
      · rcases u2 t h with h | ⟨z, τ, Z, q0, q1, h⟩
        · rcases u1 t h with h | ⟨z, τ, Z, q0, q1, h⟩
          · simp at h
          · exact ⟨z, _, Z, .inl ⟨τ, q0, q1, rfl⟩, h⟩
        · exact ⟨z, _, Z, .inr (.inl ⟨τ, q0, q1, rfl⟩), h⟩
      · exact ⟨z, _, Z, .inr (.inr ⟨τ, q0, q1, rfl⟩), h⟩
    obtain ⟨z, p, Z, hp, h⟩ := key
    exact ⟨_, Z.solid hD, p, (Z.in_iff hD p).1 h, hp⟩
  · rintro ⟨T, ⟨z, hz, h3', hT⟩, p, hin, hp⟩
    have Z : Sol pts m t z := ⟨hz, h3'⟩
    have eT : T = fun i => pt pts (z.data i) := funext fun i => Option.some.inj ((hT i).symm.trans (get_pt (Z.lt hD i)))
    subst eT
    have h := (Z.in_iff hD p).2 hin
    have w1 : ∀ τ, 0 ≤ τ → τ < 1 → In pts z (lerp A B τ) → t ∈ s3.visited := fun τ q0 q1 h => i3 _ (i2 _ (v1 t z τ Z q0 q1 h))
    have w2 : ∀ τ, 0 ≤ τ → τ < 1 → In pts z (lerp B C τ) → t ∈ s3.visited := fun τ q0 q1 h => i3 _ (v2 t z τ Z q0 q1 h)
    have w3 : ∀ τ, 0 ≤ τ → τ < 1 → In pts z (lerp C A τ) → t ∈ s3.visited := fun τ q0 q1 h => v3 t z τ Z q0 q1 h
    rcases hp with ⟨τ, q0, q1, rfl⟩ | ⟨τ, q0, q1, rfl⟩ | ⟨τ, q0, q1, rfl⟩ <;> rcases lt_or_eq_of_le q1 with q1 | rfl
    · exact w1 τ q0 q1 h
    · exact w2 0 le_rfl one_pos (by rwa [lerp_one, ← lerp_zero B C] at h)
    · exact w2 τ q0 q1 h
    · exact w3 0 le_rfl one_pos (by rwa [lerp_one, ← lerp_zero C A] at h)
    · exact w3 τ q0 q1 h
    · exact w1 0 le_rfl one_pos (by rwa [lerp_one, ← lerp_zero A B] at h)

end
end Verif.Constraint
