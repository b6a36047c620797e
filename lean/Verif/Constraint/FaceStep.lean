import Verif.Constraint.EdgeStep
/-!
# A step of the walk from a face
-/
namespace Verif.Constraint
open InSphere (Pt orient3d)
open Tet (Mesh TriFace face)
open Delaunay (Comb SolidTet IsDelaunay pt get_pt)
open Geom

variable {K : Type} [Field K] [LinearOrder K] [IsStrictOrderedRing K] {m : Mesh} {pts : List (Pt K)} {a b : Nat}
local notation "P" => lerp (pt pts a) (pt pts b)

theorem ver_of : ∀ i j k : Fin 4, i ≠ j → i ≠ k → j ≠ k → (∃ v : Tet.Ver, Tet.orgPivot v = j ∧ Tet.destPivot v = i ∧ Tet.apexPivot v = k) ∨
    ∃ v : Tet.Ver, Tet.orgPivot v = i ∧ Tet.destPivot v = j ∧ Tet.apexPivot v = k := by decide

theorem oppo_fsym : ∀ i j : Tet.Ver, Tet.oppoPivot (Tet.fsymTbl i j) = Tet.oppoPivot j := by decide

section
variable (hD : IsDelaunay pts m) {t : Nat} {x : Tet.Tet} {s : K}
include hD

omit [IsStrictOrderedRing K] in
/-- A tetrahedron with the three corners of a face lies on one of its two sides. -/
theorem two_sides {tri : TriFace} (hx : m.tets[tri.tet]? = some x) {p q u : Nat} (ho : m.org tri = some p) (hd : m.dest tri = some q) (ha : m.apex tri = some u) :
    ∃ n y k, x.nei (face tri.ver) = some n ∧ m.tets[n.tet]? = some y ∧ m.oppo n = some k ∧ Four y p q u k ∧
      ∀ t' x', m.tets[t']? = some x' → (∃ i, x'.data i = p) → (∃ i, x'.data i = q) → (∃ i, x'.data i = u) → t' = tri.tet ∨ t' = n.tet := by
  have hl := (List.getElem?_eq_some_iff.1 hx).1
  obtain ⟨g, gl, G⟩ := hD.whole.glued tri.tet hl tri.ver
  have hf := G.fwd
  obtain ⟨y, hy, hyi⟩ := hD.whole.corners g.tet gl
  have hf' := hf
  rw [Tet.Mesh.fsym_eq] at hf'
  simp only [Tet.Mesh.slot, hx, Option.bind_some] at hf'
  cases hn : x.nei (face tri.ver) with
  | none => rw [hn] at hf'; cases hf'
  | some n =>
  rw [hn] at hf'
  simp only [Option.map_some, Option.some.injEq] at hf'
  have ht : n.tet = g.tet := by rw [← hf']
  have hv : g.ver = Tet.fsymTbl tri.ver n.ver := by rw [← hf']
  have go : m.org g = some q := by rw [G.org]; exact hd
  have gd : m.dest g = some p := by rw [G.dest]; exact ho
  have ga : m.apex g = some u := by rw [G.apex]; exact ha
  have F := pivots_perm y g.ver
  have e1 : y.data (Tet.orgPivot g.ver) = q := by simpa [Mesh.org, hy] using go
  have e2 : y.data (Tet.destPivot g.ver) = p := by simpa [Mesh.dest, hy] using gd
  have e3 : y.data (Tet.apexPivot g.ver) = u := by simpa [Mesh.apex, hy] using ga
  rw [e1, e2, e3] at F
  refine ⟨n, y, y.data (Tet.oppoPivot g.ver), rfl, by rw [ht]; exact hy, ?_, F.swap01, ?_⟩
  · simp only [Mesh.oppo, ht, hy, Option.map_some, Option.some.injEq]
    rw [hv, oppo_fsym]
  · rintro t' x' hx' ⟨i, hi⟩ ⟨j, hj⟩ ⟨k, hk⟩
    have hl' := (List.getElem?_eq_some_iff.1 hx').1
    obtain ⟨x0, hx0, inj0⟩ := hD.whole.corners tri.tet hl
    rw [hx] at hx0; cases hx0
    have eo : x.data (Tet.orgPivot tri.ver) = p := by simpa [Mesh.org, hx] using ho
    have ed : x.data (Tet.destPivot tri.ver) = q := by simpa [Mesh.dest, hx] using hd
    have ea : x.data (Tet.apexPivot tri.ver) = u := by simpa [Mesh.apex, hx] using ha
    have hne : ∀ v : Tet.Ver, Tet.orgPivot v ≠ Tet.destPivot v ∧ Tet.orgPivot v ≠ Tet.apexPivot v ∧ Tet.destPivot v ≠ Tet.apexPivot v := by decide
    obtain ⟨n1, n2, n3⟩ := hne tri.ver
    have hpq : p ≠ q := by rw [← eo, ← ed]; exact fun e => n1 (inj0 e)
    have hpu : p ≠ u := by rw [← eo, ← ea]; exact fun e => n2 (inj0 e)
    have hqu : q ≠ u := by rw [← ed, ← ea]; exact fun e => n3 (inj0 e)
    have hij : i ≠ j := by rintro rfl; exact hpq (hi.symm.trans hj)
    have hik : i ≠ k := by rintro rfl; exact hpu (hi.symm.trans hk)
    have hjk : j ≠ k := by rintro rfl; exact hqu (hj.symm.trans hk)
    rcases ver_of i j k hij hik hjk with ⟨v, v1, v2, v3⟩ | ⟨v, v1, v2, v3⟩
    · right
      have := hD.side ⟨t', v⟩ g hl' gl (by rw [go]; simp [Mesh.org, hx', v1, hj]) (by rw [gd]; simp [Mesh.dest, hx', v2, hi]) (by rw [ga]; simp [Mesh.apex, hx', v3, hk])
      rw [ht, ← this]
    · left
      have := hD.side ⟨t', v⟩ tri hl' hl (by rw [ho]; simp [Mesh.org, hx', v1, hi]) (by rw [hd]; simp [Mesh.dest, hx', v2, hj]) (by rw [ha]; simp [Mesh.apex, hx', v3, hk])
      rw [← this]

theorem facePierced_spec (ha : a < pts.length) (hb : b < pts.length) {tri : TriFace} (S : Sol pts m tri.tet x) {p q u : Nat} (ho : m.org tri = some p) (hd : m.dest tri = some q) (hap : m.apex tri = some u)
    (h0 : 0 ≤ s) (h1 : s < 1) (hin : In pts x (P s)) (hcar : ∀ v, 0 < wt pts x v (P s) ↔ v = p ∨ v = q ∨ v = u) (hbey : ∀ r, s < r → r ≤ 1 → ¬ In pts x (P r)) (σ : Info) :
    ∃ t' y l, facePierced m pts tri a b σ = some (σ.touch t', t', l) ∧ Goal pts m a b s (t', l) ∧ Sol pts m t' y ∧ In pts y (P s) ∧
      ∀ w z, Sol pts m w z → In pts z (P s) → w = tri.tet ∨ w = t' := by
  obtain ⟨n, y, k, hn, hy, hk, F, hside⟩ := two_sides hD S.get ho hd hap
  have hside' : ∀ w z, Sol pts m w z → In pts z (P s) → w = tri.tet ∨ w = n.tet := by
    intro w z Z hz
    have corner : ∀ v, v = p ∨ v = q ∨ v = u → ∃ i, z.data i = v := fun v hv =>
      corner_of_wt (pts := pts) (p := P s) (by rw [Z.agree hD S hz hin]; exact ((hcar v).2 hv).ne')
    exact hside w z Z.get (corner p (by simp)) (corner q (by simp)) (corner u (by simp))
  obtain ⟨t', x', r, S', r0, r1, hin', hr, -, hex⟩ := next_tet hD ha hb h0 h1
  have ht' : t' = n.tet := by
    rcases hside' t' x' S' hin' with h | h
    · subst h
      have : x' = x := Option.some.inj (S'.get.symm.trans S.get)
      subst this
      exact absurd hr (hbey r r0 r1)
    · exact h
  subst ht'
  have : x' = y := Option.some.inj (S'.get.symm.trans hy)
  subst this
  have ag := fun v => S'.agree hD S hin' hin v
  have pp : 0 < wt pts x' p (P s) := by rw [ag]; exact (hcar p).2 (by simp)
  have pq : 0 < wt pts x' q (P s) := by rw [ag]; exact (hcar q).2 (by simp)
  have pu : 0 < wt pts x' u (P s) := by rw [ag]; exact (hcar u).2 (by simp)
  obtain ⟨m1, m2, m3, m4, m5, m6⟩ := F.ne hD S'
  have pk : wt pts x' k (P s) = 0 := by
    by_contra hne
    have := lt_of_le_of_ne (hin' k) (Ne.symm hne)
    rw [ag, hcar] at this
    rcases this with h | h | h
    · exact m3 h.symm
    · exact m5 h.symm
    · exact m6 h.symm
  have hB : Constraint.aff (wt pts x' k (pt pts a)) (wt pts x' k (pt pts b)) 1 = wt pts x' k (pt pts b) := by simp [Constraint.aff]
  -- the segment leaves the face
  have hkr : 0 < wt pts x' k (P r) := by
    by_contra hne
    have hz : wt pts x' k (P r) = 0 := le_antisymm (not_lt.1 hne) (hr k)
    apply hbey r r0 r1
    have Fx := pivots_perm x tri.ver
    have eo : x.data (Tet.orgPivot tri.ver) = p := by simpa [Mesh.org, S.get] using ho
    have ed : x.data (Tet.destPivot tri.ver) = q := by simpa [Mesh.dest, S.get] using hd
    have ea : x.data (Tet.apexPivot tri.ver) = u := by simpa [Mesh.apex, S.get] using hap
    rw [eo, ed, ea] at Fx
    obtain ⟨hs, e⟩ := F.on_face hD S' hz
    have hc := Fx.of_face hD S hs
    rw [← e] at hc
    exact Fx.in_of hD (by rw [hc.1]; exact hr p) (by rw [hc.2.1]; exact hr q) (by rw [hc.2.2.1]; exact hr u) hc.2.2.2.ge
  have after : ∀ w, 0 < wt pts x' k (P w) → s < w := by
    intro w hw
    rw [S'.aff hD] at hw pk hkr
    exact aff_lt_of_inc pk h1 (aff_pos_after r0 pk hkr h1) hw
  have posA : ∀ v, 0 < wt pts x' v (P s) → wt pts x' v (P r) = 0 → wt pts x' v (pt pts a) ≠ 0 := by
    intro v hv hv0
    rw [S'.aff hD] at hv hv0
    have := aff_pos_before r0 hv hv0 (lt_of_le_of_lt h0 r0)
    have e : Constraint.aff (wt pts x' v (pt pts a)) (wt pts x' v (pt pts b)) 0 = wt pts x' v (pt pts a) := by simp [Constraint.aff]
    rw [e] at this
    exact this.ne'
  suffices main : ∃ l, facePierced m pts tri a b σ = some (σ.touch n.tet, n.tet, l) ∧ Goal pts m a b s (n.tet, l) by
    obtain ⟨l, e, g⟩ := main
    exact ⟨n.tet, x', l, e, g, S', hin', hside'⟩
  unfold facePierced
  rw [S.get, some_bind, hn, some_bind, hk, some_bind, ho, some_bind, hd, some_bind, hap, some_bind]
  by_cases hkb : k = b
  · subst hkb
    rw [if_pos rfl]
    exact ⟨_, rfl, goodb hD F.swap23.swap12.swap01 S' hin' h1⟩
  rw [if_neg hkb]
  -- the faces
  have face1 : ∀ {e1 e2 e3 : Nat}, Four x' e1 e2 k e3 → 0 < wt pts x' e3 (P s) →
      ∃ o, (do if ← vSegInnerTri pts a b e1 e2 k then return some [e1, e2, k] else return none : Option (Option (List Nat))) = some o ∧ (∀ l, o = some l → Goal pts m a b s (n.tet, l)) ∧
        (r < 1 → 0 < wt pts x' e1 (P r) → 0 < wt pts x' e2 (P r) → wt pts x' e3 (P r) = 0 → ∃ l, o = some l) := by
    intro e1 e2 e3 E pe
    obtain ⟨c, e, hc⟩ := of_decide (segInnerTri_eq hD E S' ha hb)
    rw [e, some_bind]
    split
    · next h =>
      obtain ⟨-, w, w0, w1, z1, z2, z3, z4⟩ := hc.1 h
      refine ⟨_, rfl, ?_, fun _ _ _ _ => ⟨_, rfl⟩⟩
      rintro l ⟨⟩
      exact good3 hD E S' hin' (after w z3) w1.le z1 z2 z3 z4 pe
    · next h =>
      refine ⟨_, rfl, by simp, fun r1 z1 z2 z3 => absurd (hc.2 ⟨posA e3 pe z3, r, lt_of_le_of_lt h0 r0, r1, z1, z2, hkr, z3⟩) h⟩
  have edge1 : ∀ {v e1 e2 : Nat}, Four x' v k e1 e2 → 0 < wt pts x' e2 (P s) →
      ∃ o, (do if ← vSegCross pts a b v k then return some [v, k] else return none : Option (Option (List Nat))) = some o ∧ (∀ l, o = some l → Goal pts m a b s (n.tet, l)) ∧
        (r < 1 → 0 < wt pts x' v (P r) → wt pts x' e1 (P r) = 0 → wt pts x' e2 (P r) = 0 → ∃ l, o = some l) := by
    intro v e1 e2 E pe
    obtain ⟨c, e, hc⟩ := of_decide (segCross_eq hD E S' ha hb)
    rw [e, some_bind]
    split
    · next h =>
      obtain ⟨-, w, w0, w1, z1, z2, z3, z4⟩ := hc.1 h
      refine ⟨_, rfl, ?_, fun _ _ _ _ => ⟨_, rfl⟩⟩
      rintro l ⟨⟩
      exact good2 hD E S' hin' (after w z2) w1.le z1 z2 z3 z4 pe
    · next h =>
      refine ⟨_, rfl, by simp, fun r1 z1 z2 z3 => absurd (hc.2 ⟨fun h => posA e2 pe z3 h.2, r, lt_of_le_of_lt h0 r0, r1, z1, hkr, z2, z3⟩) h⟩
  obtain ⟨o1, f1, s1, c1⟩ := face1 F.swap23 pu
  obtain ⟨o2, f2, s2, c2⟩ := face1 (F.swap01.swap12.swap23 : Four x' q u k p) pp
  obtain ⟨o3, f3, s3, c3⟩ := face1 (F.swap12.swap01.swap23 : Four x' u p k q) pq
  obtain ⟨o4, f4, s4, c4⟩ := edge1 (F.swap23.swap12 : Four x' p k q u) pu
  obtain ⟨o5, f5, s5, c5⟩ := edge1 (F.swap01.swap23.swap12 : Four x' q k p u) pu
  obtain ⟨o6, f6, s6, c6⟩ := edge1 (F.swap12.swap01.swap23.swap12 : Four x' u k p q) pq
  obtain ⟨rE, eE, hE, cE⟩ := firstM_spec (f := fun (e : Nat × Nat) => do if ← vSegInnerTri pts a b e.1 e.2 k then return some [e.1, e.2, k] else return none) (l := [(p, q), (q, u), (u, p)])
    (G := fun l => Goal pts m a b s (n.tet, l)) (by
      intro e he
      simp only [List.mem_cons, List.not_mem_nil, or_false] at he
      rcases he with rfl | rfl | rfl
      exacts [⟨o1, f1, s1⟩, ⟨o2, f2, s2⟩, ⟨o3, f3, s3⟩])
  rw [eE, some_bind]
  cases rE with
  | some l => exact ⟨_, rfl, hE _ rfl⟩
  | none =>
  dsimp only
  obtain ⟨rV, eV, hV, cV⟩ := firstM_spec (f := fun v => do if ← vSegCross pts a b v k then return some [v, k] else return none) (l := [p, q, u])
    (G := fun l => Goal pts m a b s (n.tet, l)) (by
      intro e he
      simp only [List.mem_cons, List.not_mem_nil, or_false] at he
      rcases he with rfl | rfl | rfl
      exacts [⟨o4, f4, s4⟩, ⟨o5, f5, s5⟩, ⟨o6, f6, s6⟩])
  rw [eV, some_bind]
  cases rV with
  | some l => exact ⟨_, rfl, hV _ rfl⟩
  | none =>
  refine ⟨_, rfl, ?_⟩
  have r1' : r < 1 := by
    refine lt_of_le_of_ne r1 ?_
    rintro rfl
    rw [lerp_one] at hr
    have hbb := (F.mem b).1 (S'.corner_of_in hD hb hr)
    have hbx : ∃ i, x.data i = b := by
      refine corner_of_wt (pts := pts) (p := P s) ((hcar b).2 ?_).ne'
      rcases hbb with h | h | h | h
      · exact .inl h
      · exact .inr (.inl h)
      · exact .inr (.inr h)
      · exact absurd h.symm hkb
    apply hbey 1 h1 le_rfl
    intro v
    rw [lerp_one, S.wt_corner hD hbx]
    split <;> simp
  have nE : ∀ e ∈ [(p, q), (q, u), (u, p)], ∀ l, (do if ← vSegInnerTri pts a b e.1 e.2 k then return some [e.1, e.2, k] else return none : Option (Option (List Nat))) ≠ some (some l) := by
    intro e he l hl
    obtain ⟨b, hb⟩ := cE ⟨e, he, l, hl⟩
    cases hb
  have nV : ∀ v ∈ [p, q, u], ∀ l, (do if ← vSegCross pts a b v k then return some [v, k] else return none : Option (Option (List Nat))) ≠ some (some l) := by
    intro e he l hl
    obtain ⟨b, hb⟩ := cV ⟨e, he, l, hl⟩
    cases hb
  obtain ⟨k', hk1, hk2⟩ := hex r1'
  rcases lt_or_eq_of_le (hr p) with z1 | z1 <;> rcases lt_or_eq_of_le (hr q) with z2 | z2 <;> rcases lt_or_eq_of_le (hr u) with z3 | z3
  · exfalso
    rcases F.carrier hD hk2 with rfl | rfl | rfl | rfl <;> linarith
  · obtain ⟨l, rfl⟩ := c1 r1' z1 z2 z3.symm
    exact absurd f1 (nE (p, q) (by simp) l)
  · obtain ⟨l, rfl⟩ := c3 r1' z3 z1 z2.symm
    exact absurd f3 (nE (u, p) (by simp) l)
  · obtain ⟨l, rfl⟩ := c4 r1' z1 z2.symm z3.symm
    exact absurd f4 (nV p (by simp) l)
  · obtain ⟨l, rfl⟩ := c2 r1' z2 z3 z1.symm
    exact absurd f2 (nE (q, u) (by simp) l)
  · obtain ⟨l, rfl⟩ := c5 r1' z2 z1.symm z3.symm
    exact absurd f5 (nV q (by simp) l)
  · obtain ⟨l, rfl⟩ := c6 r1' z3 z1.symm z2.symm
    exact absurd f6 (nV u (by simp) l)
  · exact good1 hD (F.swap23.swap12.swap01 : Four x' k p q u) S' hin' r0 r1 (F.swap23.swap12.swap01.at_corner hD S' z1.symm z2.symm z3.symm) (.inr pu)

end
end Verif.Constraint
