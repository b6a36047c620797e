import Verif.Constraint.FaceStep
/-!
# The walk along a side
-/
namespace Verif.Constraint
open InSphere (Pt orient3d)
open Tet (Mesh TriFace face vpivot)
open Delaunay (Comb SolidTet IsDelaunay pt get_pt)
open Geom

variable {K : Type} [Field K] [LinearOrder K] [IsStrictOrderedRing K] {m : Mesh} {pts : List (Pt K)} {a b : Nat}
local notation "P" => lerp (pt pts a) (pt pts b)

/-! ### Bookkeeping -/

/-- `visited` are the marks of `intersected`. -/
def Info.Ok (σ : Info) : Prop := σ.intersected.Nodup ∧ ∀ t, t ∈ σ.visited ↔ t ∈ σ.intersected

theorem Info.Ok.touch {σ : Info} (h : σ.Ok) (u : Nat) : (σ.touch u).Ok ∧ ∀ t, t ∈ (σ.touch u).visited ↔ t ∈ σ.visited ∨ t = u := by
  unfold Info.touch
  split
  · next hu =>
    exact ⟨h, fun t => ⟨.inl, by rintro (h | rfl) <;> assumption⟩⟩
  · next hu =>
    refine ⟨⟨?_, fun t => ?_⟩, fun t => ?_⟩
    · rw [List.nodup_append]
      refine ⟨h.1, by simp, fun x hx y hy => ?_⟩
      simp only [List.mem_singleton] at hy
      rintro rfl
      subst hy
      exact hu ((h.2 _).2 hx)
    · simp [h.2, or_comm]
    · simp [or_comm]

theorem Info.Ok.foldl {σ : Info} (h : σ.Ok) (l : List Nat) : (l.foldl Info.touch σ).Ok ∧ ∀ t, t ∈ (l.foldl Info.touch σ).visited ↔ t ∈ σ.visited ∨ t ∈ l := by
  induction l generalizing σ with
  | nil => exact ⟨h, by simp⟩
  | cons u l ih =>
    obtain ⟨h1, h2⟩ := h.touch u
    obtain ⟨h3, h4⟩ := ih h1
    refine ⟨h3, fun t => ?_⟩
    rw [List.foldl_cons, h4, h2]
    simp only [List.mem_cons]
    tauto

theorem touchRing_spec (hD : IsDelaunay pts m) : ∀ (l : List TriFace), (∀ h ∈ l, h.tet < m.tets.length) → ∀ σ : Info, σ.Ok →
    ∃ σ', touchRing m l σ = some σ' ∧ σ'.Ok ∧ ∀ t, t ∈ σ'.visited ↔ t ∈ σ.visited ∨ (∃ h ∈ l, h.tet = t) ∧ ∃ x, Sol pts m t x
  | [], _, σ, h => ⟨σ, rfl, h, by simp⟩
  | g :: l, hl, σ, h => by
    obtain ⟨x, hx, -⟩ := hD.whole.corners _ (hl g (by simp))
    have hhull : m.isHull g.tet = some (decide (x.data 3 = pts.length)) := by
      simp only [Mesh.isHull, hx, hD.num, Option.map_some, Option.some.injEq]
      rfl
    unfold touchRing
    rw [hhull]
    simp only [Option.bind_eq_bind, Option.bind_some, decide_eq_true_eq]
    split
    · next h3 =>
      obtain ⟨σ', e, ok, hm⟩ := touchRing_spec hD l (fun h hh => hl h (by simp [hh])) σ h
      refine ⟨σ', e, ok, fun t => ?_⟩
      rw [hm]
      constructor
      · rintro (h | ⟨⟨g', hg, e⟩, hs⟩)
        · exact .inl h
        · exact .inr ⟨⟨g', by simp [hg], e⟩, hs⟩
      · rintro (h | ⟨⟨g', hg, rfl⟩, y, hs⟩)
        · exact .inl h
        · rcases List.mem_cons.1 hg with rfl | hg
          · have : y = x := Option.some.inj (hs.get.symm.trans hx)
            subst this
            exact absurd h3 hs.real
          · exact .inr ⟨⟨g', hg, rfl⟩, y, hs⟩
    · next h3 =>
      obtain ⟨h1, h2⟩ := h.touch g.tet
      obtain ⟨σ', e, ok, hm⟩ := touchRing_spec hD l (fun h hh => hl h (by simp [hh])) _ h1
      refine ⟨σ', e, ok, fun t => ?_⟩
      rw [hm, h2]
      constructor
      · rintro ((h | rfl) | ⟨⟨g', hg, e⟩, hs⟩)
        · exact .inl h
        · exact .inr ⟨⟨g, by simp, rfl⟩, x, hx, h3⟩
        · exact .inr ⟨⟨g', by simp [hg], e⟩, hs⟩
      · rintro (h | ⟨⟨g', hg, rfl⟩, y, hs⟩)
        · exact .inl (.inl h)
        · rcases List.mem_cons.1 hg with rfl | hg
          · exact .inl (.inr rfl)
          · exact .inr ⟨⟨g', hg, rfl⟩, y, hs⟩

/-! ### Handles -/

theorem org_turn : ∀ v : Tet.Ver, Tet.orgPivot (Tet.eprevEsym v) = Tet.orgPivot v := by decide
theorem org_vpivot : ∀ i, Tet.orgPivot (vpivot i) = i := by decide

theorem findEdge_spec {t : Nat} {x : Tet.Tet} (hx : m.tets[t]? = some x) (inj : Function.Injective x.data) {i j : Fin 4} (hij : i ≠ j) :
    ∃ v, findEdge m (x.data j) 2 ⟨t, vpivot i⟩ = some ⟨t, v⟩ ∧ Tet.orgPivot v = i ∧ Tet.destPivot v = j := by
  have key : ∀ i j : Fin 4, i ≠ j → Tet.destPivot (vpivot i) ≠ j → Tet.destPivot (Tet.eprevEsym (vpivot i)) ≠ j → Tet.destPivot (Tet.eprevEsym (Tet.eprevEsym (vpivot i))) = j := by decide
  simp only [findEdge, turn, Mesh.dest, hx, Option.map_some, Option.bind_eq_bind, Option.bind_some, inj.eq_iff, Option.pure_def]
  split
  · next h => exact ⟨_, rfl, org_vpivot i, h⟩
  · next h =>
    split
    · next h' => exact ⟨_, rfl, by rw [org_turn, org_vpivot], h'⟩
    · next h' => exact ⟨_, rfl, by rw [org_turn, org_turn, org_vpivot], key i j hij h h'⟩

theorem findFace_spec {t : Nat} {x : Tet.Tet} (hx : m.tets[t]? = some x) (inj : Function.Injective x.data) {i j k : Fin 4} (hij : i ≠ j) (hik : i ≠ k) (hjk : j ≠ k) :
    ∃ v, findFace m (x.data j) (x.data k) 2 ⟨t, vpivot i⟩ = some ⟨t, v⟩ ∧ Tet.orgPivot v = i ∧
      (Tet.destPivot v = j ∧ Tet.apexPivot v = k ∨ Tet.destPivot v = k ∧ Tet.apexPivot v = j) := by
  have key : ∀ i j k : Fin 4, i ≠ j → i ≠ k → j ≠ k →
      ¬ (Tet.destPivot (vpivot i) = j ∧ Tet.apexPivot (vpivot i) = k ∨ Tet.destPivot (vpivot i) = k ∧ Tet.apexPivot (vpivot i) = j) →
      ¬ (Tet.destPivot (Tet.eprevEsym (vpivot i)) = j ∧ Tet.apexPivot (Tet.eprevEsym (vpivot i)) = k ∨ Tet.destPivot (Tet.eprevEsym (vpivot i)) = k ∧ Tet.apexPivot (Tet.eprevEsym (vpivot i)) = j) →
      (Tet.destPivot (Tet.eprevEsym (Tet.eprevEsym (vpivot i))) = j ∧ Tet.apexPivot (Tet.eprevEsym (Tet.eprevEsym (vpivot i))) = k ∨
        Tet.destPivot (Tet.eprevEsym (Tet.eprevEsym (vpivot i))) = k ∧ Tet.apexPivot (Tet.eprevEsym (Tet.eprevEsym (vpivot i))) = j) := by decide
  simp only [findFace, turn, Mesh.dest, Mesh.apex, hx, Option.map_some, Option.bind_eq_bind, Option.bind_some, inj.eq_iff, Option.pure_def]
  split
  · next h => exact ⟨_, rfl, org_vpivot i, h⟩
  · next h =>
    split
    · next h' => exact ⟨_, rfl, by rw [org_turn, org_vpivot], h'⟩
    · next h' => exact ⟨_, rfl, by rw [org_turn, org_turn, org_vpivot], key i j k hij hik hjk h h'⟩

section
variable (hD : IsDelaunay pts m) {t : Nat} {x : Tet.Tet} {s : K}
include hD

/-- What one step of the walk does. -/
def StepOk (pts : List (Pt K)) (m : Mesh) (a b : Nat) (s : K) (σ : Info) (r : Info × Nat × List Nat) : Prop :=
  Goal pts m a b s (r.2.1, r.2.2) ∧ r.1.Ok ∧ ∀ w, w ∈ r.1.visited ↔ w ∈ σ.visited ∨ ∃ z, Sol pts m w z ∧ In pts z (lerp (pt pts a) (pt pts b) s)

/-- A tetrahedron contains the vertex if and only if it is a corner. -/
theorem Sol.in_vertex (S : Sol pts m t x) {v : Nat} (hv : v < pts.length) : In pts x (pt pts v) ↔ ∃ i, x.data i = v := by
  refine ⟨S.corner_of_in hD hv, fun h w => ?_⟩
  rw [S.wt_corner hD h]; split <;> simp

theorem vertexOnSide_spec (ha : a < pts.length) (hb : b < pts.length) (hab : a ≠ b) {fuel v : Nat} (hf : m.tets.length < fuel) (hv : v < pts.length) (hvP : pt pts v = P s) (h0 : 0 ≤ s) (h1 : s < 1)
    {prev : Option Nat} (hp : ∀ t x, prev = some t → Sol pts m t x → ∀ u, s < u → u ≤ 1 → ¬ In pts x (P u)) {σ : Info} (ok : σ.Ok) :
    ∃ r, vertexOnSide fuel m pts v b prev σ = some (m, r) ∧ StepOk pts m a b s σ r := by
  obtain ⟨inc, e, nd, hinc⟩ := incident_all hD hv hf
  have hmem : ∀ t, t ∈ inc ↔ ∃ x, Sol pts m t x ∧ In pts x (P s) := by
    intro t
    rw [hinc]
    constructor
    · rintro ⟨x, hx, h3, hi⟩
      have S : Sol pts m t x := ⟨hx, h3⟩
      exact ⟨x, S, by rw [← hvP]; exact (S.in_vertex hD hv).2 hi⟩
    · rintro ⟨x, S, h⟩
      rw [← hvP] at h
      exact ⟨x, S.get, S.real, (S.in_vertex hD hv).1 h⟩
  obtain ⟨o, eo, so, co⟩ := firstM_spec (f := vertexStep m pts v b prev) (l := inc) (G := Goal pts m a b s) (by
    intro t ht
    obtain ⟨x, hx, h3, hi⟩ := (hinc t).1 ht
    obtain ⟨o, e, h, -⟩ := vertexStep_spec hD ha hb hab ⟨hx, h3⟩ hi hvP h1 prev
    exact ⟨o, e, h⟩)
  obtain ⟨t', x', r, S', r0, r1, hin', hr, -, hex⟩ := next_tet hD ha hb h0 h1
  obtain ⟨g, rfl⟩ := co (by
    have hi : ∃ i, x'.data i = v := (S'.in_vertex hD hv).1 (by rw [hvP]; exact hin')
    obtain ⟨o, e, -, h⟩ := vertexStep_spec hD ha hb hab S' hi hvP h1 prev
    obtain ⟨g, rfl⟩ := h (fun e => hp t' x' e.symm S' r r0 r1 hr) ⟨r, r0, r1, hr, hex⟩
    exact ⟨t', (hmem t').2 ⟨x', S', hin'⟩, g, e⟩)
  obtain ⟨k1, k2⟩ := ok.foldl inc
  refine ⟨(inc.foldl Info.touch σ, g.1, g.2), ?_, so g rfl, k1, fun w => ?_⟩
  · unfold vertexOnSide
    rw [e, some_bind]
    dsimp only
    rw [eo, some_bind]
    rfl
  · rw [k2, hmem]

theorem edgeCross_spec (ha : a < pts.length) (hb : b < pts.length) (hab : a ≠ b) {fuel v0 v1 : Nat} (hf : m.tets.length ≤ fuel) (L : Leaves pts m a b t x [v0, v1] s) (h0 : 0 ≤ s) (h1 : s < 1) {edge : TriFace}
    (ht : edge.tet = t) (ho : m.org edge = some v0) (hd : m.dest edge = some v1) {σ : Info} (ok : σ.Ok) (hvis : t ∈ σ.visited) :
    ∃ r, edgeCross fuel m pts edge a b t σ = some r ∧ StepOk pts m a b s σ r := by
  subst ht
  have hl := (List.getElem?_eq_some_iff.1 L.sol.get).1
  obtain ⟨spin, ring, e1, er, nd, -, hall, hcov⟩ := edgeRing_all hD hl ho hd hf
  obtain ⟨σ', eσ, ok', hσ⟩ := touchRing_spec hD ring (fun h hh => (hall h (by simp [hh])).1) σ ok
  -- the position on the edge
  have F := pivots_perm x edge.ver
  have eo : x.data (Tet.orgPivot edge.ver) = v0 := by simpa [Mesh.org, L.sol.get] using ho
  have ed : x.data (Tet.destPivot edge.ver) = v1 := by simpa [Mesh.dest, L.sol.get] using hd
  rw [eo, ed] at F
  obtain ⟨n1, n2, n3, n4, n5, n6⟩ := F.ne hD L.sol
  have zero : ∀ v, v ≠ v0 → v ≠ v1 → wt pts x v (P s) = 0 := by
    intro v h0 h1
    by_contra hne
    have := (L.carry v).2 (lt_of_le_of_ne (L.inn v) (Ne.symm hne))
    simp only [List.mem_cons, List.not_mem_nil, or_false] at this
    rcases this with h | h
    · exact h0 h
    · exact h1 h
  obtain ⟨q1, q2⟩ := F.on_edge hD L.sol (zero _ n2.symm n4.symm) (zero _ n3.symm n5.symm)
  have p0 : 0 < wt pts x v0 (P s) := (L.carry v0).1 (by simp)
  have p1 : 0 < wt pts x v1 (P s) := (L.carry v1).1 (by simp)
  have beyond_corner : ∀ v, (∃ i, x.data i = v) → ∀ r, s < r → r ≤ 1 → pt pts v ≠ P r := by
    intro v hv r r0 r1 e
    apply L.beyond r r0 r1
    rw [← e]
    intro w
    rw [L.sol.wt_corner hD hv]; split <;> simp
  have c0 : ∃ i, x.data i = v0 := ⟨_, eo⟩
  have c1 : ∃ i, x.data i = v1 := ⟨_, ed⟩
  have nb : ∀ v, (∃ i, x.data i = v) → v ≠ b := by
    rintro v hv rfl
    exact beyond_corner _ hv 1 h1 le_rfl (lerp_one _ _).symm
  have hmem : ∀ w z, Sol pts m w z → (In pts z (P s) ↔ (∃ i, z.data i = v0) ∧ ∃ i, z.data i = v1) := by
    intro w z Z
    constructor
    · intro h
      exact ⟨corner_of_wt (pts := pts) (p := P s) (by rw [Z.agree hD L.sol h L.inn]; exact p0.ne'), corner_of_wt (pts := pts) (p := P s) (by rw [Z.agree hD L.sol h L.inn]; exact p1.ne')⟩
    · rintro ⟨h1, h2⟩
      refine L.sol.in_of_carriers hD Z L.inn fun v hv => ?_
      have := (L.carry v).2 hv
      simp only [List.mem_cons, List.not_mem_nil, or_false] at this
      rcases this with rfl | rfl <;> assumption
  have step := fun (h : TriFace) (hh : h ∈ ring) (y : Tet.Tet) (hy : m.tets[h.tet]? = some y) =>
    edgeStep_spec hD (s := s) ha hb hab hy (hall h (by simp [hh])).2.1 (hall h (by simp [hh])).2.2 (nb v0 c0) (nb v1 c1) h0 h1 p1 (by linarith) q2 (beyond_corner v0 c0) (beyond_corner v1 c1) edge.tet
  obtain ⟨o, eo', so, co⟩ := firstM_spec (f := edgeStep m pts v0 v1 a b edge.tet) (l := ring) (G := Goal pts m a b s) (by
    intro h hh
    obtain ⟨y, hy, -⟩ := hD.whole.corners _ (hall h (by simp [hh])).1
    obtain ⟨o, e, h, -⟩ := step h hh y hy
    exact ⟨o, e, h⟩)
  obtain ⟨t', x', r, S', r0, r1, hin', hr, -, hex⟩ := next_tet hD ha hb h0 h1
  have hne : t' ≠ edge.tet := by
    rintro rfl
    have : x' = x := Option.some.inj (S'.get.symm.trans L.sol.get)
    subst this
    exact L.beyond r r0 r1 hr
  obtain ⟨g, rfl⟩ := co (by
    obtain ⟨i0, i1⟩ := (hmem t' x' S').1 hin'
    obtain ⟨h, hh, rfl⟩ := hcov t' x' S'.get i0 i1
    rcases List.mem_cons.1 hh with rfl | hh
    · exact absurd rfl hne
    obtain ⟨o, e, -, hc⟩ := step h hh x' S'.get
    obtain ⟨g, rfl⟩ := hc hne S'.real ⟨r, r0, r1, hr, hex⟩
    exact ⟨h, hh, g, e⟩)
  refine ⟨(σ', g.1, g.2), ?_, so g rfl, ok', fun w => ?_⟩
  · unfold edgeCross
    rw [e1, some_bind, er, some_bind, eσ, some_bind, ho, some_bind, hd, some_bind, eo', some_bind]
    rfl
  · rw [hσ]
    constructor
    · rintro (h | ⟨⟨h, hh, rfl⟩, y, Y⟩)
      · exact .inl h
      · refine .inr ⟨y, Y, (hmem _ y Y).2 ?_⟩
        obtain ⟨-, go, gd⟩ := hall h (by simp [hh])
        exact ⟨⟨Tet.orgPivot h.ver, by simpa [Mesh.org, Y.get] using go⟩, ⟨Tet.destPivot h.ver, by simpa [Mesh.dest, Y.get] using gd⟩⟩
    · rintro (h | ⟨z, Z, h⟩)
      · exact .inl h
      · obtain ⟨i0, i1⟩ := (hmem w z Z).1 h
        obtain ⟨g', hg, rfl⟩ := hcov w z Z.get i0 i1
        rcases List.mem_cons.1 hg with rfl | hg
        · exact .inl hvis
        · exact .inr ⟨⟨g', hg, rfl⟩, z, Z⟩

end
end Verif.Constraint
