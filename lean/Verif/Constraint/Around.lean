import Verif.Constraint.Room
/-!
# The tetrahedra around a vertex and around an edge of a Delaunay tetrahedralization
-/
namespace Verif.Constraint
open InSphere (Pt)
open Tet (Mesh TriFace face Consistent)
open Delaunay (SolidTet IsDelaunay Ring)
open Poly (OneRing fnext_spec fnext_inj handle_eq)

variable {K : Type} [Field K] [LinearOrder K] {m : Mesh} {pts : List (Pt K)}

/-- `incident` returns all solid tetrahedra with the corner `v`. -/
theorem incident_all (hD : IsDelaunay pts m) {v fuel : Nat} (hv : v < pts.length) (hf : m.tets.length < fuel) :
    ∃ r, m.incident fuel v = some (m, r) ∧ r.Nodup ∧ ∀ t, t ∈ r ↔ ∃ x, m.tets[t]? = some x ∧ x.data 3 ≠ pts.length ∧ ∃ i, x.data i = v := by
  obtain ⟨t0, x0, hp, hx0, hv0, h3⟩ := hD.vertex v hv
  rw [hD.num] at h3
  have hl := (List.getElem?_eq_some_iff.1 hx0).1
  obtain ⟨i, hi⟩ := hv0
  obtain ⟨r, e, nd, hr, hcor, hsol⟩ := Tet.c42_incident m _ hD.whole (fun j x _ hx => hD.clean j x hx) v t0 hp hl ⟨x0, i, hx0, hi⟩ fuel hf
  refine ⟨r, e, nd, fun t => ⟨fun ht => ?_, ?_⟩⟩
  · obtain ⟨-, x, j, hx, hj⟩ := hcor t ht
    refine ⟨x, hx, ?_, j, hj⟩
    by_cases htt : t = t0
    · subst htt
      rw [hx0] at hx; cases hx
      exact h3
    · have := hsol t ht htt
      simp only [Mesh.isHull, hx] at this
      rw [← hD.num]
      simpa using this
  · rintro ⟨x, hx, h3x, j, hj⟩
    exact (hr t).2 (hD.star v t0 t x0 x hx0 hx h3 h3x ⟨i, hi⟩ ⟨j, hj⟩)

/-- Turning around an edge comes back to the start and meets no tetrahedron twice. -/
theorem edgeRing_spec {live : Nat → Prop} (hc : Consistent m live) {edge : TriFace} (hl : live edge.tet) : ∀ (fuel : Nat) (l : List TriFace) (q spin : TriFace),
    l.head? = some edge → l.getLast? = some q → l.IsChain (fun x y => m.fnext x = some y) → (l.map TriFace.tet).Nodup →
    (∀ x ∈ l, live x.tet ∧ m.org x = m.org edge ∧ m.dest x = m.dest edge) → m.fnext q = some spin → m.tets.length < fuel + l.length →
    ∃ r q', edgeRing m edge.tet fuel spin = some r ∧ (l ++ r).getLast? = some q' ∧ (l ++ r).IsChain (fun x y => m.fnext x = some y) ∧ ((l ++ r).map TriFace.tet).Nodup ∧
      (∀ x ∈ l ++ r, live x.tet ∧ m.org x = m.org edge ∧ m.dest x = m.dest edge) ∧ m.fnext q' = some edge := by
  intro fuel
  induction fuel with
  | zero =>
    intro l q spin _ _ _ hnd hall _ hf
    exfalso
    have hsub : l.map TriFace.tet ⊆ List.range m.tets.length := by
      intro u hu
      obtain ⟨x, hx, rfl⟩ := List.mem_map.1 hu
      obtain ⟨y, hy, _⟩ := hc.corners _ (hall x hx).1
      exact List.mem_range.2 (List.getElem?_eq_some_iff.1 hy).1
    have := (hnd.subperm hsub).length_le
    simp at this; omega
  | succ fuel ih =>
    intro l q spin hh hlast hch hnd hall e1 hf
    have hq := List.mem_of_getLast? hlast
    obtain ⟨ql, qo, qd⟩ := hall q hq
    obtain ⟨k, e2, kl, ko, kd, kb⟩ := fnext_spec hc ql
    rw [e1] at e2; cases e2
    unfold edgeRing
    by_cases ht : spin.tet = edge.tet
    · rw [if_pos ht]
      have hke : spin = edge := handle_eq hc hl ht (ko.trans qo) (kd.trans qd)
      refine ⟨[], q, rfl, by simpa using hlast, by simpa using hch, by simpa using hnd, by simpa using hall, by rw [e1, hke]⟩
    · rw [if_neg ht]
      obtain ⟨k', e3, -⟩ := fnext_spec hc kl
      obtain ⟨r, q', er, h1, h2, h3, h4, h5⟩ := ih (l ++ [spin]) spin k' (by
          cases l with
          | nil => simp at hh
          | cons z l => simpa using hh) (by simp) (by
          rw [List.isChain_append]
          refine ⟨hch, by simp, fun y hy z hz => ?_⟩
          simp only [List.head?_cons, Option.mem_def, Option.some.injEq] at hz
          subst hz
          rw [Option.mem_def, hlast] at hy
          cases hy; exact e1) (by
          rw [List.map_append, List.nodup_append]
          refine ⟨hnd, by simp, fun u hu w hw => ?_⟩
          simp only [List.map_cons, List.map_nil, List.mem_singleton] at hw
          subst hw
          obtain ⟨y, hy, rfl⟩ := List.mem_map.1 hu
          intro e
          obtain ⟨yl, yo, yd⟩ := hall y hy
          have hky : spin = y := handle_eq hc yl e.symm (ko.trans (qo.trans yo.symm)) (kd.trans (qd.trans yd.symm))
          have htail : y ∈ l.tail := by
            cases l with
            | nil => cases hy
            | cons z l =>
              simp only [List.head?_cons, Option.some.injEq] at hh
              subst hh
              rcases List.mem_cons.1 hy with rfl | h
              · exact absurd (by rw [hky]) ht
              · exact h
          -- the predecessor of `y` in the chain is `q`, which is last: a contradiction
          obtain ⟨i, hi, e3⟩ := List.getElem_of_mem htail
          simp only [List.length_tail] at hi
          rw [List.getElem_tail] at e3
          have h4 := (List.isChain_iff_getElem.1 hch) i (by omega)
          rw [e3, ← hky] at h4
          have h5 : l[i] = q := fnext_inj hc (hall _ (List.getElem_mem _)).1 ql h4 e1
          rw [List.getLast?_eq_getElem?, List.getElem?_eq_getElem (by omega)] at hlast
          have h6 := Option.some.inj hlast
          rw [← h5] at h6
          have := ((hnd.of_map).getElem_inj_iff).1 h6
          omega) (by
          intro y hy
          rcases List.mem_append.1 hy with hy | hy
          · exact hall y hy
          · simp only [List.mem_singleton] at hy
            subst hy
            exact ⟨kl, ko.trans qo, kd.trans qd⟩) e3 (by simp; omega)
      simp only [List.append_assoc, List.singleton_append] at h1 h2 h3 h4
      refine ⟨spin :: r, q', ?_, h1, h2, h3, h4, h5⟩
      simp only [e3, Option.bind_eq_bind, Option.bind_some, er]
      rfl

theorem face_esym : ∀ v : Tet.Ver, face (Tet.esym v) = Tet.apexPivot v := by decide
theorem face_oppo : ∀ v : Tet.Ver, face v = Tet.oppoPivot v := by decide
theorem pivot_cases : ∀ (v : Tet.Ver) (i : Fin 4), i = Tet.orgPivot v ∨ i = Tet.destPivot v ∨ i = Tet.apexPivot v ∨ i = Tet.oppoPivot v := by decide

theorem nei_tet {h g : TriFace} {x : Tet.Tet} {n : TriFace} (hx : m.tets[h.tet]? = some x) (e : x.nei (face h.ver) = some n) (hg : m.fsym h = some g) : n.tet = g.tet := by
  rw [Tet.Mesh.fsym_eq] at hg
  simp only [Tet.Mesh.slot, hx, Option.bind_some, e, Option.map_some, Option.some.injEq] at hg
  rw [← hg]

/-- The handles met when turning around an edge, with the start: all tetrahedra at the edge. -/
theorem edgeRing_all (hD : IsDelaunay pts m) {edge : TriFace} (hl : edge.tet < m.tets.length) {a b fuel : Nat} (ho : m.org edge = some a) (hd : m.dest edge = some b)
    (hf : m.tets.length ≤ fuel) :
    ∃ spin r, m.fnext edge = some spin ∧ edgeRing m edge.tet fuel spin = some r ∧ ((edge :: r).map TriFace.tet).Nodup ∧ (edge :: r).IsChain (fun x y => m.fnext x = some y) ∧
      (∀ h ∈ edge :: r, h.tet < m.tets.length ∧ m.org h = some a ∧ m.dest h = some b) ∧
      ∀ t x, m.tets[t]? = some x → (∃ i, x.data i = a) → (∃ i, x.data i = b) → ∃ h ∈ edge :: r, h.tet = t := by
  obtain ⟨spin, e1, -⟩ := fnext_spec hD.whole hl
  obtain ⟨r, q, er, hlast, hch, hnd, hall, hq⟩ := edgeRing_spec hD.whole hl fuel [edge] edge spin rfl rfl (by simp) (by simp)
    (by simpa using hl) e1 (by simp; omega)
  rw [ho, hd] at hall
  refine ⟨spin, r, e1, er, hnd, hch, hall, ?_⟩
  have hnext : ∀ g ∈ edge :: r, ∃ g' ∈ edge :: r, m.fnext g = some g' := by
    intro g hg
    obtain ⟨i, hi, rfl⟩ := List.getElem_of_mem hg
    by_cases hi2 : i + 1 < (edge :: r).length
    · exact ⟨_, List.getElem_mem hi2, (List.isChain_iff_getElem.1 hch) i (by simpa using hi2)⟩
    · refine ⟨edge, by simp, ?_⟩
      have hq' : (edge :: r)[i] = q := by
        have : i = (edge :: r).length - 1 := by omega
        subst this
        have hlast' : (edge :: r).getLast? = some q := hlast
        rw [List.getLast?_eq_getElem?, List.getElem?_eq_getElem hi] at hlast'
        exact Option.some.inj hlast'
      rw [hq', hq]
  have hprev : ∀ g ∈ edge :: r, ∃ g' ∈ edge :: r, m.fnext g' = some g := by
    intro g hg
    obtain ⟨i, hi, rfl⟩ := List.getElem_of_mem hg
    cases i with
    | zero => exact ⟨q, List.mem_of_getLast? hlast, hq⟩
    | succ i => exact ⟨_, List.getElem_mem (by omega : i < _), (List.isChain_iff_getElem.1 hch) i (by simpa using hi)⟩
  intro t y hy ha hb
  obtain ⟨x, hx, -⟩ := hD.whole.corners _ hl
  have hxa : x.data (Tet.orgPivot edge.ver) = a := by simpa [Mesh.org, hx] using ho
  have hxb : x.data (Tet.destPivot edge.ver) = b := by simpa [Mesh.dest, hx] using hd
  have hring := hD.ring a b edge.tet t x y hx hy ⟨_, hxa⟩ ⟨_, hxb⟩ ha hb
  clear ha hb hy
  induction hring with
  | base => exact ⟨edge, by simp, rfl⟩
  | @step u xu i n hu hxu hne hne' hn ih =>
    obtain ⟨g, hg, rfl⟩ := ih
    obtain ⟨gl, go, gd⟩ := hall g hg
    have hga : xu.data (Tet.orgPivot g.ver) = a := by simpa [Mesh.org, hxu] using go
    have hgb : xu.data (Tet.destPivot g.ver) = b := by simpa [Mesh.dest, hxu] using gd
    rcases pivot_cases g.ver i with rfl | rfl | rfl | rfl
    · exact absurd hga hne
    · exact absurd hgb hne'
    · obtain ⟨g', hg', e⟩ := hnext g hg
      refine ⟨g', hg', ?_⟩
      rw [Tet.Mesh.fnext_eq] at e
      rw [← face_esym] at hn
      exact (nei_tet (h := g.esym) hxu hn e).symm
    · obtain ⟨g', hg', e⟩ := hprev g hg
      refine ⟨g', hg', ?_⟩
      obtain ⟨g2, e2, -, -, -, eb⟩ := fnext_spec hD.whole (hall g' hg').1
      rw [e] at e2; cases e2
      rw [← face_oppo] at hn
      exact (nei_tet (h := g) hxu hn eb).symm

/-- The faces around an edge form one ring. -/
theorem oneRing (hD : IsDelaunay pts m) : OneRing m (· < m.tets.length) := by
  intro h k hl kl ho hd
  obtain ⟨x, hx, -⟩ := hD.whole.corners _ hl
  obtain ⟨y, hy, -⟩ := hD.whole.corners _ kl
  obtain ⟨spin, r, e1, er, hnd, hch, hall, hcov⟩ := edgeRing_all hD hl (a := x.data (Tet.orgPivot h.ver)) (b := x.data (Tet.destPivot h.ver)) (by simp [Mesh.org, hx])
    (by simp [Mesh.dest, hx]) le_rfl
  obtain ⟨k', hk', et⟩ := hcov k.tet y hy ⟨Tet.orgPivot k.ver, by simpa [Mesh.org, hx, hy] using ho.symm⟩ ⟨Tet.destPivot k.ver, by simpa [Mesh.dest, hx, hy] using hd.symm⟩
  have hkk : k' = k := handle_eq hD.whole kl et ((hall k' hk').2.1.trans (by rw [← ho]; simp [Mesh.org, hx])) ((hall k' hk').2.2.trans (by rw [← hd]; simp [Mesh.dest, hx]))
  subst hkk
  obtain ⟨i, hi, e⟩ := List.getElem_of_mem hk'
  refine ⟨(h :: r).take (i + 1), by simp, ?_, hch.take _⟩
  rw [List.getLast?_eq_getElem?, List.length_take, Nat.min_eq_left (by omega), Nat.add_sub_cancel, List.getElem?_take_of_lt (by omega), List.getElem?_eq_getElem hi, e]

end Verif.Constraint
