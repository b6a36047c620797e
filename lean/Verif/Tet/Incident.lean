import Verif.Tet.Lemmas
import Mathlib.Data.List.Nodup
import Mathlib.Data.List.Perm.Subperm
import Mathlib.Tactic.FinCases
import Mathlib.Data.Fintype.Basic
/-! # `TetMesh::incident` (lines 235-258): the star of a vertex -/
namespace Verif.Tet
namespace Mesh

/-- `m` is `m0` with exactly the tetrahedra of `r` additionally marked. -/
structure MarkedBy (m0 m : Mesh) (r : List Nat) : Prop where
  n : m.nPoints = m0.nPoints
  p : m.p2t = m0.p2t
  tets : ∀ j : Nat, m.tets[j]? = (m0.tets[j]?).map fun x => if j ∈ r then { x with marked := true } else x

theorem MarkedBy.get {m0 m : Mesh} {r : List Nat} (h : MarkedBy m0 m r) {j : Nat} {x : Tet} (hx : m0.tets[j]? = some x) :
    ∃ y, m.tets[j]? = some y ∧ y.data = x.data ∧ y.nei = x.nei ∧ (y.marked = true ↔ j ∈ r ∨ x.marked = true) := by
  refine ⟨_, by rw [h.tets, hx]; rfl, ?_⟩
  by_cases hj : j ∈ r <;> simp [hj]

theorem MarkedBy.mark {m0 m : Mesh} {r : List Nat} (h : MarkedBy m0 m r) {j : Nat} (hj : j < m0.tets.length) :
    ∃ m', m.markTest j = some m' ∧ MarkedBy m0 m' (r ++ [j]) := by
  have hl : m.tets.length = m0.tets.length := by
    apply Nat.le_antisymm
    · by_contra hc
      have h1 := h.tets m0.tets.length
      rw [List.getElem?_eq_getElem (by omega), List.getElem?_eq_none (le_refl _)] at h1
      simp at h1
    · by_contra hc
      have h1 := h.tets m.tets.length
      rw [List.getElem?_eq_none (le_refl _), List.getElem?_eq_getElem (by omega)] at h1
      simp at h1
  refine ⟨_, modify_some (by omega), h.n, h.p, fun i => ?_⟩
  simp only [List.getElem?_modify]
  rw [h.tets]
  by_cases hij : j = i
  · subst hij
    rw [List.getElem?_eq_getElem hj]
    by_cases hr : j ∈ r <;> simp [hr]
  · cases m0.tets[i]? with
    | none => simp [hij]
    | some x => simp [hij, Ne.symm hij]

variable {m0 : Mesh} {live : Nat → Prop}

theorem index_spec {x : Tet} {v : Nat} (h : ∃ i, x.data i = v) : ∃ p, x.index v = some p ∧ x.data p = v := by
  unfold Tet.index
  obtain ⟨i, hi⟩ := h
  split_ifs with h0 h1 h2 h3
  · exact ⟨0, rfl, h0⟩
  · exact ⟨1, rfl, h1⟩
  · exact ⟨2, rfl, h2⟩
  · exact ⟨3, rfl, h3⟩
  · fin_cases i <;> simp_all

/-- Every corner other than the opposite one is a corner of the face. -/
theorem face_corner : ∀ f p : Fin 4, f ≠ p → orgPivot (verOfFace f) = p ∨ destPivot (verOfFace f) = p ∨
    apexPivot (verOfFace f) = p := by decide +kernel

/-- The neighbour of a live tetrahedron across a face is live and shares the three corners of the face. -/
theorem neighbour (hc : Consistent m0 live) {t : Nat} (ht : live t) {x : Tet} (hx : m0.tets[t]? = some x) (f : Fin 4) :
    ∃ h y, x.nei f = some h ∧ live h.tet ∧ m0.tets[h.tet]? = some y ∧ ∀ p, p ≠ f → ∃ q, y.data q = x.data p := by
  obtain ⟨h, hl, g⟩ := hc.glued t ht (verOfFace f)
  obtain ⟨y, hy, -⟩ := hc.corners _ hl
  have hf := g.fwd
  rw [fsym_eq] at hf
  simp only [slot, hx, Option.bind_some, face_verOfFace, Option.map_eq_some_iff] at hf
  obtain ⟨h', hh', he⟩ := hf
  have ht' : h'.tet = h.tet := by rw [← he]
  refine ⟨h', y, hh', ht' ▸ hl, ht' ▸ hy, fun p hp => ?_⟩
  have ho := g.org; have hd := g.dest; have ha := g.apex
  simp only [org, dest, apex, hx, hy, Option.map_some, Option.some.injEq] at ho hd ha
  rcases face_corner f p (Ne.symm hp) with h | h | h
  · exact ⟨_, by rw [← h]; exact hd⟩
  · exact ⟨_, by rw [← h]; exact ho⟩
  · exact ⟨_, by rw [← h]; exact ha⟩

/-- Tetrahedra of the star are live and have `v` as a corner. -/
theorem star_live (hc : Consistent m0 live) {v t0 : Nat} (h0 : live t0)
    (hv : ∃ x i, m0.tets[t0]? = some x ∧ x.data i = v) {t : Nat} (hs : Star m0 v t0 t) :
    live t ∧ ∃ x, m0.tets[t]? = some x ∧ ∃ i, x.data i = v := by
  induction hs with
  | base => obtain ⟨x, i, hx, hi⟩ := hv; exact ⟨h0, x, hx, i, hi⟩
  | @step t x i h y hs hx hne hnei hy _ ih =>
    obtain ⟨hl, x', hx', p, hp⟩ := ih
    have : x' = x := Option.some.inj (hx'.symm.trans hx)
    subst this
    obtain ⟨h', y', e1, e2, e3, e4⟩ := neighbour hc hl hx i
    have : h' = h := Option.some.inj (e1.symm.trans hnei)
    subst this
    obtain ⟨q, hq⟩ := e4 p (by rintro rfl; exact hne hp)
    exact ⟨e2, y', e3, q, by rw [hq, hp]⟩

/-- `u` is solid. -/
def Solid (m : Mesh) (u : Nat) : Prop := ∃ y, m.tets[u]? = some y ∧ y.data 3 ≠ m.nPoints

theorem incidentFaces_spec (hc : Consistent m0 live) (hmark : ∀ j x, live j → m0.tets[j]? = some x → x.marked = false)
    {t : Nat} (ht : live t) {x : Tet} (hx : m0.tets[t]? = some x) (pos : Fin 4) :
    ∀ (is : List (Fin 4)) (m : Mesh) (r : List Nat), MarkedBy m0 m r → r.Nodup →
    ∃ m' r', incidentFaces t pos is m r = some (m', r') ∧ MarkedBy m0 m' r' ∧ r'.Nodup ∧ r <+: r' ∧
      (∀ u ∈ r', u ∈ r ∨ ∃ i ∈ is, ∃ h, i ≠ pos ∧ x.nei i = some h ∧ h.tet = u ∧ Solid m0 u) ∧
      (∀ i ∈ is, i ≠ pos → ∀ h, x.nei i = some h → Solid m0 h.tet → h.tet ∈ r') := by
  intro is
  induction is with
  | nil => intro m r hm hn; exact ⟨m, r, rfl, hm, hn, List.prefix_refl _, fun u hu => .inl hu, by simp⟩
  | cons i is ih =>
    intro m r hm hn
    unfold incidentFaces
    by_cases hi : i = pos
    · rw [if_pos hi]
      obtain ⟨m', r', e, a, b, c, d, f⟩ := ih m r hm hn
      refine ⟨m', r', e, a, b, c, fun u hu => (d u hu).imp_right fun ⟨i, hi, h⟩ => ⟨i, List.mem_cons_of_mem _ hi, h⟩, fun j hj hjp => ?_⟩
      rcases List.mem_cons.1 hj with rfl | hj
      · exact absurd hi hjp
      · exact f j hj hjp
    · rw [if_neg hi]
      obtain ⟨h, y, hnei, hl, hy, -⟩ := neighbour hc ht hx i
      obtain ⟨x', hx', -, hxn, -⟩ := hm.get hx
      obtain ⟨y', hy', hyd, -, hym⟩ := hm.get hy
      have hmy := hmark _ _ hl hy
      simp only [hmy, Bool.false_eq_true, or_false] at hym
      simp only [hx', hxn, hnei, Option.bind_eq_bind, Option.bind_some, markTested, isHull, hy', Option.map_some, hyd, hm.n]
      by_cases hb : h.tet ∉ r ∧ y.data 3 ≠ m0.nPoints
      · have hcond : (!y'.marked && !(y.data 3 == m0.nPoints)) = true := by
          have : y'.marked = false := by
            by_contra hcon; exact hb.1 (hym.1 (by simpa using hcon))
          simp [this, hb.2]
        rw [if_pos hcond]
        obtain ⟨m1, e1, hm1⟩ := hm.mark (j := h.tet) (List.getElem?_eq_some_iff.1 hy).1
        obtain ⟨m', r', e, a, b, c, d, f⟩ := ih m1 (r ++ [h.tet]) hm1 (by simp [List.nodup_append, hn]; rintro a ha rfl; exact hb.1 ha)
        refine ⟨m', r', by simp [e1, e], a, b, (List.prefix_append _ _).trans c, fun u hu => ?_, fun j hj hjp => ?_⟩
        · rcases d u hu with h' | h'
          · rcases List.mem_append.1 h' with h' | h'
            · exact .inl h'
            · simp only [List.mem_singleton] at h'
              exact .inr ⟨i, by simp, h, hi, hnei, h'.symm, h' ▸ ⟨y, hy, hb.2⟩⟩
          · obtain ⟨j, hj, h'⟩ := h'
            exact .inr ⟨j, List.mem_cons_of_mem _ hj, h'⟩
        · rcases List.mem_cons.1 hj with rfl | hj
          · intro h' hh' _
            rw [hnei] at hh'; cases hh'
            exact c.subset (by simp)
          · exact f j hj hjp
      · have hcond : ¬ (!y'.marked && !(y.data 3 == m0.nPoints)) = true := by
          intro hcon
          simp only [Bool.and_eq_true, Bool.not_eq_true', beq_eq_false_iff_ne] at hcon
          exact hb ⟨fun hr => by rw [hym.2 hr] at hcon; simp at hcon, hcon.2⟩
        rw [if_neg hcond]
        obtain ⟨m', r', e, a, b, c, d, f⟩ := ih m r hm hn
        refine ⟨m', r', e, a, b, c, fun u hu => (d u hu).imp_right fun ⟨i, hi, h⟩ => ⟨i, List.mem_cons_of_mem _ hi, h⟩, fun j hj hjp => ?_⟩
        rcases List.mem_cons.1 hj with rfl | hj
        · intro h' hh' hs
          rw [hnei] at hh'; cases hh'
          obtain ⟨y2, hy2, hy3⟩ := hs
          rw [hy] at hy2; cases hy2
          by_contra hcon
          exact hb ⟨fun hr => hcon (c.subset hr), hy3⟩
        · exact f j hj hjp

theorem incidentLoop_spec (hc : Consistent m0 live) (hmark : ∀ j x, live j → m0.tets[j]? = some x → x.marked = false)
    {v t0 : Nat} (h0 : live t0) (hv : ∃ x i, m0.tets[t0]? = some x ∧ x.data i = v) :
    ∀ (fuel idx : Nat) (m : Mesh) (r : List Nat), m0.tets.length < fuel + idx → idx ≤ r.length → MarkedBy m0 m r → r.Nodup →
    (∀ u ∈ r, Star m0 v t0 u) → t0 ∈ r →
    (∀ u ∈ r.take idx, ∀ x i h, m0.tets[u]? = some x → x.data i ≠ v → x.nei i = some h → Solid m0 h.tet → h.tet ∈ r) →
    ∃ m' r', incidentLoop v fuel idx m r = some (m', r') ∧ MarkedBy m0 m' r' ∧ r'.Nodup ∧ ∀ u, u ∈ r' ↔ Star m0 v t0 u := by
  intro fuel
  induction fuel with
  | zero =>
    intro idx m r hf hidx hm hn hs _ _
    exfalso
    have hlen : r.length ≤ m0.tets.length := by
      have hsub : r ⊆ List.range m0.tets.length := by
        intro u hu
        obtain ⟨-, x, hx, -⟩ := star_live hc h0 hv (hs u hu)
        exact List.mem_range.2 (List.getElem?_eq_some_iff.1 hx).1
      simpa using (hn.subperm hsub).length_le
    omega
  | succ fuel ih =>
    intro idx m r hf hidx hm hn hs ht0 hcl
    unfold incidentLoop
    by_cases hlt : idx < r.length
    · rw [if_pos hlt]
      have hmem : r[idx] ∈ r := List.getElem_mem _
      obtain ⟨hl, x, hx, hvx⟩ := star_live hc h0 hv (hs _ hmem)
      obtain ⟨x', hx', hxd, -, -⟩ := hm.get hx
      obtain ⟨p, hp, hpv⟩ := index_spec (x := x') (v := v) (by rw [hxd]; exact hvx)
      rw [hxd] at hpv
      obtain ⟨m1, r1, e, hm1, hn1, hpre, hnew, hclo⟩ := incidentFaces_spec hc hmark hl hx p [0, 1, 2, 3] m r hm hn
      have hinj : Function.Injective x.data := by
        obtain ⟨x2, hx2, hi⟩ := hc.corners _ hl
        have : x2 = x := Option.some.inj (hx2.symm.trans hx)
        exact this ▸ hi
      have htake : r1.take (idx + 1) = r.take idx ++ [r[idx]] := by
        obtain ⟨s, rfl⟩ := hpre
        rw [List.take_append_of_le_length (by omega), List.take_succ_eq_append_getElem hlt]
      obtain ⟨m', r', e', a, b, c⟩ := ih (idx + 1) m1 r1 (by omega) (by have := hpre.length_le; omega) hm1 hn1
        (fun u hu => by
          rcases hnew u hu with h | ⟨i, _, h, hip, hnei, rfl, y, hy, hys⟩
          · exact hs u h
          · exact .step (hs _ hmem) hx (fun hcon => hip (hinj (hcon.trans hpv.symm))) hnei hy hys)
        (hpre.subset ht0)
        (fun u hu y i h hy hiv hnei hsol => by
          rw [htake, List.mem_append] at hu
          rcases hu with hu | hu
          · exact hpre.subset (hcl u hu y i h hy hiv hnei hsol)
          · simp only [List.mem_singleton] at hu
            subst hu
            rw [hx] at hy; cases hy
            exact hclo i (by fin_cases i <;> simp) (by rintro rfl; exact hiv hpv) h hnei hsol)
      refine ⟨m', r', ?_, a, b, c⟩
      simp [List.getElem?_eq_getElem hlt, hx', hp, e, e']
    · rw [if_neg hlt]
      refine ⟨m, r, rfl, hm, hn, fun u => ⟨hs u, fun hu => ?_⟩⟩
      rw [List.take_of_length_le (by omega)] at hcl
      induction hu with
      | base => exact ht0
      | step _ hx hne hnei hy hy3 ih => exact hcl _ ih _ _ _ hx hne hnei ⟨_, hy, hy3⟩


theorem unmarkAll_frame : ∀ (r : List Nat) (m : Mesh), (∀ u ∈ r, u < m.tets.length) →
    ∃ m', unmarkAll r m = some m' ∧ m'.nPoints = m.nPoints ∧ m'.p2t = m.p2t ∧
      ∀ j : Nat, m'.tets[j]? = (m.tets[j]?).map fun x => if j ∈ r then { x with marked := false } else x := by
  intro r
  induction r with
  | nil => intro m _; exact ⟨m, rfl, rfl, rfl, fun j => by simp⟩
  | cons t r ih =>
    intro m hr
    have h1 : m.unmarkTest t = some _ := modify_some (hr t (by simp))
    obtain ⟨m', e, a, b, c⟩ := ih { m with tets := m.tets.modify t fun x => { x with marked := false } }
      (fun u hu => by simpa using hr u (by simp [hu]))
    refine ⟨m', by simp [unmarkAll, h1, e], a, b, fun j => ?_⟩
    rw [c]
    simp only [List.getElem?_modify]
    cases m.tets[j]? with
    | none => simp
    | some x =>
      by_cases htj : t = j
      · subst htj; by_cases hj : t ∈ r <;> simp [hj]
      · by_cases hj : j ∈ r <;> simp [hj, htj, Ne.symm htj]

end Mesh

/-- C42. In a consistent mesh without stray marks, `incident` on a vertex whose link names a live tetrahedron having it as
a corner terminates, returns without repetition exactly the tetrahedra of the vertex star reached through solid neighbours,
each having the vertex as a corner, and leaves the mesh unchanged (all marks are removed). -/
theorem c42_incident (m : Mesh) (live : Nat → Prop) (hc : Consistent m live)
    (hmark : ∀ j x, live j → m.tets[j]? = some x → x.marked = false) (v t0 : Nat)
    (hp : m.p2t[v]? = some (some t0)) (h0 : live t0) (hv : ∃ x i, m.tets[t0]? = some x ∧ x.data i = v)
    (fuel : Nat) (hf : m.tets.length < fuel) :
    ∃ r, m.incident fuel v = some (m, r) ∧ r.Nodup ∧ (∀ t, t ∈ r ↔ Star m v t0 t) ∧
      (∀ t ∈ r, live t ∧ ∃ x i, m.tets[t]? = some x ∧ x.data i = v) ∧
      (∀ t ∈ r, t ≠ t0 → m.isHull t = some false) := by
  have hbase : Mesh.MarkedBy m m [] := ⟨rfl, rfl, fun j => by simp⟩
  obtain ⟨x0, i0, hx0, hi0⟩ := hv
  obtain ⟨m1, e1, hm1⟩ := hbase.mark (j := t0) (List.getElem?_eq_some_iff.1 hx0).1
  obtain ⟨m2, r, e2, hm2, hn, hr⟩ := Mesh.incidentLoop_spec hc hmark h0 ⟨x0, i0, hx0, hi0⟩ fuel 0 m1 [t0] (by simpa using hf)
    (by simp) hm1 (by simp) (by simp; exact .base) (by simp) (by simp)
  have hlen : ∀ u ∈ r, u < m2.tets.length := by
    intro u hu
    obtain ⟨-, x, hx, -⟩ := Mesh.star_live hc h0 ⟨x0, i0, hx0, hi0⟩ ((hr u).1 hu)
    obtain ⟨y, hy, -⟩ := hm2.get hx
    exact (List.getElem?_eq_some_iff.1 hy).1
  obtain ⟨m3, e3, a, b, c⟩ := Mesh.unmarkAll_frame r m2 hlen
  have hm3 : m3 = m := by
    obtain ⟨n3, T3, p3⟩ := m3
    obtain ⟨n, T, p⟩ := m
    have h1 : n3 = n := a.trans hm2.n
    have h2 : p3 = p := b.trans hm2.p
    have h3 : T3 = T := by
      apply List.ext_getElem?
      intro j
      have := c j
      rw [hm2.tets] at this
      simp only at this
      rw [this]
      cases hj : T[j]? with
      | none => rfl
      | some x =>
        by_cases hjr : j ∈ r
        · have hl := (Mesh.star_live hc h0 ⟨x0, i0, hx0, hi0⟩ ((hr j).1 hjr)).1
          have := hmark j x hl hj
          cases x; simp_all
        · simp [hjr]
    subst h1 h2 h3; rfl
  refine ⟨r, ?_, hn, hr, fun t ht => ?_, fun t ht hne => ?_⟩
  · simp [Mesh.incident, hp, e1, e2, e3, hm3]
  · obtain ⟨hl, x, hx, i, hi⟩ := Mesh.star_live hc h0 ⟨x0, i0, hx0, hi0⟩ ((hr t).1 ht)
    exact ⟨hl, x, i, hx, hi⟩
  · have hs := (hr t).1 ht
    cases hs with
    | base => exact absurd rfl hne
    | step _ _ _ _ hy hy3 => simp [Mesh.isHull, hy, hy3]

end Verif.Tet
