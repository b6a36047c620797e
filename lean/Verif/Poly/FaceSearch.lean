import Verif.Tet.Incident
import Verif.Poly.New
/-!
# `triangle_at_tet` (`src/polygonlization/conforming_mesh.rs` lines 349-408)
-/
namespace Verif.Poly
open Tet (Mesh TriFace face vpivot Consistent Glued)
open Tet.Mesh (markTested isHull incidentFaces unmarkAll MarkedBy Solid)

/-- The loop over the three edges that leave the corner (lines 360-369): an edge to `tri[1]` or `tri[2]`, with the third vertex still to be found. -/
def edgeAt (m : Mesh) (b c : Nat) : Nat → TriFace → Option (Option (TriFace × Nat))
  | 0, _ => some none
  | n + 1, cur => do
    let dest ← m.dest cur
    if dest = b then return some (cur, c) else if dest = c then return some (cur, b) else edgeAt m b c n cur.eprevEsym

/-- The loop over the neighbours (lines 374-383). The loop is left, not continued, at the corner itself. -/
def searchFaces (t : Nat) (pos : Fin 4) : List (Fin 4) → Mesh → List Nat → Option (Mesh × List Nat)
  | [], m, tets => some (m, tets)
  | i :: is, m, tets =>
    if i = pos then some (m, tets)
    else do
      let x ← m.tets[t]?
      let nei ← x.nei i
      if !(← m.isHull nei.tet) && !(← m.markTested nei.tet) then
        let m ← m.markTest nei.tet
        searchFaces t pos is m (tets ++ [nei.tet])
      else searchFaces t pos is m tets

/-- The search for the second point (lines 355-385), on fuel. -/
def searchLoop (a b c : Nat) : Nat → Nat → Mesh → List Nat → Option (Mesh × List Nat × Option (TriFace × Nat))
  | 0, _, _, _ => none
  | fuel + 1, idx, m, tets =>
    if idx < tets.length then do
      let tid ← tets[idx]?
      let x ← m.tets[tid]?
      let pos ← x.index a
      match ← edgeAt m b c 3 ⟨tid, vpivot pos⟩ with
      | some e => return (m, tets, some e)
      | none =>
        let (m, tets) ← searchFaces tid pos [0, 1, 2, 3] m tets
        searchLoop a b c fuel (idx + 1) m tets
    else some (m, tets, none)

/-- The search for the third point around the edge (lines 396-406), on fuel; `none` inside is `TriFace::default()`. -/
def spinLoop (m : Mesh) (edge : TriFace) (v : Nat) : Nat → TriFace → Option (Option TriFace)
  | 0, _ => none
  | fuel + 1, spin => do
    if (← m.apex spin) = v then return some spin
    else
      let spin ← m.fnext spin
      if spin.tet = edge.tet then return none else spinLoop m edge v fuel spin

/-- `triangle_at_tet` (lines 349-408) for the triangle `a`, `b`, `c`. -/
def triangleAtTet (fuel : Nat) (m : Mesh) (a b c : Nat) : Option (Mesh × Option TriFace) := do
  let t0 ← (← m.p2t[a]?)
  let m ← m.markTest t0
  let (m, tets, e) ← searchLoop a b c fuel 0 m [t0]
  let m ← unmarkAll tets m
  match e with
  | none => return (m, none)
  | some (edge, v) => return (m, ← spinLoop m edge v fuel edge)

/-! ### Specification -/

/-- The face of handle `h` has the corners `a`, `b`, `c`, the edge of the handle starting at `a`. -/
def FaceIs (m : Mesh) (h : TriFace) (a b c : Nat) : Prop :=
  m.org h = some a ∧ (m.dest h = some b ∧ m.apex h = some c ∨ m.dest h = some c ∧ m.apex h = some b)

/-- The faces around an edge form one ring: from every face with this directed edge one gets to every other by turning around the edge. -/
def OneRing (m : Mesh) (live : Nat → Prop) : Prop :=
  ∀ h k : TriFace, live h.tet → live k.tet → m.org h = m.org k → m.dest h = m.dest k →
    ∃ l : List TriFace, l.head? = some h ∧ l.getLast? = some k ∧ l.IsChain fun x y => m.fnext x = some y

/-- The tetrahedra that the search looks at: from each it goes on to the solid neighbours at the faces *before* the corner `a`. -/
inductive Scan (m : Mesh) (a t0 : Nat) : Nat → Prop
  | base : Scan m a t0 t0
  | step {t x} {i p : Fin 4} {h y} : Scan m a t0 t → m.tets[t]? = some x → x.data p = a → i < p → x.nei i = some h →
      m.tets[h.tet]? = some y → y.data 3 ≠ m.nPoints → Scan m a t0 h.tet

/-! ### Tables -/

theorem vpivot_org : ∀ p : Fin 4, Tet.orgPivot (vpivot p) = p := by decide +kernel
theorem eprevEsym_org : ∀ v, Tet.orgPivot (Tet.eprevEsym v) = Tet.orgPivot v := by decide +kernel
theorem esym_org : ∀ v, Tet.orgPivot (Tet.esym v) = Tet.destPivot v := by decide +kernel
theorem esym_dest : ∀ v, Tet.destPivot (Tet.esym v) = Tet.orgPivot v := by decide +kernel
theorem esym_esym : ∀ v, Tet.esym (Tet.esym v) = v := by decide +kernel
/-- The three edges visited lead to the three other corners. -/
theorem edges_all : ∀ p q : Fin 4, q ≠ p → Tet.destPivot (vpivot p) = q ∨ Tet.destPivot (Tet.eprevEsym (vpivot p)) = q ∨
    Tet.destPivot (Tet.eprevEsym (Tet.eprevEsym (vpivot p))) = q := by decide +kernel
/-- A version is given by its edge. -/
theorem ver_of_edge : ∀ v w : Tet.Ver, Tet.orgPivot v = Tet.orgPivot w → Tet.destPivot v = Tet.destPivot w → v = w := by decide +kernel
/-- Every face has a version that starts at a given corner of it. -/
theorem ver_of_face : ∀ v : Tet.Ver, ∀ p : Fin 4, p ≠ face v → ∃ w, face w = face v ∧ Tet.orgPivot w = p := by decide +kernel

/-! ### The search -/

theorem searchFaces_eq (t : Nat) (pos : Fin 4) : ∀ (is : List (Fin 4)) (m : Mesh) (r : List Nat),
    searchFaces t pos is m r = incidentFaces t pos (is.takeWhile (· ≠ pos)) m r
  | [], m, r => rfl
  | i :: is, m, r => by
    unfold searchFaces
    by_cases h : i = pos
    · rw [if_pos h, List.takeWhile_cons_of_neg (by simpa using h)]; rfl
    · rw [if_neg h, List.takeWhile_cons_of_pos (by simpa using h)]
      unfold incidentFaces
      rw [if_neg h]
      cases m.tets[t]? with
      | none => rfl
      | some x =>
        simp only [Option.bind_eq_bind, Option.bind_some]
        cases x.nei i with
        | none => rfl
        | some n =>
          simp only [Option.bind_some, markTested, isHull]
          cases m.tets[n.tet]? with
          | none => rfl
          | some y =>
            simp only [Option.map_some, Option.bind_some, Bool.and_comm]
            split
            · congr 1; funext m'; exact searchFaces_eq t pos is m' _
            · exact searchFaces_eq t pos is m r

/-- What the loop over the edges finds. -/
theorem edgeAt_spec {m : Mesh} {t : Nat} {x : Tet.Tet} (hx : m.tets[t]? = some x) (b c : Nat) (p : Fin 4) :
    (∃ e v, edgeAt m b c 3 ⟨t, vpivot p⟩ = some (some (e, v)) ∧ e.tet = t ∧ m.org e = some (x.data p) ∧
      ((m.dest e = some b ∧ v = c) ∨ (m.dest e = some c ∧ v = b))) ∨
    (edgeAt m b c 3 ⟨t, vpivot p⟩ = some none ∧ ∀ q, q ≠ p → x.data q ≠ b ∧ x.data q ≠ c) := by
  have key : ∀ (n : Nat) (v : Tet.Ver), Tet.orgPivot v = p →
      (∃ e w, edgeAt m b c n ⟨t, v⟩ = some (some (e, w)) ∧ e.tet = t ∧ m.org e = some (x.data p) ∧
        ((m.dest e = some b ∧ w = c) ∨ (m.dest e = some c ∧ w = b))) ∨
      (edgeAt m b c n ⟨t, v⟩ = some none ∧ ∀ k, k < n → x.data (Tet.destPivot (Tet.eprevEsym^[k] v)) ≠ b ∧ x.data (Tet.destPivot (Tet.eprevEsym^[k] v)) ≠ c) := by
    intro n
    induction n with
    | zero => intro v _; exact .inr ⟨rfl, fun k hk => absurd hk (by omega)⟩
    | succ n ih =>
      intro v hv
      have hd : m.dest ⟨t, v⟩ = some (x.data (Tet.destPivot v)) := by simp [Mesh.dest, hx]
      have ho : m.org ⟨t, v⟩ = some (x.data p) := by simp [Mesh.org, hx, hv]
      unfold edgeAt
      simp only [hd, Option.bind_eq_bind, Option.bind_some]
      by_cases h1 : x.data (Tet.destPivot v) = b
      · rw [if_pos h1]
        exact .inl ⟨_, _, rfl, rfl, ho, .inl ⟨by rw [hd, h1], rfl⟩⟩
      · rw [if_neg h1]
        by_cases h2 : x.data (Tet.destPivot v) = c
        · rw [if_pos h2]
          exact .inl ⟨_, _, rfl, rfl, ho, .inr ⟨by rw [hd, h2], rfl⟩⟩
        · rw [if_neg h2]
          rcases ih (Tet.eprevEsym v) ((eprevEsym_org v).trans hv) with h | ⟨h, h'⟩
          · exact .inl h
          · refine .inr ⟨h, fun k hk => ?_⟩
            cases k with
            | zero => exact ⟨h1, h2⟩
            | succ k => exact h' k (by omega)
  rcases key 3 (vpivot p) (vpivot_org p) with h | ⟨h, h'⟩
  · exact .inl h
  · refine .inr ⟨h, fun q hq => ?_⟩
    rcases edges_all p q hq with e | e | e
    · rw [← e]; exact h' 0 (by omega)
    · rw [← e]; exact h' 1 (by omega)
    · rw [← e]; exact h' 2 (by omega)

variable {m0 : Mesh} {live : Nat → Prop}

theorem scan_live (hc : Consistent m0 live) {a t0 : Nat} (h0 : live t0) (hv : ∃ x i, m0.tets[t0]? = some x ∧ x.data i = a) {t : Nat} (hs : Scan m0 a t0 t) :
    live t ∧ ∃ x, m0.tets[t]? = some x ∧ ∃ i, x.data i = a := by
  induction hs with
  | base => obtain ⟨x, i, hx, hi⟩ := hv; exact ⟨h0, x, hx, i, hi⟩
  | @step t x i p h y hs hx hp hlt hnei hy _ ih =>
    obtain ⟨h', y', e1, e2, e3, e4⟩ := Tet.Mesh.neighbour hc ih.1 hx i
    have : h' = h := Option.some.inj (e1.symm.trans hnei)
    subst this
    obtain ⟨q, hq⟩ := e4 p (by rintro rfl; exact absurd hlt (lt_irrefl _))
    exact ⟨e2, y', e3, q, by rw [hq, hp]⟩

theorem markedBy_data {m : Mesh} {r : List Nat} (h : MarkedBy m0 m r) (j : Nat) : (m.tets[j]?).map (·.data) = (m0.tets[j]?).map (·.data) := by
  rw [h.tets]
  cases m0.tets[j]? with
  | none => rfl
  | some x => by_cases hj : j ∈ r <;> simp [hj]

theorem takeWhile_lt : ∀ p i : Fin 4, i ∈ [0, 1, 2, 3].takeWhile (· ≠ p) ↔ i < p := by decide +kernel

/-- The search ends; it stops at an edge from `a` to `b` or `c` in a tetrahedron it looks at, or has looked at all of them and found none. -/
theorem searchLoop_spec (hc : Consistent m0 live) (hmark : ∀ j x, live j → m0.tets[j]? = some x → x.marked = false) {a b c t0 : Nat}
    (hab : a ≠ b) (hac : a ≠ c) (h0 : live t0) (hv : ∃ x i, m0.tets[t0]? = some x ∧ x.data i = a) :
    ∀ (fuel idx : Nat) (m : Mesh) (r : List Nat), m0.tets.length < fuel + idx → idx ≤ r.length → MarkedBy m0 m r → r.Nodup →
    (∀ u ∈ r, Scan m0 a t0 u) → t0 ∈ r →
    (∀ u ∈ r.take idx, ∀ x, m0.tets[u]? = some x → ∀ q, x.data q ≠ b ∧ x.data q ≠ c) →
    (∀ u ∈ r.take idx, ∀ (x : Tet.Tet) (i p : Fin 4) (h : TriFace), m0.tets[u]? = some x → x.data p = a → i < p → x.nei i = some h → Solid m0 h.tet → h.tet ∈ r) →
    ∃ m' r' e, searchLoop a b c fuel idx m r = some (m', r', e) ∧ MarkedBy m0 m' r' ∧ r'.Nodup ∧ (∀ u ∈ r', Scan m0 a t0 u) ∧
      (e = none → ∀ u, Scan m0 a t0 u → ∀ x, m0.tets[u]? = some x → ∀ q, x.data q ≠ b ∧ x.data q ≠ c) ∧
      (∀ h v, e = some (h, v) → Scan m0 a t0 h.tet ∧ m0.org h = some a ∧ ((m0.dest h = some b ∧ v = c) ∨ (m0.dest h = some c ∧ v = b))) := by
  intro fuel
  induction fuel with
  | zero =>
    intro idx m r hf hidx hm hn hs _ _ _
    exfalso
    have hlen : r.length ≤ m0.tets.length := by
      have hsub : r ⊆ List.range m0.tets.length := by
        intro u hu
        obtain ⟨-, x, hx, -⟩ := scan_live hc h0 hv (hs u hu)
        exact List.mem_range.2 (List.getElem?_eq_some_iff.1 hx).1
      simpa using (hn.subperm hsub).length_le
    omega
  | succ fuel ih =>
    intro idx m r hf hidx hm hn hs ht0 hno hcl
    unfold searchLoop
    by_cases hlt : idx < r.length
    · rw [if_pos hlt]
      have hmem : r[idx] ∈ r := List.getElem_mem _
      obtain ⟨hl, x, hx, hvx⟩ := scan_live hc h0 hv (hs _ hmem)
      obtain ⟨x', hx', hxd, -, -⟩ := hm.get hx
      obtain ⟨p, hp, hpv⟩ := Tet.Mesh.index_spec (x := x') (v := a) (by rw [hxd]; exact hvx)
      have hd := Tet.Mesh.org_of_data (markedBy_data hm)
      simp only [List.getElem?_eq_getElem hlt, hx', hp, Option.bind_eq_bind, Option.bind_some]
      rcases edgeAt_spec hx' b c p with ⟨e, v, h1, h2, h3, h4⟩ | ⟨h1, h2⟩
      · refine ⟨m, r, some (e, v), by rw [h1]; rfl, hm, hn, hs, fun h => (by cases h), fun h w he => ?_⟩
        cases he
        obtain ⟨d1, d2, _, _⟩ := hd e
        refine ⟨by rw [h2]; exact hs _ hmem, by rw [← d1, h3, hpv], ?_⟩
        rw [← d2]; exact h4
      · rw [h1]
        simp only [Option.bind_some]
        rw [hxd] at hpv h2
        obtain ⟨m1, r1, e, hm1, hn1, hpre, hnew, hclo⟩ := Tet.Mesh.incidentFaces_spec hc hmark hl hx p ([0, 1, 2, 3].takeWhile (· ≠ p)) m r hm hn
        have hinj : Function.Injective x.data := by
          obtain ⟨x2, hx2, hi⟩ := hc.corners _ hl
          have : x2 = x := Option.some.inj (hx2.symm.trans hx)
          exact this ▸ hi
        have htake : r1.take (idx + 1) = r.take idx ++ [r[idx]] := by
          obtain ⟨s, rfl⟩ := hpre
          rw [List.take_append_of_le_length (by omega), List.take_succ_eq_append_getElem hlt]
        have hall : ∀ q, x.data q ≠ b ∧ x.data q ≠ c := by
          intro q
          by_cases hq : q = p
          · subst hq; rw [hpv]; exact ⟨hab, hac⟩
          · exact h2 q hq
        obtain ⟨m', r', e', q1, q2, q3, q4, q5, q6⟩ := ih (idx + 1) m1 r1 (by omega) (by have := hpre.length_le; omega) hm1 hn1
          (fun u hu => by
            rcases hnew u hu with h | ⟨i, hi, h, hip, hnei, rfl, y, hy, hys⟩
            · exact hs u h
            · exact .step (hs _ hmem) hx hpv ((takeWhile_lt p i).1 hi) hnei hy hys)
          (hpre.subset ht0)
          (fun u hu y hy q => by
            rw [htake, List.mem_append] at hu
            rcases hu with hu | hu
            · exact hno u hu y hy q
            · simp only [List.mem_singleton] at hu
              subst hu
              rw [hx] at hy; cases hy
              exact hall q)
          (fun u hu y i p' h hy hp' hlt' hnei hsol => by
            rw [htake, List.mem_append] at hu
            rcases hu with hu | hu
            · exact hpre.subset (hcl u hu y i p' h hy hp' hlt' hnei hsol)
            · simp only [List.mem_singleton] at hu
              subst hu
              rw [hx] at hy; cases hy
              have : p' = p := hinj (hp'.trans hpv.symm)
              subst this
              exact hclo i ((takeWhile_lt _ i).2 hlt') (ne_of_lt hlt') h hnei hsol)
        refine ⟨m', r', e', ?_, q2, q3, q4, q5, q6⟩
        rw [searchFaces_eq, e]
        exact q1
    · rw [if_neg hlt]
      rw [List.take_of_length_le (by omega)] at hcl hno
      refine ⟨m, r, none, rfl, hm, hn, hs, fun _ u hu => ?_, fun h v he => by cases he⟩
      have : u ∈ r := by
        induction hu with
        | base => exact ht0
        | step _ hx hp hlt hnei hy hy3 ih => exact hcl _ ih _ _ _ _ hx hp hlt hnei ⟨_, hy, hy3⟩
      exact hno u this

/-! ### Turning around the edge -/

/-- In a consistent mesh turning around an edge stays in the mesh, keeps the edge and is injective. -/
theorem fnext_spec (hc : Consistent m0 live) {h : TriFace} (hl : live h.tet) : ∃ k, m0.fnext h = some k ∧ live k.tet ∧ m0.org k = m0.org h ∧
    m0.dest k = m0.dest h ∧ m0.fsym k = some h.esym := by
  obtain ⟨k, kl, g⟩ := hc.glued h.tet hl (Tet.esym h.ver)
  refine ⟨k, by rw [Tet.Mesh.fnext_eq]; exact g.fwd, kl, ?_, ?_, g.bwd⟩
  · rw [g.org]; simp [Mesh.org, Mesh.dest, esym_dest]
  · rw [g.dest]; simp [Mesh.org, Mesh.dest, esym_org]

theorem fnext_inj (hc : Consistent m0 live) {h h' k : TriFace} (hl : live h.tet) (hl' : live h'.tet) (e : m0.fnext h = some k) (e' : m0.fnext h' = some k) :
    h = h' := by
  obtain ⟨k1, a1, _, _, _, b1⟩ := fnext_spec hc hl
  obtain ⟨k2, a2, _, _, _, b2⟩ := fnext_spec hc hl'
  rw [e] at a1; cases a1
  rw [e'] at a2; cases a2
  rw [b1] at b2
  have := Option.some.inj b2
  obtain ⟨t, v⟩ := h
  obtain ⟨t', v'⟩ := h'
  simp only [TriFace.esym, TriFace.mk.injEq] at this
  have hv := congrArg Tet.esym this.2
  rw [esym_esym, esym_esym] at hv
  simp [this.1, hv]

/-- A handle is given by its tetrahedron and its edge. -/
theorem handle_eq (hc : Consistent m0 live) {h k : TriFace} (hl : live h.tet) (ht : k.tet = h.tet) (ho : m0.org k = m0.org h) (hd : m0.dest k = m0.dest h) : k = h := by
  obtain ⟨x, hx, hi⟩ := hc.corners _ hl
  obtain ⟨t, v⟩ := h
  obtain ⟨t', v'⟩ := k
  simp only at ht hx
  subst ht
  simp only [Mesh.org, Mesh.dest, hx, Option.map_some, Option.some.injEq] at ho hd
  rw [ver_of_edge v' v (hi ho) (hi hd)]

/-- Turning around the edge comes to an end. It returns a face around the edge with the apex looked for; if it returns nothing, no face that one
gets to by turning has this apex. -/
theorem spinLoop_spec (hc : Consistent m0 live) {edge : TriFace} (hl : live edge.tet) (v : Nat) : ∀ (fuel : Nat) (l : List TriFace) (spin : TriFace),
    l.head? = some edge → l.getLast? = some spin → l.IsChain (fun x y => m0.fnext x = some y) → (l.map TriFace.tet).Nodup →
    (∀ x ∈ l, live x.tet ∧ m0.org x = m0.org edge ∧ m0.dest x = m0.dest edge) → (∀ x ∈ l.dropLast, m0.apex x ≠ some v) →
    m0.tets.length < fuel + l.length →
    ∃ res, spinLoop m0 edge v fuel spin = some res ∧
      (∀ h, res = some h → live h.tet ∧ m0.org h = m0.org edge ∧ m0.dest h = m0.dest edge ∧ m0.apex h = some v) ∧
      (res = none → ∃ l' : List TriFace, edge ∈ l' ∧ (∀ x ∈ l', m0.apex x ≠ some v ∧ ∃ y ∈ l', m0.fnext x = some y)) := by
  intro fuel
  induction fuel with
  | zero =>
    intro l spin _ _ _ hnd hall _ hf
    exfalso
    have hsub : l.map TriFace.tet ⊆ List.range m0.tets.length := by
      intro u hu
      obtain ⟨x, hx, rfl⟩ := List.mem_map.1 hu
      obtain ⟨y, hy, _⟩ := hc.corners _ (hall x hx).1
      exact List.mem_range.2 (List.getElem?_eq_some_iff.1 hy).1
    have := (hnd.subperm hsub).length_le
    simp at this; omega
  | succ fuel ih =>
    intro l spin hh hlast hch hnd hall hno hf
    have hsp := List.mem_of_getLast? hlast
    obtain ⟨sl, so, sd⟩ := hall spin hsp
    obtain ⟨x, hx, _⟩ := hc.corners _ sl
    have ha : m0.apex spin = some (x.data (Tet.apexPivot spin.ver)) := by simp [Mesh.apex, hx]
    unfold spinLoop
    simp only [ha, Option.bind_eq_bind, Option.bind_some]
    by_cases hv : x.data (Tet.apexPivot spin.ver) = v
    · rw [if_pos hv]
      exact ⟨_, rfl, fun h e => by cases e; exact ⟨sl, so, sd, by rw [ha, hv]⟩, fun e => by cases e⟩
    · rw [if_neg hv]
      obtain ⟨k, e1, kl, ko, kd, kb⟩ := fnext_spec hc sl
      simp only [e1, Option.bind_some]
      have hdl : ∀ y ∈ l, m0.apex y ≠ some v := by
        intro y hy
        by_cases hys : y = spin
        · subst hys; rw [ha]; simpa using hv
        · refine hno y ?_
          have hne : l ≠ [] := List.ne_nil_of_mem hy
          have h3 := List.dropLast_append_getLast hne
          rw [← h3, List.mem_append] at hy
          rcases hy with hy | hy
          · exact hy
          · rw [List.getLast?_eq_some_getLast hne] at hlast
            simp only [List.mem_singleton] at hy
            exact absurd (hy.trans (Option.some.inj hlast)) hys
      by_cases ht : k.tet = edge.tet
      · rw [if_pos ht]
        refine ⟨none, rfl, fun h e => (by cases e), fun _ => ⟨l, List.mem_of_head? hh, fun y hy => ⟨hdl y hy, ?_⟩⟩⟩
        have hke : k = edge := handle_eq hc hl ht (ko.trans so) (kd.trans sd)
        by_cases hys : y = spin
        · subst hys
          exact ⟨edge, List.mem_of_head? hh, by rw [e1, hke]⟩
        · obtain ⟨i, hi, rfl⟩ := List.getElem_of_mem hy
          have hi2 : i + 1 < l.length := by
            by_contra hcon
            have : i = l.length - 1 := by omega
            subst this
            rw [List.getLast?_eq_getElem?, List.getElem?_eq_getElem hi] at hlast
            exact hys (Option.some.inj hlast)
          exact ⟨l[i + 1], List.getElem_mem _, (List.isChain_iff_getElem.1 hch) i (by omega)⟩
      · rw [if_neg ht]
        refine ih (l ++ [k]) k ?_ (by simp) ?_ ?_ ?_ (by simpa using hdl) (by simp; omega)
        · cases l with
          | nil => simp at hh
          | cons z l => simpa using hh
        · rw [List.isChain_append]
          refine ⟨hch, by simp, fun y hy z hz => ?_⟩
          simp only [List.head?_cons, Option.mem_def, Option.some.injEq] at hz
          subst hz
          rw [Option.mem_def, hlast] at hy
          cases hy; exact e1
        · rw [List.map_append, List.nodup_append]
          refine ⟨hnd, by simp, fun u hu w hw => ?_⟩
          simp only [List.map_cons, List.map_nil, List.mem_singleton] at hw
          subst hw
          obtain ⟨y, hy, rfl⟩ := List.mem_map.1 hu
          intro e
          obtain ⟨yl, yo, yd⟩ := hall y hy
          have hky : k = y := handle_eq hc yl e.symm (ko.trans (so.trans yo.symm)) (kd.trans (sd.trans yd.symm))
          have htail : y ∈ l.tail := by
            cases l with
            | nil => cases hy
            | cons z l =>
              simp only [List.head?_cons, Option.some.injEq] at hh
              subst hh
              rcases List.mem_cons.1 hy with rfl | h
              · exact absurd (by rw [hky]) ht
              · exact h
          -- the predecessor of `y` in the chain is `spin`, which is last: a contradiction
          obtain ⟨i, hi, e3⟩ := List.getElem_of_mem htail
          simp only [List.length_tail] at hi
          rw [List.getElem_tail] at e3
          have h4 := (List.isChain_iff_getElem.1 hch) i (by omega)
          rw [e3, ← hky] at h4
          have h5 : l[i] = spin := fnext_inj hc (hall _ (List.getElem_mem _)).1 sl h4 e1
          rw [List.getLast?_eq_getElem?, List.getElem?_eq_getElem (by omega)] at hlast
          have h6 := Option.some.inj hlast
          rw [← h5] at h6
          have := ((hnd.of_map).getElem_inj_iff).1 h6
          omega
        · intro y hy
          rcases List.mem_append.1 hy with hy | hy
          · exact hall y hy
          · simp only [List.mem_singleton] at hy
            subst hy
            exact ⟨kl, ko.trans so, kd.trans sd⟩

theorem triangleAtTet_spec (m : Mesh) (live : Nat → Prop) (hc : Consistent m live)
    (hmark : ∀ j x, live j → m.tets[j]? = some x → x.marked = false) (a b c t0 : Nat) (hab : a ≠ b) (hac : a ≠ c)
    (hp : m.p2t[a]? = some (some t0)) (h0 : live t0) (hv : ∃ x i, m.tets[t0]? = some x ∧ x.data i = a) (fuel : Nat) (hf : m.tets.length < fuel) :
    ∃ res, triangleAtTet fuel m a b c = some (m, res) ∧ (∀ h, res = some h → live h.tet ∧ FaceIs m h a b c) ∧
      (res = none → (∀ u, Scan m a t0 u → ∀ x, m.tets[u]? = some x → ∀ q, x.data q ≠ b ∧ x.data q ≠ c) ∨
        ∃ edge v, live edge.tet ∧ m.org edge = some a ∧ (m.dest edge = some b ∧ v = c ∨ m.dest edge = some c ∧ v = b) ∧
          ∃ l' : List TriFace, edge ∈ l' ∧ (∀ x ∈ l', m.apex x ≠ some v ∧ ∃ y ∈ l', m.fnext x = some y)) := by
  have hbase : MarkedBy m m [] := ⟨rfl, rfl, fun j => by simp⟩
  obtain ⟨x0, i0, hx0, hi0⟩ := hv
  obtain ⟨m1, e1, hm1⟩ := hbase.mark (j := t0) (List.getElem?_eq_some_iff.1 hx0).1
  obtain ⟨m2, r, e, e2, hm2, hn, hr, q1, q2⟩ := searchLoop_spec hc hmark hab hac h0 ⟨x0, i0, hx0, hi0⟩ fuel 0 m1 [t0] (by simpa using hf)
    (by simp) hm1 (by simp) (by simp; exact .base) (by simp) (by simp) (by simp)
  have hlen : ∀ u ∈ r, u < m2.tets.length := by
    intro u hu
    obtain ⟨-, x, hx, -⟩ := scan_live hc h0 ⟨x0, i0, hx0, hi0⟩ (hr u hu)
    obtain ⟨y, hy, -⟩ := hm2.get hx
    exact (List.getElem?_eq_some_iff.1 hy).1
  obtain ⟨m3, e3, u1, u2, u3⟩ := Tet.Mesh.unmarkAll_frame r m2 hlen
  have hm3 : m3 = m := by
    obtain ⟨n3, T3, p3⟩ := m3
    obtain ⟨n, T, p⟩ := m
    have h1 : n3 = n := u1.trans hm2.n
    have h2 : p3 = p := u2.trans hm2.p
    have h3 : T3 = T := by
      apply List.ext_getElem?
      intro j
      have := u3 j
      rw [hm2.tets] at this
      simp only at this
      rw [this]
      cases hj : T[j]? with
      | none => rfl
      | some x =>
        by_cases hjr : j ∈ r
        · have hl := (scan_live hc h0 ⟨x0, i0, hx0, hi0⟩ (hr j hjr)).1
          have := hmark j x hl hj
          cases x; simp_all
        · simp [hjr]
    subst h1 h2 h3; rfl
  subst hm3
  cases e with
  | none => exact ⟨none, by simp [triangleAtTet, hp, e1, e2, e3], fun h e => (by cases e), fun _ => .inl (q1 rfl)⟩
  | some e =>
    obtain ⟨edge, v⟩ := e
    obtain ⟨s1, s2, s3⟩ := q2 edge v rfl
    have el := (scan_live hc h0 ⟨x0, i0, hx0, hi0⟩ s1).1
    obtain ⟨res, r1, r2, r3⟩ := spinLoop_spec hc el v fuel [edge] edge rfl rfl (by simp) (by simp) (by simpa using el) (by simp) (by simp; omega)
    refine ⟨res, by simp [triangleAtTet, hp, e1, e2, e3, r1], fun h eh => ?_, fun eh => ?_⟩
    · obtain ⟨a1, a2, a3, a4⟩ := r2 h eh
      refine ⟨a1, a2.trans s2, ?_⟩
      rcases s3 with ⟨s3, rfl⟩ | ⟨s3, rfl⟩
      · exact .inl ⟨a3.trans s3, a4⟩
      · exact .inr ⟨a3.trans s3, a4⟩
    · exact .inr ⟨edge, v, el, s2, s3, r3 eh⟩

/-- C58 (first half). In a consistent mesh `triangle_at_tet` terminates, leaves the mesh as it was, and if it returns a handle then the face of the
handle has the three given corners. -/
theorem c58_sound (m : Mesh) (live : Nat → Prop) (hc : Consistent m live)
    (hmark : ∀ j x, live j → m.tets[j]? = some x → x.marked = false) (a b c t0 : Nat) (hab : a ≠ b) (hac : a ≠ c)
    (hp : m.p2t[a]? = some (some t0)) (h0 : live t0) (hv : ∃ x i, m.tets[t0]? = some x ∧ x.data i = a) (fuel : Nat) (hf : m.tets.length < fuel) :
    ∃ res, triangleAtTet fuel m a b c = some (m, res) ∧ ∀ h, res = some h → live h.tet ∧ FaceIs m h a b c := by
  obtain ⟨res, h1, h2, _⟩ := triangleAtTet_spec m live hc hmark a b c t0 hab hac hp h0 hv fuel hf
  exact ⟨res, h1, h2⟩

/-- C58 (second half, partial). Full statement: "if the mesh has a face with the three given corners then a handle is returned". It holds if one of
the tetrahedra that the search looks at has `b` or `c` as a corner. Missing: because of the `break` in line 376 the search does not look at
the whole star of `a`; see `c58_found_refuted`. -/
theorem c58_found_partial (m : Mesh) (live : Nat → Prop) (hc : Consistent m live)
    (hmark : ∀ j x, live j → m.tets[j]? = some x → x.marked = false) (a b c t0 : Nat) (hab : a ≠ b) (hac : a ≠ c)
    (hp : m.p2t[a]? = some (some t0)) (h0 : live t0) (hv : ∃ x i, m.tets[t0]? = some x ∧ x.data i = a) (fuel : Nat) (hf : m.tets.length < fuel)
    (hring : OneRing m live) (k : TriFace) (kl : live k.tet) (hk : FaceIs m k a b c)
    (hscan : ∃ u x q, Scan m a t0 u ∧ m.tets[u]? = some x ∧ (x.data q = b ∨ x.data q = c)) :
    ∃ h, triangleAtTet fuel m a b c = some (m, some h) ∧ live h.tet ∧ FaceIs m h a b c := by
  obtain ⟨res, h1, h2, h3⟩ := triangleAtTet_spec m live hc hmark a b c t0 hab hac hp h0 hv fuel hf
  cases res with
  | some h => exact ⟨h, h1, h2 h rfl⟩
  | none =>
    exfalso
    rcases h3 rfl with h3 | ⟨edge, v, el, eo, ed, l', hel, hcl⟩
    · obtain ⟨u, x, q, hs, hx, hq⟩ := hscan
      have := h3 u hs x hx q
      tauto
    · -- the face in the mesh, seen from the edge
      have hk' : ∃ k' : TriFace, live k'.tet ∧ m.org k' = m.org edge ∧ m.dest k' = m.dest edge ∧ m.apex k' = some v := by
        have flip : ∀ w z, m.dest k = some z → m.apex k = some w → ∃ k' : TriFace, live k'.tet ∧ m.org k' = some a ∧ m.dest k' = some w ∧ m.apex k' = some z := by
          intro w z hz hw
          obtain ⟨g, gl, gg⟩ := hc.glued k.tet kl (Tet.eprev k.ver)
          refine ⟨g, gl, ?_, ?_, ?_⟩
          · rw [gg.org, ← hk.1]; simp [Mesh.org, Mesh.dest, Tet.dest_eprev]
          · rw [gg.dest, ← hw]; simp [Mesh.org, Mesh.apex, Tet.org_eprev]
          · rw [gg.apex, ← hz]; simp [Mesh.apex, Mesh.dest, Tet.apex_eprev]
        rw [eo]
        rcases ed with ⟨ed, rfl⟩ | ⟨ed, rfl⟩ <;> rw [ed] <;> rcases hk.2 with ⟨kd, ka⟩ | ⟨kd, ka⟩
        · exact ⟨k, kl, hk.1, kd, ka⟩
        · exact flip _ _ kd ka
        · exact flip _ _ kd ka
        · exact ⟨k, kl, hk.1, kd, ka⟩
      obtain ⟨k', kl', ko', kd', ka'⟩ := hk'
      obtain ⟨l, l1, l2, l3⟩ := hring edge k' el kl' ko'.symm kd'.symm
      have hall : ∀ (l : List TriFace) (z : TriFace), l.head? = some z → z ∈ l' → (l.IsChain fun x y => m.fnext x = some y) → ∀ x ∈ l, x ∈ l' := by
        intro l
        induction l with
        | nil => intro z hz _ _ x hx; cases hx
        | cons y l ih =>
          intro z hz hzl hch x hx
          simp only [List.head?_cons, Option.some.injEq] at hz
          subst hz
          rcases List.mem_cons.1 hx with rfl | hx
          · exact hzl
          · cases l with
            | nil => cases hx
            | cons w l =>
              obtain ⟨hc1, hc2⟩ := List.isChain_cons_cons.1 hch
              obtain ⟨_, w', hw', e⟩ := hcl y hzl
              rw [hc1] at e; cases e
              exact ih w rfl hw' hc2 x hx
      exact (hcl k' (hall l edge l1 hel l3 k' (List.mem_of_getLast? l2))).1 ka'

/-! ### Examples -/

/-- The handles met by turning `n` times around the edge. -/
def turns (m : Mesh) : Nat → TriFace → List TriFace
  | 0, h => [h]
  | n + 1, h => h :: ((m.fnext h).map (turns m n)).getD []

theorem turns_chain (m : Mesh) (h : TriFace) : ∀ n, (turns m n h).head? = some h
  | 0 => rfl
  | _ + 1 => rfl

theorem turns_ring (m : Mesh) : ∀ (n : Nat) (h k : TriFace), k ∈ turns m n h →
    ∃ l : List TriFace, l.head? = some h ∧ l.getLast? = some k ∧ l.IsChain fun x y => m.fnext x = some y
  | 0, h, k, hk => by
    simp only [turns, List.mem_singleton] at hk
    subst hk; exact ⟨[k], rfl, rfl, by simp⟩
  | n + 1, h, k, hk => by
    rcases List.mem_cons.1 hk with rfl | hk
    · exact ⟨[k], rfl, rfl, by simp⟩
    · cases e : m.fnext h with
      | none => simp [e] at hk
      | some g =>
        rw [e] at hk
        obtain ⟨l, l1, l2, l3⟩ := turns_ring m n g k hk
        cases l with
        | nil => cases l1
        | cons z l =>
          simp only [List.head?_cons, Option.some.injEq] at l1
          subst l1
          exact ⟨h :: z :: l, rfl, by rw [List.getLast?_cons_cons]; exact l2, List.isChain_cons_cons.2 ⟨e, l3⟩⟩

/-- A test for `OneRing`. -/
def ringTest (m : Mesh) (n : Nat) : Bool :=
  let hs := (List.range m.tets.length).flatMap fun t => (List.finRange 12).map fun v => (⟨t, v⟩ : TriFace)
  hs.all fun h => hs.all fun k => decide (m.org h = m.org k → m.dest h = m.dest k → k ∈ turns m n h)

theorem ring_of_test {m : Mesh} {n : Nat} (h : ringTest m n = true) : OneRing m (· < m.tets.length) := by
  intro x y hx hy ho hd
  simp only [ringTest, List.all_eq_true, decide_eq_true_eq, List.mem_flatMap, List.mem_range, List.mem_map, List.mem_finRange, true_and] at h
  exact turns_ring m n x y (h x ⟨x.tet, hx, x.ver, rfl⟩ y ⟨y.tet, hy, y.ver, rfl⟩ ho hd)

theorem exMesh5_ring : OneRing exMesh5 (· < exMesh5.tets.length) := ring_of_test (n := 6) (by decide +kernel)

/-- The hypotheses of the theorems hold for the mesh with an interior point: the face with the corners 0, 1, 4 exists (it is a face of
tetrahedron 6), tetrahedron 5 is the link of vertex 0, and the search finds it. -/
example : ∃ h, triangleAtTet 9 exMesh5 0 1 4 = some (exMesh5, some h) ∧ h.tet < 8 ∧ FaceIs exMesh5 h 0 1 4 := by
  have hx : exMesh5.tets[5]? = some (exMesh5.tets[5]'(by decide +kernel)) := List.getElem?_eq_getElem _
  refine c58_found_partial exMesh5 (· < exMesh5.tets.length) exMesh5_whole ?_ 0 1 4 5 (by decide) (by decide) (by decide +kernel) (by decide +kernel)
    ⟨_, 0, hx, by decide +kernel⟩ 9 (by decide +kernel) exMesh5_ring ⟨6, 11⟩ (by decide +kernel) ?_ ⟨5, _, 2, .base, hx, by decide +kernel⟩
  · have : ∀ x ∈ exMesh5.tets, x.marked = false := by decide +kernel
    exact fun j x _ hj => this x (List.mem_of_getElem? hj)
  · unfold FaceIs; decide +kernel

/-- Six points: a tetrahedron, a point inside and a point outside. -/
def exMesh6 : Mesh := (Tet.tetrahedralizeFrom [⟨0, 0, 0⟩, ⟨8, 0, 0⟩, ⟨0, 8, 0⟩, ⟨0, 0, 8⟩, ⟨1, 2, 1⟩, (⟨9, 9, 9⟩ : InSphere.Pt Int)] 50 [0, 1, 2, 3, 4, 5]).getD (Mesh.new 0)

theorem exMesh6_whole : Whole exMesh6 := whole_of_test (by decide +kernel)

/-- C58 fails: in the tetrahedralization of six points the triangle 4, 0, 2 is a face (of tetrahedron 3), but it is not found. The search starts in
tetrahedron 9 with corners 4, 1, 5, 3; as vertex 4 is its first corner, the loop over the neighbours ends at once. -/
theorem c58_found_refuted : Whole exMesh6 ∧ OneRing exMesh6 (· < exMesh6.tets.length) ∧ (∃ h, h.tet < exMesh6.tets.length ∧ FaceIs exMesh6 h 4 0 2) ∧
    (triangleAtTet 50 exMesh6 4 0 2).map Prod.snd = some none := by
  refine ⟨exMesh6_whole, ring_of_test (n := 6) (by decide +kernel), ⟨⟨3, 9⟩, by decide +kernel, ?_⟩, by decide +kernel⟩
  unfold FaceIs; decide +kernel

end Verif.Poly
