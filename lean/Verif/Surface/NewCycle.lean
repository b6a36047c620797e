import Verif.Surface.SplitEdge
import Mathlib.Algebra.BigOperators.Group.List.Basic
/-!
# `SurfaceMesh::new`: the rings around the vertices; iterators over all elements
-/
namespace Verif.Surface

theorem collect_skip {valid : Nat → Bool} {n : Nat} : ∀ (k id fuel : Nat), id + k = n → k < fuel →
    collect valid n fuel (skip valid k id) = (List.range' id k).filter valid := by
  intro k
  induction k with
  | zero =>
    intro id fuel h1 h2
    obtain ⟨fuel, rfl⟩ := Nat.exists_eq_succ_of_ne_zero (by omega : fuel ≠ 0)
    rw [skip, collect, if_pos (by omega)]
    rfl
  | succ k ih =>
    intro id fuel h1 h2
    rw [skip, List.range'_succ]
    split_ifs with h
    · obtain ⟨fuel, rfl⟩ := Nat.exists_eq_succ_of_ne_zero (by omega : fuel ≠ 0)
      rw [collect, if_neg (by omega), List.filter_cons_of_pos h, show n - (id + 1) = k by omega, ih (id + 1) fuel (by omega) (by omega)]
    · rw [List.filter_cons_of_neg h, ih (id + 1) fuel (by omega) (by omega)]

/-- The iterators return the elements that refer to a halfedge, in order. -/
theorem elements_eq (a : Ids) : elements a = (List.range a.length).filter fun i => (get a i).isSome := by
  rw [elements, List.range_eq_range']
  exact collect_skip _ _ _ (by omega) (by omega)

theorem elements_all {a : Ids} (h : ∀ i < a.length, ∃ x, get a i = some x) : elements a = List.range a.length := by
  rw [elements_eq, List.filter_eq_self]
  intro i hi
  obtain ⟨x, hx⟩ := h i (List.mem_range.1 hi)
  rw [hx]; rfl

/-- The halfedges of `hs` with key `v`. -/
def cls (key : Nat → Option Nat) (hs : List Nat) (v : Nat) : List Nat := hs.filter fun h => key h = some v

theorem cls_cons {key : Nat → Option Nat} {h : Nat} {hs : List Nat} {v : Nat} :
    cls key (h :: hs) v = if key h = some v then h :: cls key hs v else cls key hs v := by
  rw [cls, List.filter_cons]; simp [cls]

theorem cls_append {key : Nat → Option Nat} {P R : List Nat} {v : Nat} : cls key (P ++ R) v = cls key P v ++ cls key R v := List.filter_append _ _

theorem sum_set_succ {d : List Nat} {v c : Nat} (h : d[v]? = some c) : (d.set v (c + 1)).sum = d.sum + 1 := by
  induction d generalizing v with
  | nil => simp at h
  | cons x d ih =>
    cases v with
    | zero => simp at h; subst h; simp; omega
    | succ v => simp at h; simp [ih h]; omega

theorem degrees_spec {key : Nat → Option Nat} : ∀ (hs d : List Nat), (∀ h ∈ hs, ∃ v < d.length, key h = some v) →
    ∃ d', degrees key hs d = some d' ∧ d'.length = d.length ∧ d'.sum = d.sum + hs.length ∧
      ∀ v c, d[v]? = some c → d'[v]? = some (c + (cls key hs v).length) := by
  intro hs
  induction hs with
  | nil => intro d _; exact ⟨d, rfl, rfl, rfl, fun v c h => by simpa [cls] using h⟩
  | cons h hs ih =>
    intro d hd
    obtain ⟨v, v1, v2⟩ := hd h (by simp)
    obtain ⟨c, hc⟩ : ∃ c, d[v]? = some c := ⟨_, List.getElem?_eq_getElem v1⟩
    obtain ⟨d', q1, q2, q3, q4⟩ := ih (d.set v (c + 1)) (fun x hx => by rw [List.length_set]; exact hd x (by simp [hx]))
    refine ⟨d', ?_, by rw [q2, List.length_set], by rw [q3, sum_set_succ hc, List.length_cons]; omega, fun w b hb => ?_⟩
    · rw [degrees]
      refine (bind_of v2).trans ?_
      exact (bind_of hc).trans q1
    · rw [cls_cons]
      by_cases hw : w = v
      · subst hw
        rw [hb, Option.some.injEq] at hc
        subst hc
        rw [q4 w (b + 1) (by rw [List.getElem?_set_self v1]), if_pos v2, List.length_cons]
        congr 1; omega
      · rw [q4 w b (by rw [List.getElem?_set_ne (Ne.symm hw), hb]), if_neg]
        rw [v2, Option.some.injEq]; exact Ne.symm hw

theorem sums_get : ∀ (d : List Nat) (s i : Nat), i < d.length → (sums s d)[i]? = some (s + (d.take (i + 1)).sum) := by
  intro d
  induction d with
  | nil => intro s i h; simp at h
  | cons c d ih =>
    intro s i h
    cases i with
    | zero => simp [sums]
    | succ i => rw [sums, List.getElem?_cons_succ, ih _ _ (by simpa using h)]; simp; omega

theorem sums_len : ∀ (d : List Nat) (s : Nat), (sums s d).length = d.length := by
  intro d
  induction d with
  | nil => intro s; rfl
  | cons c d ih => intro s; simp [sums, ih]

theorem sep_get {d : List Nat} {v : Nat} (h : v ≤ d.length) : (0 :: sums 0 d)[v]? = some (d.take v).sum := by
  cases v with
  | zero => rfl
  | succ v => rw [List.getElem?_cons_succ, sums_get _ _ _ (by omega), Nat.zero_add]

theorem place_spec {key : Nat → Option Nat} {S : Nat → Nat} {nV N : Nat} {hs : List Nat} (hS1 : ∀ v < nV, S v + (cls key hs v).length ≤ S (v + 1))
    (hS2 : ∀ v w, v ≤ w → w ≤ nV → S v ≤ S w) (hS3 : S nV ≤ N) (hk : ∀ h ∈ hs, ∃ v < nV, key h = some v) :
    ∀ (R P pos out : List Nat), hs = P ++ R → out.length = N → (∀ v < nV, pos[v]? = some (S v + (cls key P v).length)) →
    (∀ v < nV, ∀ (i x : Nat), (cls key P v)[i]? = some x → out[S v + i]? = some x) →
    ∃ out', place key R pos out = some out' ∧ out'.length = N ∧ ∀ v < nV, ∀ (i x : Nat), (cls key hs v)[i]? = some x → out'[S v + i]? = some x := by
  intro R
  induction R with
  | nil =>
    intro P pos out h1 h2 h3 h4
    refine ⟨out, rfl, h2, ?_⟩
    rw [h1, List.append_nil]; exact h4
  | cons h R ih =>
    intro P pos out h1 h2 h3 h4
    obtain ⟨v, v1, v2⟩ := hk h (by rw [h1]; simp)
    have hP : hs = (P ++ [h]) ++ R := by rw [h1]; simp
    have le : ∀ w, (cls key (P ++ [h]) w).length ≤ (cls key hs w).length := fun w => by rw [hP, cls_append (P := P ++ [h])]; simp
    have cv : cls key (P ++ [h]) v = cls key P v ++ [h] := by rw [cls_append, cls_cons, if_pos v2]; rfl
    have cw : ∀ w, w ≠ v → cls key (P ++ [h]) w = cls key P w := fun w hw => by
      rw [cls_append, cls_cons, if_neg (by rw [v2, Option.some.injEq]; exact Ne.symm hw)]; simp [cls]
    have b1 := le v
    rw [cv, List.length_append, List.length_singleton] at b1
    have b2 := hS1 v v1
    have b3 := hS2 (v + 1) nV (by omega) (Nat.le_refl _)
    have hp := h3 v v1
    have hpl := (List.getElem?_eq_some_iff.1 hp).1
    obtain ⟨out', q1, q2, q3⟩ := ih (P ++ [h]) (pos.set v (S v + (cls key P v).length + 1)) (out.set (S v + (cls key P v).length) h) hP (by simp [h2])
      (fun w hw => by
        by_cases e : w = v
        · subst e
          rw [List.getElem?_set_self hpl, cv, List.length_append, List.length_singleton]
          rfl
        · rw [List.getElem?_set_ne (Ne.symm e), cw w e, h3 w hw])
      (fun w hw i x hx => by
        have hil := (List.getElem?_eq_some_iff.1 hx).1
        have b4 := le w
        have b5 := hS1 w hw
        by_cases e : w = v
        · subst e
          rw [cv] at hx hil
          rw [List.length_append, List.length_singleton] at hil
          by_cases hi : i = (cls key P w).length
          · subst hi
            rw [List.getElem?_set_self (by omega)]
            simpa using hx
          · rw [List.getElem?_append_left (by omega)] at hx
            rw [List.getElem?_set_ne (by omega), h4 w hw i x hx]
        · rw [cw w e] at hx
          rw [List.getElem?_set_ne, h4 w hw i x hx]
          rcases Nat.lt_or_gt_of_ne e with h5 | h5
          · have := hS2 (w + 1) v (by omega) (by omega); omega
          · have := hS2 (v + 1) w (by omega) (by omega); omega)
    refine ⟨out', ?_, q2, q3⟩
    rw [place]
    refine (bind_of v2).trans ?_
    refine (bind_of hp).trans ?_
    rw [if_pos (by omega)]
    exact q1

/-- `vertex_cycle` sorts the halfedges by their vertex. -/
theorem vertexCycle_spec {m : Mesh} {inc : Bool} (h1 : ∀ x < m.nH, ∃ v < m.nV, endOf m inc x = some v) (h2 : m.vHe.length = m.nV)
    (h3 : m.heNext.length = m.nH) (h4 : m.heVertex.length = m.nH) (h5 : ∀ x < m.nH, ∃ v, get m.heVertex x = some v) :
    ∃ vh sep, vertexCycle m inc = some (vh, sep) ∧ ∀ v < m.nV, ∃ s, sep[v]? = some s ∧
      sep[v + 1]? = some (s + (cls (endOf m inc) (List.range m.nH) v).length) ∧
      ∀ (i x : Nat), (cls (endOf m inc) (List.range m.nH) v)[i]? = some x → vh[s + i]? = some x := by
  have he : elements m.heVertex = List.range m.nH := by rw [elements_all (by rw [h4]; exact h5), h4]
  obtain ⟨d, d1, d2, d3, d4⟩ := degrees_spec (key := endOf m inc) (List.range m.nH) (List.replicate m.vHe.length 0)
    (fun x hx => by simpa [h2] using h1 x (List.mem_range.1 hx))
  have dl : d.length = m.nV := by rw [d2, List.length_replicate, h2]
  have dv : ∀ v, v < m.nV → d[v]? = some (cls (endOf m inc) (List.range m.nH) v).length := fun v hv => by
    rw [d4 v 0 (by rw [List.getElem?_replicate, if_pos (by omega)]), Nat.zero_add]
  have stp : ∀ v, v < m.nV → (d.take (v + 1)).sum = (d.take v).sum + (cls (endOf m inc) (List.range m.nH) v).length := fun v hv => by
    rw [List.take_add_one, dv v hv]; simp
  have mono : ∀ v w, v ≤ w → w ≤ m.nV → (d.take v).sum ≤ (d.take w).sum := by
    intro v w hw
    induction hw with
    | refl => intro _; exact Nat.le_refl _
    | @step w _ ih =>
      intro h
      have h6 := ih (by omega)
      have h7 := stp w (by omega)
      rw [show w.succ = w + 1 from rfl, h7]
      omega
  have tot : (d.take m.nV).sum = m.nH := by
    rw [← dl, List.take_length, d3]; simp
  obtain ⟨out, o1, o2, o3⟩ := place_spec (key := endOf m inc) (S := fun v => (d.take v).sum) (nV := m.nV) (N := m.nH) (hs := List.range m.nH)
    (fun v hv => (stp v hv).ge) mono tot.le (fun x hx => h1 x (List.mem_range.1 hx)) (List.range m.nH) [] (0 :: sums 0 d)
    (List.replicate m.nH 0) rfl (by simp) (fun v hv => by rw [sep_get (by omega)]; simp [cls]) (fun v hv i x hx => by simp [cls] at hx)
  refine ⟨out, 0 :: sums 0 d, ?_, fun v hv => ⟨_, sep_get (by omega), ?_, o3 v hv⟩⟩
  · rw [vertexCycle, he, h3]
    refine (bind_of d1).trans ?_
    exact (bind_of o1).trans rfl
  · rw [sep_get (by omega), stp v hv]

theorem windows_len {l : List Nat} : (windows l).length = l.length := by simp [windows]

theorem windows_get {l : List Nat} {j : Nat} (h : j < l.length) :
    (windows l)[j]'(by rw [windows_len]; exact h) = (l[j], l[(j + 1) % l.length]'(Nat.mod_lt _ (by omega))) := by
  simp only [windows, List.getElem_zip, List.getElem_rotate]

theorem linkLoop_spec {vh l : List Nat} {s : Nat} (hl : ∀ (i x : Nat), l[i]? = some x → vh[s + i]? = some x) :
    ∀ (fuel j : Nat) (a : Ids), j + fuel = l.length →
      linkLoop vh s l.length fuel (s + j) a = ((windows l).drop j).foldlM (fun a w => put a w.1 w.2) a := by
  intro fuel
  induction fuel with
  | zero => intro j a h; rw [List.drop_of_length_le (by rw [windows_len]; omega)]; rfl
  | succ fuel ih =>
    intro j a h
    have hj : j < (windows l).length := by rw [windows_len]; omega
    have hpos : 0 < l.length := by omega
    rw [List.drop_eq_getElem_cons hj, windows_get (by omega), List.foldlM_cons, linkLoop]
    refine (bind_of (hl j _ (List.getElem?_eq_getElem (by omega)))).trans ?_
    rw [Nat.add_sub_cancel_left]
    refine (bind_of (hl _ _ (List.getElem?_eq_getElem (Nat.mod_lt _ hpos)))).trans ?_
    congr 1
    funext b
    exact ih (j + 1) b (by omega)

theorem linkVertex_spec {vh sep l : List Nat} {s v : Nat} (hl : ∀ (i x : Nat), l[i]? = some x → vh[s + i]? = some x) (h1 : sep[v]? = some s)
    (h2 : sep[v + 1]? = some (s + l.length)) (a : Ids) : linkVertex vh sep v a = ringSet a l := by
  rw [linkVertex]
  refine (bind_of h1).trans ?_
  refine (bind_of h2).trans ?_
  rw [Nat.add_sub_cancel_left]
  exact linkLoop_spec hl l.length 0 a (by omega)

/-- The loop over the vertices. -/
theorem linkVertices_spec {vhI sepI vhO sepO : List Nat} {keyI keyO : Nat → Option Nat} {n nV : Nat} {vHe : Ids}
    (hI : ∀ v < nV, ∃ s, sepI[v]? = some s ∧ sepI[v + 1]? = some (s + (cls keyI (List.range n) v).length) ∧
      ∀ (i x : Nat), (cls keyI (List.range n) v)[i]? = some x → vhI[s + i]? = some x)
    (hO : ∀ v < nV, ∃ s, sepO[v]? = some s ∧ sepO[v + 1]? = some (s + (cls keyO (List.range n) v).length) ∧
      ∀ (i x : Nat), (cls keyO (List.range n) v)[i]? = some x → vhO[s + i]? = some x)
    (hv : vHe.length = nV) (cI : ∀ x v, keyI x = some v → x < n ∧ ∃ h, get vHe v = some h) (cO : ∀ x v, keyO x = some v → x < n ∧ ∃ h, get vHe v = some h)
    (dI : ∀ v h, get vHe v = some h → ∃ x, keyI x = some v) (dO : ∀ v h, get vHe v = some h → ∃ x, keyO x = some v) :
    ∀ (vs : List Nat) (m : Mesh) (K : Nat → Prop), (∀ v ∈ vs, v < nV) → m.vHe = vHe → Len m.vIn n → Len m.vOut n → RingsOn m.vIn keyI K →
      RingsOn m.vOut keyO K → ∃ I O, linkVertices vhI sepI vhO sepO vs m = some { m with vIn := I, vOut := O } ∧ Len I n ∧ Len O n ∧
        RingsOn I keyI (fun k => K k ∨ k ∈ vs) ∧ RingsOn O keyO (fun k => K k ∨ k ∈ vs) := by
  intro vs
  induction vs with
  | nil =>
    intro m K _ _ h1 h2 r1 r2
    exact ⟨m.vIn, m.vOut, rfl, h1, h2, fun h k hk => r1 h k (hk.resolve_right (by simp)), fun h k hk => r2 h k (hk.resolve_right (by simp))⟩
  | cons v vs ih =>
    intro m K hlt hm h1 h2 r1 r2
    have hvn := hlt v (by simp)
    have hvl : v < vHe.length := by rw [hv]; exact hvn
    have wide : ∀ {a : Ids} {key : Nat → Option Nat}, RingsOn a key (fun k => (K k ∨ k = v) ∨ k ∈ vs) → RingsOn a key (fun k => K k ∨ k ∈ v :: vs) :=
      fun r h k hk => r h k (by simp only [List.mem_cons] at hk; tauto)
    have nodup : ∀ key, (cls key (List.range n) v).Nodup := fun key => List.Nodup.filter _ List.nodup_range
    have mem : ∀ {key : Nat → Option Nat}, (∀ x v, key x = some v → x < n ∧ ∃ h, get vHe v = some h) → ∀ y, y ∈ cls key (List.range n) v ↔ key y = some v :=
      fun c y => by
        rw [cls, List.mem_filter, List.mem_range, decide_eq_true_iff]
        exact ⟨And.right, fun h => ⟨(c y v h).1, h⟩⟩
    cases hg : vHe[v] with
    | none =>
      have gn : get vHe v = none := by rw [get, List.getElem?_eq_getElem hvl, hg]; rfl
      have triv : ∀ {a : Ids} {key : Nat → Option Nat}, (∀ x v, key x = some v → x < n ∧ ∃ h, get vHe v = some h) → RingsOn a key K →
          RingsOn a key (fun k => K k ∨ k = v) := by
        intro a key c r h k hk hh
        refine r h k (hk.resolve_right ?_) hh
        rintro rfl
        obtain ⟨-, x, hx⟩ := c h k hh
        rw [gn] at hx; cases hx
      obtain ⟨I, O, q1, q2, q3, q4, q5⟩ := ih m (fun k => K k ∨ k = v) (fun w hw => hlt w (by simp [hw])) hm h1 h2 (triv cI r1) (triv cO r2)
      refine ⟨I, O, ?_, q2, q3, wide q4, wide q5⟩
      rw [linkVertices]
      refine (bind_of (show m.vHe[v]? = some none by rw [hm, List.getElem?_eq_getElem hvl, hg])).trans ?_
      exact q1
    | some h0 =>
      have gs : get vHe v = some h0 := by rw [get, List.getElem?_eq_getElem hvl, hg]; rfl
      have ne : ∀ {key : Nat → Option Nat}, (∀ x v, key x = some v → x < n ∧ ∃ h, get vHe v = some h) → (∀ v h, get vHe v = some h → ∃ x, key x = some v) →
          cls key (List.range n) v ≠ [] := fun c d => by
        obtain ⟨x, hx⟩ := d v h0 gs
        exact List.ne_nil_of_mem ((mem c x).2 hx)
      obtain ⟨I1, i1, i2, i3⟩ := r1.write h1 (ne cI dI) (nodup keyI) (mem cI) (fun y hy => (cI y v ((mem cI y).1 hy)).1)
      obtain ⟨O1, o1, o2, o3⟩ := r2.write h2 (ne cO dO) (nodup keyO) (mem cO) (fun y hy => (cO y v ((mem cO y).1 hy)).1)
      obtain ⟨I, O, q1, q2, q3, q4, q5⟩ := ih { m with vIn := I1, vOut := O1 } (fun k => K k ∨ k = v) (fun w hw => hlt w (by simp [hw])) hm i2 o2 i3 o3
      refine ⟨I, O, ?_, q2, q3, wide q4, wide q5⟩
      obtain ⟨s, s1, s2, s3⟩ := hI v hvn
      obtain ⟨t, t1, t2, t3⟩ := hO v hvn
      rw [linkVertices]
      refine (bind_of (show m.vHe[v]? = some (some h0) by rw [hm, List.getElem?_eq_getElem hvl, hg])).trans ?_
      simp only
      refine (bind_of ((linkVertex_spec s3 s1 s2 m.vIn).trans i1)).trans ?_
      refine (bind_of ((linkVertex_spec t3 t1 t2 m.vOut).trans o1)).trans ?_
      exact q1

end Verif.Surface
