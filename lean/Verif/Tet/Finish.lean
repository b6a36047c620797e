import Verif.Tet.Seeds
import Mathlib.Data.List.Basic
import Mathlib.Tactic.NormNum
/-!
# C44, C63: the end of `tetrahedralize`: dead tetrahedra are removed and the others renumbered
-/
namespace Verif.Tet
open InSphere (Pt orient3d)

/-- The tetrahedron exists and is not marked dead. -/
def Alive (m : Mesh) (t : Nat) : Prop := ∃ x, m.tets[t]? = some x ∧ x.alive = true

/-- A hull tetrahedron sits on a solid one. -/
def HullBased (m : Mesh) : Prop :=
  ∀ (t : Nat) (x : Tet), m.tets[t]? = some x → x.alive = true → x.data 3 = m.nPoints → ∃ h, x.nei 3 = some h ∧ Solid m h.tet

/-- Number of tetrahedra kept before position `i`. -/
def rank (l : List Tet) (i : Nat) : Nat := ((l.take i).filter (·.alive)).length

theorem tetMap_get : ∀ (l : List Tet) (c i : Nat) (x : Tet), l[i]? = some x → x.alive = true →
    (tetMap l c)[i]? = some (c + rank l i)
  | [], _, _, _, h, _ => by simp at h
  | y :: l, c, 0, x, h, ha => by
    simp only [List.getElem?_cons_zero, Option.some.injEq] at h
    subst h
    simp [tetMap, ha, rank]
  | y :: l, c, i + 1, x, h, ha => by
    simp only [List.getElem?_cons_succ] at h
    by_cases hy : y.alive = true
    · simp only [tetMap, hy, if_true, List.getElem?_cons_succ]
      rw [tetMap_get l (c + 1) i x h ha]
      simp [rank, hy]; omega
    · simp only [tetMap, hy, List.getElem?_cons_succ, Bool.false_eq_true, if_false]
      rw [tetMap_get l c i x h ha]
      simp [rank, hy]

theorem filter_rank : ∀ (l : List Tet) (i : Nat) (x : Tet), l[i]? = some x → x.alive = true →
    (l.filter (·.alive))[rank l i]? = some x
  | [], _, _, h, _ => by simp at h
  | y :: l, 0, x, h, ha => by
    simp only [List.getElem?_cons_zero, Option.some.injEq] at h
    subst h
    simp [ha, rank]
  | y :: l, i + 1, x, h, ha => by
    simp only [List.getElem?_cons_succ] at h
    have := filter_rank l i x h ha
    by_cases hy : y.alive = true
    · simpa [rank, hy] using this
    · simpa [rank, hy] using this

theorem rank_surj : ∀ (l : List Tet) (k : Nat) (x : Tet), (l.filter (·.alive))[k]? = some x →
    ∃ i, l[i]? = some x ∧ x.alive = true ∧ rank l i = k
  | [], _, _, h => by simp at h
  | y :: l, k, x, h => by
    by_cases hy : y.alive = true
    · simp only [List.filter_cons, hy, if_true] at h
      cases k with
      | zero =>
        simp only [List.getElem?_cons_zero, Option.some.injEq] at h
        subst h
        exact ⟨0, rfl, hy, by simp [rank]⟩
      | succ k =>
        simp only [List.getElem?_cons_succ] at h
        obtain ⟨i, h1, h2, h3⟩ := rank_surj l k x h
        exact ⟨i + 1, by simpa using h1, h2, by simpa [rank, hy] using h3⟩
    · simp only [List.filter_cons, hy] at h
      obtain ⟨i, h1, h2, h3⟩ := rank_surj l k x h
      exact ⟨i + 1, by simpa using h1, h2, by simpa [rank, hy] using h3⟩

theorem rank_inj : ∀ (l : List Tet) (i j : Nat) (x y : Tet), l[i]? = some x → x.alive = true → l[j]? = some y →
    y.alive = true → rank l i = rank l j → i = j := by
  have key : ∀ (l : List Tet) (i j : Nat) (x : Tet), l[i]? = some x → x.alive = true → i < j → rank l i < rank l j := by
    intro l i j x h ha hij
    have hi : i < l.length := (List.getElem?_eq_some_iff.1 h).1
    have e : l.take (i + 1) = l.take i ++ [x] := by
      rw [List.take_add_one, h]; rfl
    have : rank l (i + 1) = rank l i + 1 := by simp [rank, e, ha]
    have mono : rank l (i + 1) ≤ rank l j := by
      apply List.Sublist.length_le
      apply List.Sublist.filter
      exact (List.take_prefix_take_left (by omega)).sublist
    omega
  intro l i j x y hi hx hj hy e
  rcases lt_trichotomy i j with h | h | h
  · have := key l i j x hi hx h; omega
  · exact h
  · have := key l j i y hj hy h; omega

/-- Renaming of the neighbours. -/
def renumber (φ : Nat → Nat) (t : Tet) : Tet := { t with nei := fun f => (t.nei f).map fun h => ⟨φ h.tet, h.ver⟩ }

theorem mapM_eq {α β : Type} {f : α → Option β} {g : α → β} : ∀ (l : List α), (∀ a ∈ l, f a = some (g a)) →
    l.mapM f = some (l.map g)
  | [], _ => rfl
  | a :: l, h => by
    rw [List.mapM_cons, h a (by simp), mapM_eq l (fun b hb => h b (by simp [hb]))]
    rfl

/-- A vertex has a good link: a solid tetrahedron of the mesh having it as a corner. -/
def GoodLink (m : Mesh) (v : Nat) : Prop :=
  ∃ t x, m.p2t[v]? = some (some t) ∧ m.tets[t]? = some x ∧ (∃ i, x.data i = v) ∧ x.data 3 ≠ m.nPoints

theorem remapLink_p2t {map : List Nat} {m m' : Mesh} {i : Nat} (h : remapLink map m i = some m') :
    m'.tets = m.tets ∧ m'.nPoints = m.nPoints ∧ m'.p2t.length = m.p2t.length ∧ (∀ j, j ≠ i → m'.p2t[j]? = m.p2t[j]?) ∧
      m.p2t[i]? ≠ some none := by
  unfold remapLink at h
  simp only [Option.bind_eq_bind, Option.bind_eq_some_iff] at h
  obtain ⟨o, ho, t, ht, t', -, m1, h1, b, -, h⟩ := h
  have hne : m.p2t[i]? ≠ some none := by
    rw [ho]; rintro h; cases h; cases ht
  unfold Mesh.setP2t at h1
  split at h1
  · cases h1
    split at h
    · simp only [Option.bind_eq_some_iff] at h
      obtain ⟨x, -, hh, -, h⟩ := h
      unfold Mesh.setP2t at h
      split at h
      · cases h
        refine ⟨rfl, rfl, by simp, ?_, hne⟩
        intro j hj
        simp only
        rw [List.getElem?_set_ne (Ne.symm hj), List.getElem?_set_ne (Ne.symm hj)]
      · cases h
    · cases h
      refine ⟨rfl, rfl, by simp, ?_, hne⟩
      intro j hj
      simp only
      rw [List.getElem?_set_ne (Ne.symm hj)]
  · cases h1

theorem remapLinks_none {map : List Nat} : ∀ (is : List Nat) (m m' : Mesh), is.Nodup → remapLinks map is m = some m' →
    ∀ i ∈ is, m.p2t[i]? ≠ some none
  | [], _, _, _, _ => by simp
  | i :: is, m, m', hn, h => by
    simp only [remapLinks, Option.bind_eq_bind, Option.bind_eq_some_iff] at h
    obtain ⟨m1, h1, h2⟩ := h
    obtain ⟨-, -, -, hp, hne⟩ := remapLink_p2t h1
    intro j hj
    rcases List.mem_cons.1 hj with rfl | hj'
    · exact hne
    · have hji : j ≠ i := by rintro rfl; exact (List.nodup_cons.1 hn).1 hj'
      rw [← hp j hji]
      exact remapLinks_none is m1 m' (List.nodup_cons.1 hn).2 h2 j hj'

/-- C44, the general cause. Whatever the mesh: if one point was not inserted (its link is still invalid), the final renumbering
panics. The insertion loop stops at the first point that coincides with an inserted vertex. -/
theorem c44_uninserted_point_panics (m : Mesh) (i : Nat) (hi : i < m.nPoints) (h : m.p2t[i]? = some none) :
    m.finish = none := by
  by_contra hne
  obtain ⟨m', h'⟩ := Option.ne_none_iff_exists'.1 hne
  simp only [Mesh.finish, Option.bind_eq_bind, Option.bind_eq_some_iff] at h'
  obtain ⟨tets, -, h2⟩ := h'
  exact remapLinks_none _ _ _ List.nodup_range h2 i (by simpa using hi) h

theorem remapLinks_spec {map : List Nat} {m1 : Mesh} {p : List (Option Nat)}
    (hg : ∀ i, i < m1.nPoints → ∀ t, p[i]? = some (some t) → ∃ t' x, map[t]? = some t' ∧ m1.tets[t']? = some x ∧
      (∃ k, x.data k = i) ∧ (x.data 3 = m1.nPoints → ∃ h y, x.nei 3 = some h ∧ m1.tets[h.tet]? = some y ∧
        (∃ k, y.data k = i) ∧ y.data 3 ≠ m1.nPoints)) :
    ∀ (is : List Nat) (m : Mesh), is.Nodup → m.tets = m1.tets → m.nPoints = m1.nPoints →
      (∀ i ∈ is, i < m1.nPoints ∧ (∃ t, p[i]? = some (some t)) ∧ m.p2t[i]? = p[i]?) →
      ∃ m', remapLinks map is m = some m' ∧ m'.tets = m1.tets ∧ m'.nPoints = m1.nPoints ∧
        (∀ j, j ∉ is → m'.p2t[j]? = m.p2t[j]?) ∧ ∀ i ∈ is, GoodLink m' i
  | [], m, _, h1, h2, _ => ⟨m, rfl, h1, h2, by simp, by simp⟩
  | i :: is, m, hn, h1, h2, h3 => by
    obtain ⟨hi, ⟨t, ht⟩, hp⟩ := h3 i (by simp)
    obtain ⟨t', x, hm, hx, hk, hh⟩ := hg i hi t ht
    rw [ht] at hp
    have hlen : i < m.p2t.length := (List.getElem?_eq_some_iff.1 hp).1
    have step : ∃ m2, remapLink map m i = some m2 ∧ GoodLink m2 i := by
      have hs : m.setP2t i t' = some { m with p2t := m.p2t.set i (some t') } := by simp [Mesh.setP2t, hlen]
      by_cases hx3 : x.data 3 = m1.nPoints
      · obtain ⟨h, y, e1, e2, e3, e4⟩ := hh hx3
        refine ⟨{ m with p2t := m.p2t.set i (some h.tet) }, ?_, h.tet, y, ?_, ?_, e3, ?_⟩
        · simp only [remapLink, hp, hm, hs, Option.bind_eq_bind, Option.bind_some]
          simp [Mesh.isHull, h1, hx, hx3, h2, e1, Mesh.setP2t, hlen]
        · simp [hlen]
        · simpa [h1] using e2
        · simpa [h2] using e4
      · refine ⟨{ m with p2t := m.p2t.set i (some t') }, ?_, t', x, ?_, ?_, hk, ?_⟩
        · simp only [remapLink, hp, hm, hs, Option.bind_eq_bind, Option.bind_some]
          simp [Mesh.isHull, h1, hx, hx3, h2]
        · simp [hlen]
        · simpa [h1] using hx
        · simpa [h2] using hx3
    obtain ⟨m2, hm2, hgood⟩ := step
    obtain ⟨q1, q2, q3, q4, -⟩ := remapLink_p2t hm2
    have hni := (List.nodup_cons.1 hn).1
    obtain ⟨m', e, r1, r2, r3, r4⟩ := remapLinks_spec hg is m2 (List.nodup_cons.1 hn).2 (q1.trans h1) (q2.trans h2) (by
      intro j hj
      obtain ⟨a, b, c⟩ := h3 j (by simp [hj])
      refine ⟨a, b, ?_⟩
      rw [q4 j (by rintro rfl; exact hni hj), c])
    refine ⟨m', by simp [remapLinks, hm2, e], r1, r2, ?_, ?_⟩
    · intro j hj
      rw [r3 j (fun h => hj (by simp [h])), q4 j (fun h => hj (by simp [h]))]
    · intro j hj
      rcases List.mem_cons.1 hj with rfl | hj
      · obtain ⟨t, x, g1, g2, g3, g4⟩ := hgood
        exact ⟨t, x, by rw [r3 _ hni]; exact g1, by rw [r1, ← h1, ← q1]; exact g2, g3, by rw [r2, ← h2, ← q2]; exact g4⟩
      · exact r4 j hj

/-- C63. Finishing a mesh whose live tetrahedra (those not marked dead) form a consistent complex and in which every point has
a link to a live tetrahedron having it as a corner:
* no panic;
* the tetrahedra of the result are exactly the live ones, renumbered without gaps in order (`φ`), with the same corners, and
  glued as before;
* so the result is consistent, now for all its tetrahedra;
* the link of every point names a solid tetrahedron having that point as a corner. -/
theorem c63_finish (m : Mesh) (hc : Consistent m (Alive m)) (hb : HullBased m)
    (hlink : ∀ v, v < m.nPoints → LinkOk m (Alive m) v) :
    ∃ (m' : Mesh) (φ : Nat → Nat), m.finish = some m' ∧ m'.nPoints = m.nPoints ∧ Consistent m' (fun t => t < m'.tets.length) ∧
      (∀ t, Alive m t → φ t < m'.tets.length) ∧
      (∀ s t, Alive m s → Alive m t → s < t → φ s < φ t) ∧
      (∀ k, k < m'.tets.length → ∃ t, Alive m t ∧ φ t = k) ∧
      (∀ t, Alive m t → (m'.tets[φ t]?).map (·.data) = (m.tets[t]?).map (·.data)) ∧
      (∀ t, Alive m t → ∀ v, m'.fsym ⟨φ t, v⟩ = (m.fsym ⟨t, v⟩).map fun h => ⟨φ h.tet, h.ver⟩) ∧
      (∀ t, Alive m t → (m'.tets[φ t]?).map (·.marked) = (m.tets[t]?).map (·.marked)) ∧
      (∀ v, v < m.nPoints → GoodLink m' v) := by
  set φ := rank m.tets with hφ
  have hnei : ∀ (t : Nat) (x : Tet), m.tets[t]? = some x → x.alive = true → ∀ f, ∃ (h : TriFace) (y : Tet), x.nei f = some h ∧ m.tets[h.tet]? = some y ∧ y.alive = true := by
    intro t x hx ha f
    obtain ⟨h, hl, g⟩ := hc.glued t ⟨x, hx, ha⟩ (verOfFace f)
    have hf := g.fwd
    simp only [Mesh.fsym, hx, Option.bind_eq_bind, Option.bind_eq_some_iff, Option.pure_def, Option.some.injEq,
      face_verOfFace, exists_eq_left'] at hf
    obtain ⟨nf, hnf, hh⟩ := hf
    obtain ⟨y, hy, hya⟩ := hl
    exact ⟨nf, y, hnf, by rw [← hh] at hy; exact hy, hya⟩
  have hmap : ∀ (t : Nat) (x : Tet), m.tets[t]? = some x → x.alive = true → (tetMap m.tets 0)[t]? = some (φ t) := by
    intro t x hx ha
    rw [tetMap_get _ _ _ _ hx ha, hφ]; simp
  have hre : ∀ x ∈ m.tets.filter (·.alive), remapTet (tetMap m.tets 0) x = some (renumber φ x) := by
    intro x hx
    obtain ⟨h1, ha⟩ := List.mem_filter.1 hx
    obtain ⟨t, ht⟩ := List.getElem?_of_mem h1
    obtain ⟨n0, y0, e0, f0, a0⟩ := hnei t x ht ha 0
    obtain ⟨n1, y1, e1, f1, a1⟩ := hnei t x ht ha 1
    obtain ⟨n2, y2, e2, f2, a2⟩ := hnei t x ht ha 2
    obtain ⟨n3, y3, e3, f3, a3⟩ := hnei t x ht ha 3
    simp only [remapTet, e0, e1, e2, e3, Option.bind_eq_bind, Option.bind_some, hmap _ _ f0 a0, hmap _ _ f1 a1, hmap _ _ f2 a2,
      hmap _ _ f3 a3, Option.pure_def, Option.some.injEq, renumber, Tet.mk.injEq, true_and, and_true]
    funext f
    fin_cases f <;> simp [e0, e1, e2, e3]
  set m1 : Mesh := { m with tets := (m.tets.filter (·.alive)).map (renumber φ) } with hm1
  have hget : ∀ (t : Nat) (x : Tet), m.tets[t]? = some x → x.alive = true → m1.tets[φ t]? = some (renumber φ x) := by
    intro t x hx ha
    simp only [hm1, List.getElem?_map, hφ, filter_rank _ _ _ hx ha, Option.map_some]
  have hsurj : ∀ k, k < m1.tets.length → ∃ (t : Nat) (x : Tet), m.tets[t]? = some x ∧ x.alive = true ∧ φ t = k := by
    intro k hk
    have hk' : k < (m.tets.filter (·.alive)).length := by simpa [hm1] using hk
    obtain ⟨i, h1, h2, h3⟩ := rank_surj m.tets k _ (List.getElem?_eq_getElem hk')
    exact ⟨i, _, h1, h2, h3⟩
  have horg : ∀ t, Alive m t → ∀ v, m1.org ⟨φ t, v⟩ = m.org ⟨t, v⟩ ∧ m1.dest ⟨φ t, v⟩ = m.dest ⟨t, v⟩ ∧
      m1.apex ⟨φ t, v⟩ = m.apex ⟨t, v⟩ := by
    rintro t ⟨x, hx, ha⟩ v
    simp [Mesh.org, Mesh.dest, Mesh.apex, hx, hget t x hx ha, renumber]
  have hfsym : ∀ t, Alive m t → ∀ v, m1.fsym ⟨φ t, v⟩ = (m.fsym ⟨t, v⟩).map fun h => ⟨φ h.tet, h.ver⟩ := by
    rintro t ⟨x, hx, ha⟩ v
    obtain ⟨h, y, e, -⟩ := hnei t x hx ha (face v)
    simp [Mesh.fsym, hx, hget t x hx ha, renumber, e]
  have hcons : Consistent m1 (fun t => t < m1.tets.length) := by
    constructor
    · intro k hk
      obtain ⟨t, x, hx, ha, rfl⟩ := hsurj k hk
      obtain ⟨x', hx', hinj⟩ := hc.corners t ⟨x, hx, ha⟩
      rw [hx] at hx'; cases hx'
      exact ⟨_, hget t x hx ha, hinj⟩
    · intro k hk v
      obtain ⟨t, x, hx, ha, rfl⟩ := hsurj k hk
      have hal : Alive m t := ⟨x, hx, ha⟩
      obtain ⟨⟨ht, hv⟩, hl, g⟩ := hc.glued t hal v
      refine ⟨⟨φ ht, hv⟩, ?_, ?_⟩
      · obtain ⟨y, hy, hya⟩ := hl
        exact (List.getElem?_eq_some_iff.1 (hget _ y hy hya)).1
      · refine ⟨?_, ?_, ?_, ?_, ?_⟩
        · rw [hfsym t hal, g.fwd]; rfl
        · rw [hfsym ht hl, g.bwd]; rfl
        · rw [(horg ht hl hv).1, (horg t hal v).2.1, g.org]
        · rw [(horg ht hl hv).2.1, (horg t hal v).1, g.dest]
        · rw [(horg ht hl hv).2.2, (horg t hal v).2.2, g.apex]
  obtain ⟨m', e, r1, r2, r3, r4⟩ := remapLinks_spec (map := tetMap m.tets 0) (m1 := m1) (p := m.p2t) (by
    intro i hi t ht
    obtain ⟨t2, x, h1, hl, h2, k, hk⟩ := hlink i hi
    rw [ht] at h1; cases h1
    obtain ⟨x', hx', ha⟩ := hl
    rw [h2] at hx'; cases hx'
    refine ⟨φ t, _, hmap t x h2 ha, hget t x h2 ha, ⟨k, hk⟩, ?_⟩
    intro h3
    have h3' : x.data 3 = m.nPoints := h3
    obtain ⟨h, e, y, hy, hsol⟩ := hb t x h2 ha h3'
    obtain ⟨h', y', e', hy', hya⟩ := hnei t x h2 ha 3
    rw [e] at e'; cases e'
    rw [hy] at hy'; cases hy'
    refine ⟨⟨φ h.tet, h.ver⟩, _, by simp [renumber, e], hget _ y hy hya, ?_, hsol⟩
    obtain ⟨hh, -, g⟩ := hc.glued t ⟨x, h2, ha⟩ 11
    have hf := g.fwd
    simp only [Mesh.fsym, h2, Option.bind_eq_bind, Option.pure_def, Option.bind_some] at hf
    rw [show face 11 = 3 from rfl, e] at hf
    simp only [Option.bind_some, Option.some.injEq] at hf
    have ht : hh.tet = h.tet := by rw [← hf]
    have go := g.org
    have gd := g.dest
    have ga := g.apex
    simp only [Mesh.org, Mesh.dest, Mesh.apex, ht, hy, h2, Option.map_some, Option.some.injEq] at go gd ga
    have hk3 : k ≠ 3 := by
      rintro rfl
      rw [h3'] at hk
      have : i < m.nPoints := hi
      omega
    fin_cases k
    · exact ⟨_, gd.trans hk⟩
    · exact ⟨_, go.trans hk⟩
    · exact ⟨_, ga.trans hk⟩
    · exact absurd rfl hk3) (List.range m.nPoints) m1 List.nodup_range rfl rfl (by
    intro i hi
    have hi' := List.mem_range.1 hi
    obtain ⟨t, x, h1, -⟩ := hlink i hi'
    exact ⟨hi', ⟨t, h1⟩, rfl⟩)
  have hfin : m.finish = some m' := by
    simp only [Mesh.finish, Option.bind_eq_bind]
    rw [mapM_eq _ hre]
    exact e
  have htets : ∀ (t : TriFace), m'.org t = m1.org t ∧ m'.dest t = m1.dest t ∧ m'.apex t = m1.apex t ∧ m'.fsym t = m1.fsym t := by
    intro t
    simp [Mesh.org, Mesh.dest, Mesh.apex, Mesh.fsym, r1]
  refine ⟨m', φ, hfin, r2, ?_, ?_, ?_, ?_, ?_, ?_, ?_, ?_⟩
  · constructor
    · intro t ht
      rw [r1] at ht ⊢
      exact hcons.corners t ht
    · intro t ht v
      rw [r1] at ht
      obtain ⟨h, hl, g⟩ := hcons.glued t ht v
      refine ⟨h, by rw [r1]; exact hl, ?_, ?_, ?_, ?_, ?_⟩
      · rw [(htets _).2.2.2, g.fwd]
      · rw [(htets _).2.2.2, g.bwd]
      · rw [(htets _).1, (htets _).2.1, g.org]
      · rw [(htets _).1, (htets _).2.1, g.dest]
      · rw [(htets _).2.2.1, (htets _).2.2.1, g.apex]
  · rintro t ⟨x, hx, ha⟩
    rw [r1]
    exact (List.getElem?_eq_some_iff.1 (hget t x hx ha)).1
  · rintro s t ⟨x, hx, ha⟩ ⟨y, hy, hya⟩ hst
    have h1 : φ s ≤ φ t := by
      apply List.Sublist.length_le
      apply List.Sublist.filter
      exact (List.take_prefix_take_left (by omega)).sublist
    have h2 : φ s ≠ φ t := fun e => by
      have := rank_inj _ _ _ _ _ hx ha hy hya e
      omega
    omega
  · intro k hk
    rw [r1] at hk
    obtain ⟨t, x, hx, ha, e⟩ := hsurj k hk
    exact ⟨t, ⟨x, hx, ha⟩, e⟩
  · rintro t ⟨x, hx, ha⟩
    rw [r1, hget t x hx ha, hx]; rfl
  · intro t ht v
    rw [(htets _).2.2.2, hfsym t ht v]
  · rintro t ⟨x, hx, ha⟩
    rw [r1, hget t x hx ha, hx]; rfl
  · intro v hv
    exact r4 v (List.mem_range.2 hv)

/-! ### C44: a duplicate point -/

/-- Five points, the last one equal to the first. The first four are negatively oriented. -/
def dupPts : List (Pt Int) := [⟨0, 0, 0⟩, ⟨1, 0, 0⟩, ⟨0, 1, 0⟩, ⟨0, 0, 1⟩, ⟨0, 0, 0⟩]

/-- Five points in general position. -/
def goodPts : List (Pt Int) := [⟨0, 0, 0⟩, ⟨8, 0, 0⟩, ⟨0, 8, 0⟩, ⟨0, 0, 8⟩, ⟨1, 2, 1⟩]

/-- C44 is violated: on five points of which two coincide the construction panics, however long it may run. -/
theorem c44_duplicate_panics : ∀ fuel, tetrahedralizeFrom dupPts fuel [0, 1, 2, 3, 4] = none := by
  intro fuel
  cases fuel <;> rfl

/-- C44 (partial). Full statement: "tetrahedralize on points that contain an exact duplicate returns a mesh in which every point
is a vertex or is identified with its duplicate". That is false (`c44_duplicate_panics`). What holds: if every point has been
inserted, that is, has a link to a live tetrahedron having it as a corner, then the call returns and every point is a vertex of a
solid tetrahedron its final link names. -/
theorem c44_no_duplicate_partial (m : Mesh) (hc : Consistent m (Alive m)) (hb : HullBased m)
    (hlink : ∀ v, v < m.nPoints → LinkOk m (Alive m) v) : ∃ m', m.finish = some m' ∧ ∀ v, v < m.nPoints → GoodLink m' v := by
  obtain ⟨m', φ, h, -, -, -, -, -, -, -, -, hg⟩ := c63_finish m hc hb hlink
  exact ⟨m', h, hg⟩

/-- With five points in general position the construction makes nine tetrahedra and returns eight, four of them ghosts; every
point is linked to a solid one (indices 4 to 7). -/
example : (tetrahedralizeFrom goodPts 50 [0, 1, 2, 3, 4]).map
    (fun m => (m.p2t.take 5, m.tets.map fun t => (List.ofFn t.data, (List.ofFn t.nei).map fun h => h.map (·.tet)))) =
    some ([some 5, some 4, some 4, some 4, some 6],
      [([1, 2, 3, 5], [some 1, some 2, some 3, some 4]), ([2, 0, 3, 5], [some 2, some 0, some 3, some 5]),
      ([0, 1, 3, 5], [some 0, some 1, some 3, some 6]), ([1, 0, 2, 5], [some 1, some 0, some 2, some 7]),
      ([2, 3, 4, 1], [some 6, some 7, some 0, some 5]), ([0, 3, 4, 2], [some 4, some 7, some 1, some 6]),
      ([0, 1, 4, 3], [some 4, some 5, some 2, some 7]), ([2, 1, 4, 0], [some 6, some 5, some 3, some 4])]) := by decide +kernel

/-- The initial mesh on four points. -/
def exMesh4 : Mesh := ((initialDelaunay (Mesh.new 4) 0 1 2 3).map (·.1)).getD (Mesh.new 4)

theorem exMesh4_eq : initialDelaunay (Mesh.new 4) 0 1 2 3 = some (exMesh4, ⟨0, 11⟩) := by rfl

/-- The hypotheses of `c63_finish` hold for the initial mesh on four points. -/
theorem exMesh4_hyps : Consistent exMesh4 (Alive exMesh4) ∧ HullBased exMesh4 ∧
    ∀ v, v < exMesh4.nPoints → LinkOk exMesh4 (Alive exMesh4) v := by
  obtain ⟨m', e, hl, hn, hc, hg, -, -, la, lb, lc, ld, -⟩ := c41_initial_delaunay 4 0 1 2 3 (List.replicate 5 none) (by decide)
    (by decide) (by decide) (by decide) (by decide) (by decide) (by decide) (by decide) (by decide) (by decide) (by decide)
  have he : m' = exMesh4 := by
    have := e.symm.trans exMesh4_eq
    simp only [Option.some.injEq, Prod.mk.injEq, and_true] at this
    exact this
  subst he
  have h1 : ∀ x ∈ exMesh4.tets, x.alive = true := by decide +kernel
  have hal : Alive exMesh4 = (· < 5) := by
    funext t
    refine propext ⟨?_, ?_⟩
    · rintro ⟨x, hx, -⟩; rw [← hl]; exact (List.getElem?_eq_some_iff.1 hx).1
    · intro ht
      have ht' : t < exMesh4.tets.length := hl ▸ ht
      exact ⟨_, List.getElem?_eq_getElem ht', h1 _ (List.getElem_mem _)⟩
  have h2 : ∀ x ∈ exMesh4.tets, x.data 3 = exMesh4.nPoints → (x.nei 3).map (·.tet) = some 0 := by decide +kernel
  have h3 : ∃ x, exMesh4.tets[0]? = some x ∧ x.data 3 ≠ exMesh4.nPoints := ⟨_, rfl, by decide +kernel⟩
  rw [hal]
  refine ⟨hc, ?_, ?_⟩
  · intro t x hx _ hx3
    obtain ⟨h, h4, h5⟩ := Option.map_eq_some_iff.1 (h2 x (List.mem_of_getElem? hx) hx3)
    exact ⟨h, h4, by rw [h5]; exact h3⟩
  · intro v hv
    rw [hn] at hv
    have : v = 0 ∨ v = 1 ∨ v = 2 ∨ v = 3 := by omega
    rcases this with rfl | rfl | rfl | rfl <;> assumption

example : ∃ m', exMesh4.finish = some m' ∧ ∀ v, v < exMesh4.nPoints → GoodLink m' v :=
  c44_no_duplicate_partial _ exMesh4_hyps.1 exMesh4_hyps.2.1 exMesh4_hyps.2.2

/-- The corner tetrahedron and a fifth point inside it. -/
def exPts : List (Pt ℚ) := [⟨0, 0, 0⟩, ⟨8, 0, 0⟩, ⟨0, 8, 0⟩, ⟨0, 0, 8⟩, ⟨1, 2, 1⟩]

/-- The hypotheses of `c62_locate` hold for the initial mesh on five points. -/
theorem exMesh_embedded : Embedded exMesh (· < 5) exPts := by
  obtain ⟨m', e, hl, hn, hc, hg, -⟩ := c41_initial_delaunay 5 0 1 2 3 (List.replicate 6 none) (by decide) (by decide) (by decide)
    (by decide) (by decide) (by decide) (by decide) (by decide) (by decide) (by decide) (by decide)
  have he : m' = exMesh := by
    have := e.symm.trans exMesh_eq
    simp only [Option.some.injEq, Prod.mk.injEq, and_true] at this
    exact this
  subst he
  have h1 : ∀ x ∈ exMesh.tets, x.data 3 ≠ exMesh.nPoints → x.data 0 = 0 ∧ x.data 1 = 1 ∧ x.data 2 = 2 ∧ x.data 3 = 3 := by
    decide +kernel
  have h2 : ∀ x ∈ exMesh.tets, x.data 3 = exMesh.nPoints → (x.nei 3).map (·.tet) = some 0 := by decide +kernel
  have h3 : Solid exMesh 0 := ⟨_, rfl, by decide +kernel⟩
  refine ⟨hc, ?_, ?_⟩
  · intro t x _ hx h
    obtain ⟨e0, e1, e2, e3⟩ := h1 x (List.mem_of_getElem? hx) h
    rw [e0, e1, e2, e3]
    exact ⟨_, _, _, _, rfl, rfl, rfl, rfl, by norm_num [orient3d]⟩
  · intro t x _ hx h
    obtain ⟨h', h4, h5⟩ := Option.map_eq_some_iff.1 (h2 x (List.mem_of_getElem? hx) h)
    exact ⟨h', h4, by rw [h5]; decide, by rw [h5]; exact h3⟩

/-- Location answers on the initial mesh: inside, outside, on a face, on an edge, at a vertex. -/
example : [(⟨1, 2, 1⟩ : Pt Int), ⟨9, 9, 9⟩, ⟨1, 2, 0⟩, ⟨0, 2, 0⟩, ⟨0, 8, 0⟩].map (fun q =>
    (exMesh.locateDt (goodPts.take 4 ++ [q]) 20 4 ⟨0, 11⟩).map (·.1)) =
    [some .inTet, some .outside, some .onFace, some .onEdge, some .onVertex] := by decide +kernel

end Verif.Tet
