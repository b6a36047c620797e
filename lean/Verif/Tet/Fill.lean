import Verif.Tet.Cavity
/-! # The filling loops of `insert_vertex_bw` (lines 964-1035) -/
namespace Verif.Tet
namespace Mesh

theorem row11 : ∀ j, rowV11 j = bondTbl 11 j := by decide +kernel
theorem row8 : ∀ j, rowV08 j = bondTbl 8 j := by decide +kernel
theorem row1 : ∀ j : Ver, id j = bondTbl 1 j := by decide +kernel
theorem col11 : ∀ j, colV11 j = bondTbl j 11 := by decide +kernel
theorem col8 : ∀ j, colV08 j = bondTbl j 8 := by decide +kernel
theorem col1 : ∀ j, colV01 j = bondTbl j 1 := by decide +kernel
theorem col2 : ∀ j, fsymTbl j (colV02 j) = 2 := by decide +kernel
theorem fsym2 : ∀ j, fsymTbl 2 j = j := by decide +kernel

/-- A cavity boundary face `b` with the handle `h` outside and its corners. -/
structure BF where
  b : Nat × Fin 4
  h : TriFace
  o : Nat
  d : Nat
  a : Nat

/-- `r` describes the boundary face `r.b` of the mesh `m`. -/
structure IsBF (m : Mesh) (r : BF) : Prop where
  out : ∃ x nei, m.tets[r.b.1]? = some x ∧ x.nei r.b.2 = some nei ∧
    r.h = if x.data 3 == m.nPoints then ⟨nei.tet, epivot nei.ver⟩ else nei
  org : m.org r.h = some r.o
  dest : m.dest r.h = some r.d
  apex : m.apex r.h = some r.a

def BF.has (r : BF) (w : Nat) : Prop := w = r.d ∨ w = r.o ∨ w = r.a

/-- Links after processing the faces `l`: vertices of `W` point to a new tetrahedron having them as a corner. -/
structure LinkInv (p0 : List (Option Nat)) (n0 : Nat) (l : List BF) (p : List (Option Nat)) (W : Nat → Prop) : Prop where
  len : p.length = p0.length
  new : ∀ w, W w → ∃ i r, l[i]? = some r ∧ r.has w ∧ p[w]? = some (some (n0 + i))
  other : ∀ w, ¬ W w → p[w]? = p0[w]?

/-- Invariant of the first filling loop. -/
structure FillInv (ms : Mesh) (pid : Nat) (l : List BF) (m : Mesh) (map : FaceMap) : Prop where
  n : m.nPoints = ms.nPoints
  len : m.tets.length = ms.tets.length + l.length
  oldT : ∀ j x0, ms.tets[j]? = some x0 → ∃ x, m.tets[j]? = some x ∧ x.data = x0.data ∧ x.infected = x0.infected ∧
    x.dead = x0.dead ∧ (x.marked = true ↔ x0.marked = true ∧ ∀ r ∈ l, r.h.tet ≠ j)
  slotNew : ∀ i r, l[i]? = some r → m.slot r.h.tet (face r.h.ver) = some ⟨ms.tets.length + i, colV02 r.h.ver⟩
  slotOld : ∀ j g, j < ms.tets.length → (∀ r ∈ l, ¬ (r.h.tet = j ∧ face r.h.ver = g)) → m.slot j g = ms.slot j g
  newT : ∀ i r, l[i]? = some r → m.tets[ms.tets.length + i]? =
    some { data := ![r.o, r.d, pid, r.a], nei := Function.update (fun _ => none) 2 (some r.h) }
  map : ∀ e, e ∈ map ↔ ∃ i r, l[i]? = some r ∧ (e = ((r.d, r.o), ⟨ms.tets.length + i, 11⟩) ∨
    e = ((r.o, r.a), ⟨ms.tets.length + i, 1⟩) ∨ e = ((r.a, r.d), ⟨ms.tets.length + i, 8⟩))
  link : LinkInv ms.p2t ms.tets.length l m.p2t (fun w => ∃ r ∈ l, r.has w)

theorem relink_spec {p0 : List (Option Nat)} {n0 : Nat} {l : List BF} {W : Nat → Prop} {m : Mesh} {pid : Nat}
    (hl : LinkInv p0 n0 l m.p2t W) {new w : Nat} {r : BF}
    (hnew : ∀ i r, l[i]? = some r → ∃ x, m.tets[n0 + i]? = some x ∧ x.data 2 = pid)
    (hr : ∃ i, l[i]? = some r ∧ new = n0 + i) (hw : r.has w)
    (h0 : ∃ t, p0[w]? = some (some t) ∧ ∃ x, m.tets[t]? = some x ∧ x.data 2 ≠ pid) :
    ∃ p', relink pid new w m = some { m with p2t := p' } ∧ LinkInv p0 n0 l p' (fun v => W v ∨ v = w) := by
  by_cases hW : W w
  · obtain ⟨i, r', hi, -, hp⟩ := hl.new w hW
    obtain ⟨x, hx, hxd⟩ := hnew i r' hi
    refine ⟨m.p2t, by simp [relink, hp, hx, hxd], hl.len, ?_, ?_⟩
    · rintro v (hv | rfl)
      · exact hl.new v hv
      · exact hl.new _ hW
    · intro v hv; exact hl.other v fun h => hv (.inl h)
  · obtain ⟨t, ht, x, hx, hxd⟩ := h0
    have hp := hl.other w hW
    rw [ht] at hp
    have hlt : w < m.p2t.length := (List.getElem?_eq_some_iff.1 hp).1
    refine ⟨m.p2t.set w (some new), by
      unfold relink setP2t
      rw [hp]; simp only [Option.bind_eq_bind, Option.bind_some, hx]; rw [if_pos hxd, if_pos hlt], by simp [hl.len], ?_, ?_⟩
    · intro v hv
      by_cases hvw : v = w
      · subst hvw
        obtain ⟨i, hi, rfl⟩ := hr
        exact ⟨i, r, hi, hw, by simp [hlt]⟩
      · obtain ⟨i, r', hi, hh, hp'⟩ := hl.new v (hv.resolve_right hvw)
        exact ⟨i, r', hi, hh, by rw [List.getElem?_set_ne (Ne.symm hvw)]; exact hp'⟩
    · intro v hv
      rw [List.getElem?_set_ne (fun h => hv (.inr h.symm))]
      exact hl.other v fun h => hv (.inl h)

theorem fillStep_spec {ms : Mesh} {pid : Nat} {l : List BF} {m : Mesh} {map : FaceMap} (hi : FillInv ms pid l m map)
    {r : BF} (hr : IsBF ms r) (hb : ∀ r' ∈ l, r'.h.tet ≠ r.b.1) (hlt : r.h.tet < ms.tets.length)
    (hdis : ∀ r' ∈ l, ¬ (r'.h.tet = r.h.tet ∧ face r'.h.ver = face r.h.ver))
    (hlink : ∀ w, r.has w → ∃ t x, ms.p2t[w]? = some (some t) ∧ ms.tets[t]? = some x ∧ x.data 2 ≠ pid) :
    ∃ m' map', fillStep pid r.b m map = some (m', map', ⟨ms.tets.length + l.length, 11⟩) ∧
      FillInv ms pid (l ++ [r]) m' map' := by
  obtain ⟨x0, nei, hx0, hnei, hh⟩ := hr.out
  have hblt : r.b.1 < ms.tets.length := (List.getElem?_eq_some_iff.1 hx0).1
  obtain ⟨x, hx, hxd, -, -, -⟩ := hi.oldT _ _ hx0
  have hxnei : x.nei r.b.2 = some nei := by
    have := hi.slotOld r.b.1 r.b.2 hblt (fun r' hr' h => hb r' hr' h.1)
    simpa [slot, hx, hx0, hnei] using this
  have htet : nei.tet = r.h.tet := by rw [hh]; split <;> rfl
  have hlen1 : r.h.tet < m.tets.length := by have := hi.len; omega
  -- the outside tetrahedron
  obtain ⟨y0, hy0⟩ : ∃ y0, ms.tets[r.h.tet]? = some y0 := ⟨_, List.getElem?_eq_getElem hlt⟩
  obtain ⟨y, hy, hyd, hyi, hydd, hym⟩ := hi.oldT _ _ hy0
  have e1 : m.unmarkTest nei.tet = some { m with tets := m.tets.modify r.h.tet fun x => { x with marked := false } } := by
    rw [htet]; exact modify_some hlen1
  set m1 : Mesh := { m with tets := m.tets.modify r.h.tet fun x => { x with marked := false } } with hm1
  have g1 : ∀ j : Nat, m1.tets[j]? = if r.h.tet = j then (m.tets[j]?).map fun x => { x with marked := false } else m.tets[j]? :=
    modify_get (htet ▸ e1)
  have hd1 : ∀ j : Nat, (m1.tets[j]?).map (·.data) = (m.tets[j]?).map (·.data) := by
    intro j; rw [g1]; split
    · cases m.tets[j]? <;> rfl
    · rfl
  have hdm : ∀ j : Nat, j < ms.tets.length → (m.tets[j]?).map (·.data) = (ms.tets[j]?).map (·.data) := by
    intro j hj
    obtain ⟨z, hz, hzd, -⟩ := hi.oldT j _ (List.getElem?_eq_getElem hj)
    rw [hz, List.getElem?_eq_getElem hj]; simp [hzd]
  have hd2 := fun j hj => (hd1 j).trans (hdm j hj)
  have hull : m1.isHull r.b.1 = some (x0.data 3 == ms.nPoints) := by
    have := hd2 r.b.1 hblt
    rw [hx0, Option.map_some, Option.map_eq_some_iff] at this
    obtain ⟨z, hz, hzd⟩ := this
    simp only [isHull, hz, Option.map_some, hzd]
    simp [m1, hi.n]
  have hcor : m1.org r.h = some r.o ∧ m1.dest r.h = some r.d ∧ m1.apex r.h = some r.a := by
    have := hd2 r.h.tet hlt
    have h1 := hr.org; have h2 := hr.dest; have h3 := hr.apex
    rw [hy0, Option.map_some, Option.map_eq_some_iff] at this
    obtain ⟨z, hz, hzd⟩ := this
    simp only [org, dest, apex, hy0, Option.map_some] at h1 h2 h3
    simp only [org, dest, apex, hz, Option.map_some, hzd]
    exact ⟨h1, h2, h3⟩
  have hl1 : m1.tets.length = ms.tets.length + l.length := by simp [m1, hi.len]
  -- push
  set m2 : Mesh := { m1 with tets := m1.tets ++ [Tet.new r.o r.d pid r.a] } with hm2
  obtain ⟨m3, e3⟩ := setNei_some (m := m2) (t := ms.tets.length + l.length) (f := 2) (x := r.h) (by simp [m2, hl1])
  obtain ⟨n3, p3, l3, -⟩ := setNei_frame e3
  obtain ⟨m4, e4⟩ := setNei_some (m := m3) (t := r.h.tet) (f := face r.h.ver)
    (x := ⟨ms.tets.length + l.length, colV02 r.h.ver⟩) (by rw [l3]; simp [m2, hl1]; omega)
  obtain ⟨n4, p4, l4, -⟩ := setNei_frame e4
  have hp4 : m4.p2t = m.p2t := by rw [p4, p3]
  have hn4 : m4.nPoints = ms.nPoints := by rw [n4, n3]; exact hi.n
  have hl4 : m4.tets.length = ms.tets.length + (l.length + 1) := by rw [l4, l3]; simp [m2, hl1]; omega
  -- contents of m4
  have g2 : ∀ j : Nat, j < ms.tets.length + l.length → m2.tets[j]? = m1.tets[j]? := by
    intro j hj; simp only [m2]; rw [List.getElem?_append_left (by omega)]
  have g2n : m2.tets[ms.tets.length + l.length]? = some (Tet.new r.o r.d pid r.a) := by
    simp only [m2]; rw [← hl1]; simp
  have g4other : ∀ j : Nat, j < ms.tets.length + l.length → j ≠ r.h.tet → m4.tets[j]? = m.tets[j]? := by
    intro j hj hne
    rw [setNei_get e4, if_neg (Ne.symm hne), setNei_get e3, if_neg (by omega), g2 j hj, g1, if_neg (Ne.symm hne)]
  have g4h : m4.tets[r.h.tet]? = some { y with
      marked := false
      nei := Function.update y.nei (face r.h.ver) (some ⟨ms.tets.length + l.length, colV02 r.h.ver⟩) } := by
    rw [setNei_get e4, if_pos rfl, setNei_get e3, if_neg (by omega), g2 _ (by omega), g1, if_pos rfl, hy]; rfl
  have g4n : m4.tets[ms.tets.length + l.length]? =
      some { data := ![r.o, r.d, pid, r.a], nei := Function.update (fun _ => none) 2 (some r.h) } := by
    rw [setNei_get e4, if_neg (by omega), setNei_get e3, if_pos rfl, g2n]; rfl
  have newT4 : ∀ i r', (l ++ [r])[i]? = some r' → m4.tets[ms.tets.length + i]? =
      some { data := ![r'.o, r'.d, pid, r'.a], nei := Function.update (fun _ => none) 2 (some r'.h) } := by
    intro i r' hi'
    rcases Nat.lt_trichotomy i l.length with h | h | h
    · rw [List.getElem?_append_left h] at hi'
      rw [g4other _ (by omega) (by omega)]
      exact hi.newT i r' hi'
    · subst h
      simp at hi'; subst hi'; exact g4n
    · rw [List.getElem?_eq_none (by simp; omega)] at hi'; cases hi'
  -- links
  have old4 : ∀ w, r.has w → ∃ t, ms.p2t[w]? = some (some t) ∧ ∃ x, m4.tets[t]? = some x ∧ x.data 2 ≠ pid := by
    intro w hw
    obtain ⟨t, z, h1, h2, h3⟩ := hlink w hw
    have ht : t < ms.tets.length := (List.getElem?_eq_some_iff.1 h2).1
    refine ⟨t, h1, ?_⟩
    by_cases hth : t = r.h.tet
    · subst hth
      rw [hy0] at h2; cases h2
      exact ⟨_, g4h, by simp only [hyd]; exact h3⟩
    · obtain ⟨z', hz', hzd', -⟩ := hi.oldT t z h2
      exact ⟨z', by rw [g4other t (by omega) hth, hz'], by rw [hzd']; exact h3⟩
  have hnew4 : ∀ i r', (l ++ [r])[i]? = some r' → ∃ x, m4.tets[ms.tets.length + i]? = some x ∧ x.data 2 = pid :=
    fun i r' h => ⟨_, newT4 i r' h, rfl⟩
  have hri : ∃ i, (l ++ [r])[i]? = some r ∧ ms.tets.length + l.length = ms.tets.length + i := ⟨l.length, by simp, rfl⟩
  have L0 : LinkInv ms.p2t ms.tets.length (l ++ [r]) m4.p2t (fun w => ∃ r ∈ l, r.has w) := by
    rw [hp4]
    refine ⟨hi.link.len, fun w hw => ?_, hi.link.other⟩
    obtain ⟨i, r', h1, h2, h3⟩ := hi.link.new w hw
    exact ⟨i, r', by rw [List.getElem?_append_left (List.getElem?_eq_some_iff.1 h1).1]; exact h1, h2, h3⟩
  obtain ⟨p5, e5, L5⟩ := relink_spec (pid := pid) L0 hnew4 hri (w := r.d) (.inl rfl) (old4 _ (.inl rfl))
  obtain ⟨p6, e6, L6⟩ := relink_spec (m := { m4 with p2t := p5 }) (pid := pid) L5 hnew4 hri (w := r.o) (.inr (.inl rfl)) (old4 _ (.inr (.inl rfl)))
  obtain ⟨p7, e7, L7⟩ := relink_spec (m := { m4 with p2t := p6 }) (pid := pid) L6 hnew4 hri (w := r.a) (.inr (.inr rfl)) (old4 _ (.inr (.inr rfl)))
  refine ⟨{ m4 with p2t := p7 }, ((r.a, r.d), ⟨ms.tets.length + l.length, 8⟩) ::
    ((r.o, r.a), ⟨ms.tets.length + l.length, 1⟩) :: ((r.d, r.o), ⟨ms.tets.length + l.length, 11⟩) :: map, ?_, ?_⟩
  · unfold fillStep
    simp only [hx, hxnei, e1, hull, Option.bind_eq_bind, Option.bind_some]
    have hh' : (if (x0.data 3 == ms.nPoints) = true then (⟨nei.tet, epivot nei.ver⟩ : TriFace) else nei) = r.h := hh.symm
    simp only [hh', hcor.1, hcor.2.1, hcor.2.2, Option.bind_some, makeTet, hl1]
    rw [show ({ nPoints := m1.nPoints, tets := m1.tets ++ [Tet.new r.o r.d pid r.a], p2t := m1.p2t } : Mesh) = m2 from rfl, e3]
    simp only [Option.bind_some, e4, e5, e6, e7]
    rfl
  · refine ⟨hn4, by simp [hl4], ?_, ?_, ?_, newT4, ?_, ?_⟩
    · intro j z hz
      have hj : j < ms.tets.length := (List.getElem?_eq_some_iff.1 hz).1
      by_cases hjh : j = r.h.tet
      · subst hjh
        rw [hy0] at hz; cases hz
        exact ⟨_, g4h, hyd, hyi, hydd, by simp⟩
      · obtain ⟨z', h1, h2, h3, h4, h5⟩ := hi.oldT j z hz
        refine ⟨z', by simp only; rw [g4other j (by omega) hjh, h1], h2, h3, h4, ?_⟩
        rw [h5]; simp [or_imp, forall_and, Ne.symm hjh]
    · intro i r' hi'
      rcases Nat.lt_trichotomy i l.length with h | h | h
      · rw [List.getElem?_append_left h] at hi'
        have hmem : r' ∈ l := List.mem_of_getElem? hi'
        have hs := hi.slotNew i r' hi'
        simp only [slot] at hs ⊢
        by_cases hjh : r'.h.tet = r.h.tet
        · rw [hjh] at hs ⊢
          rw [g4h]
          have hne : face r'.h.ver ≠ face r.h.ver := fun hcon => hdis r' hmem ⟨hjh, hcon⟩
          simp only [Option.bind_some, Function.update_of_ne hne]
          simpa [hy] using hs
        · have hlt' : r'.h.tet < ms.tets.length + l.length := by
            by_contra hcon
            rw [List.getElem?_eq_none (by have := hi.len; omega)] at hs
            simp at hs
          rw [g4other _ hlt' hjh]; exact hs
      · subst h
        simp at hi'; subst hi'
        simp [slot, g4h]
      · rw [List.getElem?_eq_none (by simp; omega)] at hi'; cases hi'
    · intro j g hj hno
      have h1 := hi.slotOld j g hj (fun r' hr' => hno r' (by simp [hr']))
      have h2 := hno r (by simp)
      simp only [slot] at h1 ⊢
      by_cases hjh : j = r.h.tet
      · subst hjh
        rw [g4h]
        have hne : g ≠ face r.h.ver := fun hcon => h2 ⟨rfl, hcon.symm⟩
        simp only [Option.bind_some, Function.update_of_ne hne]
        rw [← h1, hy]; rfl
      · rw [g4other j (by omega) hjh]; exact h1
    · intro e
      simp only [List.mem_cons, hi.map e]
      constructor
      · rintro (h | h | h | ⟨i, r', h1, h2⟩)
        · exact ⟨l.length, r, by simp, .inr (.inr h)⟩
        · exact ⟨l.length, r, by simp, .inr (.inl h)⟩
        · exact ⟨l.length, r, by simp, .inl h⟩
        · exact ⟨i, r', by rw [List.getElem?_append_left (List.getElem?_eq_some_iff.1 h1).1]; exact h1, h2⟩
      · rintro ⟨i, r', h1, h2⟩
        rcases Nat.lt_trichotomy i l.length with h | h | h
        · rw [List.getElem?_append_left h] at h1
          exact .inr (.inr (.inr ⟨i, r', h1, h2⟩))
        · subst h
          simp at h1; subst h1
          tauto
        · rw [List.getElem?_eq_none (by simp; omega)] at h1; cases h1
    · have hW : (fun w => ∃ r' ∈ l ++ [r], r'.has w) = fun v => (((∃ r' ∈ l, r'.has v) ∨ v = r.d) ∨ v = r.o) ∨ v = r.a := by
        funext v
        simp only [List.mem_append, List.mem_singleton, BF.has, or_assoc, eq_iff_iff]
        constructor
        · rintro ⟨r', h | rfl, h'⟩
          · exact .inl ⟨r', h, h'⟩
          · exact .inr h'
        · rintro (⟨r', h, h'⟩ | h')
          · exact ⟨r', .inl h, h'⟩
          · exact ⟨r, .inr rfl, h'⟩
      rw [hW]; exact L7

/-- The first filling loop, over the faces described by `R`. -/
theorem fillLoop_spec {ms : Mesh} {pid : Nat} :
    ∀ (R l : List BF) (m : Mesh) (map : FaceMap) (acc : List TriFace), FillInv ms pid l m map →
    acc = (List.range l.length).map (fun i => (⟨ms.tets.length + i, 11⟩ : TriFace)) →
    (∀ r ∈ R, IsBF ms r ∧ r.h.tet < ms.tets.length ∧
      ∀ w, r.has w → ∃ t x, ms.p2t[w]? = some (some t) ∧ ms.tets[t]? = some x ∧ x.data 2 ≠ pid) →
    (∀ r ∈ R, ∀ r' ∈ l ++ R, r'.h.tet ≠ r.b.1) →
    (l ++ R).Pairwise (fun r r' => ¬ (r.h.tet = r'.h.tet ∧ face r.h.ver = face r'.h.ver)) →
    ∃ m' map', fillLoop pid (R.map (·.b)) m map acc = some (m', map',
        (List.range (l ++ R).length).map (fun i => (⟨ms.tets.length + i, 11⟩ : TriFace))) ∧
      FillInv ms pid (l ++ R) m' map' := by
  intro R
  induction R with
  | nil => intro l m map acc hi hacc _ _ _; exact ⟨m, map, by simp [fillLoop, hacc], by simpa using hi⟩
  | cons r R ih =>
    intro l m map acc hi hacc hR hb hp
    obtain ⟨h1, h2, h3⟩ := hR r (by simp)
    obtain ⟨m1, map1, e1, hi1⟩ := fillStep_spec hi h1 (fun r' hr' => hb r (by simp) r' (by simp [hr'])) h2
      (fun r' hr' => (List.pairwise_append.1 hp).2.2 r' hr' r (by simp)) h3
    obtain ⟨m', map', e, hi'⟩ := ih (l ++ [r]) m1 map1 (acc ++ [⟨ms.tets.length + l.length, 11⟩]) hi1
      (by simp [hacc, List.range_succ]) (fun r' hr' => hR r' (by simp [hr']))
      (fun r' hr' r'' hr'' => hb r' (by simp [hr']) r'' (by simpa using hr'')) (by simpa using hp)
    refine ⟨m', map', ?_, by simpa using hi'⟩
    simp only [List.map_cons, fillLoop, e1, Option.bind_eq_bind, Option.bind_some]
    simpa using e

/-- The three lateral faces of the new tetrahedron of `r`: end points of the directed edge of its versions 11, 1, 8. -/
inductive Side (R : List BF) : Nat → Ver → Nat → Nat → Prop
  | s11 {i r} : R[i]? = some r → Side R i 11 r.o r.d
  | s1 {i r} : R[i]? = some r → Side R i 1 r.a r.o
  | s8 {i r} : R[i]? = some r → Side R i 8 r.d r.a

theorem Side.lt {R : List BF} {i : Nat} {s : Ver} {u w : Nat} (h : Side R i s u w) : i < R.length := by
  cases h <;> exact (List.getElem?_eq_some_iff.1 ‹_›).1

theorem Side.ver {R : List BF} {i : Nat} {s : Ver} {u w : Nat} (h : Side R i s u w) : s = 11 ∨ s = 1 ∨ s = 8 := by
  cases h <;> simp

/-- Each directed edge occurs once and its reverse occurs. -/
structure Closed (R : List BF) : Prop where
  uniq : ∀ i s i' s' u w, Side R i s u w → Side R i' s' u w → i = i' ∧ s = s'
  rev : ∀ i s u w, Side R i s u w → ∃ i' s', Side R i' s' w u

/-- `h` is the slot value gluing side `s` of the `i`-th new tetrahedron to the side with the reversed edge. -/
def Mate (n0 : Nat) (R : List BF) (i : Nat) (s : Ver) (h : TriFace) : Prop :=
  ∃ i' s' u w, Side R i s u w ∧ Side R i' s' w u ∧ h = ⟨n0 + i', bondTbl s s'⟩

/-- State of the second filling loop relative to the mesh `mf` after the first. -/
structure ConnInv (n0 : Nat) (R : List BF) (mf m : Mesh) : Prop where
  n : m.nPoints = mf.nPoints
  p : m.p2t = mf.p2t
  core : ∀ j : Nat, (m.tets[j]?).map (fun x => ({ x with nei := fun _ => none } : Tet)) =
    (mf.tets[j]?).map fun x => { x with nei := fun _ => none }
  keepOld : ∀ j f, j < n0 → m.slot j f = mf.slot j f
  keep2 : ∀ i, m.slot (n0 + i) 2 = mf.slot (n0 + i) 2
  side : ∀ i s u w, Side R i s u w → m.slot (n0 + i) (face s) = none ∨ ∃ h, m.slot (n0 + i) (face s) = some h ∧ Mate n0 R i s h

theorem noNei_eq {x y : Tet} (h : ({ x with nei := fun _ => none } : Tet) = { y with nei := fun _ => none }) :
    x.data = y.data ∧ x.infected = y.infected ∧ x.marked = y.marked ∧ x.dead = y.dead := by
  cases x; cases y; simp_all

theorem ConnInv.get {n0 : Nat} {R : List BF} {mf m : Mesh} (h : ConnInv n0 R mf m) {j : Nat} {x : Tet}
    (hx : mf.tets[j]? = some x) : ∃ y, m.tets[j]? = some y ∧ y.data = x.data ∧ y.infected = x.infected ∧
      y.marked = x.marked ∧ y.dead = x.dead := by
  have := h.core j
  rw [hx, Option.map_some, Option.map_eq_some_iff] at this
  obtain ⟨y, hy, e⟩ := this
  exact ⟨y, hy, noNei_eq e⟩

theorem face_side : ∀ s : Ver, s = 11 ∨ s = 1 ∨ s = 8 → face s ≠ 2 := by decide +kernel
theorem side_face_inj : ∀ s s' : Ver, (s = 11 ∨ s = 1 ∨ s = 8) → (s' = 11 ∨ s' = 1 ∨ s' = 8) → face s = face s' → s = s' := by
  decide +kernel

theorem lookup_mem {map : FaceMap} {k : Nat × Nat} (h : ∃ v, (k, v) ∈ map) : ∃ v, map.lookup k = some v ∧ (k, v) ∈ map := by
  induction map with
  | nil => obtain ⟨v, hv⟩ := h; cases hv
  | cons e map ih =>
    obtain ⟨k', v'⟩ := e
    by_cases hk : k = k'
    · subst hk; exact ⟨v', by simp [List.lookup], by simp⟩
    · obtain ⟨v, hv⟩ := h
      have hv' : (k, v) ∈ map := by
        rcases List.mem_cons.1 hv with h | h
        · cases h; exact absurd rfl hk
        · exact h
      obtain ⟨u, hu, hm⟩ := ih ⟨v, hv'⟩
      refine ⟨u, ?_, by simp [hm]⟩
      have : (k == k') = false := by simpa using hk
      simp [List.lookup, this, hu]

/-- What the map contains. -/
def MapOk (n0 : Nat) (R : List BF) (map : FaceMap) : Prop :=
  ∀ k v, (k, v) ∈ map ↔ ∃ i, v.tet = n0 + i ∧ Side R i v.ver k.2 k.1

theorem mapOk_of {n0 : Nat} {R : List BF} {map : FaceMap}
    (h : ∀ e, e ∈ map ↔ ∃ i r, R[i]? = some r ∧ (e = ((r.d, r.o), ⟨n0 + i, 11⟩) ∨
      e = ((r.o, r.a), ⟨n0 + i, 1⟩) ∨ e = ((r.a, r.d), ⟨n0 + i, 8⟩))) : MapOk n0 R map := by
  rintro ⟨k1, k2⟩ ⟨vt, vv⟩
  rw [h]
  constructor
  · rintro ⟨i, r, hr, h | h | h⟩ <;> simp only [Prod.mk.injEq, TriFace.mk.injEq] at h <;>
      obtain ⟨⟨rfl, rfl⟩, rfl, rfl⟩ := h <;> refine ⟨i, rfl, ?_⟩
    · exact .s11 hr
    · exact .s1 hr
    · exact .s8 hr
  · rintro ⟨i, hi, hs⟩
    simp only at hi hs
    subst hi
    cases hs with
    | s11 hr => exact ⟨i, _, hr, .inl rfl⟩
    | s1 hr => exact ⟨i, _, hr, .inr (.inl rfl)⟩
    | s8 hr => exact ⟨i, _, hr, .inr (.inr rfl)⟩

theorem connect_spec {n0 pid : Nat} {R : List BF} {mf m : Mesh} {map : FaceMap} (hi : ConnInv n0 R mf m)
    (hcl : Closed R) (hmap : MapOk n0 R map)
    (hnew : ∀ i r, R[i]? = some r → ∃ x, mf.tets[n0 + i]? = some x ∧ x.data = ![r.o, r.d, pid, r.a])
    {i : Nat} {s : Ver} {u w : Nat} (hs : Side R i s u w) {row col : Ver → Ver}
    (hrow : ∀ j, row j = bondTbl s j) (hcol : ∀ j, col j = bondTbl j s) :
    ∃ m', connect map (n0 + i) s row col m = some m' ∧ ConnInv n0 R mf m' ∧ m'.slot (n0 + i) (face s) ≠ none ∧
      ∀ j f, m.slot j f ≠ none → m'.slot j f ≠ none := by
  have hnd : ∀ i s u w, Side R i s u w → ∃ y, m.tets[n0 + i]? = some y ∧ y.data (orgPivot s) = u ∧ y.data (destPivot s) = w := by
    intro i s u w hs
    cases hs with
    | s11 hr => obtain ⟨x, hx, hd⟩ := hnew i _ hr; obtain ⟨y, hy, hyd, -⟩ := hi.get hx
                exact ⟨y, hy, by rw [hyd, hd]; rfl, by rw [hyd, hd]; rfl⟩
    | s1 hr => obtain ⟨x, hx, hd⟩ := hnew i _ hr; obtain ⟨y, hy, hyd, -⟩ := hi.get hx
               exact ⟨y, hy, by rw [hyd, hd]; rfl, by rw [hyd, hd]; rfl⟩
    | s8 hr => obtain ⟨x, hx, hd⟩ := hnew i _ hr; obtain ⟨y, hy, hyd, -⟩ := hi.get hx
               exact ⟨y, hy, by rw [hyd, hd]; rfl, by rw [hyd, hd]; rfl⟩
  obtain ⟨x, hx, ho, hd⟩ := hnd i s u w hs
  have hslot : m.slot (n0 + i) (face s) = x.nei (face s) := by simp [slot, hx]
  unfold connect
  simp only [hx, Option.bind_eq_bind, Option.bind_some]
  cases hn : x.nei (face s) with
  | some h => exact ⟨m, rfl, hi, by rw [hslot, hn]; simp, fun _ _ h => h⟩
  | none =>
    simp only [org, dest, hx, Option.map_some, ho, hd, Option.bind_some]
    obtain ⟨i', s', hs'⟩ := hcl.rev i s u w hs
    obtain ⟨nn, hl, hm⟩ := lookup_mem (map := map) (k := (u, w)) ⟨⟨n0 + i', s'⟩, (hmap _ _).2 ⟨i', rfl, hs'⟩⟩
    obtain ⟨i2, hi2, hs2⟩ := (hmap _ _).1 hm
    obtain ⟨rfl, hs3⟩ := hcl.uniq _ _ _ _ _ _ hs' hs2
    simp only [hl, Option.bind_some, hi2]
    rw [← hs3]
    obtain ⟨x', hx', -, -⟩ := hnd i' s' w u hs'
    obtain ⟨m1, e1⟩ := setNei_some (m := m) (t := n0 + i) (f := face s) (x := ⟨n0 + i', row s'⟩)
      (List.getElem?_eq_some_iff.1 hx).1
    obtain ⟨a1, a2, a3, -⟩ := setNei_frame e1
    obtain ⟨m2, e2⟩ := setNei_some (m := m1) (t := n0 + i') (f := face s') (x := ⟨n0 + i, col s'⟩)
      (by rw [a3]; exact (List.getElem?_eq_some_iff.1 hx').1)
    obtain ⟨b1, b2, b3, -⟩ := setNei_frame e2
    have hsl : ∀ j f, m2.slot j f = if n0 + i' = j ∧ face s' = f then some ⟨n0 + i, bondTbl s' s⟩
        else if n0 + i = j ∧ face s = f then some ⟨n0 + i', bondTbl s s'⟩ else m.slot j f := by
      intro j f; rw [setNei_slot e2, setNei_slot e1, hrow, hcol]
    refine ⟨m2, by simp [e1, e2], ⟨b1.trans (a1.trans hi.n), b2.trans (a2.trans hi.p), ?_, ?_, ?_, ?_⟩, ?_, ?_⟩
    · intro j
      rw [← hi.core j, setNei_get e2, setNei_get e1]
      split_ifs <;> cases m.tets[j]? <;> rfl
    · intro j f hj
      rw [hsl, if_neg (by omega), if_neg (by omega)]; exact hi.keepOld j f hj
    · intro k
      rw [hsl, if_neg (fun h => face_side _ hs'.ver h.2), if_neg (fun h => face_side _ hs.ver h.2)]; exact hi.keep2 k
    · intro k t p q hk
      rw [hsl]
      split_ifs with h1 h2
      · obtain ⟨h1, h1'⟩ := h1
        obtain rfl : i' = k := by omega
        obtain rfl := side_face_inj _ _ hs'.ver hk.ver h1'
        exact .inr ⟨_, rfl, i, s, w, u, hs', hs, rfl⟩
      · obtain ⟨h2, h2'⟩ := h2
        obtain rfl : i = k := by omega
        obtain rfl := side_face_inj _ _ hs.ver hk.ver h2'
        exact .inr ⟨_, rfl, i', s', u, w, hs, hs', rfl⟩
      · exact hi.side k t p q hk
    · rw [hsl]; split_ifs <;> simp_all
    · intro j f h; rw [hsl]; split_ifs <;> simp_all

theorem connectLoop_spec {n0 pid : Nat} {R : List BF} {mf : Mesh} {map : FaceMap} (hcl : Closed R) (hmap : MapOk n0 R map)
    (hnew : ∀ i r, R[i]? = some r → ∃ x, mf.tets[n0 + i]? = some x ∧ x.data = ![r.o, r.d, pid, r.a]) :
    ∀ (is : List Nat) (m : Mesh), (∀ i ∈ is, i < R.length) → ConnInv n0 R mf m →
    ∃ m', connectLoop map (is.map fun i => (⟨n0 + i, 11⟩ : TriFace)) m = some m' ∧ ConnInv n0 R mf m' ∧
      (∀ i ∈ is, ∀ s u w, Side R i s u w → m'.slot (n0 + i) (face s) ≠ none) ∧
      ∀ j f, m.slot j f ≠ none → m'.slot j f ≠ none := by
  intro is
  induction is with
  | nil => intro m _ hi; exact ⟨m, rfl, hi, by simp, fun _ _ h => h⟩
  | cons i is ih =>
    intro m hlt hi
    obtain ⟨r, hr⟩ : ∃ r, R[i]? = some r := ⟨_, List.getElem?_eq_getElem (hlt i (by simp))⟩
    obtain ⟨m1, e1, h1, n1, k1⟩ := connect_spec hi hcl hmap hnew (.s11 hr) row11 col11
    obtain ⟨m2, e2, h2, n2, k2⟩ := connect_spec h1 hcl hmap hnew (.s1 hr) row1 col1
    obtain ⟨m3, e3, h3, n3, k3⟩ := connect_spec h2 hcl hmap hnew (.s8 hr) row8 col8
    obtain ⟨m', e, h', n', k'⟩ := ih m3 (fun i hi => hlt i (by simp [hi])) h3
    refine ⟨m', by simp [connectLoop, e1, e2, e3, e], h', ?_, fun j f h => k' _ _ (k3 _ _ (k2 _ _ (k1 _ _ h)))⟩
    intro k hk s u w hs
    rcases List.mem_cons.1 hk with rfl | hk
    · rcases hs.ver with rfl | rfl | rfl
      · exact k' _ _ (k3 _ _ (k2 _ _ n1))
      · exact k' _ _ (k3 _ _ n2)
      · exact k' _ _ n3
    · exact n' k hk s u w hs

end Mesh
end Verif.Tet
