import Verif.Bsp.Dir
import Verif.Bsp.Polygon
import Verif.Bsp.SplitCell
import Verif.Bsp.Turn
/-!
# The curve in which a plane meets a convex cell

The plane meets each face of the cell in directed segments. If as many pieces begin as end at each vertex, all of them form one closed convex curve.
-/
namespace Verif.Bsp
open InSphere (Pt)
open Geom (lerp)

variable {K : Type} [Field K] [LinearOrder K] [IsStrictOrderedRing K]

/-- The pieces: for each face the segments, as pairs of vertices. -/
structure Pieces (pos : Nat → Pt K) (h : Aff K) (A : Nat → Aff K) (F : Nat → Prop) (fv : Nat → Pt K → Prop) (T : List (Nat × List (Nat × Nat))) : Prop where
  faces : (T.map Prod.fst).Nodup
  ne : ∀ p ∈ T, p.2 ≠ []
  chain : ∀ p ∈ T, p.2.IsChain fun a b => a.2 = b.1
  dir : ∀ p ∈ T, ∀ a ∈ p.2, Dir h A F fv p.1 (pos a.1) (pos a.2)
  simple : ∀ p ∈ T, (p.2.map Prod.fst).Nodup
  inj : ∀ p ∈ T, ∀ a ∈ p.2, ∀ b ∈ p.2, pos a.1 = pos b.1 → a.1 = b.1
  nomid : ∀ p ∈ T, ∀ a ∈ p.2, ∀ b ∈ p.2, ∀ t : K, 0 < t → t < 1 → pos b.1 ≠ lerp (pos a.1) (pos a.2) t

/-- Where a piece begins and ends. -/
def HasKey (p : Nat × List (Nat × Nat)) (k : Nat × Nat) : Prop := p.2.head?.map Prod.fst = some k.1 ∧ p.2.getLast?.map Prod.snd = some k.2

variable {pos : Nat → Pt K} {h : Aff K} {A : Nat → Aff K} {V : Pt K → Prop} {F : Nat → Prop} {fv : Nat → Pt K → Prop} {T : List (Nat × List (Nat × Nat))}

/-- Segments of different pieces do not begin on each other. -/
theorem Pieces.cross (hp : Pieces pos h A F fv T) (g : CellGeo h A V F fv) {p q : Nat × List (Nat × Nat)} (p1 : p ∈ T) (q1 : q ∈ T) (hpq : p.1 ≠ q.1) {a b : Nat × Nat} (ha : a ∈ p.2) (hb : b ∈ q.2)
    {t : K} (t0 : 0 ≤ t) (t1 : t < 1) : pos b.1 ≠ lerp (pos a.1) (pos a.2) t := fun e => g.start (hp.dir p p1 a ha) (hp.dir q q1 b hb) hpq t0 t1 e

theorem Pieces.cross' (hp : Pieces pos h A F fv T) (g : CellGeo h A V F fv) {p q : Nat × List (Nat × Nat)} (p1 : p ∈ T) (q1 : q ∈ T) (hpq : p.1 ≠ q.1) {a b : Nat × Nat} (ha : a ∈ p.2) (hb : b ∈ q.2) :
    pos b.1 ≠ pos a.1 := fun e => hp.cross g p1 q1 hpq ha hb le_rfl zero_lt_one (by rw [lerp_zero]; exact e)

theorem chain_next {l : List (Nat × Nat)} (hc : l.IsChain fun a b => a.2 = b.1) {a : Nat × Nat} (ha : a ∈ l) : l.getLast?.map Prod.snd = some a.2 ∨ ∃ b ∈ l, b.1 = a.2 := by
  obtain ⟨l1, l2, rfl⟩ := List.append_of_mem ha
  cases l2 with
  | nil => exact Or.inl (by simp)
  | cons b l2 => exact Or.inr ⟨b, by simp, ((List.isChain_cons_cons.1 (List.isChain_append.1 hc).2.1).1).symm⟩

theorem chain_prev {l : List (Nat × Nat)} (hc : l.IsChain fun a b => a.2 = b.1) {a : Nat × Nat} (ha : a ∈ l) : l.head?.map Prod.fst = some a.1 ∨ ∃ b ∈ l, b.2 = a.1 := by
  obtain ⟨l1, l2, rfl⟩ := List.append_of_mem ha
  rcases List.eq_nil_or_concat l1 with rfl | ⟨l1, b, rfl⟩
  · exact Or.inl (by simp)
  · refine Or.inr ⟨b, by simp, ?_⟩
    rw [List.concat_eq_append, List.append_assoc] at hc
    exact (List.isChain_cons_cons.1 (List.isChain_append.1 hc).2.1).1

/-- The first point of a set of segments that contains the one before and the one after each of its elements is the first point of the whole curve, and the curve turns there. -/
theorem Pieces.first (hp : Pieces pos h A F fv T) (g : CellGeo h A V F fv) (S : (Nat × List (Nat × Nat)) → Prop) (l : List ((Nat × List (Nat × Nat)) × Nat × Nat)) (hl : l ≠ [])
    (hS : ∀ x, x ∈ l ↔ x.1 ∈ T ∧ S x.1 ∧ x.2 ∈ x.1.2) (hnext : ∀ x ∈ l, ∃ y ∈ l, y.2.1 = x.2.2) (hprev : ∀ x ∈ l, ∃ y ∈ l, y.2.2 = x.2.1) :
    ∃ x ∈ l, ∃ y ∈ l, y.2.2 = x.2.1 ∧ 0 < area h.n (pos y.2.1) (pos x.2.1) (pos x.2.2) ∧ ∀ q, h.ev q = 0 → V q → q = pos x.2.1 ∨ LexPos (vsub q (pos x.2.1)) := by
  obtain ⟨x, hx, hmin⟩ := lex_min (fun x : (Nat × List (Nat × Nat)) × Nat × Nat => pos x.2.1) l hl
  obtain ⟨y, hy, ey⟩ := hprev x hx
  obtain ⟨z, hz, ez⟩ := hnext x hx
  obtain ⟨x1, -, x3⟩ := (hS x).1 hx
  obtain ⟨y1, -, y3⟩ := (hS y).1 hy
  have dx := hp.dir _ x1 _ x3
  have dy := hp.dir _ y1 _ y3
  rw [ey] at dy
  have ha : LexPos (vsub (pos y.2.1) (pos x.2.1)) := (hmin y hy).resolve_left dy.ne
  have hc : LexPos (vsub (pos x.2.2) (pos x.2.1)) := by
    have := hmin z hz
    rw [ez] at this
    exact this.resolve_left dx.ne.symm
  exact ⟨x, hx, y, hy, ey, g.corner dy dx ha hc, fun q hq hv => g.first dy dx ha hc hq hv⟩

/-- **The pieces form one closed curve.** -/
theorem Pieces.oneLoop (hp : Pieces pos h A F fv T) (g : CellGeo h A V F fv) {keys : List (Nat × Nat)} (hk : List.Forall₂ HasKey T keys) (hperm : (keys.map Prod.fst).Perm (keys.map Prod.snd))
    (h0 : keys ≠ []) : OneLoop keys := by
  have hlen := List.Forall₂.length_eq hk
  have hget : ∀ {i : Nat} {p : Nat × List (Nat × Nat)}, T[i]? = some p → ∃ k, keys[i]? = some k ∧ HasKey p k := fun hi => forall₂_get hk hi
  have hTi : ∀ {i : Nat} {k : Nat × Nat}, keys[i]? = some k → ∃ p, T[i]? = some p ∧ HasKey p k := by
    intro i k hi
    have hil : i < T.length := by rw [hlen]; exact (List.getElem?_eq_some_iff.1 hi).1
    obtain ⟨k', e, hk'⟩ := hget (List.getElem?_eq_getElem hil)
    rw [hi] at e; cases e
    exact ⟨_, List.getElem?_eq_getElem hil, hk'⟩
  have hfst : ∀ {i j : Nat} {p q : Nat × List (Nat × Nat)}, T[i]? = some p → T[j]? = some q → i ≠ j → p.1 ≠ q.1 := by
    intro i j p q hi hj hij e
    obtain ⟨hil, ei⟩ := List.getElem?_eq_some_iff.1 hi
    obtain ⟨hjl, ej⟩ := List.getElem?_eq_some_iff.1 hj
    apply hij
    apply (List.Nodup.getElem_inj_iff hp.faces (i := i) (j := j) (hi := by simpa using hil) (hj := by simpa using hjl)).1
    simp only [List.getElem_map, ei, ej, e]
  have hhead : ∀ {p : Nat × List (Nat × Nat)} {k : Nat × Nat}, HasKey p k → ∃ a ∈ p.2, a.1 = k.1 := by
    rintro p k ⟨e, -⟩
    obtain ⟨a, ha, e⟩ := Option.map_eq_some_iff.1 e
    exact ⟨a, List.mem_of_mem_head? ha, e⟩
  -- different pieces begin at different vertices
  have hnd : (keys.map Prod.fst).Nodup := by
    rw [List.nodup_iff_injective_get]
    rintro ⟨i, hi⟩ ⟨j, hj⟩ e
    simp only [List.get_eq_getElem, List.getElem_map] at e
    by_contra hij
    have hij : i ≠ j := fun e' => hij (by simp [e'])
    simp only [List.length_map] at hi hj
    obtain ⟨p, pi, ki⟩ := hTi (List.getElem?_eq_getElem hi)
    obtain ⟨q, qj, kj⟩ := hTi (List.getElem?_eq_getElem hj)
    obtain ⟨a, ha, ea⟩ := hhead ki
    obtain ⟨b, hb, eb⟩ := hhead kj
    exact hp.cross' g (List.mem_of_getElem? pi) (List.mem_of_getElem? qj) (hfst pi qj hij) ha hb (by rw [ea, eb, e])
  have hnd2 := hperm.nodup_iff.1 hnd
  have hinj1 : ∀ {i j : Nat} {p q : Nat × Nat}, keys[i]? = some p → keys[j]? = some q → p.1 = q.1 → i = j := by
    intro i j p q hi hj e
    obtain ⟨hil, ei⟩ := List.getElem?_eq_some_iff.1 hi
    obtain ⟨hjl, ej⟩ := List.getElem?_eq_some_iff.1 hj
    apply (List.Nodup.getElem_inj_iff hnd (i := i) (j := j) (hi := by simpa using hil) (hj := by simpa using hjl)).1
    simp only [List.getElem_map, ei, ej, e]
  have hinj2 : ∀ {i j : Nat} {p q : Nat × Nat}, keys[i]? = some p → keys[j]? = some q → p.2 = q.2 → i = j := by
    intro i j p q hi hj e
    obtain ⟨hil, ei⟩ := List.getElem?_eq_some_iff.1 hi
    obtain ⟨hjl, ej⟩ := List.getElem?_eq_some_iff.1 hj
    apply (List.Nodup.getElem_inj_iff hnd2 (i := i) (j := j) (hi := by simpa using hil) (hj := by simpa using hjl)).1
    simp only [List.getElem_map, ei, ej, e]
  have hlen0 : 0 < keys.length := List.length_pos_iff.2 h0
  obtain ⟨ids, r, i1, i2, i3, i4, last, i5, i6⟩ := Poly.loopFrom_spec hnd2 (fun p hp' => hperm.mem_iff.2 (List.mem_map_of_mem hp')) keys.length 0 [0]
    (by simp) (by simpa using hlen0) (by simp) rfl rfl (by simp)
  have hnext : ∀ i ∈ ids, ∃ j ∈ ids, Poly.Fits keys i j := by
    intro i hi
    obtain ⟨A, B, rfl⟩ := List.append_of_mem hi
    cases B with
    | nil =>
      have : last = i := by simpa using i5.symm
      subst this
      exact ⟨0, List.mem_of_mem_head? i3, i6⟩
    | cons j B => exact ⟨j, by simp, (List.isChain_cons_cons.1 (List.isChain_append.1 i4).2.1).1⟩
  have hprev : ∀ i ∈ ids, ∃ j ∈ ids, Poly.Fits keys j i := by
    intro i hi
    obtain ⟨A, B, rfl⟩ := List.append_of_mem hi
    rcases List.eq_nil_or_concat A with rfl | ⟨A, b, rfl⟩
    · have : i = 0 := by simpa using i3
      subst this
      exact ⟨last, List.mem_of_getLast? i5, i6⟩
    · refine ⟨b, by simp, ?_⟩
      rw [List.concat_eq_append, List.append_assoc] at i4
      exact (List.isChain_cons_cons.1 (List.isChain_append.1 i4).2.1).1
  have hfit1 : ∀ {i : Nat}, i < keys.length → ∃ j, j < keys.length ∧ Poly.Fits keys i j := by
    intro i hi
    have : keys[i].2 ∈ keys.map Prod.fst := hperm.mem_iff.2 (List.mem_map_of_mem (List.getElem_mem hi))
    obtain ⟨k, hk', e⟩ := List.mem_map.1 this
    obtain ⟨j, hj⟩ := List.mem_iff_getElem?.1 hk'
    exact ⟨j, (List.getElem?_eq_some_iff.1 hj).1, _, _, List.getElem?_eq_getElem hi, hj, e.symm⟩
  have hfit2 : ∀ {i : Nat}, i < keys.length → ∃ j, j < keys.length ∧ Poly.Fits keys j i := by
    intro i hi
    have : keys[i].1 ∈ keys.map Prod.snd := hperm.mem_iff.1 (List.mem_map_of_mem (List.getElem_mem hi))
    obtain ⟨k, hk', e⟩ := List.mem_map.1 this
    obtain ⟨j, hj⟩ := List.mem_iff_getElem?.1 hk'
    exact ⟨j, (List.getElem?_eq_some_iff.1 hj).1, _, _, hj, List.getElem?_eq_getElem hi, e⟩
  -- a set of pieces with the next and the previous ones has the first point of the curve
  have main : ∀ J : Nat → Prop, (∃ i, i < keys.length ∧ J i) → (∀ i < keys.length, J i → ∃ j, j < keys.length ∧ J j ∧ Poly.Fits keys i j) →
      (∀ i < keys.length, J i → ∃ j, j < keys.length ∧ J j ∧ Poly.Fits keys j i) →
      ∃ i p a, J i ∧ T[i]? = some p ∧ a ∈ p.2 ∧ ∀ q, h.ev q = 0 → V q → q = pos a.1 ∨ LexPos (vsub q (pos a.1)) := by
    classical
    intro J ⟨i0, hi0, hJ0⟩ hn hpv
    set S : (Nat × List (Nat × Nat)) → Prop := fun p => ∃ i, J i ∧ T[i]? = some p with hS
    set l := ((T.filter fun p => decide (S p)).flatMap fun p => p.2.map fun a => (p, a)) with hl
    have hmem : ∀ x, x ∈ l ↔ x.1 ∈ T ∧ S x.1 ∧ x.2 ∈ x.1.2 := by
      rintro ⟨p, a⟩
      simp only [hl, List.mem_flatMap, List.mem_filter, List.mem_map, decide_eq_true_eq, Prod.mk.injEq]
      constructor
      · rintro ⟨p', ⟨h1, h2⟩, a', h3, rfl, rfl⟩; exact ⟨h1, h2, h3⟩
      · rintro ⟨h1, h2, h3⟩; exact ⟨p, ⟨h1, h2⟩, a, h3, rfl, rfl⟩
    have hTl : ∀ {i : Nat} {p : Nat × List (Nat × Nat)}, T[i]? = some p → i < keys.length := fun hi => by rw [← hlen]; exact (List.getElem?_eq_some_iff.1 hi).1
    obtain ⟨p0, hp0, -⟩ := hTi (List.getElem?_eq_getElem hi0)
    have hl0 : l ≠ [] := by
      obtain ⟨a, t, ea⟩ := List.exists_cons_of_ne_nil (hp.ne p0 (List.mem_of_getElem? hp0))
      have : (p0, a) ∈ l := (hmem _).2 ⟨List.mem_of_getElem? hp0, ⟨i0, hJ0, hp0⟩, by rw [ea]; simp⟩
      intro e; rw [e] at this; cases this
    have hnx : ∀ x ∈ l, ∃ y ∈ l, y.2.1 = x.2.2 := by
      intro x hx
      obtain ⟨x1, ⟨i, hJ, hi⟩, x3⟩ := (hmem x).1 hx
      rcases chain_next (hp.chain _ x1) x3 with e | ⟨b, hb, e⟩
      · obtain ⟨j, hj, hJj, k1, k2, f1, f2, f3⟩ := hn i (hTl hi) hJ
        obtain ⟨q, hq, kq⟩ := hTi f2
        obtain ⟨b, hb, eb⟩ := hhead kq
        obtain ⟨k, hk1, hk2⟩ := hget hi
        rw [f1] at hk1; cases hk1
        refine ⟨(q, b), (hmem _).2 ⟨List.mem_of_getElem? hq, ⟨j, hJj, hq⟩, hb⟩, ?_⟩
        have : k1.2 = x.2.2 := by
          have := hk2.2; rw [e] at this; exact (Option.some.inj this).symm
        simp only
        rw [eb, ← f3, this]
      · exact ⟨(x.1, b), (hmem _).2 ⟨x1, ⟨i, hJ, hi⟩, hb⟩, e⟩
    have hpx : ∀ x ∈ l, ∃ y ∈ l, y.2.2 = x.2.1 := by
      intro x hx
      obtain ⟨x1, ⟨i, hJ, hi⟩, x3⟩ := (hmem x).1 hx
      rcases chain_prev (hp.chain _ x1) x3 with e | ⟨b, hb, e⟩
      · obtain ⟨j, hj, hJj, k1, k2, f1, f2, f3⟩ := hpv i (hTl hi) hJ
        obtain ⟨q, hq, kq⟩ := hTi f1
        obtain ⟨b, hb, eb⟩ := Option.map_eq_some_iff.1 kq.2
        obtain ⟨k, hk1, hk2⟩ := hget hi
        rw [f2] at hk1; cases hk1
        refine ⟨(q, b), (hmem _).2 ⟨List.mem_of_getElem? hq, ⟨j, hJj, hq⟩, List.mem_of_getLast? hb⟩, ?_⟩
        have : k2.1 = x.2.1 := by
          have := hk2.1; rw [e] at this; exact (Option.some.inj this).symm
        simp only
        rw [eb, f3, this]
      · exact ⟨(x.1, b), (hmem _).2 ⟨x1, ⟨i, hJ, hi⟩, hb⟩, e⟩
    obtain ⟨x, hx, y, hy, -, -, hfirst⟩ := hp.first g S l hl0 hmem hnx hpx
    obtain ⟨-, ⟨i, hJ, hi⟩, x3⟩ := (hmem x).1 hx
    exact ⟨i, x.1, x.2, hJ, hi, x3, hfirst⟩
  -- all pieces are visited
  have hall : ∀ i < keys.length, i ∈ ids := by
    by_contra hc
    push Not at hc
    obtain ⟨i, hi, hni⟩ := hc
    obtain ⟨a, p, u, ha, hap, hu, fu⟩ := main (fun i => i ∈ ids) ⟨0, hlen0, List.mem_of_mem_head? i3⟩
      (fun i _ hi => by obtain ⟨j, hj, f⟩ := hnext i hi; exact ⟨j, i2 j hj, hj, f⟩) (fun i _ hi => by obtain ⟨j, hj, f⟩ := hprev i hi; exact ⟨j, i2 j hj, hj, f⟩)
    obtain ⟨b, q, v, hb, hbq, hv, fv'⟩ := main (fun i => i ∉ ids) ⟨i, hi, hni⟩
      (fun i hi hni => by
        obtain ⟨j, hj, f⟩ := hfit1 hi
        refine ⟨j, hj, fun hj' => hni ?_, f⟩
        obtain ⟨i', hi', k1, k2, f1, f2, f3⟩ := hprev j hj'
        obtain ⟨l1, l2, e1, e2, e3⟩ := f
        rw [f2] at e2; cases e2
        rw [hinj2 e1 f1 (e3.trans f3.symm)]; exact hi')
      (fun i hi hni => by
        obtain ⟨j, hj, f⟩ := hfit2 hi
        refine ⟨j, hj, fun hj' => hni ?_, f⟩
        obtain ⟨i', hi', k1, k2, f1, f2, f3⟩ := hnext j hj'
        obtain ⟨l1, l2, e1, e2, e3⟩ := f
        rw [f1] at e1; cases e1
        rw [hinj1 e2 f2 (e3.symm.trans f3)]; exact hi')
    have hab : a ≠ b := fun e => hb (e ▸ ha)
    have pm := List.mem_of_getElem? hap
    have qm := List.mem_of_getElem? hbq
    have du := hp.dir p pm u hu
    have dv := hp.dir q qm v hv
    have e1 := fu _ dv.ha (g.sub _ dv.face _ dv.fa)
    have e2 := fv' _ du.ha (g.sub _ du.face _ du.fa)
    have : pos v.1 = pos u.1 := by
      rcases e1 with e1 | e1
      · exact e1
      · rcases e2 with e2 | e2
        · exact e2.symm
        · exact absurd e2 fun e2 => lex_asymm e1 e2
    exact hp.cross' g pm qm (hfst hap hbq hab) hu hv this
  have hiperm : ids.Perm (List.range keys.length) := (List.perm_ext_iff_of_nodup i1 List.nodup_range).2 fun i => ⟨fun hi => List.mem_range.2 (i2 i hi), fun hi => hall i (List.mem_range.1 hi)⟩
  have hgd : ∀ i j, Poly.Fits keys i j → (keys.getD i (0, 0)).2 = (keys.getD j (0, 0)).1 := by
    rintro i j ⟨p, q, h1, h2, h3⟩
    simp only [List.getD, h1, h2, Option.getD_some]; exact h3
  have h2 : keys = (List.range keys.length).map fun i => keys.getD i (0, 0) := by
    apply List.ext_getElem?
    intro i
    rw [List.getElem?_map]
    by_cases hil : i < keys.length
    · rw [List.getElem?_range hil]; simp [List.getD, hil]
    · rw [List.getElem?_eq_none (by omega), List.getElem?_eq_none (by simpa using hil)]; rfl
  refine ⟨hnd, ids.map fun i => keys.getD i (0, 0), ?_, ?_, ?_, ?_⟩
  · have := hiperm.map fun i => keys.getD i (0, 0)
    rwa [← h2] at this
  · intro e
    rw [List.map_eq_nil_iff] at e
    rw [e] at i3; simp at i3
  · rw [List.isChain_map]
    exact i4.imp fun i j hij => hgd i j hij
  · rw [List.getLast?_map, List.head?_map, i5, i3]
    simp only [Option.map_some, Option.some.injEq]
    exact hgd _ _ i6

/-- **The separating face is a convex polygon** in the plane. -/
theorem Pieces.face (hp : Pieces pos h A F fv T) (g : CellGeo h A V F fv) {segs : List (List HE)} (hs : List.Forall₂ (fun p l => l.map (fun k => (k.tail, k.tip)) = p.2) T segs)
    (hloop : hes (segs.flatten.map fun k => (k.tail, k.edge)) = segs.flatten) (h0 : T ≠ []) : FaceOk pos h (segs.flatten.map fun k => (k.tail, k.edge)) := by
  have harc : ∀ k ∈ segs.flatten, ∃ p ∈ T, (k.tail, k.tip) ∈ p.2 := by
    intro k hk
    obtain ⟨l, hl, hk⟩ := List.mem_flatten.1 hk
    obtain ⟨p, hp1, e⟩ := forall₂_mem_right hs l hl
    exact ⟨p, hp1, by rw [← e]; exact List.mem_map_of_mem hk⟩
  have hvert : ∀ x ∈ segs.flatten.map (fun k => (k.tail, k.edge)), ∃ p ∈ T, ∃ a ∈ p.2, a.1 = x.1 := by
    intro x hx
    obtain ⟨k, hk, rfl⟩ := List.mem_map.1 hx
    obtain ⟨p, hp1, ha⟩ := harc k hk
    exact ⟨p, hp1, _, ha, rfl⟩
  have hsame : ∀ {p q : Nat × List (Nat × Nat)}, p ∈ T → q ∈ T → p.1 = q.1 → p = q := fun hp1 hq1 e => List.inj_on_of_nodup_map hp.faces hp1 hq1 e
  have hback : ∀ p ∈ T, ∀ a ∈ p.2, ∃ k ∈ segs.flatten, (k.tail, k.tip) = a := by
    intro p hp1 a ha
    obtain ⟨i, hi⟩ := List.mem_iff_getElem?.1 hp1
    obtain ⟨l, hl, e⟩ := forall₂_get hs hi
    rw [← e] at ha
    obtain ⟨k, hk, e'⟩ := List.mem_map.1 ha
    exact ⟨k, List.mem_flatten.2 ⟨l, List.mem_of_getElem? hl, hk⟩, e'⟩
  have hnd : ∀ (T' : List (Nat × List (Nat × Nat))) (segs' : List (List HE)), List.Forall₂ (fun p l => l.map (fun k => (k.tail, k.tip)) = p.2) T' segs' → (∀ p ∈ T', p ∈ T) → (T'.map Prod.fst).Nodup →
      (segs'.flatten.map HE.tail).Nodup := by
    intro T' segs' hs'
    induction hs' with
    | nil => simp
    | @cons p l T' segs' hpl hrest ih =>
      intro hsub hnd'
      rw [List.map_cons, List.nodup_cons] at hnd'
      rw [List.flatten_cons, List.map_append, List.nodup_append]
      have pT := hsub p (by simp)
      refine ⟨?_, ih (fun q hq => hsub q (by simp [hq])) hnd'.2, ?_⟩
      · have := hp.simple p pT
        rw [← hpl, List.map_map] at this
        exact this
      · intro u hu v hv e
        obtain ⟨k, hk, rfl⟩ := List.mem_map.1 hu
        obtain ⟨k', hk', rfl⟩ := List.mem_map.1 hv
        obtain ⟨l', hl', hk'⟩ := List.mem_flatten.1 hk'
        obtain ⟨q, hq, eq⟩ := forall₂_mem_right hrest l' hl'
        have hne : p.1 ≠ q.1 := fun e => hnd'.1 (by rw [e]; exact List.mem_map_of_mem hq)
        exact hp.cross' g pT (hsub q (by simp [hq])) hne (a := (k.tail, k.tip)) (b := (k'.tail, k'.tip)) (by rw [← hpl]; exact List.mem_map_of_mem hk) (by rw [← eq]; exact List.mem_map_of_mem hk') (by simp only; rw [e])
  refine ⟨?_, ?_, ?_, ?_, ?_, ?_⟩
  · rw [List.map_map]
    exact hnd T segs hs (fun p hp => hp) hp.faces
  · intro x hx y hy e
    obtain ⟨p, hp1, a, ha, ea⟩ := hvert x hx
    obtain ⟨q, hq1, b, hb, eb⟩ := hvert y hy
    by_cases hpq : p.1 = q.1
    · have := hsame hp1 hq1 hpq
      subst this
      rw [← ea, ← eb]
      exact hp.inj p hp1 a ha b hb (by rw [ea, eb]; exact e)
    · exact absurd (by rw [ea, eb]; exact e.symm) (hp.cross' g hp1 hq1 hpq ha hb)
  · intro x hx
    obtain ⟨p, hp1, a, ha, ea⟩ := hvert x hx
    rw [← ea]
    exact (hp.dir p hp1 a ha).ha
  · intro k hk x hx
    rw [hloop] at hk
    obtain ⟨p, hp1, ha⟩ := harc k hk
    obtain ⟨q, hq1, b, hb, eb⟩ := hvert x hx
    rw [← eb]
    have d := hp.dir q hq1 b hb
    exact g.left (hp.dir p hp1 _ ha) d.ha (g.sub _ d.face _ d.fa)
  · intro k hk x hx t t0 t1
    rw [hloop] at hk
    obtain ⟨p, hp1, ha⟩ := harc k hk
    obtain ⟨q, hq1, b, hb, eb⟩ := hvert x hx
    rw [← eb]
    by_cases hpq : p.1 = q.1
    · have := hsame hp1 hq1 hpq
      subst this
      exact hp.nomid p hp1 _ ha b hb t t0 t1
    · exact hp.cross g hp1 hq1 hpq ha hb t0.le t1
  · -- the curve turns at its first point
    have hmem : ∀ x : (Nat × List (Nat × Nat)) × Nat × Nat, x ∈ (T.flatMap fun p => p.2.map fun a => (p, a)) ↔ x.1 ∈ T ∧ True ∧ x.2 ∈ x.1.2 := by
      rintro ⟨p, a⟩
      simp only [List.mem_flatMap, List.mem_map, Prod.mk.injEq, true_and]
      constructor
      · rintro ⟨p', h1, a', h3, rfl, rfl⟩; exact ⟨h1, h3⟩
      · rintro ⟨h1, h3⟩; exact ⟨p, h1, a, h3, rfl, rfl⟩
    have hin : ∀ k ∈ segs.flatten, ∃ x ∈ (T.flatMap fun p => p.2.map fun a => (p, a)), x.2 = (k.tail, k.tip) := by
      intro k hk
      obtain ⟨p, hp1, ha⟩ := harc k hk
      exact ⟨(p, _), (hmem _).2 ⟨hp1, trivial, ha⟩, rfl⟩
    obtain ⟨x, hx, y, hy, exy, ht, -⟩ := hp.first g (fun _ => True) (T.flatMap fun p => p.2.map fun a => (p, a)) (by
      obtain ⟨p, T', rfl⟩ := List.exists_cons_of_ne_nil h0
      obtain ⟨a, l, e⟩ := List.exists_cons_of_ne_nil (hp.ne p (by simp))
      rw [List.flatMap_cons, e]; simp) hmem
      (fun x hx => by
        obtain ⟨x1, -, x3⟩ := (hmem x).1 hx
        obtain ⟨k, hk, ek⟩ := hback _ x1 _ x3
        rw [← hloop] at hk
        obtain ⟨z, hz, ez⟩ := hes_tip hk
        obtain ⟨k', hk', ez'⟩ := List.mem_map.1 hz
        obtain ⟨y, hy, ey⟩ := hin k' hk'
        refine ⟨y, hy, ?_⟩
        rw [ey, ← ek]
        simp only
        rw [← ez, ← ez'])
      (fun x hx => by
        obtain ⟨x1, -, x3⟩ := (hmem x).1 hx
        obtain ⟨k, hk, ek⟩ := hback _ x1 _ x3
        -- the half-edge before
        have hmt := hes_map_tip (segs.flatten.map fun k => (k.tail, k.edge))
        rw [hloop] at hmt
        have : k.tail ∈ segs.flatten.map HE.tip := by rw [hmt, List.mem_rotate]; exact List.mem_map_of_mem hk
        obtain ⟨k', hk', e⟩ := List.mem_map.1 this
        obtain ⟨y, hy, ey⟩ := hin k' hk'
        refine ⟨y, hy, ?_⟩
        rw [ey, ← ek]
        exact e)
    obtain ⟨x1, -, x3⟩ := (hmem x).1 hx
    obtain ⟨y1, -, y3⟩ := (hmem y).1 hy
    obtain ⟨k, hk, ek⟩ := hback _ x1 _ x3
    obtain ⟨k', hk', ek'⟩ := hback _ y1 _ y3
    rw [← hloop] at hk
    obtain ⟨z, hz, ez⟩ := hes_tip hk
    refine ⟨k', by rw [hloop]; exact hk', z, hz, ?_⟩
    rw [← ek'] at exy ht
    rw [← ek] at exy ht
    simp only at exy ht
    rw [ez, exy]
    exact ht

end Verif.Bsp
