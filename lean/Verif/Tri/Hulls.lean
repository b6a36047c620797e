import Verif.Tri.DivConq
/-!
# C111: `merge_hulls` keeps the mesh closed (`src/triangle/triangle.rs` lines 354-680)

While the two triangulations are knitted together there is one hole with three sides in the mesh: the edge `base_edge` and the edges `left_cand` and `right_cand` to the ghost vertex. All other edges
are glued. The left and the right side are mirror images; the lemmas are stated for a pair `nx`, `pv` that is either `next`, `prev` or `prev`, `next`.
-/
namespace Verif.Tri

/-- Turning in a triangle in one of the two directions. -/
structure Turn (nx pv : HE → HE) : Prop where
  nn : ∀ x, nx (nx x) = pv x
  np : ∀ x, nx (pv x) = x
  pn : ∀ x, pv (nx x) = x
  pp : ∀ x, pv (pv x) = nx x
  ntri : ∀ x, (nx x).tri = x.tri
  ptri : ∀ x, (pv x).tri = x.tri
  nne : ∀ x, nx x ≠ x
  pne : ∀ x, pv x ≠ x
  npne : ∀ x, nx x ≠ pv x
  all : ∀ x y : HE, y.tri = x.tri → y = x ∨ y = nx x ∨ y = pv x

theorem turn_next : Turn HE.next HE.prev := ⟨next_next, prev_next, next_prev, prev_prev, fun _ => rfl, fun _ => rfl, next_ne, prev_ne, next_ne_prev, fun _ _ h => same_tri h⟩
theorem Turn.mirror {nx pv : HE → HE} (h : Turn nx pv) : Turn pv nx := ⟨h.pp, h.pn, h.np, h.nn, h.ptri, h.ntri, h.pne, h.nne, fun x => (h.npne x).symm, fun x y e => by have := h.all x y e; tauto⟩

/-- The mesh is closed except for a hole with the sides `b`, `l`, `r`. Seen in the direction `nx`, `b` goes from `lr` to `ll`, `l` from `ll` to the ghost vertex, and `r` from the ghost vertex to `lr`. -/
structure Hole (nx pv : HE → HE) (m : Mesh) (b l r : HE) (ll lr ul ur : Nat) : Prop where
  bt : b.tri < m.n
  lt : l.tri < m.n
  rt : r.tri < m.n
  b1 : m.vert (nx b) = some lr
  b2 : m.vert (pv b) = some ll
  l1 : m.vert (nx l) = some ll
  l2 : m.vert (pv l) = none
  l3 : m.vert l = some ul
  r1 : m.vert (nx r) = none
  r2 : m.vert (pv r) = some lr
  r3 : m.vert r = some ur
  link : ∀ e, e.tri < m.n → e ≠ b → e ≠ l → e ≠ r → ∃ e', m.nei e = some e' ∧ m.nei e' = some e ∧ e' ≠ b ∧ e' ≠ l ∧ e' ≠ r ∧ m.vert (nx e) = m.vert (pv e') ∧ m.vert (pv e) = m.vert (nx e')
  range : ∀ e e', m.nei e = some e' → e.tri < m.n
  diff : ∀ e, e.tri < m.n → m.vert e ≠ m.vert (nx e)

theorem Hole.mirror {nx pv : HE → HE} (T : Turn nx pv) {m : Mesh} {b l r : HE} {ll lr ul ur : Nat} (h : Hole nx pv m b l r ll lr ul ur) : Hole pv nx m b r l lr ll ur ul where
  bt := h.bt
  lt := h.rt
  rt := h.lt
  b1 := h.b2
  b2 := h.b1
  l1 := h.r2
  l2 := h.r1
  l3 := h.r3
  r1 := h.l2
  r2 := h.l1
  r3 := h.l3
  link e he h1 h2 h3 := by
    obtain ⟨e', a1, a2, a3, a4, a5, a6, a7⟩ := h.link e he h1 h3 h2
    exact ⟨e', a1, a2, a3, a5, a4, a7, a6⟩
  range := h.range
  diff e he := by
    have := h.diff (pv e) (by rw [T.ptri]; exact he)
    rw [T.np] at this
    exact this.symm

/-- The value is a corner of a triangle of the part `R` of the mesh. -/
def IsCorner (m : Mesh) (R : Nat → Prop) (v : Option Nat) : Prop := ∃ e : HE, e.tri < m.n ∧ R e.tri ∧ m.vert e = v

/-- The half edges of the part `R` of the mesh are not glued to others. -/
def Apartment (m : Mesh) (R : Nat → Prop) : Prop := ∀ e e', m.nei e = some e' → (R e.tri ↔ R e'.tri)

/-- Only the part `R` of the mesh is changed, and it is still not glued to others. -/
structure Within (R : Nat → Prop) (m m' : Mesh) : Prop where
  apart : Apartment m' R
  nei : ∀ e : HE, ¬ R e.tri → m'.nei e = m.nei e
  vert : ∀ e : HE, ¬ R e.tri → m'.vert e = m.vert e

theorem Within.refl {R : Nat → Prop} {m : Mesh} (h : Apartment m R) : Within R m m := ⟨h, fun _ _ => rfl, fun _ _ => rfl⟩
theorem Within.trans {R : Nat → Prop} {m m1 m2 : Mesh} (h1 : Within R m m1) (h2 : Within R m1 m2) : Within R m m2 :=
  ⟨h2.apart, fun e he => (h2.nei e he).trans (h1.nei e he), fun e he => (h2.vert e he).trans (h1.vert e he)⟩

theorem Within.bond {R : Nat → Prop} {m m1 : Mesh} {a b : HE} (h : Within R m m1) (ha : R a.tri) (hb : R b.tri) : Within R m (bond m1 a b) where
  apart e e' he := by
    simp only [Tri.bond] at he
    by_cases c1 : e = b
    · rw [c1, upd_self, Option.some.injEq] at he
      rw [c1, ← he]
      exact ⟨fun _ => ha, fun _ => hb⟩
    · rw [upd_of_ne c1] at he
      by_cases c2 : e = a
      · rw [c2, upd_self, Option.some.injEq] at he
        rw [c2, ← he]
        exact ⟨fun _ => hb, fun _ => ha⟩
      · rw [upd_of_ne c2] at he
        exact h.apart _ _ he
  nei e he := by
    simp only [Tri.bond]
    rw [upd_of_ne (fun x => he (by rw [x]; exact hb)), upd_of_ne (fun x => he (by rw [x]; exact ha))]
    exact h.nei e he
  vert e he := h.vert e he

theorem Within.upd {R : Nat → Prop} {m m1 : Mesh} {a : HE} {v : Option Nat} (h : Within R m m1) (ha : R a.tri) : Within R m { m1 with vert := upd m1.vert a v } where
  apart := h.apart
  nei := h.nei
  vert e he := by
    show Tri.upd m1.vert a v e = _
    rw [upd_of_ne (fun x => he (by rw [x]; exact ha))]
    exact h.vert e he

theorem Within.org {R : Nat → Prop} {m m1 : Mesh} {a : HE} {v : Option Nat} (h : Within R m m1) (ha : R a.tri) : Within R m (setOrg m1 a v) := h.upd (a := a.next) ha
theorem Within.dest {R : Nat → Prop} {m m1 : Mesh} {a : HE} {v : Option Nat} (h : Within R m m1) (ha : R a.tri) : Within R m (setDest m1 a v) := h.upd (a := a.prev) ha
theorem Within.apex {R : Nat → Prop} {m m1 : Mesh} {a : HE} {v : Option Nat} (h : Within R m m1) (ha : R a.tri) : Within R m (setApex m1 a v) := h.upd (a := a) ha

theorem Within.make {R : Nat → Prop} {m m1 : Mesh} (h : Within R m m1) (ha : R m1.n) : Within R m (makeTri m1).1 where
  apart e e' he := by
    simp only [makeTri] at he
    split at he
    · cases he
    · exact h.apart _ _ he
  nei e he := by
    simp only [makeTri]
    rw [if_neg (fun x => he (by rw [x]; exact ha))]
    exact h.nei e he
  vert e he := by
    simp only [makeTri]
    rw [if_neg (fun x => he (by rw [x]; exact ha))]
    exact h.vert e he

/-- What removing an edge of the left triangulation does to the mesh. -/
structure Eaten (nx pv : HE → HE) (m m' : Mesh) (l ne sc tc oc : HE) (ll ul na : Nat) : Prop where
  n : m'.n = m.n
  nl : m'.nei l = some sc
  nsc : m'.nei sc = some l
  n2 : m'.nei (pv ne) = some tc
  ntc : m'.nei tc = some (pv ne)
  n1 : m'.nei (nx ne) = some oc
  noc : m'.nei oc = some (nx ne)
  rest : ∀ e, e ≠ l → e ≠ sc → e ≠ pv ne → e ≠ tc → e ≠ nx ne → e ≠ oc → m'.nei e = m.nei e
  vl : m'.vert l = none
  vln : m'.vert (nx l) = some na
  vlp : m'.vert (pv l) = some ll
  vn : m'.vert ne = some ul
  vnn : m'.vert (nx ne) = some na
  vnp : m'.vert (pv ne) = none
  vrest : ∀ e, e.tri ≠ l.tri → e.tri ≠ ne.tri → m'.vert e = m.vert e

section
variable {nx pv : HE → HE} {m m' : Mesh} {b l r : HE} {ll lr ul ur : Nat}

/-- The facts about the neighbours of the removed edge. -/
theorem Hole.around (T : Turn nx pv) (h : Hole nx pv m b l r ll lr ul ur) (hul : ul ≠ lr) : ∃ ne, m.nei (pv l) = some ne ∧ m.nei ne = some (pv l) ∧ ne.tri < m.n ∧ ne ≠ b ∧ ne ≠ l ∧ ne ≠ r ∧
    m.vert (nx ne) = some ll ∧ m.vert (pv ne) = some ul := by
  obtain ⟨ne, e1, e2, e3, e4, e5, e6, e7⟩ := h.link (pv l) (by rw [T.ptri]; exact h.lt)
    (fun e => by have := h.b1; rw [← e, T.np, h.l3, Option.some.injEq] at this; exact hul this)
    (T.pne l) (fun e => by have := h.r1; rw [← e, T.np, h.l3] at this; cases this)
  rw [T.np, h.l3] at e6
  rw [T.pp, h.l1] at e7
  exact ⟨ne, e1, e2, h.range _ _ e2, e3, e4, e5, e7.symm, e6.symm⟩

/-- The triangles around the removed edge are different from each other and from those of the other sides of the hole. -/
structure Apart (nx pv : HE → HE) (m : Mesh) (b l r : HE) (ll ul na : Nat) (ne sc tc oc : HE) : Prop where
  q2 : m.nei ne = some (pv l)
  q3 : ne.tri < m.n
  q4 : ne ≠ b
  q6 : ne ≠ r
  q7 : m.vert (nx ne) = some ll
  q8 : m.vert (pv ne) = some ul
  Lb : b.tri ≠ l.tri
  Lr : r.tri ≠ l.tri
  Nl : ne.tri ≠ l.tri
  Nb : b.tri ≠ ne.tri
  Nr : r.tri ≠ ne.tri
  nall : na ≠ ll
  naul : na ≠ ul
  t2 : m.nei tc = some (nx ne)
  t3 : tc ≠ b
  t5 : tc ≠ r
  t6 : some ul = m.vert (pv tc)
  t7 : some na = m.vert (nx tc)
  s2 : m.nei sc = some (pv ne)
  s3 : sc ≠ b
  s5 : sc ≠ r
  s6 : some na = m.vert (pv sc)
  s7 : some ll = m.vert (nx sc)
  hoc : m.nei (nx l) = some oc
  o2 : m.nei oc = some (nx l)
  o3 : oc ≠ b
  o5 : oc ≠ r
  o6 : none = m.vert (pv oc)
  o7 : some ul = m.vert (nx oc)
  tcN : tc.tri ≠ ne.tri
  tcL : tc.tri ≠ l.tri
  scN : sc.tri ≠ ne.tri
  scL : sc.tri ≠ l.tri
  ocN : oc.tri ≠ ne.tri
  ocL : oc.tri ≠ l.tri
  st : sc ≠ tc
  sco : sc ≠ oc
  tco : tc ≠ oc

theorem Hole.apart (T : Turn nx pv) (h : Hole nx pv m b l r ll lr ul ur) (hul : ul ≠ lr) {ne sc tc : HE} {na : Nat} (hne : m.nei (pv l) = some ne) (hna : m.vert ne = some na) (hnl : na ≠ lr)
    (htc : m.nei (nx ne) = some tc) (hsc : m.nei (pv ne) = some sc) : ∃ oc, Apart nx pv m b l r ll ul na ne sc tc oc := by
  obtain ⟨ne', q1, q2, q3, q4, q5, q6, q7, q8⟩ := h.around T hul
  rw [hne, Option.some.injEq] at q1
  subst q1
  have Lb : b.tri ≠ l.tri := by
    intro e
    rcases T.all _ _ e with e | e | e
    · have := h.b2; rw [e, h.l2] at this; cases this
    · have := h.b1; rw [e, T.nn, h.l2] at this; cases this
    · have := h.b1; rw [e, T.np, h.l3, Option.some.injEq] at this; exact hul this
  have Lr : r.tri ≠ l.tri := by
    intro e
    rcases T.all _ _ e with e | e | e
    · have := h.r1; rw [e, h.l1] at this; cases this
    · have := h.r2; rw [e, T.pn, h.l3, Option.some.injEq] at this; exact hul this
    · have := h.r1; rw [e, T.np, h.l3] at this; cases this
  have Nl : ne.tri ≠ l.tri := by
    intro e
    rcases T.all _ _ e with e | e | e
    · exact q5 e
    · rw [e, T.nn, h.l2] at q7; cases q7
    · rw [e, h.l2] at hna; cases hna
  have Nb : b.tri ≠ ne.tri := by
    intro e
    rcases T.all _ _ e with e | e | e
    · exact q4 e.symm
    · have := h.b1; rw [e, T.nn, q8, Option.some.injEq] at this; exact hul this
    · have := h.b1; rw [e, T.np, hna, Option.some.injEq] at this; exact hnl this
  have Nr : r.tri ≠ ne.tri := by
    intro e
    rcases T.all _ _ e with e | e | e
    · exact q6 e.symm
    · have := h.r1; rw [e, T.nn, q8] at this; cases this
    · have := h.r1; rw [e, T.np, hna] at this; cases this
  have ulll : ul ≠ ll := by have := h.diff l h.lt; rw [h.l3, h.l1] at this; exact fun e => this (by rw [e])
  have nall : na ≠ ll := by have := h.diff ne q3; rw [hna, q7] at this; exact fun e => this (by rw [e])
  have naul : na ≠ ul := by
    have := h.diff (pv ne) (by rw [T.ptri]; exact q3)
    rw [T.np, hna, q8] at this
    exact fun e => this (by rw [e])
  have tne : ∀ {x y : HE}, x.tri ≠ y.tri → x ≠ y := fun hxy e => hxy (by rw [e])
  -- the three outer neighbours
  obtain ⟨tc', t1, t2, t3, t4, t5, t6, t7⟩ := h.link (nx ne) (by rw [T.ntri]; exact q3) (tne (by rw [T.ntri]; exact Nb.symm)) (tne (by rw [T.ntri]; exact Nl)) (tne (by rw [T.ntri]; exact Nr.symm))
  rw [htc, Option.some.injEq] at t1
  subst t1
  obtain ⟨sc', s1, s2, s3, s4, s5, s6, s7⟩ := h.link (pv ne) (by rw [T.ptri]; exact q3) (tne (by rw [T.ptri]; exact Nb.symm)) (tne (by rw [T.ptri]; exact Nl)) (tne (by rw [T.ptri]; exact Nr.symm))
  rw [hsc, Option.some.injEq] at s1
  subst s1
  obtain ⟨oc, o1, o2, o3, o4, o5, o6, o7⟩ := h.link (nx l) (by rw [T.ntri]; exact h.lt) (tne (by rw [T.ntri]; exact Lb.symm)) (T.nne l) (tne (by rw [T.ntri]; exact Lr.symm))
  rw [T.nn, q8] at t6
  rw [T.pn, hna] at t7
  rw [T.np, hna] at s6
  rw [T.pp, q7] at s7
  rw [T.nn, h.l2] at o6
  rw [T.pn, h.l3] at o7
  have inj : ∀ {x y z : HE}, m.nei x = some y → m.nei x = some z → y = z := fun a b => by rw [a] at b; exact Option.some.inj b
  have tcN : tc.tri ≠ ne.tri := by
    intro e
    rcases T.all _ _ e with e | e | e
    · rw [e] at t2; exact tne (by rw [T.ntri, T.ptri]; exact Nl) (inj t2 q2)
    · rw [e, T.pn, hna, Option.some.injEq] at t6; exact naul t6.symm
    · rw [e, T.pp, q7, Option.some.injEq] at t6; exact ulll t6
  have tcL : tc.tri ≠ l.tri := by
    intro e
    rcases T.all _ _ e with e | e | e
    · exact t4 e
    · rw [e, T.nn, h.l2] at t7; cases t7
    · rw [e] at t2; exact T.nne _ (inj t2 hne)
  have scN : sc.tri ≠ ne.tri := by
    intro e
    rcases T.all _ _ e with e | e | e
    · rw [e] at s2; exact tne (by rw [T.ptri, T.ptri]; exact Nl) (inj s2 q2)
    · rw [e, T.nn, q8, Option.some.injEq] at s7; exact ulll s7.symm
    · rw [e, T.np, hna, Option.some.injEq] at s7; exact nall s7.symm
  have scL : sc.tri ≠ l.tri := by
    intro e
    rcases T.all _ _ e with e | e | e
    · exact s4 e
    · rw [e, T.pn, h.l3, Option.some.injEq] at s6; exact naul s6
    · rw [e] at s2; exact T.pne _ (inj s2 hne)
  have ocN : oc.tri ≠ ne.tri := by
    intro e
    rcases T.all _ _ e with e | e | e
    · rw [e, q8] at o6; cases o6
    · rw [e, T.pn, hna] at o6; cases o6
    · rw [e, T.pp, q7] at o6; cases o6
  have ocL : oc.tri ≠ l.tri := by
    intro e
    rcases T.all _ _ e with e | e | e
    · exact o4 e
    · rw [e, T.pn, h.l3] at o6; cases o6
    · rw [e] at o2; exact tne (by rw [T.ntri]; exact Nl.symm) (inj o2 hne)
  refine ⟨oc, q2, q3, q4, q6, q7, q8, Lb, Lr, Nl, Nb, Nr, nall, naul, t2, t3, t5, t6, t7, s2, s3, s5, s6, s7, o1, o2, o3, o5, o6, o7, tcN, tcL, scN, scL, ocN, ocL, ?_, ?_, ?_⟩
  · rintro rfl; exact T.npne _ (inj t2 s2)
  · rintro rfl; exact tne (by rw [T.ntri, T.ptri]; exact Nl) (inj s2 o2)
  · rintro rfl; exact tne (by rw [T.ntri, T.ntri]; exact Nl) (inj t2 o2)

theorem Hole.eat (T : Turn nx pv) (h : Hole nx pv m b l r ll lr ul ur) {ne sc tc oc : HE} {na : Nat} (hne : m.nei (pv l) = some ne) (hna : m.vert ne = some na)
    (htc : m.nei (nx ne) = some tc) (hsc : m.nei (pv ne) = some sc) (A : Apart nx pv m b l r ll ul na ne sc tc oc) (E : Eaten nx pv m m' l ne sc tc oc ll ul na) :
    Hole nx pv m' b (nx l) r ll lr na ur ∧ m'.nei (pv (nx l)) = some sc ∧ ∀ R : Nat → Prop, R l.tri → R ne.tri → ∀ v, IsCorner m' R v ↔ IsCorner m R v := by
  obtain ⟨q2, q3, q4, q6, q7, q8, Lb, Lr, Nl, Nb, Nr, nall, naul, t2, t3, t5, t6, t7, s2, s3, s5, s6, s7, hoc, o2, o3, o5, o6, o7, tcN, tcL, scN, scL, ocN, ocL, st, so, tco⟩ := A
  have tne : ∀ {x y : HE}, x.tri ≠ y.tri → x ≠ y := fun hxy e => hxy (by rw [e])
  have inj : ∀ {x y z : HE}, m.nei x = some y → m.nei x = some z → y = z := fun a b => by rw [a] at b; exact Option.some.inj b
  have vo : ∀ e : HE, e.tri ≠ l.tri → e.tri ≠ ne.tri → m'.vert (nx e) = m.vert (nx e) ∧ m'.vert (pv e) = m.vert (pv e) := fun e a1 a2 =>
    ⟨E.vrest _ (by rw [T.ntri]; exact a1) (by rw [T.ntri]; exact a2), E.vrest _ (by rw [T.ptri]; exact a1) (by rw [T.ptri]; exact a2)⟩
  have scT : sc.tri < m.n := h.range _ _ s2
  have tcT : tc.tri < m.n := h.range _ _ t2
  have ocT : oc.tri < m.n := h.range _ _ o2
  refine ⟨⟨E.n ▸ h.bt, by rw [E.n, T.ntri]; exact h.lt, E.n ▸ h.rt, by rw [(vo b Lb Nb).1]; exact h.b1, by rw [(vo b Lb Nb).2]; exact h.b2, by rw [T.nn]; exact E.vlp, by rw [T.pn]; exact E.vl, E.vln,
    by rw [(vo r Lr Nr).1]; exact h.r1, by rw [(vo r Lr Nr).2]; exact h.r2, by rw [E.vrest r Lr Nr]; exact h.r3, ?_, ?_, ?_⟩, by rw [T.pn]; exact E.nl, ?_⟩
  · intro e he hb hl hr
    rw [E.n] at he
    by_cases c1 : e = l
    · subst c1
      refine ⟨sc, E.nl, E.nsc, s3, tne (by rw [T.ntri]; exact scL), s5, ?_, ?_⟩
      · rw [E.vln, (vo sc scL scN).2]; exact s6
      · rw [E.vlp, (vo sc scL scN).1]; exact s7
    by_cases c2 : e = sc
    · subst c2
      refine ⟨l, E.nsc, E.nl, tne Lb.symm, (T.nne l).symm, tne Lr.symm, ?_, ?_⟩
      · rw [E.vlp, (vo e scL scN).1]; exact s7.symm
      · rw [E.vln, (vo e scL scN).2]; exact s6.symm
    by_cases c3 : e = pv ne
    · subst c3
      refine ⟨tc, E.n2, E.ntc, t3, tne (by rw [T.ntri]; exact tcL), t5, ?_, ?_⟩
      · rw [T.np, E.vn, (vo tc tcL tcN).2]; exact t6
      · rw [T.pp, E.vnn, (vo tc tcL tcN).1]; exact t7
    by_cases c4 : e = tc
    · subst c4
      refine ⟨pv ne, E.ntc, E.n2, tne (by rw [T.ptri]; exact Nb.symm), tne (by rw [T.ptri, T.ntri]; exact Nl), tne (by rw [T.ptri]; exact Nr.symm), ?_, ?_⟩
      · rw [T.pp, E.vnn, (vo e tcL tcN).1]; exact t7.symm
      · rw [T.np, E.vn, (vo e tcL tcN).2]; exact t6.symm
    by_cases c5 : e = nx ne
    · subst c5
      refine ⟨oc, E.n1, E.noc, o3, tne (by rw [T.ntri]; exact ocL), o5, ?_, ?_⟩
      · rw [T.nn, E.vnp, (vo oc ocL ocN).2]; exact o6
      · rw [T.pn, E.vn, (vo oc ocL ocN).1]; exact o7
    by_cases c6 : e = oc
    · subst c6
      refine ⟨nx ne, E.noc, E.n1, tne (by rw [T.ntri]; exact Nb.symm), tne (by rw [T.ntri, T.ntri]; exact Nl), tne (by rw [T.ntri]; exact Nr.symm), ?_, ?_⟩
      · rw [T.pn, E.vn, (vo e ocL ocN).1]; exact o7.symm
      · rw [T.nn, E.vnp, (vo e ocL ocN).2]; exact o6.symm
    by_cases c7 : e = ne
    · subst c7
      refine ⟨pv l, by rw [E.rest e c1 c2 c3 c4 c5 c6]; exact q2, ?_, tne (by rw [T.ptri]; exact Lb.symm), fun e => T.npne _ e.symm, tne (by rw [T.ptri]; exact Lr.symm), ?_, ?_⟩
      · rw [E.rest (pv l) (T.pne l) (fun x => scL (by rw [← x, T.ptri])) (tne (by rw [T.ptri, T.ptri]; exact Nl.symm)) (fun x => tcL (by rw [← x, T.ptri])) (tne (by rw [T.ptri, T.ntri]; exact Nl.symm))
          (fun x => ocL (by rw [← x, T.ptri]))]
        exact hne
      · rw [E.vnn, T.pp, E.vln]
      · rw [E.vnp, T.np, E.vl]
    by_cases c8 : e = pv l
    · subst c8
      refine ⟨ne, by rw [E.rest _ c1 c2 c3 c4 c5 c6]; exact hne, ?_, q4, tne (by rw [T.ntri]; exact Nl), q6, ?_, ?_⟩
      · rw [E.rest ne (tne Nl) (fun x => scN (by rw [← x])) (T.pne ne).symm (fun x => tcN (by rw [← x])) (T.nne ne).symm (fun x => ocN (by rw [← x]))]
        exact q2
      · rw [E.vnp, T.np, E.vl]
      · rw [E.vnn, T.pp, E.vln]
    obtain ⟨e', a1, a2, a3, a4, a5, a6, a7⟩ := h.link e he hb c1 hr
    have d2 : e' ≠ sc := by rintro rfl; exact c3 (inj a2 s2)
    have d3 : e' ≠ pv ne := by rintro rfl; exact c2 (inj a2 hsc)
    have d4 : e' ≠ tc := by rintro rfl; exact c5 (inj a2 t2)
    have d5 : e' ≠ nx ne := by rintro rfl; exact c4 (inj a2 htc)
    have d6 : e' ≠ oc := by rintro rfl; exact hl (inj a2 o2)
    have d7 : e' ≠ ne := by rintro rfl; exact c8 (inj a2 q2)
    have d8 : e' ≠ pv l := by rintro rfl; exact c7 (inj a2 hne)
    have d9 : e' ≠ nx l := by rintro rfl; exact c6 (inj a2 hoc)
    have eL : e.tri ≠ l.tri := fun x => by rcases T.all _ _ x with x | x | x <;> [exact c1 x; exact hl x; exact c8 x]
    have eN : e.tri ≠ ne.tri := fun x => by rcases T.all _ _ x with x | x | x <;> [exact c7 x; exact c5 x; exact c3 x]
    have eL' : e'.tri ≠ l.tri := fun x => by rcases T.all _ _ x with x | x | x <;> [exact a4 x; exact d9 x; exact d8 x]
    have eN' : e'.tri ≠ ne.tri := fun x => by rcases T.all _ _ x with x | x | x <;> [exact d7 x; exact d5 x; exact d3 x]
    refine ⟨e', by rw [E.rest e c1 c2 c3 c4 c5 c6]; exact a1, by rw [E.rest e' a4 d2 d3 d4 d5 d6]; exact a2, a3, d9, a5, ?_, ?_⟩
    · rw [(vo e eL eN).1, (vo e' eL' eN').2]; exact a6
    · rw [(vo e eL eN).2, (vo e' eL' eN').1]; exact a7
  · intro e e' hx
    rw [E.n]
    by_cases c1 : e = l
    · rw [c1]; exact h.lt
    by_cases c2 : e = sc
    · rw [c2]; exact scT
    by_cases c3 : e = pv ne
    · rw [c3, T.ptri]; exact q3
    by_cases c4 : e = tc
    · rw [c4]; exact tcT
    by_cases c5 : e = nx ne
    · rw [c5, T.ntri]; exact q3
    by_cases c6 : e = oc
    · rw [c6]; exact ocT
    rw [E.rest e c1 c2 c3 c4 c5 c6] at hx
    exact h.range _ _ hx
  · intro e he
    rw [E.n] at he
    by_cases c1 : e.tri = l.tri
    · rcases T.all _ _ c1 with x | x | x <;> subst x
      · rw [E.vl, E.vln]; exact fun x => by cases x
      · rw [E.vln, T.nn, E.vlp]; exact fun x => nall (Option.some.inj x)
      · rw [E.vlp, T.np, E.vl]; exact fun x => by cases x
    by_cases c2 : e.tri = ne.tri
    · rcases T.all _ _ c2 with x | x | x <;> subst x
      · rw [E.vn, E.vnn]; exact fun x => naul (Option.some.inj x).symm
      · rw [E.vnn, T.nn, E.vnp]; exact fun x => by cases x
      · rw [E.vnp, T.np, E.vn]; exact fun x => by cases x
    rw [E.vrest e c1 c2, (vo e c1 c2).1]
    exact h.diff e he
  · intro R Rl Rn
    have L : ∀ M : Mesh, M.n = m.n → IsCorner M R (M.vert l) ∧ IsCorner M R (M.vert (nx l)) ∧ IsCorner M R (M.vert (pv l)) ∧ IsCorner M R (M.vert ne) ∧ IsCorner M R (M.vert (nx ne)) ∧ IsCorner M R (M.vert (pv ne)) :=
      fun M hM => ⟨⟨l, hM ▸ h.lt, Rl, rfl⟩, ⟨nx l, by rw [T.ntri, hM]; exact h.lt, by rw [T.ntri]; exact Rl, rfl⟩, ⟨pv l, by rw [T.ptri, hM]; exact h.lt, by rw [T.ptri]; exact Rl, rfl⟩, ⟨ne, hM ▸ q3, Rn, rfl⟩,
        ⟨nx ne, by rw [T.ntri, hM]; exact q3, by rw [T.ntri]; exact Rn, rfl⟩, ⟨pv ne, by rw [T.ptri, hM]; exact q3, by rw [T.ptri]; exact Rn, rfl⟩⟩
    obtain ⟨x1, x2, x3, x4, x5, x6⟩ := L m rfl
    obtain ⟨y1, y2, y3, y4, y5, y6⟩ := L m' E.n
    rw [h.l3] at x1
    rw [h.l1] at x2
    rw [h.l2] at x3
    rw [hna] at x4
    rw [q7] at x5
    rw [q8] at x6
    rw [E.vl] at y1
    rw [E.vln] at y2
    rw [E.vlp] at y3
    rw [E.vn] at y4
    intro v
    constructor
    · rintro ⟨e, he, hR, rfl⟩
      rw [E.n] at he
      by_cases c1 : e.tri = l.tri
      · rcases T.all _ _ c1 with x | x | x <;> subst x
        · rw [E.vl]; exact x3
        · rw [E.vln]; exact x4
        · rw [E.vlp]; exact x2
      by_cases c2 : e.tri = ne.tri
      · rcases T.all _ _ c2 with x | x | x <;> subst x
        · rw [E.vn]; exact x1
        · rw [E.vnn]; exact x4
        · rw [E.vnp]; exact x3
      exact ⟨e, he, hR, (E.vrest e c1 c2).symm⟩
    · rintro ⟨e, he, hR, rfl⟩
      by_cases c1 : e.tri = l.tri
      · rcases T.all _ _ c1 with x | x | x <;> subst x
        · rw [h.l3]; exact y4
        · rw [h.l1]; exact y3
        · rw [h.l2]; exact y1
      by_cases c2 : e.tri = ne.tri
      · rcases T.all _ _ c2 with x | x | x <;> subst x
        · rw [hna]; exact y2
        · rw [q7]; exact y3
        · rw [q8]; exact y4
      exact ⟨e, E.n ▸ he, hR, E.vrest e c1 c2⟩

/-- What a new triangle at the right side does to the mesh. -/
structure Knitted (nx pv : HE → HE) (m m' : Mesh) (b r : HE) (ll : Nat) : Prop where
  n : m'.n = m.n
  nb : m'.nei b = some r
  nr : m'.nei r = some b
  rest : ∀ e, e ≠ b → e ≠ r → m'.nei e = m.nei e
  vr : m'.vert (nx r) = some ll
  vrest : ∀ e, e ≠ nx r → m'.vert e = m.vert e

theorem Hole.knit (T : Turn nx pv) (h : Hole nx pv m b l r ll lr ul ur) (hur : ur ≠ ll) (K : Knitted nx pv m m' b r ll) {r' : HE} (hr : m'.nei (pv r) = some r') {ur' : Nat}
    (hu : m'.vert r' = some ur') : Hole nx pv m' (pv r) l r' ll ur ul ur' ∧ ∀ R : Nat → Prop, R b.tri → R l.tri → ∀ v, IsCorner m' R v ↔ IsCorner m R v := by
  have tne : ∀ {x y : HE}, x.tri ≠ y.tri → x ≠ y := fun hxy e => hxy (by rw [e])
  have inj : ∀ {x y z : HE}, m.nei x = some y → m.nei x = some z → y = z := fun a b => by rw [a] at b; exact Option.some.inj b
  have Lr : r.tri ≠ l.tri := by
    intro e
    rcases T.all _ _ e with e | e | e
    · have := h.r1; rw [e, h.l1] at this; cases this
    · have := h.r3; rw [e, h.l1, Option.some.injEq] at this; exact hur this.symm
    · have := h.r1; rw [e, T.np, h.l3] at this; cases this
  have Br : b.tri ≠ r.tri := by
    intro e
    rcases T.all _ _ e with e | e | e
    · have := h.b1; rw [e, h.r1] at this; cases this
    · have := h.b2; rw [e, T.pn, h.r3, Option.some.injEq] at this; exact hur this
    · have := h.b2; rw [e, T.pp, h.r1] at this; cases this
  have bl : b ≠ l := by rintro rfl; have := h.b2; rw [h.l2] at this; cases this
  obtain ⟨r'', e1, e2, e3, e4, e5, e6, e7⟩ := h.link (pv r) (by rw [T.ptri]; exact h.rt) (tne (by rw [T.ptri]; exact Br.symm)) (tne (by rw [T.ptri]; exact Lr)) (T.pne r)
  rw [K.rest _ (tne (by rw [T.ptri]; exact Br.symm)) (T.pne r)] at hr
  have := inj hr e1
  subst this
  rw [T.np, h.r3] at e6
  rw [T.pp, h.r1] at e7
  have Rr : r'.tri ≠ r.tri := by
    intro e
    rcases T.all _ _ e with e | e | e
    · exact e5 e
    · rw [e, T.nn, h.r2] at e7; cases e7
    · rw [e, T.pp, h.r1] at e6; cases e6
  have lllr : ll ≠ lr := by
    have := h.diff (nx b) (by rw [T.ntri]; exact h.bt)
    rw [T.nn, h.b1, h.b2] at this
    exact fun e => this (by rw [e])
  have vo : ∀ e : HE, e.tri ≠ r.tri → m'.vert e = m.vert e ∧ m'.vert (nx e) = m.vert (nx e) ∧ m'.vert (pv e) = m.vert (pv e) := fun e a1 =>
    ⟨K.vrest _ (tne (by rw [T.ntri]; exact a1)), K.vrest _ (tne (by rw [T.ntri, T.ntri]; exact a1)), K.vrest _ (tne (by rw [T.ptri, T.ntri]; exact a1))⟩
  obtain ⟨b0, b1, b2⟩ := vo b Br
  obtain ⟨l0, l1, l2⟩ := vo l Lr.symm
  obtain ⟨r0, r1, r2⟩ := vo r' Rr
  have v0 : m'.vert r = m.vert r := K.vrest _ (T.nne r).symm
  have vp : m'.vert (pv r) = m.vert (pv r) := K.vrest _ (T.npne r).symm
  refine ⟨⟨by rw [K.n, T.ptri]; exact h.rt, K.n ▸ h.lt, by rw [K.n]; exact h.range _ _ e2, by rw [T.np, v0]; exact h.r3, by rw [T.pp]; exact K.vr, by rw [l1]; exact h.l1, by rw [l2]; exact h.l2,
    by rw [l0]; exact h.l3, by rw [r1]; exact e7.symm, by rw [r2]; exact e6.symm, hu, ?_, ?_, ?_⟩, ?_⟩
  · intro e he hb hl hr'
    rw [K.n] at he
    by_cases c1 : e = b
    · subst c1
      refine ⟨r, K.nb, K.nr, (T.pne r).symm, tne Lr, e5.symm, ?_, ?_⟩
      · rw [b1, vp, h.b1, h.r2]
      · rw [b2, K.vr, h.b2]
    by_cases c2 : e = r
    · subst c2
      refine ⟨b, K.nr, K.nb, tne (by rw [T.ptri]; exact Br), bl, e3.symm, ?_, ?_⟩
      · rw [b2, K.vr, h.b2]
      · rw [b1, vp, h.b1, h.r2]
    obtain ⟨e', a1, a2, a3, a4, a5, a6, a7⟩ := h.link e he c1 hl c2
    have d1 : e' ≠ pv r := by rintro rfl; exact hr' (inj a2 hr)
    have d2 : e' ≠ r' := by rintro rfl; exact hb (inj a2 e2)
    have vv : ∀ x, x ≠ r → x ≠ pv r → m'.vert (nx x) = m.vert (nx x) ∧ m'.vert (pv x) = m.vert (pv x) := fun x x1 x2 =>
      ⟨K.vrest _ fun q => x1 (by rw [← T.pn x, q, T.pn]), K.vrest _ fun q => x2 (by rw [← T.np x, q, T.nn])⟩
    refine ⟨e', by rw [K.rest e c1 c2]; exact a1, by rw [K.rest e' a3 a5]; exact a2, d1, a4, d2, ?_, ?_⟩
    · rw [(vv e c2 hb).1, (vv e' a5 d1).2]; exact a6
    · rw [(vv e c2 hb).2, (vv e' a5 d1).1]; exact a7
  · intro e e' hx
    rw [K.n]
    by_cases c1 : e = b
    · rw [c1]; exact h.bt
    by_cases c2 : e = r
    · rw [c2]; exact h.rt
    rw [K.rest e c1 c2] at hx
    exact h.range _ _ hx
  · intro e he
    rw [K.n] at he
    by_cases c1 : e.tri = r.tri
    · rcases T.all _ _ c1 with x | x | x <;> subst x
      · rw [v0, K.vr, h.r3]; exact fun x => hur (Option.some.inj x)
      · rw [K.vr, T.nn, vp, h.r2]; exact fun x => lllr (Option.some.inj x)
      · rw [vp, T.np, v0]
        have := h.diff (pv r) (by rw [T.ptri]; exact h.rt)
        rw [T.np] at this
        exact this
    rw [(vo e c1).1, (vo e c1).2.1]
    exact h.diff e he
  · intro R Rb Rl v
    constructor
    · rintro ⟨e, he, hR, rfl⟩
      rw [K.n] at he
      by_cases c1 : e = nx r
      · rw [c1, K.vr]; exact ⟨pv b, by rw [T.ptri]; exact h.bt, by rw [T.ptri]; exact Rb, h.b2⟩
      exact ⟨e, he, hR, (K.vrest e c1).symm⟩
    · rintro ⟨e, he, hR, rfl⟩
      by_cases c1 : e = nx r
      · rw [c1, h.r1]; exact ⟨pv l, by rw [T.ptri, K.n]; exact h.lt, by rw [T.ptri]; exact Rl, by rw [l2]; exact h.l2⟩
      exact ⟨e, K.n ▸ he, hR, K.vrest e c1⟩
end

/-- The predicates are not positive on repeated points. This is all that is asked of them: they may be wrong for other points. -/
structure Tame (P : Preds) : Prop where
  ccw1 : ∀ a b, P.ccw a b a ≤ 0
  ccw2 : ∀ a b, P.ccw a a b ≤ 0
  inc1 : ∀ a b c, P.inc a b c a ≤ 0
  inc2 : ∀ a b c, P.inc a b c b ≤ 0

theorem badEdge_some {P : Preds} {ll lr u na : Nat} {o : Option Nat} (h : badEdge P ll lr u o = some na) : o = some na ∧ P.inc ll lr u na > 0 := by
  unfold badEdge at h
  rw [Option.filter_eq_some_iff] at h
  exact ⟨h.1, of_decide_eq_true h.2⟩

theorem tame_ne {P : Preds} (hP : Tame P) {ll lr u na : Nat} (h : P.inc ll lr u na > 0) : na ≠ ll ∧ na ≠ lr := by
  constructor
  · rintro rfl; exact absurd (hP.inc1 na lr u) (by omega)
  · rintro rfl; exact absurd (hP.inc2 ll na u) (by omega)

/-- The six assignments of neighbours and the six of corners, in any order of the corners, have the effect `Eaten`. -/
theorem eaten_of {nx pv : HE → HE} {m m' : Mesh} {b l r ne sc tc oc : HE} {ll ul na : Nat} (T : Turn nx pv) (A : Apart nx pv m b l r ll ul na ne sc tc oc) (hn : m'.n = m.n)
    (h1 : m'.nei = upd (upd (upd (upd (upd (upd m.nei (pv ne) (some tc)) tc (some (pv ne))) l (some sc)) sc (some l)) (nx ne) (some oc)) oc (some (nx ne)))
    (h2 : m'.vert = upd (upd (upd (upd (upd (upd m.vert (pv l) (some ll)) l none) (nx l) (some na)) (pv ne) none) ne (some ul)) (nx ne) (some na) ∨
      m'.vert = upd (upd (upd (upd (upd (upd m.vert l none) (pv l) (some ll)) (nx l) (some na)) ne (some ul)) (pv ne) none) (nx ne) (some na)) : Eaten nx pv m m' l ne sc tc oc ll ul na := by
  have tne : ∀ {x y : HE}, x.tri ≠ y.tri → x ≠ y := fun hxy e => hxy (by rw [e])
  have a1 := T.nne l
  have a2 := T.pne l
  have a3 := T.npne l
  have a4 := T.nne ne
  have a5 := T.pne ne
  have a6 := T.npne ne
  have b1 := tne A.tcN
  have b2 := tne A.tcL
  have b3 := tne A.scN
  have b4 := tne A.scL
  have b5 := tne A.ocN
  have b6 := tne A.ocL
  have c1 : tc ≠ pv ne := tne (by rw [T.ptri]; exact A.tcN)
  have c2 : tc ≠ nx ne := tne (by rw [T.ntri]; exact A.tcN)
  have c3 : sc ≠ pv ne := tne (by rw [T.ptri]; exact A.scN)
  have c4 : sc ≠ nx ne := tne (by rw [T.ntri]; exact A.scN)
  have c5 : oc ≠ pv ne := tne (by rw [T.ptri]; exact A.ocN)
  have c6 : oc ≠ nx ne := tne (by rw [T.ntri]; exact A.ocN)
  have d0 : ne ≠ l := tne A.Nl
  have d1 : ne ≠ pv l := tne (by rw [T.ptri]; exact A.Nl)
  have d2 : ne ≠ nx l := tne (by rw [T.ntri]; exact A.Nl)
  have d3 : nx ne ≠ l := tne (by rw [T.ntri]; exact A.Nl)
  have d4 : nx ne ≠ pv l := tne (by rw [T.ntri, T.ptri]; exact A.Nl)
  have d5 : nx ne ≠ nx l := tne (by rw [T.ntri, T.ntri]; exact A.Nl)
  have d6 : pv ne ≠ l := tne (by rw [T.ptri]; exact A.Nl)
  have d7 : pv ne ≠ pv l := tne (by rw [T.ptri, T.ptri]; exact A.Nl)
  have d8 : pv ne ≠ nx l := tne (by rw [T.ptri, T.ntri]; exact A.Nl)
  have f1 := A.st
  have f2 := A.sco
  have f3 := A.tco
  refine ⟨hn, ?_, ?_, ?_, ?_, ?_, ?_, ?_, ?_, ?_, ?_, ?_, ?_, ?_, ?_⟩
  iterate 6 (rw [h1]; simp [upd, a1, a2, a3, a4, a5, a6, b1, b2, b3, b4, b5, b6, c1, c2, c3, c4, c5, c6, d3, d6, f1, f2, f3, a6.symm, b2.symm, b4.symm, b6.symm, c1.symm, c2.symm, c3.symm, c4.symm, c5.symm, c6.symm, d3.symm, d6.symm, f1.symm, f2.symm, f3.symm])
  · intro e x1 x2 x3 x4 x5 x6
    rw [h1]
    simp [upd, x1, x2, x3, x4, x5, x6]
  iterate 6 (rcases h2 with h2 | h2 <;> (rw [h2]; simp [upd, a1, a2, a3, a4, a5, a6, a1.symm, a2.symm, a3.symm, a4.symm, a5.symm, a6.symm, d0, d1, d2, d3, d4, d5, d6, d7, d8, d0.symm, d1.symm, d2.symm, d3.symm, d4.symm, d5.symm, d6.symm, d7.symm, d8.symm]))
  · intro e x1 x2
    have y1 : e ≠ l := tne x1
    have y2 : e ≠ nx l := tne (by rw [T.ntri]; exact x1)
    have y3 : e ≠ pv l := tne (by rw [T.ptri]; exact x1)
    have y4 : e ≠ ne := tne x2
    have y5 : e ≠ nx ne := tne (by rw [T.ntri]; exact x2)
    have y6 : e ≠ pv ne := tne (by rw [T.ptri]; exact x2)
    rcases h2 with h2 | h2 <;> (rw [h2]; simp [upd, y1, y2, y3, y4, y5, y6])

theorem eatLeft_hole {P : Preds} (hP : Tame P) {R : Nat → Prop} {b r : HE} {ll lr ur : Nat} : ∀ (k : Nat) {m m' : Mesh} {l l' ne : HE} {ul ul' : Nat}, Hole HE.next HE.prev m b l r ll lr ul ur → ul ≠ lr →
    m.nei l.prev = some ne → Apartment m R → R l.tri → eatLeft P ll lr k m l ne ul = some (m', l', ul') →
    Hole HE.next HE.prev m' b l' r ll lr ul' ur ∧ ul' ≠ lr ∧ m'.n = m.n ∧ (∀ v, IsCorner m' R v ↔ IsCorner m R v) ∧ Within R m m' ∧ R l'.tri
  | 0, _, _, _, _, _, _, _, _, _, _, _, _, h => by simp [eatLeft] at h
  | k + 1, m, m', l, l', ne, ul, ul', H, hul, hne, hA, Rx, h => by
    unfold eatLeft at h
    split at h
    · simp only [Option.some.injEq, Prod.mk.injEq] at h
      obtain ⟨rfl, rfl, rfl⟩ := h
      exact ⟨H, hul, rfl, fun _ => Iff.rfl, Within.refl hA, Rx⟩
    · rename_i na hb
      obtain ⟨hna, hi⟩ := badEdge_some hb
      simp only [apex] at hna
      have hn := tame_ne hP hi
      simp only [next_next, prev_prev, Option.bind_eq_bind, Option.bind_eq_some_iff] at h
      obtain ⟨tc, htc, sc, hsc, oc, hoc, h⟩ := h
      obtain ⟨oc', A⟩ := H.apart turn_next hul hne hna hn.2 htc hsc
      have e1 : l.next ≠ ne.prev := fun e => A.Nl (by rw [← tri_next l, e, tri_prev])
      have e2 : l.next ≠ tc := fun e => A.tcL (by rw [← e, tri_next])
      have e3 : l.next ≠ sc := fun e => A.scL (by rw [← e, tri_next])
      have ho : oc = oc' := by
        rw [show (bond (bond m ne.prev tc) l sc).nei l.next = m.nei l.next by
          simp only [bond]; rw [upd_of_ne e3, upd_of_ne (next_ne l), upd_of_ne e2, upd_of_ne e1], A.hoc] at hoc
        exact (Option.some.inj hoc).symm
      subst ho
      obtain ⟨H', hne', hc⟩ := H.eat turn_next hne hna htc hsc A (eaten_of turn_next A (m' := setApex (setDest (setOrg (setApex (setDest (setOrg (bond (bond (bond m ne.prev tc) l sc) ne.next oc) l.next (some ll)) l.next
        none) l.next (some na)) ne.next none) ne.next (some ul)) ne.next (some na)) rfl rfl (Or.inl (by simp only [setApex, setDest, setOrg, bond, next_next, next_prev])))
      have Rn : R ne.tri := (hA _ _ hne).1 Rx
      have Rt : R tc.tri := (hA _ _ htc).1 Rn
      have Rs : R sc.tri := (hA _ _ hsc).1 Rn
      have Ro : R oc.tri := (hA _ _ A.hoc).1 Rx
      have F : Within R m (setApex (setDest (setOrg (setApex (setDest (setOrg (bond (bond (bond m ne.prev tc) l sc) ne.next oc) l.next (some ll)) l.next
        none) l.next (some na)) ne.next none) ne.next (some ul)) ne.next (some na)) :=
        Within.apex (Within.dest (Within.org (Within.apex (Within.dest (Within.org (Within.bond (Within.bond (Within.bond (Within.refl hA) (a := ne.prev) Rn Rt) (a := l) Rx Rs) (a := ne.next) Rn Ro)
          (a := l.next) Rx) (a := l.next) Rx) (a := l.next) Rx) (a := ne.next) Rn) (a := ne.next) Rn) (a := ne.next) Rn
      obtain ⟨H2, h2, h3, h4, h5, h6⟩ := eatLeft_hole hP k H' hn.2 (by rw [next_prev] at hne' ⊢; exact hne') F.apart Rx h
      exact ⟨H2, h2, h3, fun v => (h4 v).trans (hc R Rx Rn v), F.trans h5, h6⟩

theorem eatRight_hole {P : Preds} (hP : Tame P) {R : Nat → Prop} {b l : HE} {ll lr ul : Nat} : ∀ (k : Nat) {m m' : Mesh} {r r' ne : HE} {ur ur' : Nat}, Hole HE.next HE.prev m b l r ll lr ul ur → ur ≠ ll →
    m.nei r.next = some ne → Apartment m R → R r.tri → eatRight P ll lr k m r ne ur = some (m', r', ur') →
    Hole HE.next HE.prev m' b l r' ll lr ul ur' ∧ ur' ≠ ll ∧ m'.n = m.n ∧ (∀ v, IsCorner m' R v ↔ IsCorner m R v) ∧ Within R m m' ∧ R r'.tri
  | 0, _, _, _, _, _, _, _, _, _, _, _, _, h => by simp [eatRight] at h
  | k + 1, m, m', r, r', ne, ur, ur', H, hur, hne, hA, Rx, h => by
    unfold eatRight at h
    split at h
    · simp only [Option.some.injEq, Prod.mk.injEq] at h
      obtain ⟨rfl, rfl, rfl⟩ := h
      exact ⟨H, hur, rfl, fun _ => Iff.rfl, Within.refl hA, Rx⟩
    · rename_i na hb
      obtain ⟨hna, hi⟩ := badEdge_some hb
      simp only [apex] at hna
      have hn := tame_ne hP hi
      simp only [next_next, prev_prev, Option.bind_eq_bind, Option.bind_eq_some_iff] at h
      obtain ⟨tc, htc, sc, hsc, oc, hoc, h⟩ := h
      have T := turn_next.mirror
      have G := H.mirror turn_next
      obtain ⟨oc', A⟩ := G.apart T hur hne hna hn.1 htc hsc
      have e1 : r.prev ≠ ne.next := fun e => A.Nl (by rw [← tri_prev r, e, tri_next])
      have e2 : r.prev ≠ tc := fun e => A.tcL (by rw [← e, tri_prev])
      have e3 : r.prev ≠ sc := fun e => A.scL (by rw [← e, tri_prev])
      have ho : oc = oc' := by
        rw [show (bond (bond m ne.next tc) r sc).nei r.prev = m.nei r.prev by
          simp only [bond]; rw [upd_of_ne e3, upd_of_ne (prev_ne r), upd_of_ne e2, upd_of_ne e1], A.hoc] at hoc
        exact (Option.some.inj hoc).symm
      subst ho
      obtain ⟨H', hne', hc⟩ := G.eat T hne hna htc hsc A (eaten_of T A (m' := setApex (setDest (setOrg (setApex (setDest (setOrg (bond (bond (bond m ne.next tc) r sc) ne.prev oc) r.prev none) r.prev
        (some lr)) r.prev (some na)) ne.prev (some ur)) ne.prev none) ne.prev (some na)) rfl rfl (Or.inr (by simp only [setApex, setDest, setOrg, bond, prev_prev, prev_next])))
      have Rn : R ne.tri := (hA _ _ hne).1 Rx
      have Rt : R tc.tri := (hA _ _ htc).1 Rn
      have Rs : R sc.tri := (hA _ _ hsc).1 Rn
      have Ro : R oc.tri := (hA _ _ A.hoc).1 Rx
      have F : Within R m (setApex (setDest (setOrg (setApex (setDest (setOrg (bond (bond (bond m ne.next tc) r sc) ne.prev oc) r.prev none) r.prev
        (some lr)) r.prev (some na)) ne.prev (some ur)) ne.prev none) ne.prev (some na)) :=
        Within.apex (Within.dest (Within.org (Within.apex (Within.dest (Within.org (Within.bond (Within.bond (Within.bond (Within.refl hA) (a := ne.next) Rn Rt) (a := r) Rx Rs) (a := ne.prev) Rn Ro)
          (a := r.prev) Rx) (a := r.prev) Rx) (a := r.prev) Rx) (a := ne.prev) Rn) (a := ne.prev) Rn) (a := ne.prev) Rn
      obtain ⟨H2, h2, h3, h4, h5, h6⟩ := eatRight_hole hP k (H'.mirror T) hn.1 (by rw [prev_next] at hne' ⊢; exact hne') F.apart Rx h
      exact ⟨H2, h2, h3, fun v => (h4 v).trans (hc R Rx Rn v), F.trans h5, h6⟩

theorem knitStep_hole {P : Preds} (hP : Tame P) {R : Nat → Prop} {s s' : Knit} {lfin rfin : Bool} (H : Hole HE.next HE.prev s.m s.base s.lc s.rc s.ll s.lr s.ul s.ur) (hl : lfin = false → s.ul ≠ s.lr)
    (hr : rfin = false → s.ur ≠ s.ll) (hf : ¬ (lfin = true ∧ rfin = true)) (hA : Apartment s.m R)
    (hR : R s.base.tri ∧ R s.lc.tri ∧ R s.rc.tri) (h : knitStep P s lfin rfin = some s') :
    Hole HE.next HE.prev s'.m s'.base s'.lc s'.rc s'.ll s'.lr s'.ul s'.ur ∧ s'.m.n = s.m.n ∧ (∀ v, IsCorner s'.m R v ↔ IsCorner s.m R v) ∧ Within R s.m s'.m ∧
      R s'.base.tri ∧ R s'.lc.tri ∧ R s'.rc.tri := by
  obtain ⟨m, b, l, r, ll, lr, ul, ur⟩ := s
  simp only at H hl hr h hA hR ⊢
  obtain ⟨Rb, Rl, Rr⟩ := hR
  unfold knitStep at h
  split at h
  · rename_i c
    have rf : rfin = false := by
      cases lfin
      · simp only [Bool.false_or, Bool.and_eq_true, Bool.not_eq_true'] at c; exact c.1
      · cases rfin
        · rfl
        · exact absurd ⟨rfl, rfl⟩ hf
    simp only [Option.bind_eq_bind, Option.bind_eq_some_iff, Option.pure_def, Option.some.injEq] at h
    obtain ⟨rc, h1, ur', h2, rfl⟩ := h
    have K : Knitted HE.next HE.prev m (setDest (bond m b r) r.prev (some ll)) b r ll := by
      have hbr : b ≠ r := by rintro rfl; have := H.b1; rw [H.r1] at this; cases this
      refine ⟨rfl, ?_, ?_, ?_, ?_, ?_⟩
      · simp only [setDest, bond]; rw [upd_of_ne hbr, upd_self]
      · simp only [setDest, bond]; rw [upd_self]
      · intro e a1 a2; simp only [setDest, bond]; rw [upd_of_ne a2, upd_of_ne a1]
      · simp only [setDest, bond, prev_prev]; rw [upd_self]
      · intro e a; simp only [setDest, bond, prev_prev]; rw [upd_of_ne a]
    obtain ⟨H', hc⟩ := H.knit turn_next (hr rf) K h1 h2
    have F : Within R m (setDest (bond m b r) r.prev (some ll)) := ((Within.refl hA).bond Rb Rr).dest Rr
    exact ⟨H', rfl, hc R Rb Rl, F, Rr, Rl, (F.apart _ _ h1).1 Rr⟩
  · rename_i c
    have lf : lfin = false := by
      cases lfin
      · rfl
      · exact absurd rfl c
    simp only [Option.bind_eq_bind, Option.bind_eq_some_iff, Option.pure_def, Option.some.injEq] at h
    obtain ⟨lc, h1, ul', h2, rfl⟩ := h
    have K : Knitted HE.prev HE.next m (setOrg (bond m b l) l.next (some lr)) b l lr := by
      have hbl : b ≠ l := by rintro rfl; have := H.b2; rw [H.l2] at this; cases this
      refine ⟨rfl, ?_, ?_, ?_, ?_, ?_⟩
      · simp only [setOrg, bond]; rw [upd_of_ne hbl, upd_self]
      · simp only [setOrg, bond]; rw [upd_self]
      · intro e a1 a2; simp only [setOrg, bond]; rw [upd_of_ne a2, upd_of_ne a1]
      · simp only [setOrg, bond, next_next]; rw [upd_self]
      · intro e a; simp only [setOrg, bond, next_next]; rw [upd_of_ne a]
    obtain ⟨H', hc⟩ := (H.mirror turn_next).knit turn_next.mirror (hl lf) K h1 h2
    have F : Within R m (setOrg (bond m b l) l.next (some lr)) := ((Within.refl hA).bond Rb Rl).org Rl
    exact ⟨H'.mirror turn_next.mirror, rfl, hc R Rb Rr, F, Rl, (F.apart _ _ h1).1 Rl, Rr⟩

theorem knitTop_ok {R : Nat → Prop} {b l r : HE} {m : Mesh} {ll lr ul ur : Nat} (H : Hole HE.next HE.prev m b l r ll lr ul ur) (hA : Apartment m R) (hR : R b.tri ∧ R l.tri ∧ R r.tri)
    (hn : R m.n) :
    Ok (knitTop ⟨m, b, l, r, ll, lr, ul, ur⟩) ∧ (knitTop ⟨m, b, l, r, ll, lr, ul, ur⟩).n = m.n + 1 ∧ (∀ v, IsCorner (knitTop ⟨m, b, l, r, ll, lr, ul, ur⟩) R v ↔ IsCorner m R v) ∧
      Within R m (knitTop ⟨m, b, l, r, ll, lr, ul, ur⟩) := by
  obtain ⟨Rb, Rl, Rr⟩ := hR
  have F : Within R m (knitTop ⟨m, b, l, r, ll, lr, ul, ur⟩) := ((((((Within.refl hA).make hn).org hn).dest hn).bond hn Rb).bond hn Rr).bond hn Rl
  have bl : b ≠ l := by rintro rfl; have := H.b2; rw [H.l2] at this; cases this
  have br : b ≠ r := by rintro rfl; have := H.b1; rw [H.r1] at this; cases this
  have lr' : l ≠ r := by rintro rfl; have := H.l1; rw [H.r1] at this; cases this
  have lllr : ll ≠ lr := by
    have := H.diff b.next H.bt
    rw [next_next, H.b1, H.b2] at this
    exact fun e => this (by rw [e])
  have bt := H.bt
  have lt := H.lt
  have rt := H.rt
  generalize hM : knitTop ⟨m, b, l, r, ll, lr, ul, ur⟩ = M at F ⊢
  generalize hN : (⟨m.n, 0⟩ : HE) = N
  have Nt : N.tri = m.n := by rw [← hN]
  have tne : ∀ {x y : HE}, x.tri ≠ y.tri → x ≠ y := fun hxy e => hxy (by rw [e])
  have old : ∀ x : HE, x.tri < m.n → x ≠ N ∧ x ≠ N.next ∧ x ≠ N.prev := fun x hx => ⟨tne (by omega), tne (by rw [tri_next]; omega), tne (by rw [tri_prev]; omega)⟩
  obtain ⟨b1, b2, b3⟩ := old b bt
  obtain ⟨l1, l2, l3⟩ := old l lt
  obtain ⟨r1, r2, r3⟩ := old r rt
  have n1 := next_ne N
  have n2 := prev_ne N
  have n3 := next_ne_prev N
  have Mn : M.n = m.n + 1 := by rw [← hM]; rfl
  have Mv : M.vert = upd (upd (fun x => if x.tri = m.n then none else m.vert x) N.next (some ll)) N.prev (some lr) := by rw [← hM, ← hN]; rfl
  have Mb : M.nei = upd (upd (upd (upd (upd (upd (fun x => if x.tri = m.n then none else m.nei x) N (some b)) b (some N)) N.next (some r)) r (some N.next)) N.prev (some l)) l (some N.prev) := by
    rw [← hM, ← hN]
    simp only [knitTop, makeTri, bond, setDest, setOrg, next_next]
  have v0 : M.vert N = none := by rw [Mv, upd_of_ne n2.symm, upd_of_ne n1.symm, if_pos Nt]
  have v1 : M.vert N.next = some ll := by rw [Mv, upd_of_ne n3, upd_self]
  have v2 : M.vert N.prev = some lr := by rw [Mv, upd_self]
  have vo : ∀ x : HE, x.tri < m.n → M.vert x = m.vert x := fun x hx => by
    obtain ⟨-, o2, o3⟩ := old x hx
    rw [Mv, upd_of_ne o3, upd_of_ne o2, if_neg (by omega)]
  have e1 : M.nei N = some b := by rw [Mb, upd_of_ne l1.symm, upd_of_ne n2.symm, upd_of_ne r1.symm, upd_of_ne n1.symm, upd_of_ne b1.symm, upd_self]
  have e2 : M.nei b = some N := by rw [Mb, upd_of_ne bl, upd_of_ne b3, upd_of_ne br, upd_of_ne b2, upd_self]
  have e3 : M.nei N.next = some r := by rw [Mb, upd_of_ne l2.symm, upd_of_ne n3, upd_of_ne r2.symm, upd_self]
  have e4 : M.nei r = some N.next := by rw [Mb, upd_of_ne lr'.symm, upd_of_ne r3, upd_self]
  have e5 : M.nei N.prev = some l := by rw [Mb, upd_of_ne l3.symm, upd_self]
  have e6 : M.nei l = some N.prev := by rw [Mb, upd_self]
  have eo : ∀ x, x ≠ b → x ≠ l → x ≠ r → x.tri ≠ m.n → M.nei x = m.nei x := fun x x1 x2 x3 x4 => by
    have y : x ≠ N ∧ x ≠ N.next ∧ x ≠ N.prev := ⟨tne (by rw [Nt]; exact x4), tne (by rw [tri_next, Nt]; exact x4), tne (by rw [tri_prev, Nt]; exact x4)⟩
    rw [Mb, upd_of_ne x2, upd_of_ne y.2.2, upd_of_ne x3, upd_of_ne y.2.1, upd_of_ne x1, upd_of_ne y.1, if_neg x4]
  have von : ∀ x : HE, x.tri < m.n → M.vert x.next = m.vert x.next := fun x hx => vo x.next hx
  have vop : ∀ x : HE, x.tri < m.n → M.vert x.prev = m.vert x.prev := fun x hx => vo x.prev hx
  have key : ∀ e : HE, e.tri < m.n + 1 → ∃ e', M.nei e = some e' ∧ M.nei e' = some e ∧ M.vert e.next = M.vert e'.prev ∧ M.vert e.prev = M.vert e'.next := by
    intro e he
    by_cases c : e.tri = m.n
    · rcases same_tri (c.trans Nt.symm) with x | x | x <;> subst x
      · exact ⟨b, e1, e2, by rw [v1, vop _ bt, H.b2], by rw [v2, von _ bt, H.b1]⟩
      · exact ⟨r, e3, e4, by rw [next_next, v2, vop _ rt, H.r2], by rw [next_prev, v0, von _ rt, H.r1]⟩
      · exact ⟨l, e5, e6, by rw [prev_next, v0, vop _ lt, H.l2], by rw [prev_prev, v1, von _ lt, H.l1]⟩
    have he : e.tri < m.n := by omega
    by_cases c1 : e = b
    · subst c1; exact ⟨N, e2, e1, by rw [v2, von _ bt, H.b1], by rw [v1, vop _ bt, H.b2]⟩
    by_cases c2 : e = l
    · subst c2; exact ⟨N.prev, e6, e5, by rw [prev_prev, v1, von _ lt, H.l1], by rw [prev_next, v0, vop _ lt, H.l2]⟩
    by_cases c3 : e = r
    · subst c3; exact ⟨N.next, e4, e3, by rw [next_prev, v0, von _ rt, H.r1], by rw [next_next, v2, vop _ rt, H.r2]⟩
    obtain ⟨e', a1, a2, a3, a4, a5, a6, a7⟩ := H.link e he c1 c2 c3
    have he' := H.range _ _ a2
    exact ⟨e', by rw [eo e c1 c2 c3 c]; exact a1, by rw [eo e' a3 a4 a5 (by omega)]; exact a2, by rw [von _ he, vop _ he']; exact a6, by rw [vop _ he, von _ he']; exact a7⟩
  have rg : ∀ e e', M.nei e = some e' → e.tri < m.n + 1 := by
    intro e e' hx
    by_contra c
    rw [eo e (tne (by omega)) (tne (by omega)) (tne (by omega)) (by omega)] at hx
    exact absurd (H.range _ _ hx) (by omega)
  refine ⟨⟨fun e he => ?_, fun e e' hx => Mn ▸ rg e e' hx, fun e e' hx => ?_, fun e e' hx => ?_, fun e he => ?_⟩, Mn, fun v => ⟨?_, ?_⟩, F⟩
  · obtain ⟨e', a, -⟩ := key e (Mn ▸ he)
    exact ⟨e', a⟩
  · obtain ⟨e'', a1, a2, -⟩ := key e (rg _ _ hx)
    rw [hx, Option.some.injEq] at a1
    subst a1
    exact a2
  · obtain ⟨e'', a1, a2, a3, a4⟩ := key e (rg _ _ hx)
    rw [hx, Option.some.injEq] at a1
    subst a1
    exact ⟨a3, a4⟩
  · rw [Mn] at he
    by_cases c : e.tri = m.n
    · rcases same_tri (c.trans Nt.symm) with x | x | x <;> subst x
      · rw [v0, v1]; exact fun x => by cases x
      · rw [v1, next_next, v2]; exact fun x => lllr (Option.some.inj x)
      · rw [v2, prev_next, v0]; exact fun x => by cases x
    have he : e.tri < m.n := by omega
    rw [vo _ he, vo e.next he]
    exact H.diff e he
  · rintro ⟨e, he, hR, rfl⟩
    rw [Mn] at he
    by_cases c : e.tri = m.n
    · rcases same_tri (c.trans Nt.symm) with x | x | x <;> subst x
      · rw [v0]; exact ⟨l.prev, lt, Rl, H.l2⟩
      · rw [v1]; exact ⟨l.next, lt, Rl, H.l1⟩
      · rw [v2]; exact ⟨b.next, bt, Rb, H.b1⟩
    exact ⟨e, by omega, hR, (vo e (by omega)).symm⟩
  · rintro ⟨e, he, hR, rfl⟩
    exact ⟨e, by omega, hR, vo e he⟩

theorem knit_ok {P : Preds} (hP : Tame P) {R : Nat → Prop} (N : Nat) : ∀ (k : Nat) {s : Knit} {m' : Mesh}, Hole HE.next HE.prev s.m s.base s.lc s.rc s.ll s.lr s.ul s.ur → Apartment s.m R → R s.base.tri ∧ R s.lc.tri ∧ R s.rc.tri → R s.m.n →
    knit P N k s = some m' →
    Ok m' ∧ m'.n = s.m.n + 1 ∧ (∀ v, IsCorner m' R v ↔ IsCorner s.m R v) ∧ Within R s.m m'
  | 0, _, _, _, _, _, _, h => by simp [knit] at h
  | k + 1, s, m', H, hA, hR, hn, h => by
    unfold knit at h
    extract_lets lf0 rf0 at h
    split at h
    · rw [← Option.some.inj h]
      exact knitTop_ok H hA hR hn
    · rename_i hf
      simp only [Option.bind_eq_bind, Option.bind_eq_some_iff] at h
      obtain ⟨s1, h1, s2, h2, s3, h3, h⟩ := h
      have hlf : decide (P.ccw s.ul s.ll s.lr ≤ 0) = lf0 := rfl
      have hrf : decide (P.ccw s.ur s.ll s.lr ≤ 0) = rf0 := rfl
      generalize lf0 = lf at *
      generalize rf0 = rf at *
      have nl : lf = false → s.ul ≠ s.lr := fun e x => by
        rw [e, x] at hlf
        exact absurd (hP.ccw1 s.lr s.ll) (of_decide_eq_false hlf)
      have nr : rf = false → s.ur ≠ s.ll := fun e x => by
        rw [e, x] at hrf
        exact absurd (hP.ccw2 s.ll s.lr) (of_decide_eq_false hrf)
      have E1 : Hole HE.next HE.prev s1.m s1.base s1.lc s1.rc s1.ll s1.lr s1.ul s1.ur ∧ (lf = false → s1.ul ≠ s1.lr) ∧ s1.m.n = s.m.n ∧ (∀ v, IsCorner s1.m R v ↔ IsCorner s.m R v) ∧ Within R s.m s1.m ∧ (R s1.base.tri ∧ R s1.lc.tri ∧ R s1.rc.tri) ∧ s1.ll = s.ll ∧ s1.lr = s.lr ∧
          s1.ur = s.ur := by
        unfold knitEatLeft at h1
        split at h1
        · rw [← Option.some.inj h1]; exact ⟨H, nl, rfl, fun _ => Iff.rfl, Within.refl hA, hR, rfl, rfl, rfl⟩
        · rename_i hl
          have hl : lf = false := by simpa using hl
          simp only [Option.bind_eq_bind, Option.bind_eq_some_iff, Option.pure_def, Option.some.injEq] at h1
          obtain ⟨ne, a1, ⟨m2, l2, u2⟩, a2, rfl⟩ := h1
          obtain ⟨x1, x2, x3, x4, x5, x6⟩ := eatLeft_hole hP N H (nl hl) a1 hA hR.2.1 a2
          exact ⟨x1, fun _ => x2, x3, x4, x5, ⟨hR.1, x6, hR.2.2⟩, rfl, rfl, rfl⟩
      obtain ⟨H1, nl1, n1, c1, F1, R1, q1, q2, q3⟩ := E1
      have nr1 : rf = false → s1.ur ≠ s1.ll := by rw [q1, q3]; exact nr
      have E2 : Hole HE.next HE.prev s2.m s2.base s2.lc s2.rc s2.ll s2.lr s2.ul s2.ur ∧ (lf = false → s2.ul ≠ s2.lr) ∧ (rf = false → s2.ur ≠ s2.ll) ∧ s2.m.n = s1.m.n ∧
          (∀ v, IsCorner s2.m R v ↔ IsCorner s1.m R v) ∧ Within R s1.m s2.m ∧ R s2.base.tri ∧ R s2.lc.tri ∧ R s2.rc.tri := by
        unfold knitEatRight at h2
        split at h2
        · rw [← Option.some.inj h2]; exact ⟨H1, nl1, nr1, rfl, fun _ => Iff.rfl, Within.refl F1.apart, R1⟩
        · rename_i hr
          have hr : rf = false := by simpa using hr
          simp only [Option.bind_eq_bind, Option.bind_eq_some_iff, Option.pure_def, Option.some.injEq] at h2
          obtain ⟨ne, a1, ⟨m2, l2, u2⟩, a2, rfl⟩ := h2
          obtain ⟨x1, x2, x3, x4, x5, x6⟩ := eatRight_hole hP N H1 (nr1 hr) a1 F1.apart R1.2.2 a2
          exact ⟨x1, nl1, fun _ => x2, x3, x4, x5, R1.1, R1.2.1, x6⟩
      obtain ⟨H2, nl2, nr2, n2, c2, F2, R2⟩ := E2
      obtain ⟨H3, n3, c3, F3, R3⟩ := knitStep_hole hP H2 nl2 nr2 (by simpa using hf) F2.apart R2 h3
      obtain ⟨o, n4, c4, F4⟩ := knit_ok hP N k H3 F3.apart R3 (by rw [n3, n2, n1]; exact hn) h
      exact ⟨o, by rw [n4, n3, n2, n1], fun v => (c4 v).trans ((c3 v).trans ((c2 v).trans (c1 v))), F1.trans (F2.trans (F3.trans F4))⟩

/-- A half edge that comes from the ghost vertex along the hull: `org` is the ghost vertex, `d` the destination and `a` the apex. -/
def Inner (m : Mesh) (e : HE) (d a : Nat) : Prop := e.tri < m.n ∧ m.vert e.next = none ∧ m.vert e.prev = some d ∧ m.vert e = some a

/-- A half edge that goes to the ghost vertex: `o` is the origin and `a` the apex. -/
def Outer (m : Mesh) (e : HE) (o a : Nat) : Prop := e.tri < m.n ∧ m.vert e.next = some o ∧ m.vert e.prev = none ∧ m.vert e = some a

theorem Ok.tri {m : Mesh} (ok : Ok m) {e e' : HE} (h : m.nei e = some e') : e'.tri < m.n := ok.range _ _ (ok.symm _ _ h)

theorem Inner.down {m : Mesh} (ok : Ok m) {e e' : HE} {d a a' : Nat} (h : Inner m e d a) (hn : m.nei e.prev = some e') (ha : m.vert e' = some a') : Inner m e' a a' := by
  obtain ⟨-, h2, h3, h4⟩ := h
  obtain ⟨s1, s2⟩ := ok.swap _ _ hn
  simp only [org, dest, prev_next, prev_prev] at s1 s2
  exact ⟨ok.tri hn, s2 ▸ h2, s1 ▸ h4, ha⟩

theorem Outer.down {m : Mesh} (ok : Ok m) {e e' : HE} {d a a' : Nat} (h : Outer m e d a) (hn : m.nei e.next = some e') (ha : m.vert e' = some a') : Outer m e' a a' := by
  obtain ⟨-, h2, h3, h4⟩ := h
  obtain ⟨s1, s2⟩ := ok.swap _ _ hn
  simp only [org, dest, next_next, next_prev] at s1 s2
  exact ⟨ok.tri hn, s2 ▸ h4, s1 ▸ h3, ha⟩

theorem Inner.up {m : Mesh} (ok : Ok m) {e c : HE} {d a a' : Nat} (h : Inner m e d a) (hn : m.nei e = some c) (ha : m.vert c = some a') : Inner m c.next a' d := by
  obtain ⟨-, h2, h3, h4⟩ := h
  obtain ⟨s1, s2⟩ := ok.swap _ _ hn
  simp only [org, dest] at s1 s2
  have ct := ok.tri hn
  exact ⟨ct, by rw [next_next, ← s1, h2], by rw [next_prev, ha], by rw [← s2, h3]⟩

theorem walkHigh_inner {lt : Nat → Nat → Bool} {m : Mesh} (ok : Ok m) {S : Nat → Prop} (hS : Apartment m S) : ∀ (k : Nat) {e e' : HE} {d a d' a' : Nat}, Inner m e d a → S e.tri →
    walkHigh lt m k e d a = some (e', d', a') → Inner m e' d' a' ∧ S e'.tri
  | 0, _, _, _, _, _, _, _, _, h => by simp [walkHigh] at h
  | k + 1, e, e', d, a, d', a', H, s, h => by
    simp only [walkHigh, Option.bind_eq_bind, Option.bind_eq_some_iff] at h
    obtain ⟨c, h1, cv, h2, h⟩ := h
    split at h
    · exact walkHigh_inner ok hS k (H.up ok h1 h2) ((hS _ _ h1).1 s) h
    · simp only [Option.some.injEq, Prod.mk.injEq] at h
      obtain ⟨rfl, rfl, rfl⟩ := h
      exact ⟨H, s⟩

theorem walkLow_outer {lt : Nat → Nat → Bool} {m : Mesh} (ok : Ok m) {S : Nat → Prop} (hS : Apartment m S) : ∀ (k : Nat) {e e' : HE} {d a d' a' : Nat}, Outer m e d a → S e.tri →
    walkLow lt m k e d a = some (e', d', a') → Outer m e' d' a' ∧ S e'.tri
  | 0, _, _, _, _, _, _, _, _, h => by simp [walkLow] at h
  | k + 1, e, e', d, a, d', a', H, s, h => by
    unfold walkLow at h
    split at h
    · simp only [Option.bind_eq_bind, Option.bind_eq_some_iff] at h
      obtain ⟨c, h1, cv, h2, h⟩ := h
      exact walkLow_outer ok hS k (H.down ok h1 h2) ((hS _ _ h1).1 s) h
    · simp only [Option.some.injEq, Prod.mk.injEq] at h
      obtain ⟨rfl, rfl, rfl⟩ := h
      exact ⟨H, s⟩

theorem tangent_types {P : Preds} {m : Mesh} (ok : Ok m) {S R : Nat → Prop} (hS : Apartment m S) (hR : Apartment m R) : ∀ (k : Nat) {t t' : Tan}, Inner m t.il t.ild t.ila → Outer m t.ir t.iro t.ira → S t.il.tri → R t.ir.tri →
    tangent P m k t = some t' → Inner m t'.il t'.ild t'.ila ∧ Outer m t'.ir t'.iro t'.ira ∧ S t'.il.tri ∧ R t'.ir.tri
  | 0, _, _, _, _, _, _, h => by simp [tangent] at h
  | k + 1, t, t', I, O, s1, s2, h => by
    simp only [tangent, Option.bind_eq_bind, Option.bind_eq_some_iff] at h
    obtain ⟨⟨t1, b1⟩, h1, ⟨t2, b2⟩, h2, h⟩ := h
    have E1 : Inner m t1.il t1.ild t1.ila ∧ Outer m t1.ir t1.iro t1.ira ∧ S t1.il.tri ∧ R t1.ir.tri := by
      unfold tanLeft at h1
      split at h1
      · simp only [Option.bind_eq_bind, Option.bind_eq_some_iff, Option.pure_def, Option.some.injEq, Prod.mk.injEq] at h1
        obtain ⟨e, a1, a, a2, rfl, -⟩ := h1
        exact ⟨I.down ok a1 a2, O, (hS _ _ a1).1 s1, s2⟩
      · simp only [Option.some.injEq, Prod.mk.injEq] at h1
        rw [← h1.1]
        exact ⟨I, O, s1, s2⟩
    obtain ⟨I1, O1, x1, x2⟩ := E1
    have E2 : Inner m t2.il t2.ild t2.ila ∧ Outer m t2.ir t2.iro t2.ira ∧ S t2.il.tri ∧ R t2.ir.tri := by
      unfold tanRight at h2
      split at h2
      · simp only [Option.bind_eq_bind, Option.bind_eq_some_iff, Option.pure_def, Option.some.injEq, Prod.mk.injEq] at h2
        obtain ⟨e, a1, a, a2, rfl, -⟩ := h2
        exact ⟨I1, O1.down ok a1 a2, x1, (hR _ _ a1).1 x2⟩
      · simp only [Option.some.injEq, Prod.mk.injEq] at h2
        rw [← h2.1]
        exact ⟨I1, O1, x1, x2⟩
    obtain ⟨I2, O2, y1, y2⟩ := E2
    split at h
    · exact tangent_types ok hS hR k I2 O2 y1 y2 h
    · rw [← Option.some.inj h]
      exact ⟨I2, O2, y1, y2⟩

theorem preMerge_types {G : Geo} {N : Nat} {m : Mesh} (ok : Ok m) {S R : Nat → Prop} (hS : Apartment m S) (hR : Apartment m R) {axis : Bool} {fl fr fl' fr' : HE} {t t' : Tan} (I : Inner m t.il t.ild t.ila)
    (O : Outer m t.ir t.iro t.ira) (s1 : S t.il.tri) (s2 : R t.ir.tri) (h : preMerge G N m axis fl fr t = some (fl', fr', t')) :
    Inner m t'.il t'.ild t'.ila ∧ Outer m t'.ir t'.iro t'.ira ∧ S t'.il.tri ∧ R t'.ir.tri := by
  unfold preMerge at h
  split at h
  · simp only [Option.bind_eq_bind, Option.bind_eq_some_iff, Option.pure_def, Option.some.injEq, Prod.mk.injEq] at h
    obtain ⟨_, _, _, _, _, _, _, _, ⟨il, ild, ila⟩, h1, ⟨ir, iro, ira⟩, h2, _, _, _, _, rfl⟩ := h
    obtain ⟨a1, a2⟩ := walkHigh_inner ok hS N I s1 h1
    obtain ⟨b1, b2⟩ := walkLow_outer ok hR N O s2 h2
    exact ⟨a1, b1, a2, b2⟩
  · simp only [Option.some.injEq, Prod.mk.injEq] at h
    rw [← h.2.2]
    exact ⟨I, O, s1, s2⟩

theorem knitBottom_hole {m : Mesh} (ok : Ok m) {R : Nat → Prop} (hA : Apartment m R) {t : Tan} (Ri : R t.il.tri) (Rr : R t.ir.tri) (hn : R m.n) (I : Inner m t.il t.ild t.ila) (O : Outer m t.ir t.iro t.ira) (hne : t.ild ≠ t.iro) {lc rc : HE} (hl : m.nei t.il = some lc)
    (hr : m.nei t.ir = some rc) {ul ur : Nat} (hul : apex (knitBottom m t).1 lc = some ul) (hur : apex (knitBottom m t).1 rc = some ur) :
    Hole HE.next HE.prev (knitBottom m t).1 (knitBottom m t).2 lc rc t.ild t.iro ul ur ∧ (knitBottom m t).1.n = m.n + 1 ∧ (∀ v, IsCorner (knitBottom m t).1 R v ↔ IsCorner m R v) ∧
      Within R m (knitBottom m t).1 ∧ (knitBottom m t).2.tri = m.n := by
  have F : Within R m (knitBottom m t).1 := (((((Within.refl hA).make hn).bond hn Ri).bond hn Rr).org hn).dest hn
  obtain ⟨il, ild, ila, ir, iro, ira⟩ := t
  obtain ⟨i1, i2, i3, i4⟩ := I
  obtain ⟨o1, o2, o3, o4⟩ := O
  simp only at *
  have tne : ∀ {x y : HE}, x.tri ≠ y.tri → x ≠ y := fun hxy e => hxy (by rw [e])
  have inj : ∀ {x y z : HE}, m.nei x = some y → m.nei x = some z → y = z := fun a b => by rw [a] at b; exact Option.some.inj b
  have lt := ok.tri hl
  have rt := ok.tri hr
  have l1 := ok.symm _ _ hl
  have r1 := ok.symm _ _ hr
  obtain ⟨ls1, ls2⟩ := ok.swap _ _ hl
  obtain ⟨rs1, rs2⟩ := ok.swap _ _ hr
  simp only [org, dest] at ls1 ls2 rs1 rs2
  rw [i2] at ls1
  rw [i3] at ls2
  rw [o2] at rs1
  rw [o3] at rs2
  have ilir : il ≠ ir := by rintro rfl; rw [i2] at o2; cases o2
  have lcil : lc ≠ il := by rintro rfl; rw [i2] at ls2; cases ls2
  have lcir : lc ≠ ir := by rintro rfl; rw [o2, Option.some.injEq] at ls2; exact hne ls2
  have rcil : rc ≠ il := by rintro rfl; rw [i3, Option.some.injEq] at rs1; exact hne rs1.symm
  have rcir : rc ≠ ir := by rintro rfl; rw [o2] at rs2; cases rs2
  generalize hM : (knitBottom m ⟨il, ild, ila, ir, iro, ira⟩).1 = M at *
  generalize hB : (knitBottom m ⟨il, ild, ila, ir, iro, ira⟩).2 = B at *
  generalize hN : (⟨m.n, 0⟩ : HE) = N
  have BN : B = N.prev := by rw [← hB, ← hN]; simp only [knitBottom, makeTri, next_next]
  subst BN
  have Nt : N.tri = m.n := by rw [← hN]
  have old : ∀ x : HE, x.tri < m.n → x ≠ N ∧ x ≠ N.next ∧ x ≠ N.prev := fun x hx => ⟨tne (by omega), tne (by rw [tri_next]; omega), tne (by rw [tri_prev]; omega)⟩
  obtain ⟨a1, a2, a3⟩ := old il i1
  obtain ⟨b1, b2, b3⟩ := old ir o1
  have n1 := next_ne N
  have n2 := prev_ne N
  have n3 := next_ne_prev N
  have Mn : M.n = m.n + 1 := by rw [← hM]; rfl
  have Mv : M.vert = upd (upd (fun x => if x.tri = m.n then none else m.vert x) N (some iro)) N.next (some ild) := by
    rw [← hM, ← hN]
    simp only [knitBottom, makeTri, bond, setDest, setOrg, next_next, prev_next, prev_prev]
  have Mb : M.nei = upd (upd (upd (upd (fun x => if x.tri = m.n then none else m.nei x) N (some il)) il (some N)) N.next (some ir)) ir (some N.next) := by
    rw [← hM, ← hN]
    simp only [knitBottom, makeTri, bond, setDest, setOrg]
  have v0 : M.vert N = some iro := by rw [Mv, upd_of_ne n1.symm, upd_self]
  have v1 : M.vert N.next = some ild := by rw [Mv, upd_self]
  have v2 : M.vert N.prev = none := by rw [Mv, upd_of_ne n3.symm, upd_of_ne n2, if_pos (by rw [tri_prev]; exact Nt)]
  have vo : ∀ x : HE, x.tri < m.n → M.vert x = m.vert x := fun x hx => by
    obtain ⟨o1, o2, o3⟩ := old x hx
    rw [Mv, upd_of_ne o2, upd_of_ne o1, if_neg (by omega)]
  have von : ∀ x : HE, x.tri < m.n → M.vert x.next = m.vert x.next := fun x hx => vo x.next hx
  have vop : ∀ x : HE, x.tri < m.n → M.vert x.prev = m.vert x.prev := fun x hx => vo x.prev hx
  have e1 : M.nei N = some il := by rw [Mb, upd_of_ne b1.symm, upd_of_ne n1.symm, upd_of_ne a1.symm, upd_self]
  have e2 : M.nei il = some N := by rw [Mb, upd_of_ne ilir, upd_of_ne a2, upd_self]
  have e3 : M.nei N.next = some ir := by rw [Mb, upd_of_ne b2.symm, upd_self]
  have e4 : M.nei ir = some N.next := by rw [Mb, upd_self]
  have eo : ∀ x, x ≠ il → x ≠ ir → x.tri ≠ m.n → M.nei x = m.nei x := fun x x2 x3 x4 => by
    have y : x ≠ N ∧ x ≠ N.next := ⟨tne (by rw [Nt]; exact x4), tne (by rw [tri_next, Nt]; exact x4)⟩
    rw [Mb, upd_of_ne x3, upd_of_ne y.2, upd_of_ne x2, upd_of_ne y.1, if_neg x4]
  obtain ⟨x1, x2, x3⟩ := old lc lt
  obtain ⟨y1, y2, y3⟩ := old rc rt
  refine ⟨⟨by rw [Mn, tri_prev]; omega, by omega, by omega, by rw [prev_next, v0], by rw [prev_prev, v1], by rw [von _ lt, ls2], by rw [vop _ lt, ls1], hul, by rw [von _ rt, rs2], by rw [vop _ rt, rs1], hur,
    ?_, ?_, ?_⟩, Mn, fun v => ⟨?_, ?_⟩, F, Nt⟩
  · intro e he c1 c2 c3
    by_cases c : e.tri = m.n
    · rcases same_tri (c.trans Nt.symm) with x | x | x <;> subst x
      · exact ⟨il, e1, e2, a3, lcil.symm, rcil.symm, by rw [v1, vop _ i1, i3], by rw [v2, von _ i1, i2]⟩
      · exact ⟨ir, e3, e4, b3, lcir.symm, rcir.symm, by rw [next_next, v2, vop _ o1, o3], by rw [next_prev, v0, von _ o1, o2]⟩
      · exact absurd rfl c1
    have he : e.tri < m.n := by omega
    by_cases d1 : e = il
    · subst d1; exact ⟨N, e2, e1, n2.symm, x1.symm, y1.symm, by rw [von _ i1, v2, i2], by rw [vop _ i1, v1, i3]⟩
    by_cases d2 : e = ir
    · subst d2; exact ⟨N.next, e4, e3, n3, x2.symm, y2.symm, by rw [von _ o1, next_prev, v0, o2], by rw [vop _ o1, next_next, v2, o3]⟩
    obtain ⟨e', f1⟩ := ok.total e he
    have f2 := ok.symm _ _ f1
    obtain ⟨f3, f4⟩ := ok.swap _ _ f1
    have he' := ok.tri f1
    have g1 : e' ≠ il := by rintro rfl; exact c2 (inj f2 hl)
    have g2 : e' ≠ ir := by rintro rfl; exact c3 (inj f2 hr)
    refine ⟨e', by rw [eo e d1 d2 c]; exact f1, by rw [eo e' g1 g2 (by omega)]; exact f2, (old e' he').2.2, ?_, ?_, by rw [von _ he, vop _ he']; exact f3, by rw [vop _ he, von _ he']; exact f4⟩
    · rintro rfl; exact d1 (inj f2 l1)
    · rintro rfl; exact d2 (inj f2 r1)
  · intro e e' hx
    by_contra c
    rw [eo e (tne (by omega)) (tne (by omega)) (by omega)] at hx
    exact absurd (ok.range _ _ hx) (by omega)
  · intro e he
    by_cases c : e.tri = m.n
    · rcases same_tri (c.trans Nt.symm) with x | x | x <;> subst x
      · rw [v0, v1]; exact fun x => hne (Option.some.inj x).symm
      · rw [v1, next_next, v2]; exact fun x => by cases x
      · rw [v2, prev_next, v0]; exact fun x => by cases x
    have he : e.tri < m.n := by omega
    rw [vo _ he, von _ he]
    exact ok.distinct e he
  · rintro ⟨e, he, hR, rfl⟩
    by_cases c : e.tri = m.n
    · rcases same_tri (c.trans Nt.symm) with x | x | x <;> subst x
      · rw [v0]; exact ⟨ir.next, o1, Rr, o2⟩
      · rw [v1]; exact ⟨il.prev, i1, Ri, i3⟩
      · rw [v2]; exact ⟨il.next, i1, Ri, i2⟩
    exact ⟨e, by omega, hR, (vo e (by omega)).symm⟩
  · rintro ⟨e, he, hR, rfl⟩
    exact ⟨e, by omega, hR, vo e he⟩

/-- **C111.** `merge_hulls` of two triangulations without a common vertex in a part `R` of the mesh: whatever the predicates answer for different points, when it returns then the mesh is closed and
consistently oriented again, it has two more triangles, the corners of the part are the same points, and the rest of the mesh is as before. -/
theorem c111_merge {G : Geo} (hP : Tame G.toPreds) {N : Nat} {m m' : Mesh} {axis : Bool} {fl il ir fr fl' fr' : HE} (ok : Ok m) {R S : Nat → Prop} (hR : Apartment m R) (hS : Apartment m S)
    (hd : ∀ e e' : HE, e.tri < m.n → e'.tri < m.n → R e.tri → R e'.tri → S e.tri → ¬ S e'.tri → m.vert e = m.vert e' → m.vert e = none) (n0 : R m.n) (n1 : R (m.n + 1))
    (hil : S il.tri) (Ril : R il.tri) (hilt : il.tri < m.n) (hio : org m il = none) (hir : ¬ S ir.tri) (Rir : R ir.tri) (hirt : ir.tri < m.n) (hid : dest m ir = none)
    (h : mergeHulls G N m axis fl il ir fr = some (m', fl', fr')) : Ok m' ∧ m'.n = m.n + 2 ∧ (∀ v, IsCorner m' R v ↔ IsCorner m R v) ∧ Within R m m' := by
  unfold mergeHulls at h
  simp only [Option.bind_eq_bind, Option.bind_eq_some_iff, Option.pure_def, Option.some.injEq, Prod.mk.injEq] at h
  obtain ⟨ild, h1, ila, h2, iro, h3, ira, h4, ⟨fl1, fr1, t1⟩, h5, t, h6, lc, h7, rc, h8, ul, h9, ur, h10, m2, h11, ⟨fl2, fr2⟩, h12, rfl, -⟩ := h
  have hS' : Apartment m fun t => ¬ S t := fun e e' x => not_congr (hS e e' x)
  obtain ⟨I1, O1, p1, p2⟩ := preMerge_types ok hS hS' (t := ⟨il, ild, ila, ir, iro, ira⟩) ⟨hilt, hio, h1, h2⟩ ⟨hirt, h3, hid, h4⟩ hil hir h5
  obtain ⟨-, -, r1, r2⟩ := preMerge_types ok hR hR (t := ⟨il, ild, ila, ir, iro, ira⟩) ⟨hilt, hio, h1, h2⟩ ⟨hirt, h3, hid, h4⟩ Ril Rir h5
  obtain ⟨I, O, q1, q2⟩ := tangent_types ok hS hS' N I1 O1 p1 p2 h6
  obtain ⟨-, -, R1, R2⟩ := tangent_types ok hR hR N I1 O1 r1 r2 h6
  have hne : t.ild ≠ t.iro := fun e => by
    have := hd t.il.prev t.ir.next I.1 O.1 R1 R2 q1 q2 (by rw [I.2.2.1, O.2.1, e])
    rw [I.2.2.1] at this
    cases this
  obtain ⟨H, k1, c1, F1, B⟩ := knitBottom_hole ok hR R1 R2 n0 I O hne h7 h8 h9 h10
  obtain ⟨o, k2, c2, F2⟩ := knit_ok hP N N H F1.apart ⟨by rw [B]; exact n0, (hR _ _ h7).1 R1, (hR _ _ h8).1 R2⟩ (by rw [k1]; exact n1) h11
  exact ⟨o, by rw [k2, k1], fun v => (c2 v).trans (c1 v), F1.trans F2⟩
end Verif.Tri
