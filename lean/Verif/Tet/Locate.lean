import Verif.Tet.LocateModel
import Mathlib.Tactic.Ring
import Mathlib.Tactic.FieldSimp
import Mathlib.Tactic.Linarith
import Mathlib.Tactic.FinCases
/-!
# C62: the answers of point location are right
-/
namespace Verif.Tet
open InSphere (Pt orient3d)

/-! ### Specification -/

section Spec
variable {K : Type} [Field K] [LinearOrder K]

/-- `p` is a combination of the points with positive weights of sum one: it lies in the relative interior of their hull. -/
def InOpen (p : Pt K) (vs : List (Pt K)) : Prop :=
  ∃ w : List K, w.length = vs.length ∧ (∀ a ∈ w, 0 < a) ∧ w.sum = 1 ∧
    p.x = (List.zipWith (fun a v => a * v.x) w vs).sum ∧ p.y = (List.zipWith (fun a v => a * v.y) w vs).sum ∧
    p.z = (List.zipWith (fun a v => a * v.z) w vs).sum

/-- The tetrahedron is not a ghost. -/
def Solid (m : Mesh) (t : Nat) : Prop := ∃ x, m.tets[t]? = some x ∧ x.data 3 ≠ m.nPoints

/-- The coordinates of a vertex given by one of the handle operations. -/
def coords (pts : List (Pt K)) (v : Option Nat) (a : Pt K) : Prop := ∃ i, v = some i ∧ pts[i]? = some a

/-- A consistent mesh over the points `pts`: solid tetrahedra have negative orientation and corners among the points, hull
tetrahedra sit on a solid one. -/
structure Embedded (m : Mesh) (live : Nat → Prop) (pts : List (Pt K)) : Prop where
  cons : Consistent m live
  corner : ∀ t x, live t → m.tets[t]? = some x → x.data 3 ≠ m.nPoints →
    ∃ a b c d, pts[x.data 0]? = some a ∧ pts[x.data 1]? = some b ∧ pts[x.data 2]? = some c ∧ pts[x.data 3]? = some d ∧
      orient3d a b c d < 0
  hull : ∀ t x, live t → m.tets[t]? = some x → x.data 3 = m.nPoints → ∃ h, x.nei 3 = some h ∧ live h.tet ∧ Solid m h.tet

/-- What each answer says about the point `p` and the handle `s`. -/
def Answer (m : Mesh) (live : Nat → Prop) (pts : List (Pt K)) (p : Pt K) (s : TriFace) : Loc → Prop
  | .inTet => Solid m s.tet ∧ ∃ a b c d, coords pts (m.org s) a ∧ coords pts (m.dest s) b ∧ coords pts (m.apex s) c ∧
      coords pts (m.oppo s) d ∧ InOpen p [a, b, c, d]
  | .onFace => Solid m s.tet ∧ ∃ a b c, coords pts (m.org s) a ∧ coords pts (m.dest s) b ∧ coords pts (m.apex s) c ∧
      InOpen p [a, b, c]
  | .onEdge => Solid m s.tet ∧ ∃ a b, coords pts (m.org s) a ∧ coords pts (m.dest s) b ∧ InOpen p [a, b]
  | .onVertex => Solid m s.tet ∧ coords pts (m.org s) p
  | .outside => ¬ Solid m s.tet ∧ ∃ h, live h.tet ∧ Solid m h.tet ∧ (m.fsym h).map (·.tet) = some s.tet ∧
      ∃ a b c, coords pts (m.org h) a ∧ coords pts (m.dest h) b ∧ coords pts (m.apex h) c ∧ 0 < orient3d a b c p

end Spec

/-! ### Proof -/

variable {K : Type} [Field K] [LinearOrder K] [IsStrictOrderedRing K]
variable {m : Mesh} {live : Nat → Prop} {pts : List (Pt K)} {pid : Nat} {p : Pt K}

/-- The corners of a solid tetrahedron seen from a handle. -/
structure Corners (m : Mesh) (pts : List (Pt K)) (t : TriFace) (ia ib ic id' : Nat) (a b c d : Pt K) : Prop where
  org : m.org t = some ia
  dest : m.dest t = some ib
  apex : m.apex t = some ic
  oppo : m.oppo t = some id'
  pa : pts[ia]? = some a
  pb : pts[ib]? = some b
  pc : pts[ic]? = some c
  pd : pts[id']? = some d

omit [LinearOrder K] [IsStrictOrderedRing K] in
theorem orient_expand (a b c d q : Pt K) :
    orient3d a b c d = orient3d a b c q - orient3d b c d q - orient3d c a d q - orient3d a b d q := by
  simp only [orient3d]; ring

omit [LinearOrder K] [IsStrictOrderedRing K] in
theorem orient_bary (a b c d q : Pt K) :
    orient3d a b c d * q.x = orient3d a b c q * d.x - orient3d b c d q * a.x - orient3d c a d q * b.x - orient3d a b d q * c.x ∧
    orient3d a b c d * q.y = orient3d a b c q * d.y - orient3d b c d q * a.y - orient3d c a d q * b.y - orient3d a b d q * c.y ∧
    orient3d a b c d * q.z = orient3d a b c q * d.z - orient3d b c d q * a.z - orient3d c a d q * b.z - orient3d a b d q * c.z := by
  refine ⟨?_, ?_, ?_⟩ <;> simp only [orient3d] <;> ring

omit [IsStrictOrderedRing K] in
theorem corners_exist (he : Embedded m live pts) {t : TriFace} (hl : live t.tet) (hs : Solid m t.tet) :
    ∃ ia ib ic id' a b c d, Corners m pts t ia ib ic id' a b c d ∧ orient3d a b c d < 0 := by
  obtain ⟨x, hx, h3⟩ := hs
  obtain ⟨a, b, c, d, h0, h1, h2, h3', ho⟩ := he.corner _ _ hl hx h3
  obtain ⟨tt, v⟩ := t
  simp only at hx hl
  have key : ∀ i : Fin 4, pts[x.data i]? = some (![a, b, c, d] i) := by
    intro i; fin_cases i <;> assumption
  refine ⟨x.data (orgPivot v), x.data (destPivot v), x.data (apexPivot v), x.data (oppoPivot v), ![a, b, c, d] (orgPivot v),
    ![a, b, c, d] (destPivot v), ![a, b, c, d] (apexPivot v), ![a, b, c, d] (oppoPivot v), ⟨by simp [Mesh.org, hx], by simp [Mesh.dest, hx], by simp [Mesh.apex, hx],
    by simp [Mesh.oppo, hx], key _, key _, key _, key _⟩, ?_⟩
  refine lt_of_eq_of_lt ?_ ho
  fin_cases v <;> simp [orgPivot, destPivot, apexPivot, oppoPivot, orient3d] <;> ring

/-- The invariant of the walk. -/
structure WalkInv (m : Mesh) (live : Nat → Prop) (pts : List (Pt K)) (p : Pt K) (t : TriFace) : Prop where
  live : live t.tet
  solid : Solid m t.tet
  inner : ∀ ia ib ic id' a b c d, Corners m pts t ia ib ic id' a b c d → orient3d a b c p < 0

theorem tbl_enextEsym : ∀ v, orgPivot (enextEsym v) = apexPivot v ∧ destPivot (enextEsym v) = destPivot v ∧
    apexPivot (enextEsym v) = oppoPivot v ∧ oppoPivot (enextEsym v) = orgPivot v := by decide +kernel
theorem tbl_eprevEsym : ∀ v, orgPivot (eprevEsym v) = orgPivot v ∧ destPivot (eprevEsym v) = apexPivot v ∧
    apexPivot (eprevEsym v) = oppoPivot v ∧ oppoPivot (eprevEsym v) = destPivot v := by decide +kernel
theorem tbl_esym : ∀ v, orgPivot (esym v) = destPivot v ∧ destPivot (esym v) = orgPivot v ∧
    apexPivot (esym v) = oppoPivot v ∧ oppoPivot (esym v) = apexPivot v := by decide +kernel
theorem tbl_eprev : ∀ v, orgPivot (eprev v) = apexPivot v ∧ destPivot (eprev v) = orgPivot v ∧
    apexPivot (eprev v) = destPivot v ∧ oppoPivot (eprev v) = oppoPivot v := by decide +kernel
theorem tbl_enext : ∀ v, orgPivot (enext v) = destPivot v ∧ destPivot (enext v) = apexPivot v ∧
    apexPivot (enext v) = orgPivot v ∧ oppoPivot (enext v) = oppoPivot v := by decide +kernel

section
variable {ia ib ic id' : Nat} {a b c d : Pt K} {t : TriFace}
omit [Field K] [LinearOrder K] [IsStrictOrderedRing K]

theorem Corners.enextEsym (h : Corners m pts t ia ib ic id' a b c d) :
    Corners m pts t.enextEsym ic ib id' ia c b d a := by
  obtain ⟨h1, h2, h3, h4⟩ := tbl_enextEsym t.ver
  constructor <;> try simp only [Mesh.org, Mesh.dest, Mesh.apex, Mesh.oppo, TriFace.enextEsym, h1, h2, h3, h4]
  all_goals first | exact h.org | exact h.dest | exact h.apex | exact h.oppo | exact h.pa | exact h.pb | exact h.pc | exact h.pd
theorem Corners.eprevEsym (h : Corners m pts t ia ib ic id' a b c d) :
    Corners m pts t.eprevEsym ia ic id' ib a c d b := by
  obtain ⟨h1, h2, h3, h4⟩ := tbl_eprevEsym t.ver
  constructor <;> try simp only [Mesh.org, Mesh.dest, Mesh.apex, Mesh.oppo, TriFace.eprevEsym, h1, h2, h3, h4]
  all_goals first | exact h.org | exact h.dest | exact h.apex | exact h.oppo | exact h.pa | exact h.pb | exact h.pc | exact h.pd
theorem Corners.esym (h : Corners m pts t ia ib ic id' a b c d) :
    Corners m pts t.esym ib ia id' ic b a d c := by
  obtain ⟨h1, h2, h3, h4⟩ := tbl_esym t.ver
  constructor <;> try simp only [Mesh.org, Mesh.dest, Mesh.apex, Mesh.oppo, TriFace.esym, h1, h2, h3, h4]
  all_goals first | exact h.org | exact h.dest | exact h.apex | exact h.oppo | exact h.pa | exact h.pb | exact h.pc | exact h.pd
theorem Corners.eprev (h : Corners m pts t ia ib ic id' a b c d) :
    Corners m pts t.eprev ic ia ib id' c a b d := by
  obtain ⟨h1, h2, h3, h4⟩ := tbl_eprev t.ver
  constructor <;> try simp only [Mesh.org, Mesh.dest, Mesh.apex, Mesh.oppo, TriFace.eprev, h1, h2, h3, h4]
  all_goals first | exact h.org | exact h.dest | exact h.apex | exact h.oppo | exact h.pa | exact h.pb | exact h.pc | exact h.pd
theorem Corners.enext (h : Corners m pts t ia ib ic id' a b c d) :
    Corners m pts t.enext ib ic ia id' b c a d := by
  obtain ⟨h1, h2, h3, h4⟩ := tbl_enext t.ver
  constructor <;> try simp only [Mesh.org, Mesh.dest, Mesh.apex, Mesh.oppo, TriFace.enext, h1, h2, h3, h4]
  all_goals first | exact h.org | exact h.dest | exact h.apex | exact h.oppo | exact h.pa | exact h.pb | exact h.pc | exact h.pd

theorem Corners.unique {ia2 ib2 ic2 id2 : Nat} {a2 b2 c2 d2 : Pt K} (h : Corners m pts t ia ib ic id' a b c d)
    (h2 : Corners m pts t ia2 ib2 ic2 id2 a2 b2 c2 d2) : a = a2 ∧ b = b2 ∧ c = c2 ∧ d = d2 := by
  have e1 := Option.some.inj (h.org.symm.trans h2.org)
  have e2 := Option.some.inj (h.dest.symm.trans h2.dest)
  have e3 := Option.some.inj (h.apex.symm.trans h2.apex)
  have e4 := Option.some.inj (h.oppo.symm.trans h2.oppo)
  subst e1 e2 e3 e4
  exact ⟨Option.some.inj (h.pa.symm.trans h2.pa), Option.some.inj (h.pb.symm.trans h2.pb),
    Option.some.inj (h.pc.symm.trans h2.pc), Option.some.inj (h.pd.symm.trans h2.pd)⟩
end

omit [LinearOrder K] [IsStrictOrderedRing K] in
theorem orient_rot (a b c d : Pt K) : orient3d b c a d = orient3d a b c d := by simp only [orient3d]; ring
omit [LinearOrder K] [IsStrictOrderedRing K] in
theorem orient_flip (a b c d : Pt K) : orient3d b a c d = - orient3d a b c d := by simp only [orient3d]; ring

/-- Crossing a face that separates the point from the tetrahedron. -/
theorem cross_spec (he : Embedded m live pts) {t : TriFace} (hl : live t.tet) (hs : Solid m t.tet)
    {ia ib ic id' : Nat} {a b c d : Pt K} (hc : Corners m pts t ia ib ic id' a b c d) (ho : 0 < orient3d a b c p) :
    ∃ nf, (m.cross t = some (nf, none) ∧ WalkInv m live pts p nf) ∨
      (m.cross t = some (nf, some .outside) ∧ live nf.tet ∧ Answer m live pts p nf .outside) := by
  obtain ⟨h, hhl, g⟩ := he.cons.mate hl
  obtain ⟨y, hy, -⟩ := he.cons.corners _ hhl
  have hf := g.fwd
  simp only [Mesh.fsym, Option.bind_eq_bind, Option.bind_eq_some_iff, Option.pure_def, Option.some.injEq] at hf
  obtain ⟨x, hx, nf, hnf, hh⟩ := hf
  have hnt : nf.tet = h.tet := by rw [← hh]
  have hnv : face h.ver = face nf.ver := by rw [← hh]; exact face_fsym _ _
  refine ⟨nf, ?_⟩
  have hhull : m.isHull nf.tet = some (y.data 3 == m.nPoints) := by simp [Mesh.isHull, hnt, hy]
  by_cases hyn : y.data 3 = m.nPoints
  · right
    refine ⟨by simp [Mesh.cross, hx, hnf, hhull, hyn], hnt ▸ hhl, ?_, t, hl, hs, ?_, a, b, c, ⟨_, hc.org, hc.pa⟩,
      ⟨_, hc.dest, hc.pb⟩, ⟨_, hc.apex, hc.pc⟩, ho⟩
    · rintro ⟨z, hz, hzn⟩
      rw [hnt, hy] at hz; cases hz; exact hzn hyn
    · rw [g.fwd, hnt]; rfl
  · left
    have hsol : Solid m nf.tet := ⟨y, hnt ▸ hy, hyn⟩
    refine ⟨by simp [Mesh.cross, hx, hnf, hhull, hyn], hnt ▸ hhl, hsol, ?_⟩
    intro ja jb jc jd a2 b2 c2 d2 hc2
    have hrot : h = nf ∨ h = nf.enext ∨ h = nf.eprev := by
      obtain ⟨h1, h2⟩ := h
      obtain ⟨n1, n2⟩ := nf
      simp only at hnt hnv
      subst hnt
      rcases rotations _ _ hnv.symm with r | r | r <;> simp [TriFace.enext, TriFace.eprev, r]
    have fin : ∀ {ja jb jc jd : Nat} {a2 b2 c2 d2 : Pt K}, Corners m pts h ja jb jc jd a2 b2 c2 d2 → orient3d a2 b2 c2 p < 0 := by
      intro ja jb jc jd a2 b2 c2 d2 hc2
      have e1 := Option.some.inj (hc2.org.symm.trans (g.org.trans hc.dest))
      have e2 := Option.some.inj (hc2.dest.symm.trans (g.dest.trans hc.org))
      have e3 := Option.some.inj (hc2.apex.symm.trans (g.apex.trans hc.apex))
      subst e1 e2 e3
      have e1 := Option.some.inj (hc2.pa.symm.trans hc.pb)
      have e2 := Option.some.inj (hc2.pb.symm.trans hc.pa)
      have e3 := Option.some.inj (hc2.pc.symm.trans hc.pc)
      subst e1 e2 e3
      rw [orient_flip]; linarith
    rcases hrot with r | r | r
    · subst r; exact fin hc2
    · subst r; have := fin hc2.enext; rwa [orient_rot] at this
    · subst r; have := fin hc2.eprev; rwa [← orient_rot] at this

theorem inOpen2 {a b : Pt K} {wa wb : K} (ha : 0 < wa) (hb : 0 < wb) (hs : wa + wb = 1)
    (hx : p.x = wa * a.x + wb * b.x) (hy : p.y = wa * a.y + wb * b.y) (hz : p.z = wa * a.z + wb * b.z) : InOpen p [a, b] :=
  ⟨[wa, wb], rfl, by simp [ha, hb], by simpa using hs, by simpa using hx, by simpa using hy, by simpa using hz⟩
theorem inOpen3 {a b c : Pt K} {wa wb wc : K} (ha : 0 < wa) (hb : 0 < wb) (hc : 0 < wc) (hs : wa + wb + wc = 1)
    (hx : p.x = wa * a.x + wb * b.x + wc * c.x) (hy : p.y = wa * a.y + wb * b.y + wc * c.y)
    (hz : p.z = wa * a.z + wb * b.z + wc * c.z) : InOpen p [a, b, c] :=
  ⟨[wa, wb, wc], rfl, by simp [ha, hb, hc], by simpa [add_assoc] using hs, by simpa [add_assoc] using hx,
    by simpa [add_assoc] using hy, by simpa [add_assoc] using hz⟩
theorem inOpen4 {a b c d : Pt K} {wa wb wc wd : K} (ha : 0 < wa) (hb : 0 < wb) (hc : 0 < wc) (hd : 0 < wd)
    (hs : wa + wb + wc + wd = 1)
    (hx : p.x = wa * a.x + wb * b.x + wc * c.x + wd * d.x) (hy : p.y = wa * a.y + wb * b.y + wc * c.y + wd * d.y)
    (hz : p.z = wa * a.z + wb * b.z + wc * c.z + wd * d.z) : InOpen p [a, b, c, d] :=
  ⟨[wa, wb, wc, wd], rfl, by simp [ha, hb, hc, hd], by simpa [add_assoc] using hs, by simpa [add_assoc] using hx,
    by simpa [add_assoc] using hy, by simpa [add_assoc] using hz⟩

/-- Barycentric weights of `p` in a negatively oriented tetrahedron. -/
theorem weights {a b c d : Pt K} (hv : orient3d a b c d < 0) :
    ∃ wa wb wc wd : K, wa * orient3d a b c d = - orient3d b c d p ∧ wb * orient3d a b c d = - orient3d c a d p ∧
      wc * orient3d a b c d = - orient3d a b d p ∧ wd * orient3d a b c d = orient3d a b c p ∧ wa + wb + wc + wd = 1 ∧
      p.x = wa * a.x + wb * b.x + wc * c.x + wd * d.x ∧ p.y = wa * a.y + wb * b.y + wc * c.y + wd * d.y ∧
      p.z = wa * a.z + wb * b.z + wc * c.z + wd * d.z := by
  have hne : orient3d a b c d ≠ 0 := hv.ne
  obtain ⟨hx, hy, hz⟩ := orient_bary a b c d p
  have hsum := orient_expand a b c d p
  refine ⟨- orient3d b c d p / orient3d a b c d, - orient3d c a d p / orient3d a b c d, - orient3d a b d p / orient3d a b c d,
    orient3d a b c p / orient3d a b c d, div_mul_cancel₀ _ hne, div_mul_cancel₀ _ hne, div_mul_cancel₀ _ hne,
    div_mul_cancel₀ _ hne, ?_, ?_, ?_, ?_⟩
  · rw [← add_div, ← add_div, ← add_div, div_eq_one_iff_eq hne]; linarith
  all_goals
    apply mul_left_cancel₀ hne
    field_simp
    linarith

theorem pos_of_mul_neg' {w v o : K} (hv : v < 0) (h : w * v = o) (ho : o < 0) : 0 < w := by
  by_contra hw
  have := mul_nonneg_of_nonpos_of_nonpos (not_lt.1 hw) hv.le
  linarith
theorem zero_of_mul {w v o : K} (hv : v < 0) (h : w * v = o) (ho : o = 0) : w = 0 := by
  subst ho
  exact (mul_eq_zero.1 h).resolve_right hv.ne

/-- One round of the walk: it does not panic, and either keeps the invariant or gives a right answer. -/
theorem locateStep_spec (he : Embedded m live pts) (hp : pts[pid]? = some p) {t : TriFace} (hi : WalkInv m live pts p t) :
    ∃ s, (m.locateStep pts pid t = some (s, none) ∧ WalkInv m live pts p s) ∨
      ∃ loc, m.locateStep pts pid t = some (s, some loc) ∧ live s.tet ∧ Answer m live pts p s loc := by
  obtain ⟨ia, ib, ic, id', a, b, c, d, hc, hv⟩ := corners_exist he hi.live hi.solid
  have hin := hi.inner _ _ _ _ _ _ _ _ hc
  obtain ⟨wa, wb, wc, wd, ea, eb, ec, ed, hsum, hx, hy, hz⟩ := weights (p := p) hv
  have hwd := pos_of_mul_neg' hv ed hin
  have sol : ∀ f : Ver, Solid m (⟨t.tet, f⟩ : TriFace).tet := fun _ => hi.solid
  simp only [Mesh.locateStep, orientIdx, hc.org, hc.dest, hc.apex, hc.oppo, hc.pa, hc.pb, hc.pc, hc.pd, hp, Option.bind_eq_bind,
    Option.bind_some, Option.pure_def]
  by_cases h0 : id' = pid
  · refine ⟨t.esym.eprev, .inr ⟨.onVertex, by simp [h0], hi.live, hi.solid, id', hc.esym.eprev.org, ?_⟩⟩
    rw [h0, hp]
  rw [if_neg h0]
  by_cases h1 : orient3d b c d p < 0
  · rw [if_pos h1]
    obtain ⟨s, h | h⟩ := cross_spec he (t := t.enextEsym) (p := p) hi.live hi.solid hc.enextEsym
      (by rw [orient_flip]; linarith)
    · exact ⟨s, .inl h⟩
    · exact ⟨s, .inr ⟨_, h⟩⟩
  rw [if_neg h1]
  by_cases h2 : orient3d c a d p < 0
  · rw [if_pos h2]
    obtain ⟨s, h | h⟩ := cross_spec he (t := t.eprevEsym) (p := p) hi.live hi.solid hc.eprevEsym
      (by rw [orient_flip]; linarith)
    · exact ⟨s, .inl h⟩
    · exact ⟨s, .inr ⟨_, h⟩⟩
  rw [if_neg h2]
  by_cases h3 : orient3d a b d p < 0
  · rw [if_pos h3]
    obtain ⟨s, h | h⟩ := cross_spec he (t := t.esym) (p := p) hi.live hi.solid hc.esym
      (by rw [orient_flip]; linarith)
    · exact ⟨s, .inl h⟩
    · exact ⟨s, .inr ⟨_, h⟩⟩
  rw [if_neg h3]
  have k : ∀ {w o : K}, w * orient3d a b c d = -o → ¬ o < 0 → (o = 0 ∧ w = 0) ∨ (o ≠ 0 ∧ 0 < w) := by
    intro w o e ho
    by_cases hz : o = 0
    · exact .inl ⟨hz, zero_of_mul hv e (by rw [hz, neg_zero])⟩
    · refine .inr ⟨hz, pos_of_mul_neg' hv e ?_⟩
      have : 0 < o := lt_of_le_of_ne (not_lt.1 ho) (Ne.symm hz)
      linarith
  rcases k ea h1 with ⟨z1, w1⟩ | ⟨z1, w1⟩ <;> rcases k eb h2 with ⟨z2, w2⟩ | ⟨z2, w2⟩ <;>
    rcases k ec h3 with ⟨z3, w3⟩ | ⟨z3, w3⟩ <;> simp only [z1, z2, z3, if_true, if_false]
  · subst w1 w2 w3
    refine ⟨_, .inr ⟨_, rfl, hi.live, hi.solid, id', hc.enextEsym.eprev.org, ?_⟩⟩
    rw [hc.pd]
    have : wd = 1 := by linarith
    subst this
    congr 1
    cases p; cases d; simp_all
  · subst w1 w2
    exact ⟨_, .inr ⟨_, rfl, hi.live, hi.solid, d, c, ⟨_, hc.enextEsym.eprev.org, hc.pd⟩, ⟨_, hc.enextEsym.eprev.dest, hc.pc⟩,
      inOpen2 hwd w3 (by linarith) (by linarith) (by linarith) (by linarith)⟩⟩
  · subst w1 w3
    exact ⟨_, .inr ⟨_, rfl, hi.live, hi.solid, b, d, ⟨_, hc.enextEsym.enext.org, hc.pb⟩, ⟨_, hc.enextEsym.enext.dest, hc.pd⟩,
      inOpen2 w2 hwd (by linarith) (by linarith) (by linarith) (by linarith)⟩⟩
  · subst w1
    exact ⟨_, .inr ⟨_, rfl, hi.live, hi.solid, c, b, d, ⟨_, hc.enextEsym.org, hc.pc⟩, ⟨_, hc.enextEsym.dest, hc.pb⟩,
      ⟨_, hc.enextEsym.apex, hc.pd⟩, inOpen3 w3 w2 hwd (by linarith) (by linarith) (by linarith) (by linarith)⟩⟩
  · subst w2 w3
    exact ⟨_, .inr ⟨_, rfl, hi.live, hi.solid, d, a, ⟨_, hc.eprevEsym.eprev.org, hc.pd⟩, ⟨_, hc.eprevEsym.eprev.dest, hc.pa⟩,
      inOpen2 hwd w1 (by linarith) (by linarith) (by linarith) (by linarith)⟩⟩
  · subst w2
    exact ⟨_, .inr ⟨_, rfl, hi.live, hi.solid, a, c, d, ⟨_, hc.eprevEsym.org, hc.pa⟩, ⟨_, hc.eprevEsym.dest, hc.pc⟩,
      ⟨_, hc.eprevEsym.apex, hc.pd⟩, inOpen3 w1 w3 hwd (by linarith) (by linarith) (by linarith) (by linarith)⟩⟩
  · subst w3
    exact ⟨_, .inr ⟨_, rfl, hi.live, hi.solid, b, a, d, ⟨_, hc.esym.org, hc.pb⟩, ⟨_, hc.esym.dest, hc.pa⟩,
      ⟨_, hc.esym.apex, hc.pd⟩, inOpen3 w2 w1 hwd (by linarith) (by linarith) (by linarith) (by linarith)⟩⟩
  · exact ⟨_, .inr ⟨_, rfl, hi.live, hi.solid, a, b, c, d, ⟨_, hc.org, hc.pa⟩, ⟨_, hc.dest, hc.pb⟩,
      ⟨_, hc.apex, hc.pc⟩, ⟨_, hc.oppo, hc.pd⟩, inOpen4 w1 w2 w3 hwd (by linarith) (by linarith) (by linarith) (by linarith)⟩⟩

omit [LinearOrder K] [IsStrictOrderedRing K] in
theorem orient_four (a b c d q : Pt K) :
    orient3d d c b q + orient3d d a c q + orient3d b a d q + orient3d b c a q = orient3d a b c d := by
  simp only [orient3d]; ring

/-- The walk starts at a handle with the point on the inner side of its face. -/
theorem locateStart_spec (he : Embedded m live pts) (hp : pts[pid]? = some p) {s : TriFace} (hl : live s.tet) :
    ∃ t, m.locateStart pts pid s = some t ∧ WalkInv m live pts p t := by
  obtain ⟨x, hx, -⟩ := he.cons.corners _ hl
  have hT : ∃ tt, (if x.data 3 = m.nPoints then (x.nei 3).map (·.tet) else some s.tet) = some tt ∧ live tt ∧ Solid m tt := by
    by_cases h3 : x.data 3 = m.nPoints
    · obtain ⟨h, e, hl', hs'⟩ := he.hull _ _ hl hx h3
      exact ⟨h.tet, by simp [h3, e], hl', hs'⟩
    · exact ⟨s.tet, by simp [h3], hl, x, hx, h3⟩
  obtain ⟨tt, htt, htl, hts⟩ := hT
  obtain ⟨y, hy, h3⟩ := id hts
  obtain ⟨a, b, c, d, h0, h1, h2, h3', ho⟩ := he.corner _ _ htl hy h3
  have inv : ∀ (v : Ver) (o : K), m.orientFace pts ⟨tt, v⟩ pid = some o → o < 0 → WalkInv m live pts p ⟨tt, v⟩ := by
    intro v o e ho
    refine ⟨htl, hts, ?_⟩
    intro ja jb jc jd a2 b2 c2 d2 hc2
    simp only [Mesh.orientFace, orientIdx, hc2.org, hc2.dest, hc2.apex, hc2.pa, hc2.pb, hc2.pc, hp, Option.bind_eq_bind,
      Option.bind_some, Option.pure_def, Option.some.injEq] at e
    rw [e]; exact ho
  have e0 : m.orientFace pts ⟨tt, 0⟩ pid = some (orient3d d c b p) := by
    simp [Mesh.orientFace, orientIdx, Mesh.org, Mesh.dest, Mesh.apex, orgPivot, destPivot, apexPivot, hy, h1, h2, h3', hp]
  have e1 : m.orientFace pts ⟨tt, 1⟩ pid = some (orient3d d a c p) := by
    simp [Mesh.orientFace, orientIdx, Mesh.org, Mesh.dest, Mesh.apex, orgPivot, destPivot, apexPivot, hy, h0, h2, h3', hp]
  have e2 : m.orientFace pts ⟨tt, 2⟩ pid = some (orient3d b a d p) := by
    simp [Mesh.orientFace, orientIdx, Mesh.org, Mesh.dest, Mesh.apex, orgPivot, destPivot, apexPivot, hy, h0, h1, h3', hp]
  have e3 : m.orientFace pts ⟨tt, 3⟩ pid = some (orient3d b c a p) := by
    simp [Mesh.orientFace, orientIdx, Mesh.org, Mesh.dest, Mesh.apex, orgPivot, destPivot, apexPivot, hy, h0, h1, h2, hp]
  have hstart : m.locateStart pts pid s = m.startVer pts pid tt [0, 1, 2, 3] := by
    have hh : m.isHull s.tet = some (x.data 3 == m.nPoints) := by simp [Mesh.isHull, hx]
    simp only [Mesh.locateStart, hx, hh, Option.bind_eq_bind, Option.bind_some, beq_iff_eq]
    split at htt
    · rename_i hq
      rw [if_pos hq, htt]; rfl
    · rename_i hq
      rw [if_neg hq, Option.some.inj htt]
  rw [hstart]
  have hsum := orient_four a b c d p
  simp only [Mesh.startVer, e0, e1, e2, e3, Option.bind_eq_bind, Option.bind_some]
  split_ifs with g0 g1 g2 g3
  · exact ⟨_, rfl, inv _ _ e0 g0⟩
  · exact ⟨_, rfl, inv _ _ e1 g1⟩
  · exact ⟨_, rfl, inv _ _ e2 g2⟩
  · exact ⟨_, rfl, inv _ _ e3 g3⟩
  · exfalso; linarith

/-- The handles the walk passes through before it answers. -/
inductive Walk (m : Mesh) (pts : List (Pt K)) (pid : Nat) (t0 : TriFace) : TriFace → Prop
  | start : Walk m pts pid t0 t0
  | step {t s} : Walk m pts pid t0 t → m.locateStep pts pid t = some (s, none) → Walk m pts pid t0 s

/-- C62. In a consistent mesh of negatively oriented tetrahedra, for every point and every live start, point location never
panics, and if it stops its answer is right: the returned tetrahedron is live and the point lies strictly inside it
(`INTETRAHEDRON`), in the relative interior of the face or edge of the returned handle (`ONFACE`, `ONEDGE`), at its origin
(`ONVERTEX`), or strictly beyond the hull face of the returned ghost tetrahedron (`OUTSIDE`). -/
theorem c62_locate (he : Embedded m live pts) (hp : pts[pid]? = some p) (s : TriFace) (hl : live s.tet) :
    (∃ t0, m.locateStart pts pid s = some t0 ∧ ∀ t, Walk m pts pid t0 t → m.locateStep pts pid t ≠ none) ∧
    ∀ fuel loc r, m.locateDt pts fuel pid s = some (loc, r) → live r.tet ∧ Answer m live pts p r loc := by
  obtain ⟨t0, h0, hi0⟩ := locateStart_spec he hp hl
  refine ⟨⟨t0, h0, ?_⟩, ?_⟩
  · have inv : ∀ t, Walk m pts pid t0 t → WalkInv m live pts p t := by
      intro t hw
      induction hw with
      | start => exact hi0
      | step _ e ih =>
        obtain ⟨s', ⟨e', hi'⟩ | ⟨loc, e', -⟩⟩ := locateStep_spec he hp ih
        · rw [e] at e'; cases e'; exact hi'
        · rw [e] at e'; cases e'
    intro t hw
    obtain ⟨s', ⟨e', -⟩ | ⟨loc, e', -⟩⟩ := locateStep_spec he hp (inv t hw) <;> rw [e'] <;> simp
  · intro fuel loc r h
    simp only [Mesh.locateDt, h0, Option.bind_eq_bind, Option.bind_some] at h
    clear h0
    induction fuel generalizing t0 with
    | zero => cases h
    | succ n ih =>
      simp only [Mesh.locateLoop, Option.bind_eq_bind] at h
      obtain ⟨s', ⟨e', hi'⟩ | ⟨loc', e', hl', ha'⟩⟩ := locateStep_spec he hp hi0
      · simp only [e', Option.bind_some] at h
        exact ih s' hi' h
      · simp only [e', Option.bind_some, Option.pure_def, Option.some.injEq, Prod.mk.injEq] at h
        obtain ⟨rfl, rfl⟩ := h
        exact ⟨hl', ha'⟩

end Verif.Tet
