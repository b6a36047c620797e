import Verif.Tet.Fill
import Mathlib.Data.Set.Finite.Basic
import Mathlib.Data.Finite.Prod
import Mathlib.Data.Fintype.Pigeonhole
/-! # `insert_vertex_bw`: inserting a vertex keeps the mesh consistent -/
namespace Verif.Tet

variable {m : Mesh} {live S : Nat → Prop}

theorem glued_rot {t h : TriFace} (g : Glued m t h) (w : Ver) (hw : face t.ver = face w) :
    ∃ h', h'.tet = h.tet ∧ face h'.ver = face h.ver ∧ Glued m ⟨t.tet, w⟩ h' := by
  rcases rotations t.ver w hw with rfl | rfl | rfl
  · exact ⟨h, rfl, rfl, g⟩
  · exact ⟨h.eprev, rfl, face_eprev _, g.enext⟩
  · exact ⟨h.enext, rfl, face_enext _, g.eprev⟩

theorem Consistent.mate (hc : Consistent m live) {t : TriFace} (ht : live t.tet) : ∃ h, live h.tet ∧ Glued m t h :=
  hc.glued t.tet ht t.ver

theorem Consistent.glued_of_fsym (hc : Consistent m live) {t h : TriFace} (ht : live t.tet) (e : m.fsym t = some h) :
    live h.tet ∧ Glued m t h := by
  obtain ⟨h', hl, g⟩ := hc.mate ht
  have := g.fwd
  rw [e] at this; cases this
  exact ⟨hl, g⟩

/-- The rotation about the edge of a handle, as a total function. -/
def spin (m : Mesh) (t : TriFace) : TriFace := (m.fnext t).getD t

theorem esym_esym : ∀ v, esym (esym v) = v := by decide +kernel
theorem org_esym : ∀ v, orgPivot (esym v) = destPivot v := by decide +kernel
theorem dest_esym : ∀ v, destPivot (esym v) = orgPivot v := by decide +kernel

theorem spin_spec (hc : Consistent m live) {t : TriFace} (ht : live t.tet) :
    live (spin m t).tet ∧ m.fnext t = some (spin m t) ∧ m.fsym (spin m t) = some t.esym ∧
      m.org (spin m t) = m.org t ∧ m.dest (spin m t) = m.dest t := by
  obtain ⟨h, hl, g⟩ := hc.mate (t := t.esym) ht
  have e : m.fnext t = some h := by rw [Mesh.fnext_eq]; exact g.fwd
  have : spin m t = h := by simp [spin, e]
  rw [this]
  refine ⟨hl, e, g.bwd, ?_, ?_⟩
  · rw [g.org]; simp [Mesh.org, Mesh.dest, TriFace.esym, dest_esym]
  · rw [g.dest]; simp [Mesh.org, Mesh.dest, TriFace.esym, org_esym]

theorem esym_inj {a b : TriFace} (h : a.esym = b.esym) : a = b := by
  obtain ⟨a1, a2⟩ := a; obtain ⟨b1, b2⟩ := b
  simp only [TriFace.esym, TriFace.mk.injEq] at h ⊢
  exact ⟨h.1, by rw [← esym_esym a2, h.2, esym_esym]⟩

theorem spin_inj (hc : Consistent m live) {a b : TriFace} (ha : live a.tet) (hb : live b.tet) (h : spin m a = spin m b) : a = b := by
  have h1 := (spin_spec hc ha).2.2.1
  rw [h, (spin_spec hc hb).2.2.1] at h1
  exact esym_inj (Option.some.inj h1).symm

theorem spin_iter (hc : Consistent m live) {t : TriFace} (ht : live t.tet) (k : Nat) :
    live ((spin m)^[k] t).tet ∧ m.org ((spin m)^[k] t) = m.org t ∧ m.dest ((spin m)^[k] t) = m.dest t := by
  induction k with
  | zero => exact ⟨ht, rfl, rfl⟩
  | succ k ih =>
    rw [Function.iterate_succ_apply']
    obtain ⟨h1, -, -, h2, h3⟩ := spin_spec hc ih.1
    exact ⟨h1, h2.trans ih.2.1, h3.trans ih.2.2⟩

theorem iterate_cancel (hc : Consistent m live) : ∀ (i : Nat) {a b : TriFace}, live a.tet → live b.tet →
    (spin m)^[i] a = (spin m)^[i] b → a = b := by
  intro i
  induction i with
  | zero => intro a b _ _ h; exact h
  | succ i ih =>
    intro a b ha hb h
    rw [Function.iterate_succ_apply', Function.iterate_succ_apply'] at h
    exact ih ha hb (spin_inj hc (spin_iter hc ha i).1 (spin_iter hc hb i).1 h)

/-- The rotation about an edge returns to its start. -/
theorem spin_period (hc : Consistent m live) {t : TriFace} (ht : live t.tet) : ∃ k, (spin m)^[k + 1] t = t := by
  let f : ℕ → Fin m.tets.length × Fin 12 := fun k =>
    (⟨((spin m)^[k] t).tet, by
      obtain ⟨x, hx, -⟩ := hc.corners _ (spin_iter hc ht k).1
      exact (List.getElem?_eq_some_iff.1 hx).1⟩, ((spin m)^[k] t).ver)
  obtain ⟨i, j, hij, hf⟩ := Finite.exists_ne_map_eq_of_infinite f
  have key : ∀ i j, i < j → (spin m)^[i] t = (spin m)^[j] t → ∃ k, (spin m)^[k + 1] t = t := by
    intro i j hlt h
    refine ⟨j - i - 1, ?_⟩
    have hji : j = i + (j - i - 1 + 1) := by omega
    rw [hji, Function.iterate_add_apply] at h
    exact (iterate_cancel hc i ht (spin_iter hc ht _).1 h).symm
  have he : (spin m)^[i] t = (spin m)^[j] t := by
    simp only [f, Prod.mk.injEq, Fin.mk.injEq] at hf
    cases h1 : (spin m)^[i] t; cases h2 : (spin m)^[j] t
    simp_all
  rcases Nat.lt_or_gt_of_ne hij with h | h
  · exact key i j h he
  · exact key j i h he.symm

/-- The boundary of a set of tetrahedra is closed: every directed edge of it also occurs reversed. -/
theorem outer_rev (hc : Consistent m live) {H : TriFace} (hH : Outer m live S H) :
    ∃ H', Outer m live S H' ∧ m.org H' = m.dest H ∧ m.dest H' = m.org H := by
  obtain ⟨hl, hn, c, e, hcS⟩ := hH
  obtain ⟨hcl, g⟩ := hc.glued_of_fsym hl e
  have hex : ∃ k, ¬ S ((spin m)^[k] c).tet := by
    by_contra hcon
    push Not at hcon
    obtain ⟨k, hk⟩ := spin_period hc hcl
    rw [Function.iterate_succ_apply'] at hk
    have h1 := (spin_spec hc (spin_iter hc hcl k).1).2.2.1
    rw [hk, g.bwd] at h1
    have h2 : H.tet = ((spin m)^[k] c).tet := by rw [Option.some.inj h1]; rfl
    exact hn (h2 ▸ hcon k)
  classical
  have hk := Nat.find_spec hex
  have hmin : ∀ j < Nat.find hex, S ((spin m)^[j] c).tet := fun j hj => by
    by_contra h; exact Nat.find_min hex hj h
  generalize Nat.find hex = k at hk hmin
  cases k with
  | zero => exact absurd hcS hk
  | succ k =>
    obtain ⟨h1, h2, h3⟩ := spin_iter hc hcl (k + 1)
    refine ⟨(spin m)^[k + 1] c, ⟨h1, hk, ((spin m)^[k] c).esym, ?_, hmin k (by omega)⟩, h2.trans g.org, h3.trans g.dest⟩
    rw [Function.iterate_succ_apply']
    exact (spin_spec hc (spin_iter hc hcl k).1).2.2.1

namespace Mesh

theorem killAll_spec : ∀ (r : List Nat) (m : Mesh), (∀ u ∈ r, u < m.tets.length) →
    ∃ m', killAll r m = some m' ∧ m'.nPoints = m.nPoints ∧ m'.p2t = m.p2t ∧
      ∀ j : Nat, m'.tets[j]? = (m.tets[j]?).map fun x =>
        if j ∈ r then { x with infected := true, marked := true, dead := true } else x := by
  intro r
  induction r with
  | nil => intro m _; exact ⟨m, rfl, rfl, rfl, fun j => by simp⟩
  | cons t r ih =>
    intro m hr
    have h1 : m.modify t (fun x => { x with infected := true, marked := true, dead := true }) = some _ :=
      modify_some (hr t (by simp))
    obtain ⟨m', e, a, b, c⟩ := ih { m with tets := m.tets.modify t fun x => { x with infected := true, marked := true, dead := true } }
      (fun u hu => by simpa using hr u (by simp [hu]))
    refine ⟨m', by simp [killAll, h1, e], a, b, fun j => ?_⟩
    rw [c]
    simp only [List.getElem?_modify]
    cases m.tets[j]? with
    | none => simp
    | some x =>
      by_cases htj : t = j
      · subst htj; by_cases hj : t ∈ r <;> simp [hj]
      · by_cases hj : j ∈ r <;> simp [hj, htj, Ne.symm htj]

/-- Choosing a description for each boundary face. -/
theorem choose_list {P : BF → Prop} : ∀ (B : List (Nat × Fin 4)), (∀ b ∈ B, ∃ r, r.b = b ∧ P r) →
    ∃ R : List BF, R.map (·.b) = B ∧ ∀ r ∈ R, P r := by
  intro B
  induction B with
  | nil => intro _; exact ⟨[], rfl, by simp⟩
  | cons b B ih =>
    intro h
    obtain ⟨r, hr, hp⟩ := h b (by simp)
    obtain ⟨R, hR, hP⟩ := ih fun b' hb' => h b' (by simp [hb'])
    exact ⟨r :: R, by simp [hr, hR], by simpa using ⟨hp, hP⟩⟩

theorem fsym_small : ∀ (f : Fin 4) (j : Ver), fsymTbl (verOfFace f) j = j := by decide +kernel
theorem epivot_apex : ∀ v, face v ≠ 3 → apexPivot (epivot v) = 3 := by decide +kernel
theorem corner_ne_face : ∀ v : Ver, orgPivot v ≠ face v ∧ destPivot v ≠ face v ∧ apexPivot v ≠ face v ∧
    orgPivot v ≠ destPivot v ∧ orgPivot v ≠ apexPivot v ∧ destPivot v ≠ apexPivot v := by decide +kernel

/-- Everything we know about a boundary face. -/
structure Good (m0 ms : Mesh) (live S : Nat → Prop) (r : BF) : Prop where
  bf : IsBF ms r
  inS : S r.b.1
  outer : Outer m0 live S r.h
  back : ∃ c, m0.fsym r.h = some c ∧ c.tet = r.b.1 ∧ face c.ver = r.b.2
  org : m0.org r.h = some r.o
  dest : m0.dest r.h = some r.d
  apex : m0.apex r.h = some r.a
  ne : r.o ≠ r.d ∧ r.o ≠ r.a ∧ r.d ≠ r.a
  ghost : r.o ≠ m0.nPoints ∧ r.d ≠ m0.nPoints

theorem good_of {m0 ms : Mesh} (hc : Consistent m0 live) (hg : GhostLast m0 live) (hs : SameCore m0 ms)
    (hSl : ∀ t, S t → live t) {b : Nat × Fin 4} (hb : S b.1) {nei : TriFace} (hn : m0.slot b.1 b.2 = some nei)
    (ho : ¬ S nei.tet) : ∃ r, r.b = b ∧ Good m0 ms live S r := by
  have hlb := hSl _ hb
  obtain ⟨x, hx, hxi⟩ := hc.corners _ hlb
  obtain ⟨h, hl, g⟩ := hc.glued b.1 hlb (verOfFace b.2)
  have hh : h = nei := by
    have := g.fwd
    rw [fsym_eq, face_verOfFace, hn] at this
    simp only [Option.map_some, fsym_small, Option.some.injEq] at this
    exact this.symm
  subst hh
  let w : Ver := if x.data 3 == m0.nPoints then epivot h.ver else h.ver
  have hfw : face h.ver = face w := by simp only [w]; split <;> simp [epivot_face]
  obtain ⟨c, hc1, hc2, gc⟩ := glued_rot g.symm w hfw
  simp only [face_verOfFace] at hc2
  obtain ⟨y, hy, hyi⟩ := hc.corners _ hl
  obtain ⟨y', hy', hyd, -, -⟩ := hs.get hy
  obtain ⟨x', hx', hxd, hxn, -⟩ := hs.get hx
  have hxnei : x.nei b.2 = some h := by simpa [slot, hx] using hn
  have hcn := corner_ne_face w
  have e1 : m0.org ⟨h.tet, w⟩ = some (y.data (orgPivot w)) := by simp [Mesh.org, hy]
  have e2 : m0.dest ⟨h.tet, w⟩ = some (y.data (destPivot w)) := by simp [Mesh.dest, hy]
  have e3 : m0.apex ⟨h.tet, w⟩ = some (y.data (apexPivot w)) := by simp [Mesh.apex, hy]
  -- a ghost corner of the face is the apex
  have hghost : ∀ p, p ≠ face w → y.data p = m0.nPoints → apexPivot w = p := by
    intro p hp hpg
    have hp3 := hg _ hl y hy p hpg
    subst hp3
    -- the ghost is then a corner of `b.1` as well
    have hhull : x.data 3 = m0.nPoints := by
      obtain ⟨h2, x2, e1', e2', e3', e4'⟩ := neighbour hc hl hy (face h.ver)
      have hf := g.bwd
      rw [fsym_eq] at hf
      simp only [slot, hy, Option.bind_some, e1', Option.map_some, Option.some.injEq, TriFace.mk.injEq] at hf
      rw [hf.1, hx] at e3'; cases e3'
      obtain ⟨q, hq⟩ := e4' 3 (by rw [hfw]; exact hp)
      have hq' : x.data q = m0.nPoints := by rw [hq, hpg]
      have := hg _ hlb x hx q hq'
      rw [this] at hq'; exact hq'
    have hw : w = epivot h.ver := by simp [w, hhull]
    rw [hw]
    exact epivot_apex _ (by rw [hfw]; exact fun hcon => hp hcon.symm)
  refine ⟨⟨b, ⟨h.tet, w⟩, y.data (orgPivot w), y.data (destPivot w), y.data (apexPivot w)⟩, rfl, ?_⟩
  refine ⟨⟨⟨x', h, hx', by rw [hxn]; exact hxnei, ?_⟩, ?_, ?_, ?_⟩, hb, ⟨hl, ho, c, gc.fwd, by rw [hc1]; exact hb⟩,
    ⟨c, gc.fwd, hc1, hc2⟩, e1, e2, e3, ⟨?_, ?_, ?_⟩, ?_, ?_⟩
  · rw [hxd, hs.n]; simp only [w]; split <;> rfl
  · simp [Mesh.org, hy', hyd]
  · simp [Mesh.dest, hy', hyd]
  · simp [Mesh.apex, hy', hyd]
  · exact fun h => hcn.2.2.2.1 (hyi h)
  · exact fun h => hcn.2.2.2.2.1 (hyi h)
  · exact fun h => hcn.2.2.2.2.2 (hyi h)
  · exact fun h => hcn.2.2.2.2.1 (hghost _ hcn.1 h).symm
  · exact fun h => hcn.2.2.2.2.2 (hghost _ hcn.2.1 h).symm

/-- The side edges of the new tetrahedra are the edges of outer handles. -/
theorem side_outer {m0 ms : Mesh} {R : List BF} (hR : ∀ r ∈ R, Good m0 ms live S r) {i : Nat} {s : Ver} {u w : Nat}
    (hs : Side R i s u w) : ∃ r H, R[i]? = some r ∧ Outer m0 live S H ∧ H.tet = r.h.tet ∧
      H.ver = (if s = 11 then r.h.ver else if s = 1 then eprev r.h.ver else enext r.h.ver) ∧
      m0.org H = some u ∧ m0.dest H = some w := by
  cases hs with
  | @s11 r hr =>
    have G := hR r (List.mem_of_getElem? hr)
    exact ⟨r, r.h, hr, G.outer, rfl, by simp, G.org, G.dest⟩
  | @s1 r hr =>
    have G := hR r (List.mem_of_getElem? hr)
    obtain ⟨a, b, c, e, d⟩ := G.outer
    refine ⟨r, r.h.eprev, hr, ⟨a, b, c.enext, by rw [fsym_handle_eprev, e]; rfl, d⟩, rfl, by simp [TriFace.eprev], ?_, ?_⟩
    · rw [← G.apex]; simp [Mesh.org, Mesh.apex, TriFace.eprev, org_eprev]
    · rw [← G.org]; simp [Mesh.org, Mesh.dest, TriFace.eprev, dest_eprev]
  | @s8 r hr =>
    have G := hR r (List.mem_of_getElem? hr)
    obtain ⟨a, b, c, e, d⟩ := G.outer
    refine ⟨r, r.h.enext, hr, ⟨a, b, c.eprev, by rw [fsym_handle_enext, e]; rfl, d⟩, rfl, by simp [TriFace.enext], ?_, ?_⟩
    · rw [← G.dest]; simp [Mesh.org, Mesh.dest, TriFace.enext, org_enext]
    · rw [← G.apex]; simp [Mesh.apex, Mesh.dest, TriFace.enext, dest_enext]

/-- Every outer handle lies on the face of some listed boundary face. -/
theorem outer_side {m0 ms : Mesh} {R : List BF} (hc : Consistent m0 live)
    (hR : ∀ r ∈ R, Good m0 ms live S r)
    (hB : ∀ c f, S c → (∃ h, m0.slot c f = some h ∧ ¬ S h.tet) → ∃ r ∈ R, r.b = (c, f)) {H : TriFace}
    (hH : Outer m0 live S H) : ∃ (i : Nat) (r : BF), R[i]? = some r ∧ r.h.tet = H.tet ∧ face r.h.ver = face H.ver := by
  obtain ⟨hl, hn, c, e, hcS⟩ := hH
  obtain ⟨hcl, g⟩ := hc.glued_of_fsym hl e
  have hb := g.bwd
  rw [fsym_eq, Option.map_eq_some_iff] at hb
  obtain ⟨h, hslot, hh⟩ := hb
  have ht : h.tet = H.tet := by rw [← hh]
  obtain ⟨r, hr, hrb⟩ := hB c.tet (face c.ver) hcS ⟨h, hslot, by rw [ht]; exact hn⟩
  obtain ⟨c', e', h1, h2⟩ := (hR r hr).back
  rw [hrb] at h1 h2
  simp only at h1 h2
  obtain ⟨-, g'⟩ := hc.glued_of_fsym (hR r hr).outer.1 e'
  obtain ⟨i, hi⟩ := List.getElem?_of_mem hr
  have hb' := g'.bwd
  rw [fsym_eq, Option.map_eq_some_iff] at hb'
  obtain ⟨h', hslot', hh'⟩ := hb'
  rw [h1, h2, hslot] at hslot'
  cases hslot'
  refine ⟨i, r, hi, ?_, ?_⟩
  · rw [← hh', ← hh]
  · rw [← hh', ← hh]; simp [face_fsym]

theorem side_exists {R : List BF} {i : Nat} {r : BF} (hr : R[i]? = some r) (w : Ver) (hw : face r.h.ver = face w) :
    ∃ s u v, Side R i s u v ∧ w = (if s = 11 then r.h.ver else if s = 1 then eprev r.h.ver else enext r.h.ver) := by
  rcases rotations _ _ hw with h | h | h
  · exact ⟨11, _, _, .s11 hr, by simp [h]⟩
  · exact ⟨8, _, _, .s8 hr, by simp [h]⟩
  · exact ⟨1, _, _, .s1 hr, by simp [h]⟩

theorem ver_side_inj : ∀ (v s s' : Ver), (s = 11 ∨ s = 1 ∨ s = 8) → (s' = 11 ∨ s' = 1 ∨ s' = 8) →
    (if s = 11 then v else if s = 1 then eprev v else enext v) = (if s' = 11 then v else if s' = 1 then eprev v else enext v) →
    s = s' := by decide +kernel

theorem cor_of_data {m m' : Mesh} (t : TriFace) (h : (m'.tets[t.tet]?).map (·.data) = (m.tets[t.tet]?).map (·.data)) :
    m'.org t = m.org t ∧ m'.dest t = m.dest t ∧ m'.apex t = m.apex t := by
  unfold Mesh.org Mesh.dest Mesh.apex
  cases h1 : m'.tets[t.tet]? <;> cases h2 : m.tets[t.tet]? <;> simp_all

theorem vec_inj {a b c d : Nat} (h1 : a ≠ b) (h2 : a ≠ c) (h3 : a ≠ d) (h4 : b ≠ c) (h5 : b ≠ d) (h6 : c ≠ d) :
    Function.Injective (![a, b, c, d] : Fin 4 → Nat) := by
  intro i j hij
  fin_cases i <;> fin_cases j <;> simp_all

theorem face_side_ver : ∀ (v s : Ver), face (if s = 11 then v else if s = 1 then eprev v else enext v) = face v := by
  decide +kernel

end Mesh

/-- The tetrahedra that are live after an insertion: the old ones outside the cavity, and the new ones. -/
def liveAfter (m m' : Mesh) (live S : Nat → Prop) (t : Nat) : Prop :=
  (live t ∧ ¬ S t) ∨ (m.tets.length ≤ t ∧ t < m'.tets.length)

/-- All three flags of the tetrahedron are set (`mask == !0`). -/
def AllSet (m : Mesh) (j : Nat) : Prop := ∃ x, m.tets[j]? = some x ∧ x.infected = true ∧ x.marked = true ∧ x.dead = true

namespace Mesh

theorem modify_allSet {m m' : Mesh} {i j : Nat} {g : Tet → Tet} (h : m.modify i g = some m')
    (hg : ∀ x : Tet, x.infected = true → x.marked = true → x.dead = true →
      (g x).infected = true ∧ (g x).marked = true ∧ (g x).dead = true) (hj : AllSet m j) : AllSet m' j := by
  obtain ⟨x, hx, h1, h2, h3⟩ := hj
  have := modify_get h j
  rw [hx] at this
  by_cases hij : i = j
  · simp only [hij, if_true, Option.map_some] at this
    exact ⟨_, this, hg x h1 h2 h3⟩
  · simp only [hij, if_false, Option.map_some] at this
    exact ⟨_, this, h1, h2, h3⟩

theorem infectAll_allSet {j : Nat} : ∀ (seed : List Nat) (m m' : Mesh), infectAll seed m = some m' → AllSet m j → AllSet m' j
  | [], _, _, h, hj => by cases h; exact hj
  | t :: ts, m, m', h, hj => by
    simp only [infectAll, Option.bind_eq_bind, Option.bind_eq_some_iff] at h
    obtain ⟨m1, h1, h2⟩ := h
    exact infectAll_allSet ts m1 m' h2 (modify_allSet h1 (fun x _ b c => ⟨rfl, b, c⟩) hj)

theorem cavityFaces_allSet {test : Nat → Bool} {c j : Nat} : ∀ (fs : List (Fin 4)) (s s' : Cavity),
    cavityFaces test c fs s = some s' → AllSet s.mesh j → AllSet s'.mesh j
  | [], _, _, h, hj => by cases h; exact hj
  | f :: fs, s, s', h, hj => by
    simp only [cavityFaces, Option.bind_eq_bind, Option.bind_eq_some_iff] at h
    obtain ⟨x, -, nei, -, b, -, h⟩ := h
    cases b
    · simp only [Bool.false_eq_true, if_false, Option.bind_eq_some_iff] at h
      obtain ⟨b2, -, h⟩ := h
      split at h
      · simp only [Option.bind_eq_some_iff] at h
        obtain ⟨m1, h1, m2, h2, h⟩ := h
        exact cavityFaces_allSet fs _ _ h (modify_allSet h2 (fun x _ b c => ⟨rfl, b, c⟩)
          (modify_allSet h1 (fun x a _ c => ⟨a, rfl, c⟩) hj))
      · simp only [Option.bind_eq_some_iff] at h
        obtain ⟨m1, h1, h⟩ := h
        exact cavityFaces_allSet fs _ _ h (modify_allSet h1 (fun x a _ c => ⟨a, rfl, c⟩) hj)
    · simp only [if_true] at h
      exact cavityFaces_allSet fs _ _ h hj

theorem cavityLoop_allSet {test : Nat → Bool} {j : Nat} : ∀ (fuel idx : Nat) (s s' : Cavity),
    cavityLoop test fuel idx s = some s' → AllSet s.mesh j → AllSet s'.mesh j
  | 0, _, _, _, h, _ => by cases h
  | fuel + 1, idx, s, s', h, hj => by
    simp only [cavityLoop] at h
    split at h
    · simp only [Option.bind_eq_bind, Option.bind_eq_some_iff] at h
      obtain ⟨c, -, s1, h1, h⟩ := h
      exact cavityLoop_allSet fuel _ _ _ h (cavityFaces_allSet _ _ _ h1 hj)
    · cases h; exact hj

end Mesh

set_option maxHeartbeats 1000000 in
/-- The insertion of a vertex, with the facts needed to iterate it; `c60_insert_vertex` is the readable part. -/
theorem insert_vertex_all (m : Mesh) (live : Nat → Prop) (hc : Consistent m live) (hg : GhostLast m live)
    (hclean : ∀ j x, live j → m.tets[j]? = some x → x.infected = false ∧ x.marked = false)
    (hlink : ∀ t x i, live t → m.tets[t]? = some x → ∃ t' x', m.p2t[x.data i]? = some (some t') ∧ m.tets[t']? = some x')
    (pid : Nat) (hpid : pid < m.p2t.length) (hpn : pid ≠ m.nPoints)
    (hfresh : ∀ (j : Nat) (x : Tet) (i : Fin 4), m.tets[j]? = some x → x.data i ≠ pid)
    (test : Nat → Bool) (seed : List Nat) (hsn : seed.Nodup) (hsl : ∀ c ∈ seed, live c)
    (hman : EdgeManifold m live (CavityReach m test seed)) (hne : ∃ H, Outer m live (CavityReach m test seed) H)
    (fuel : Nat) (hf : m.tets.length < fuel) :
    ∃ m' search, m.insertSmall fuel test seed pid = some (m', search) ∧
      Consistent m' (liveAfter m m' live (CavityReach m test seed)) ∧
      GhostLast m' (liveAfter m m' live (CavityReach m test seed)) ∧
      (∀ j x, liveAfter m m' live (CavityReach m test seed) j → m'.tets[j]? = some x →
        x.infected = false ∧ x.marked = false) ∧
      (∀ t, m.tets.length ≤ t → t < m'.tets.length → ∃ v H, Outer m live (CavityReach m test seed) H ∧
        Glued m' ⟨t, v⟩ H ∧ m'.oppo ⟨t, v⟩ = some pid) ∧
      (∀ H, Outer m live (CavityReach m test seed) H → ∃! h : TriFace, Glued m' H h ∧ m.tets.length ≤ h.tet ∧
        h.tet < m'.tets.length ∧ m'.oppo h = some pid) ∧
      (∀ j : Nat, j < m.tets.length → (m'.tets[j]?).map (·.data) = (m.tets[j]?).map (·.data)) ∧
      (∀ t, CavityReach m test seed t → ∃ x, m'.tets[t]? = some x ∧ x.infected = true ∧ x.marked = true ∧ x.dead = true) ∧
      (∀ t x i, m.tets.length ≤ t → m'.tets[t]? = some x → LinkOk m' (liveAfter m m' live (CavityReach m test seed)) (x.data i)) ∧
      (∀ w, (∀ t x i, m.tets.length ≤ t → m'.tets[t]? = some x → x.data i ≠ w) → m'.p2t[w]? = m.p2t[w]?) ∧
      m.tets.length ≤ search.tet ∧ search.tet < m'.tets.length ∧ m'.p2t[pid]? = some (some search.tet) ∧
      m'.nPoints = m.nPoints ∧ m'.p2t.length = m.p2t.length ∧ (∀ j, ¬ live j → AllSet m j → AllSet m' j) ∧
      (∀ m1 s, Mesh.infectAll seed m = some m1 → Mesh.cavityLoop test fuel 0 { mesh := m1, old := seed, bdry := [] } = some s →
        m'.tets.length = m.tets.length + s.bdry.length) := by
  obtain ⟨m1, s, e1, e2, hinv, hS, hB⟩ := Mesh.cavity_spec hc hclean test seed hsn hsl fuel hf
  set S := CavityReach m test seed with hSdef
  have hSl : ∀ t, S t → live t := fun t ht => hinv.alive t ((hS t).2 ht)
  have hsame := hinv.same
  have hlen : s.mesh.tets.length = m.tets.length := hsame.length
  set n0 := m.tets.length with hn0
  have liveLt : ∀ t, live t → t < n0 := fun t ht => by
    obtain ⟨x, hx, -⟩ := hc.corners t ht; exact (List.getElem?_eq_some_iff.1 hx).1
  -- boundary descriptions
  obtain ⟨R, hRB, hR⟩ := Mesh.choose_list (P := Mesh.Good m s.mesh live S) s.bdry (fun b hb => by
    obtain ⟨h1, nei, h2, h3⟩ := (hB b.1 b.2).1 hb
    exact Mesh.good_of hc hg hsame hSl ((hS _).1 h1) h2 (fun h => h3 ((hS _).2 h)))
  have hRlen : R.length = s.bdry.length := by rw [← hRB]; simp
  have hcover : ∀ c f, S c → (∃ h, m.slot c f = some h ∧ ¬ S h.tet) → ∃ r ∈ R, r.b = (c, f) := by
    intro c f h1 ⟨h, h2, h3⟩
    have : (c, f) ∈ R.map (·.b) := by rw [hRB]; exact (hB c f).2 ⟨(hS c).2 h1, h, h2, fun h' => h3 ((hS _).1 h')⟩
    obtain ⟨r, hr, e⟩ := List.mem_map.1 this
    exact ⟨r, hr, e⟩
  -- distinct faces have distinct outside slots
  have hslotb : ∀ r ∈ R, ∃ w, m.slot r.h.tet (face r.h.ver) = some ⟨r.b.1, w⟩ ∧ face w = r.b.2 := by
    intro r hr
    obtain ⟨c, e, h1, h2⟩ := (hR r hr).back
    rw [Mesh.fsym_eq, Option.map_eq_some_iff] at e
    obtain ⟨h, hs, hh⟩ := e
    refine ⟨h.ver, ?_, ?_⟩
    · rw [hs, ← h1, ← hh]
    · rw [← h2, ← hh]; simp [face_fsym]
  have hpw : R.Pairwise (fun r r' => ¬ (r.h.tet = r'.h.tet ∧ face r.h.ver = face r'.h.ver)) := by
    have hn : (R.map (·.b)).Nodup := by rw [hRB]; exact hinv.bnodup
    rw [List.Nodup, List.pairwise_map] at hn
    refine hn.imp_of_mem fun {r r'} hr hr' hne ⟨h1, h2⟩ => hne ?_
    obtain ⟨w, e, hw⟩ := hslotb r hr
    obtain ⟨w', e', hw'⟩ := hslotb r' hr'
    rw [h1, h2, e'] at e
    simp only [Option.some.injEq, TriFace.mk.injEq] at e
    exact Prod.ext e.1.symm (by rw [← hw, ← hw', e.2])
  -- first loop
  have hRh : ∀ r ∈ R, r.h.tet < n0 := fun r hr => liveLt _ (hR r hr).outer.1
  have hcornerR : ∀ r ∈ R, ∀ w, r.has w → ∃ t x i, live t ∧ m.tets[t]? = some x ∧ x.data i = w := by
    intro r hr w hw
    have G := hR r hr
    obtain ⟨y, hy, -⟩ := hc.corners _ G.outer.1
    have a1 := G.org; have a2 := G.dest; have a3 := G.apex
    simp only [Mesh.org, Mesh.dest, Mesh.apex, hy, Option.map_some, Option.some.injEq] at a1 a2 a3
    rcases hw with rfl | rfl | rfl
    · exact ⟨_, y, _, G.outer.1, hy, a2⟩
    · exact ⟨_, y, _, G.outer.1, hy, a1⟩
    · exact ⟨_, y, _, G.outer.1, hy, a3⟩
  have hinit : Mesh.FillInv s.mesh pid [] s.mesh [] :=
    ⟨rfl, rfl, fun j x h => ⟨x, h, rfl, rfl, rfl, by simp⟩, by simp, fun _ _ _ _ => rfl, by simp, by simp,
      ⟨rfl, by simp, fun _ _ => rfl⟩⟩
  obtain ⟨mf, map, e3, hfill⟩ := Mesh.fillLoop_spec R [] s.mesh [] [] hinit (by simp)
    (fun r hr => ⟨(hR r hr).bf, by rw [hlen]; exact hRh r hr, fun w hw => by
      obtain ⟨t, x, i, h1, h2, h3⟩ := hcornerR r hr w hw
      obtain ⟨t', x', h4, h5⟩ := hlink t x i h1 h2
      obtain ⟨y, hy, hyd, -⟩ := hsame.get h5
      exact ⟨t', y, by rw [hsame.p, ← h3]; exact h4, hy, by rw [hyd]; exact hfresh _ _ _ h5⟩⟩)
    (fun r hr r' hr' h => (hR r' (by simpa using hr')).outer.2.1 (h ▸ (hR r hr).inS)) (by simpa using hpw)
  simp only [List.nil_append] at e3 hfill
  rw [hlen] at e3
  rw [hRB] at e3
  have hpfresh : ∀ r ∈ R, ¬ r.has pid := by
    intro r hr hw
    obtain ⟨t, x, i, -, h2, h3⟩ := hcornerR r hr pid hw
    exact hfresh t x i h2 h3
  -- nonempty
  obtain ⟨i0, r0, hi0, -, -⟩ := Mesh.outer_side hc hR hcover hne.choose_spec
  have hRpos : 0 < R.length := by have := (List.getElem?_eq_some_iff.1 hi0).1; omega
  have hk : s.bdry.length / 2 < R.length := by omega
  let search : TriFace := ⟨n0 + s.bdry.length / 2, 11⟩
  have hsearch : ((List.range R.length).map fun i => (⟨n0 + i, 11⟩ : TriFace))[s.bdry.length / 2]? = some search := by
    simp [hk, search]
  have hplen : mf.p2t.length = m.p2t.length := by rw [hfill.link.len, hsame.p]
  set mg : Mesh := { mf with p2t := mf.p2t.set pid (some search.tet) } with hmg
  have e4 : mf.setP2t pid search.tet = some mg := by rw [Mesh.setP2t, if_pos (by omega)]
  -- second loop
  have hside := fun i s u w => Mesh.side_outer (i := i) (s := s) (u := u) (w := w) hR
  have hcl : Mesh.Closed R := by
    refine ⟨?_, ?_⟩
    · intro i s i' s' u w h h'
      obtain ⟨r, H, hr, hO, ht, hv, ho, hd⟩ := hside i s u w h
      obtain ⟨r', H', hr', hO', ht', hv', ho', hd'⟩ := hside i' s' u w h'
      have hHH : H = H' := hman H H' hO hO' (by rw [ho, ho']) (by rw [hd, hd'])
      have hii : i = i' := by
        by_contra hcon
        have h1 : r.h.tet = r'.h.tet := by rw [← ht, ← ht', hHH]
        have h2 : face r.h.ver = face r'.h.ver := by
          rw [← Mesh.face_side_ver r.h.ver s, ← Mesh.face_side_ver r'.h.ver s', ← hv, ← hv', hHH]
        have hg1 := List.getElem?_eq_some_iff.1 hr
        have hg2 := List.getElem?_eq_some_iff.1 hr'
        rcases Nat.lt_or_gt_of_ne hcon with hlt | hlt
        · have := List.pairwise_iff_getElem.1 hpw i i' hg1.1 hg2.1 hlt
          rw [hg1.2, hg2.2] at this; exact this ⟨h1, h2⟩
        · have := List.pairwise_iff_getElem.1 hpw i' i hg2.1 hg1.1 hlt
          rw [hg1.2, hg2.2] at this; exact this ⟨h1.symm, h2.symm⟩
      refine ⟨hii, ?_⟩
      subst hii
      rw [hr] at hr'; cases hr'
      exact Mesh.ver_side_inj r.h.ver s s' h.ver h'.ver (by rw [← hv, ← hv', hHH])
    · intro i s u w h
      obtain ⟨r, H, hr, hO, ht, hv, ho, hd⟩ := hside i s u w h
      obtain ⟨H', hO', ho', hd'⟩ := outer_rev hc hO
      obtain ⟨i', r', hr', ht', hf'⟩ := Mesh.outer_side hc hR hcover hO'
      obtain ⟨s', u', w', hs', hv'⟩ := Mesh.side_exists hr' H'.ver hf'
      obtain ⟨r2, H2, hr2, -, ht2, hv2, ho2, hd2⟩ := hside i' s' u' w' hs'
      rw [hr'] at hr2; cases hr2
      have : H2 = H' := by
        cases H2; cases H'; simp only at ht2 hv2 ht' hv'
        rw [ht2, hv2, ← hv', ← ht']
      subst this
      have h1 : u' = w := by
        have := ho2.symm.trans (ho'.trans hd); exact Option.some.inj this
      have h2 : w' = u := by
        have := hd2.symm.trans (hd'.trans ho); exact Option.some.inj this
      subst h1 h2
      exact ⟨i', s', hs'⟩
  have hmapok : Mesh.MapOk n0 R map := Mesh.mapOk_of (by have := hfill.map; rw [hlen] at this; exact this)
  have hnewf : ∀ i r, R[i]? = some r → mg.tets[n0 + i]? =
      some { data := ![r.o, r.d, pid, r.a], nei := Function.update (fun _ => none) 2 (some r.h) } := by
    have := hfill.newT; rw [hlen] at this; exact this
  have hconn0 : Mesh.ConnInv n0 R mg mg := by
    refine ⟨rfl, rfl, fun _ => rfl, fun _ _ _ => rfl, fun _ => rfl, fun i s u w h => .inl ?_⟩
    obtain ⟨r, -, hr, -⟩ := hside i s u w h
    simp [Mesh.slot, hnewf i r hr, Function.update_of_ne (Mesh.face_side s h.ver)]
  obtain ⟨mh, e5, hconn, hfull, -⟩ := Mesh.connectLoop_spec (n0 := n0) (pid := pid) hcl hmapok
    (fun i r hr => ⟨_, hnewf i r hr, rfl⟩) (List.range R.length) mg (by simp) hconn0
  -- lengths
  have hmglen : mg.tets.length = n0 + R.length := by simp only [mg]; rw [hfill.len, hlen]
  have hmhlen : mh.tets.length = n0 + R.length := by
    rw [← hmglen]
    apply Nat.le_antisymm
    · by_contra hcon
      have h1 := hconn.core mg.tets.length
      rw [List.getElem?_eq_getElem (by omega), List.getElem?_eq_none (le_refl _)] at h1
      simp at h1
    · by_contra hcon
      have h1 := hconn.core mh.tets.length
      rw [List.getElem?_eq_none (le_refl _), List.getElem?_eq_getElem (by omega)] at h1
      simp at h1
  obtain ⟨m', e6, hn', hp', hkill⟩ := Mesh.killAll_spec s.old mh (fun u hu => by
    have := liveLt u (hinv.alive u hu); omega)
  -- contents of the final mesh
  have hm'len : m'.tets.length = n0 + R.length := by
    apply Nat.le_antisymm
    · by_contra hcon
      have h1 := hkill (n0 + R.length)
      rw [List.getElem?_eq_getElem (by omega), List.getElem?_eq_none (by omega)] at h1
      simp at h1
    · by_contra hcon
      have h1 := hkill m'.tets.length
      rw [List.getElem?_eq_none (le_refl _), List.getElem?_eq_getElem (by omega)] at h1
      simp at h1
  have hslotK : ∀ j f, m'.slot j f = mh.slot j f := by
    intro j f
    unfold Mesh.slot
    rw [hkill]
    cases mh.tets[j]? with
    | none => rfl
    | some x => by_cases h : j ∈ s.old <;> simp [h]
  have hdataK : ∀ j : Nat, (m'.tets[j]?).map (·.data) = (mg.tets[j]?).map (·.data) := by
    intro j
    have hco := hconn.core j
    rw [hkill]
    cases h1 : mh.tets[j]? <;> cases h2 : mg.tets[j]? <;> simp only [h1, h2, Option.map_some, Option.map_none] at hco ⊢
    · cases hco
    · cases hco
    · have := (Mesh.noNei_eq (Option.some.inj hco)).1
      split <;> simp [this]
  have hdataOld : ∀ j : Nat, j < n0 → (m'.tets[j]?).map (·.data) = (m.tets[j]?).map (·.data) := by
    intro j hj
    rw [hdataK, ← hsame.data]
    obtain ⟨x, hx, hxd, -⟩ := hfill.oldT j _ (List.getElem?_eq_getElem (by omega : j < s.mesh.tets.length))
    simp only [mg, hx, Option.map_some, hxd]
    rw [List.getElem?_eq_getElem (by omega : j < s.mesh.tets.length)]; rfl
  have hdataNew : ∀ i r, R[i]? = some r → ∃ x, m'.tets[n0 + i]? = some x ∧ x.data = ![r.o, r.d, pid, r.a] := by
    intro i r hr
    have := hdataK (n0 + i)
    rw [hnewf i r hr, Option.map_some, Option.map_eq_some_iff] at this
    exact this
  have hcorOld : ∀ t : TriFace, t.tet < n0 → m'.org t = m.org t ∧ m'.dest t = m.dest t ∧ m'.apex t = m.apex t := by
    intro t ht
    exact Mesh.cor_of_data t (hdataOld t.tet ht)
  have hslotNewOut : ∀ i r, R[i]? = some r → m'.slot r.h.tet (face r.h.ver) = some ⟨n0 + i, colV02 r.h.ver⟩ := by
    intro i r hr
    rw [hslotK, hconn.keepOld _ _ (hRh r (List.mem_of_getElem? hr))]
    have := hfill.slotNew i r hr
    rw [hlen] at this
    exact this
  have hslotOld : ∀ j g, j < n0 → (∀ r ∈ R, ¬ (r.h.tet = j ∧ face r.h.ver = g)) → m'.slot j g = m.slot j g := by
    intro j g hj hno
    rw [hslotK, hconn.keepOld _ _ hj, ← hsame.slot]
    exact hfill.slotOld j g (by omega) hno
  have hslot2 : ∀ i r, R[i]? = some r → m'.slot (n0 + i) 2 = some r.h := by
    intro i r hr
    rw [hslotK, hconn.keep2]
    simp [Mesh.slot, hnewf i r hr]
  -- gluing across the cavity boundary
  have gOut : ∀ i r, R[i]? = some r → Glued m' ⟨n0 + i, 2⟩ r.h := by
    intro i r hr
    have hmem := List.mem_of_getElem? hr
    have G := hR r hmem
    obtain ⟨x, hx, hxd⟩ := hdataNew i r hr
    obtain ⟨c1, c2, c3⟩ := hcorOld r.h (hRh r hmem)
    refine ⟨?_, ?_, ?_, ?_, ?_⟩
    · rw [Mesh.fsym_eq]; simp only
      rw [show face 2 = 2 from rfl, hslot2 i r hr]
      simp [Mesh.fsym2]
    · rw [Mesh.fsym_eq, hslotNewOut i r hr]; simp [Mesh.col2]
    · rw [c1, G.org]; simp [Mesh.dest, hx, hxd]; rfl
    · rw [c2, G.dest]; simp [Mesh.org, hx, hxd]; rfl
    · rw [c3, G.apex]; simp [Mesh.apex, hx, hxd]; rfl
  -- gluing between new tetrahedra
  have hmate : ∀ i s u w, Mesh.Side R i s u w → ∃ h, m'.slot (n0 + i) (face s) = some h ∧ Mesh.Mate n0 R i s h := by
    intro i s u w h
    rcases hconn.side i s u w h with h1 | h1
    · exact absurd h1 (hfull i (by simpa using h.lt) s u w h)
    · rw [hslotK]; exact h1
  have hsideCor : ∀ i s u w, Mesh.Side R i s u w → m'.org ⟨n0 + i, s⟩ = some u ∧ m'.dest ⟨n0 + i, s⟩ = some w ∧
      m'.apex ⟨n0 + i, s⟩ = some pid := by
    intro i s u w h
    cases h with
    | s11 hr => obtain ⟨x, hx, hxd⟩ := hdataNew i _ hr
                simp only [Mesh.org, Mesh.dest, Mesh.apex, hx, hxd, Option.map_some]; exact ⟨rfl, rfl, rfl⟩
    | s1 hr => obtain ⟨x, hx, hxd⟩ := hdataNew i _ hr
               simp only [Mesh.org, Mesh.dest, Mesh.apex, hx, hxd, Option.map_some]; exact ⟨rfl, rfl, rfl⟩
    | s8 hr => obtain ⟨x, hx, hxd⟩ := hdataNew i _ hr
               simp only [Mesh.org, Mesh.dest, Mesh.apex, hx, hxd, Option.map_some]; exact ⟨rfl, rfl, rfl⟩
  have hfs : ∀ i s u w i' s', Mesh.Side R i s u w → Mesh.Side R i' s' w u → m'.fsym ⟨n0 + i, s⟩ = some ⟨n0 + i', s'⟩ := by
    intro i s u w i' s' h h'
    obtain ⟨hh, e, i2, s2, u2, w2, a1, a2, a3⟩ := hmate i s u w h
    have hu : u2 = u ∧ w2 = w := by
      obtain ⟨b1, b2, -⟩ := hsideCor _ _ _ _ h
      obtain ⟨b3, b4, -⟩ := hsideCor _ _ _ _ a1
      rw [b1] at b3; rw [b2] at b4
      exact ⟨(Option.some.inj b3).symm, (Option.some.inj b4).symm⟩
    obtain ⟨rfl, rfl⟩ := hu
    obtain ⟨rfl, rfl⟩ := hcl.uniq _ _ _ _ _ _ h' a2
    rw [Mesh.fsym_eq, e, a3]
    simp [fsym_bond]
  have gSide : ∀ i s u w, Mesh.Side R i s u w → ∃ i' s', i' < R.length ∧ Glued m' ⟨n0 + i, s⟩ ⟨n0 + i', s'⟩ := by
    intro i s u w h
    obtain ⟨i', s', h'⟩ := hcl.rev i s u w h
    obtain ⟨b1, b2, b3⟩ := hsideCor _ _ _ _ h
    obtain ⟨c1, c2, c3⟩ := hsideCor _ _ _ _ h'
    exact ⟨i', s', h'.lt, hfs _ _ _ _ _ _ h h', hfs _ _ _ _ _ _ h' h, by rw [c1, b2], by rw [c2, b1], by rw [c3, b3]⟩
  have newR : ∀ t, n0 ≤ t → t < m'.tets.length → ∃ i r, t = n0 + i ∧ R[i]? = some r := by
    intro t h1 h2
    exact ⟨t - n0, R[t - n0], by omega, List.getElem?_eq_getElem (by omega)⟩
  have newLive : ∀ i, i < R.length → liveAfter m m' live S (n0 + i) := fun i hi => .inr ⟨by omega, by omega⟩
  have hcons : Consistent m' (liveAfter m m' live S) := by
    refine ⟨?_, ?_⟩
    · rintro t (⟨h1, h2⟩ | ⟨h1, h2⟩)
      · obtain ⟨x, hx, hi⟩ := hc.corners t h1
        have := hdataOld t (liveLt t h1)
        rw [hx, Option.map_some, Option.map_eq_some_iff] at this
        obtain ⟨y, hy, hyd⟩ := this
        exact ⟨y, hy, by rw [hyd]; exact hi⟩
      · obtain ⟨i, r, rfl, hr⟩ := newR t h1 h2
        obtain ⟨x, hx, hxd⟩ := hdataNew i r hr
        refine ⟨x, hx, ?_⟩
        have hmem := List.mem_of_getElem? hr
        obtain ⟨n1, n2, n3⟩ := (hR r hmem).ne
        have p1 : r.o ≠ pid := fun h => hpfresh r hmem (.inr (.inl h.symm))
        have p2 : r.d ≠ pid := fun h => hpfresh r hmem (.inl h.symm)
        have p3 : r.a ≠ pid := fun h => hpfresh r hmem (.inr (.inr h.symm))
        rw [hxd]
        exact Mesh.vec_inj n1 p1 n2 p2 n3 (Ne.symm p3)
    · rintro t (⟨h1, h2⟩ | ⟨h1, h2⟩) v
      · obtain ⟨h, hl, g⟩ := hc.glued t h1 v
        by_cases hS' : S h.tet
        · obtain ⟨i, r, hr, ht, hfv⟩ := Mesh.outer_side hc hR hcover (H := ⟨t, v⟩) ⟨h1, h2, h, g.fwd, hS'⟩
          obtain ⟨h', e', -, g'⟩ := glued_rot (gOut i r hr).symm v hfv
          simp only at ht
          rw [ht] at g'
          exact ⟨h', by rw [e']; exact newLive i (List.getElem?_eq_some_iff.1 hr).1, g'⟩
        · refine ⟨h, .inl ⟨hl, hS'⟩, ?_⟩
          have k1 : ∀ (a b : TriFace), live a.tet → ¬ S a.tet → ¬ S b.tet → m.fsym a = some b → m'.fsym a = some b := by
            intro a b ha hna hnb e
            rw [Mesh.fsym_eq] at e ⊢
            rw [hslotOld a.tet (face a.ver) (liveLt _ ha) ?_]
            · exact e
            · rintro r hr ⟨q1, q2⟩
              obtain ⟨w, e', -⟩ := hslotb r hr
              rw [q1, q2] at e'
              rw [e', Option.map_some, Option.some.injEq] at e
              apply hnb
              rw [← e]; exact (hR r hr).inS
          obtain ⟨c1, c2, c3⟩ := hcorOld h (liveLt _ hl)
          obtain ⟨d1, d2, d3⟩ := hcorOld ⟨t, v⟩ (liveLt _ h1)
          exact ⟨k1 ⟨t, v⟩ h h1 h2 hS' g.fwd, k1 h ⟨t, v⟩ hl hS' h2 g.bwd, by rw [c1, d2, g.org], by rw [c2, d1, g.dest],
            by rw [c3, d3, g.apex]⟩
      · obtain ⟨i, r, rfl, hr⟩ := newR t h1 h2
        have hcase : ∀ v : Ver, face 11 = face v ∨ face 1 = face v ∨ face 8 = face v ∨ face 2 = face v := by decide +kernel
        rcases hcase v with h | h | h | h
        · obtain ⟨i', s', hi', g⟩ := gSide i 11 _ _ (.s11 hr)
          exact glued_of_face ⟨_, newLive i' hi', g⟩ v h
        · obtain ⟨i', s', hi', g⟩ := gSide i 1 _ _ (.s1 hr)
          exact glued_of_face ⟨_, newLive i' hi', g⟩ v h
        · obtain ⟨i', s', hi', g⟩ := gSide i 8 _ _ (.s8 hr)
          exact glued_of_face ⟨_, newLive i' hi', g⟩ v h
        · have G := hR r (List.mem_of_getElem? hr)
          exact glued_of_face ⟨_, .inl ⟨G.outer.1, G.outer.2.1⟩, gOut i r hr⟩ v h
  have hnP : m'.nPoints = m.nPoints := by
    rw [hn', hconn.n]; simp only [mg]; rw [hfill.n, hsame.n]
  have hp2t : m'.p2t = mf.p2t.set pid (some search.tet) := by rw [hp', hconn.p]
  have hoppo : ∀ i r, R[i]? = some r → m'.oppo ⟨n0 + i, 2⟩ = some pid := by
    intro i r hr
    obtain ⟨x, hx, hxd⟩ := hdataNew i r hr
    simp only [Mesh.oppo, hx, hxd, Option.map_some]; rfl
  refine ⟨m', search, ?_, hcons, ?_, ?_, ?_, ?_, hdataOld, ?_, ?_, ?_, by simp [search], ?_, ?_, hnP, ?_, ?_, ?_⟩
  · simp only [Mesh.insertSmall, e1, e2, Mesh.fillSmall, e3, hsearch, e4, e5, e6, Option.bind_eq_bind, Option.bind_some]
    simp only [Option.pure_def, Option.bind_some, e6]
  · rintro t (⟨h1, h2⟩ | ⟨h1, h2⟩) x hx i hi
    · have := hdataOld t (liveLt t h1)
      rw [hx, Option.map_some, eq_comm, Option.map_eq_some_iff] at this
      obtain ⟨y, hy, hyd⟩ := this
      exact hg t h1 y hy i (by rw [hyd, ← hnP]; exact hi)
    · obtain ⟨k, r, rfl, hr⟩ := newR t h1 h2
      obtain ⟨y, hy, hyd⟩ := hdataNew k r hr
      rw [hx] at hy; cases hy
      have G := hR r (List.mem_of_getElem? hr)
      rw [hnP, hyd] at hi
      obtain ⟨g1, g2⟩ := G.ghost
      fin_cases i
      · exact absurd hi g1
      · exact absurd hi g2
      · exact absurd hi hpn
      · rfl
  · rintro j x (⟨h1, h2⟩ | ⟨h1, h2⟩) hx
    · have hjold : j ∉ s.old := fun h => h2 ((hS j).1 h)
      have hj := liveLt j h1
      have hxh : mh.tets[j]? = some x := by
        rw [hkill] at hx
        cases hq : mh.tets[j]? with
        | none => rw [hq] at hx; cases hx
        | some z => rw [hq] at hx; simpa [hjold] using hx
      obtain ⟨z0, hz0⟩ : ∃ z0, s.mesh.tets[j]? = some z0 := ⟨_, List.getElem?_eq_getElem (by omega)⟩
      obtain ⟨z, hz, -, zi, -, zm⟩ := hfill.oldT j z0 hz0
      obtain ⟨y, hy, -, yi, ym, -⟩ := hconn.get (j := j) (x := z) hz
      rw [hxh] at hy; cases hy
      have hinf0 : z0.infected = false := by
        by_contra hcon
        exact hjold ((hinv.inf j z0 h1 hz0).1 (by simpa using hcon))
      refine ⟨by rw [yi, zi, hinf0], ?_⟩
      rw [ym]
      by_contra hcon
      obtain ⟨zm1, zm2⟩ := zm.1 (by simpa using hcon)
      rcases hinv.mark j z0 h1 hz0 zm1 with h | ⟨b, hb, h, hs', ht⟩
      · exact hjold h
      · have : b ∈ R.map (·.b) := by rw [hRB]; exact hb
        obtain ⟨r, hr, rfl⟩ := List.mem_map.1 this
        obtain ⟨xx, nei, q1, q2, q3⟩ := (hR r hr).bf.out
        have hnn : nei = h := by
          have := hsame.slot r.b.1 r.b.2
          rw [hs'] at this
          simpa [Mesh.slot, q1, q2] using this
        exact zm2 r hr (by rw [q3, hnn, ← ht]; split <;> rfl)
    · obtain ⟨k, r, rfl, hr⟩ := newR j h1 h2
      obtain ⟨y, hy, -, yi, ym, -⟩ := hconn.get (hnewf k r hr)
      have hko : n0 + k ∉ s.old := fun h => by have := liveLt _ (hinv.alive _ h); omega
      rw [hkill, hy] at hx
      simp only [hko, if_false, Option.map_some, Option.some.injEq] at hx
      subst hx
      exact ⟨yi, ym⟩
  · intro t h1 h2
    obtain ⟨i, r, rfl, hr⟩ := newR t h1 h2
    exact ⟨2, r.h, (hR r (List.mem_of_getElem? hr)).outer, gOut i r hr, hoppo i r hr⟩
  · intro H hH
    obtain ⟨i, r, hr, ht, hfv⟩ := Mesh.outer_side hc hR hcover hH
    obtain ⟨h', e', f', g'⟩ := glued_rot (gOut i r hr).symm H.ver hfv
    rw [ht] at g'
    simp only at e' f'
    have hil : i < R.length := (List.getElem?_eq_some_iff.1 hr).1
    refine ⟨h', ⟨g', by omega, by omega, ?_⟩, ?_⟩
    · have := hoppo i r hr
      simp only [Mesh.oppo, oppo_face] at this ⊢
      rw [e', f']; exact this
    · rintro h2 ⟨g2, -⟩
      exact Option.some.inj (g2.fwd.symm.trans g'.fwd)
  · intro t ht
    have hto := (hS t).2 ht
    have hlt := liveLt t (hSl t ht)
    have := hkill t
    rw [List.getElem?_eq_getElem (by omega : t < mh.tets.length)] at this
    simp only [hto, if_true, Option.map_some] at this
    exact ⟨_, this, rfl, rfl, rfl⟩
  · intro t x i h1 hx
    obtain ⟨k, r, rfl, hr⟩ := newR t h1 (List.getElem?_eq_some_iff.1 hx).1
    obtain ⟨y, hy, hyd⟩ := hdataNew k r hr
    rw [hx] at hy; cases hy
    have hmem := List.mem_of_getElem? hr
    have hlinkW : ∀ w, r.has w → LinkOk m' (liveAfter m m' live S) w := by
      intro w hw
      obtain ⟨i', r', hr', hh', hp⟩ := hfill.link.new w ⟨r, hmem, hw⟩
      rw [hlen] at hp
      obtain ⟨z, hz, hzd⟩ := hdataNew i' r' hr'
      have hwp : pid ≠ w := by rintro rfl; exact hpfresh r hmem hw
      refine ⟨n0 + i', z, by rw [hp2t, List.getElem?_set_ne hwp]; exact hp, newLive i' (List.getElem?_eq_some_iff.1 hr').1, hz, ?_⟩
      rcases hh' with rfl | rfl | rfl
      · exact ⟨1, by rw [hzd]; rfl⟩
      · exact ⟨0, by rw [hzd]; rfl⟩
      · exact ⟨3, by rw [hzd]; rfl⟩
    rw [hyd]
    fin_cases i
    · exact hlinkW _ (.inr (.inl rfl))
    · exact hlinkW _ (.inl rfl)
    · obtain ⟨r2, hr2⟩ : ∃ r2, R[s.bdry.length / 2]? = some r2 := ⟨_, List.getElem?_eq_getElem hk⟩
      obtain ⟨z, hz, hzd⟩ := hdataNew _ r2 hr2
      refine ⟨search.tet, z, ?_, newLive _ hk, hz, 2, by rw [hzd]; rfl⟩
      change m'.p2t[pid]? = _
      rw [hp2t, List.getElem?_set_self (by omega)]
    · exact hlinkW _ (.inr (.inr rfl))
  · intro w hw
    have hwp : pid ≠ w := by
      rintro rfl
      obtain ⟨x, hx, hxd⟩ := hdataNew i0 r0 hi0
      exact hw _ x 2 (by omega) hx (by rw [hxd]; rfl)
    rw [hp2t, List.getElem?_set_ne hwp, hfill.link.other w ?_, hsame.p]
    rintro ⟨r, hr, hh⟩
    obtain ⟨i, hi⟩ := List.getElem?_of_mem hr
    obtain ⟨x, hx, hxd⟩ := hdataNew i r hi
    rcases hh with rfl | rfl | rfl
    · exact hw _ x 1 (by omega) hx (by rw [hxd]; rfl)
    · exact hw _ x 0 (by omega) hx (by rw [hxd]; rfl)
    · exact hw _ x 3 (by omega) hx (by rw [hxd]; rfl)
  · simp only [search]; omega
  · rw [hp2t, List.getElem?_set_self (by omega)]
  · rw [hp2t, List.length_set, hplen]
  · intro j hj hset
    have hjold : j ∉ s.old := fun h => hj (hinv.alive j h)
    obtain ⟨z0, hz0, f1, f2, f3⟩ := Mesh.cavityLoop_allSet _ _ _ _ e2 (Mesh.infectAll_allSet _ _ _ e1 hset)
    obtain ⟨z, hz, -, zi, zd, zm⟩ := hfill.oldT j z0 hz0
    obtain ⟨y, hy, -, yi, ym, yd⟩ := hconn.get (j := j) (x := z) hz
    refine ⟨y, ?_, by rw [yi, zi, f1], ?_, by rw [yd, zd, f3]⟩
    · rw [hkill, hy]; simp [hjold]
    · rw [ym]
      exact zm.2 ⟨f2, fun r hr h => hj (h ▸ (hR r hr).outer.1)⟩
  · intro m1' s' h1 h2
    rw [e1] at h1; cases h1
    rw [e2] at h2; cases h2
    rw [hm'len, hRlen]

/-- C60. Inserting a vertex into a consistent mesh, for every outcome of point location (`seed`) and of the in-sphere tests
(`test`): if the boundary of the resulting cavity is an edge-manifold surface and not empty, then the insertion succeeds and
* the new mesh is again consistent, ghost vertices are still last corners, and no search flags remain on live tetrahedra;
* there is exactly one new tetrahedron glued to each boundary face, with the new point as the corner opposite to it;
* tetrahedra outside the cavity keep their corners, those of the cavity are marked dead;
* `p2t` of the new point and of all vertices of the cavity boundary name live tetrahedra having them as corners; other
  links are unchanged;
* the search handle names a new tetrahedron. -/
theorem c60_insert_vertex (m : Mesh) (live : Nat → Prop) (hc : Consistent m live) (hg : GhostLast m live)
    (hclean : ∀ j x, live j → m.tets[j]? = some x → x.infected = false ∧ x.marked = false)
    (hlink : ∀ t x i, live t → m.tets[t]? = some x → ∃ t' x', m.p2t[x.data i]? = some (some t') ∧ m.tets[t']? = some x')
    (pid : Nat) (hpid : pid < m.p2t.length) (hpn : pid ≠ m.nPoints)
    (hfresh : ∀ (j : Nat) (x : Tet) (i : Fin 4), m.tets[j]? = some x → x.data i ≠ pid)
    (test : Nat → Bool) (seed : List Nat) (hsn : seed.Nodup) (hsl : ∀ c ∈ seed, live c)
    (hman : EdgeManifold m live (CavityReach m test seed)) (hne : ∃ H, Outer m live (CavityReach m test seed) H)
    (fuel : Nat) (hf : m.tets.length < fuel) :
    ∃ m' search, m.insertSmall fuel test seed pid = some (m', search) ∧
      Consistent m' (liveAfter m m' live (CavityReach m test seed)) ∧
      GhostLast m' (liveAfter m m' live (CavityReach m test seed)) ∧
      (∀ j x, liveAfter m m' live (CavityReach m test seed) j → m'.tets[j]? = some x →
        x.infected = false ∧ x.marked = false) ∧
      (∀ t, m.tets.length ≤ t → t < m'.tets.length → ∃ v H, Outer m live (CavityReach m test seed) H ∧
        Glued m' ⟨t, v⟩ H ∧ m'.oppo ⟨t, v⟩ = some pid) ∧
      (∀ H, Outer m live (CavityReach m test seed) H → ∃! h : TriFace, Glued m' H h ∧ m.tets.length ≤ h.tet ∧
        h.tet < m'.tets.length ∧ m'.oppo h = some pid) ∧
      (∀ j : Nat, j < m.tets.length → (m'.tets[j]?).map (·.data) = (m.tets[j]?).map (·.data)) ∧
      (∀ t, CavityReach m test seed t → ∃ x, m'.tets[t]? = some x ∧ x.infected = true ∧ x.marked = true ∧ x.dead = true) ∧
      (∀ t x i, m.tets.length ≤ t → m'.tets[t]? = some x → LinkOk m' (liveAfter m m' live (CavityReach m test seed)) (x.data i)) ∧
      (∀ w, (∀ t x i, m.tets.length ≤ t → m'.tets[t]? = some x → x.data i ≠ w) → m'.p2t[w]? = m.p2t[w]?) ∧
      m.tets.length ≤ search.tet ∧ search.tet < m'.tets.length ∧ m'.p2t[pid]? = some (some search.tet) := by
  obtain ⟨m', search, h1, h2, h3, h4, h5, h6, h7, h8, h9, h10, h11, h12, h13, -⟩ :=
    insert_vertex_all m live hc hg hclean hlink pid hpid hpn hfresh test seed hsn hsl hman hne fuel hf
  exact ⟨m', search, h1, h2, h3, h4, h5, h6, h7, h8, h9, h10, h11, h12, h13⟩

/-! A concrete case: the five initial tetrahedra on the points 0-3 of five, and the point 4 inside the solid one. -/

/-- The initial mesh on five points. -/
def exMesh : Mesh := ((initialDelaunay (Mesh.new 5) 0 1 2 3).map (·.1)).getD (Mesh.new 5)

theorem exMesh_eq : initialDelaunay (Mesh.new 5) 0 1 2 3 = some (exMesh, ⟨0, 11⟩) := by rfl

theorem exReach (t : Nat) : CavityReach exMesh (fun _ => false) [0] t ↔ t = 0 := by
  constructor
  · intro h
    cases h with
    | seed h => simpa using h
    | grow _ _ _ h => cases h
  · rintro rfl; exact .seed (by simp)

end Verif.Tet
