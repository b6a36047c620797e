import Verif.Delaunay.Start
/-!
# Point location in a Delaunay complex stops
-/
namespace Verif.Delaunay
open Tet
open InSphere (Pt orient3d insphere insphereS doubleToSign liftedDet Ori)

variable {K : Type} [Field K] [LinearOrder K] [IsStrictOrderedRing K]

section
variable {pts : List (Pt K)} {V : Nat → Vec K} {p0 p1 p2 p3 : Nat} {m : Mesh} {live U : Nat → Prop} (D : Dt pts V p0 p1 p2 p3 m live U)
include D

omit [IsStrictOrderedRing K] D in
theorem get_pt {i : Nat} (h : i < pts.length) : pts[i]? = some (pt pts i) := by
  simp [pt, List.getD, h]

/-- A Delaunay complex satisfies the hypothesis of C62. -/
theorem Dt.embedded : Embedded m live pts := by
  refine ⟨D.reg.cons, ?_, ?_⟩
  · intro t x hl hx h3
    rw [D.num] at h3
    have hs : Sees m ⟨t, 11⟩ x (x.data 0) (x.data 1) (x.data 2) (x.data 3) := ⟨hx, rfl, rfl, rfl, rfl⟩
    have hn : ∀ i, x.data i ≠ pts.length := fun i e => h3 (by rw [← D.num] at e ⊢; have := D.last t hl x hx i e; rw [this] at e; exact e)
    obtain ⟨l1, l2, l3, l4⟩ := D.lt (h := ⟨t, 11⟩) hl hs
    refine ⟨_, _, _, _, get_pt (l1 (hn 0)), get_pt (l2 (hn 1)), get_pt (l3 (hn 2)), get_pt (l4 (hn 3)), ?_⟩
    have := D.solid t x hl hx h3
    rw [D.solid_orient hs (l1 (hn 0)) (l2 (hn 1)) (l3 (hn 2)) (l4 (hn 3))] at this
    linarith
  · intro t x hl hx h3
    rw [D.num] at h3
    have hs : Sees m ⟨t, 11⟩ x (x.data 0) (x.data 1) (x.data 2) (x.data 3) := ⟨hx, rfl, rfl, rfl, rfl⟩
    rw [h3] at hs
    obtain ⟨g, y, e, gl, hg, gs⟩ := glued_sees D.reg.cons (h := ⟨t, 11⟩) hl hs
    obtain ⟨-, -, -, -, -, hy3⟩ := D.behind (h := ⟨t, 11⟩) hl gl hs gs
    have hf := hg.fwd
    simp only [Mesh.fsym, hx, Option.bind_eq_bind, Option.bind_eq_some_iff, Option.pure_def, Option.some.injEq, exists_eq_left'] at hf
    obtain ⟨nf, hnf, hh⟩ := hf
    have ht' : nf.tet = g.tet := by rw [← hh]
    exact ⟨nf, hnf, ht' ▸ gl, y, by rw [ht']; exact gs.get, by rw [D.num]; exact hy3⟩

omit D in
/-- If a round does not end the walk, it crosses a face beyond which the point lies. -/
theorem step_cross {pid : Nat} {p : Pt K} (hp : pts[pid]? = some p) {t s : TriFace} {ia ib ic id' : Nat} {a b c d : Pt K} (hc : Corners m pts t ia ib ic id' a b c d)
    (e : m.locateStep pts pid t = some (s, none)) :
    (0 < orient3d c b d p ∧ m.cross t.enextEsym = some (s, none)) ∨ (0 < orient3d a c d p ∧ m.cross t.eprevEsym = some (s, none)) ∨
    (0 < orient3d b a d p ∧ m.cross t.esym = some (s, none)) := by
  simp only [Mesh.locateStep, orientIdx, hc.org, hc.dest, hc.apex, hc.oppo, hc.pa, hc.pb, hc.pc, hc.pd, hp, Option.bind_eq_bind,
    Option.bind_some, Option.pure_def] at e
  split at e
  · simp at e
  split at e
  · rename_i h; exact .inl ⟨by rw [orient_flip]; linarith, e⟩
  split at e
  · rename_i h; exact .inr (.inl ⟨by rw [orient_flip]; linarith, e⟩)
  split at e
  · rename_i h; exact .inr (.inr ⟨by rw [orient_flip]; linarith, e⟩)
  exfalso
  (repeat' split at e) <;> simp at e

/-- Solid live tetrahedra. -/
def SolidAt (m : Mesh) (live : Nat → Prop) (n t : Nat) : Prop := live t ∧ ∃ x, m.tets[t]? = some x ∧ x.data 3 ≠ n

/-- The height of the point over the plane of a tetrahedron. -/
noncomputable def over (V : Nat → Vec K) (m : Mesh) (z : Vec K) (t : Nat) : K := match m.tets[t]? with | some x => phi V x z / phi V x up | none => 0

omit [IsStrictOrderedRing K] D in
theorem over_eq {t : Nat} {x : Tet.Tet} (hx : m.tets[t]? = some x) (z : Vec K) : over V m z t = phi V x z / phi V x up := by
  simp [over, hx]

theorem Dt.step_down {pid : Nat} (hp : pid < pts.length) {t s : TriFace} (hi : WalkInv m live pts (pt pts pid) t) (e : m.locateStep pts pid t = some (s, none)) :
    SolidAt m live pts.length s.tet ∧ over V m (V pid) s.tet < over V m (V pid) t.tet := by
  have he := D.embedded
  obtain ⟨ia, ib, ic, id', a, b, c, d, hc, hv⟩ := corners_exist he hi.live hi.solid
  have main : ∀ (h : TriFace) ia ib ic id' a b c d, h.tet = t.tet → Corners m pts h ia ib ic id' a b c d → 0 < orient3d a b c (pt pts pid) → m.cross h = some (s, none) →
      SolidAt m live pts.length s.tet ∧ over V m (V pid) s.tet < over V m (V pid) t.tet := by
    intro h ia ib ic id' a b c d ht hc ho hcr
    have hlh : live h.tet := by rw [ht]; exact hi.live
    obtain ⟨x, hx, h3⟩ := hi.solid
    rw [← ht] at hx
    have hs : Sees m h x ia ib ic id' := ⟨hx, by simpa [Mesh.org, hx] using hc.org, by simpa [Mesh.dest, hx] using hc.dest, by simpa [Mesh.apex, hx] using hc.apex,
      by simpa [Mesh.oppo, hx] using hc.oppo⟩
    obtain ⟨la, rfl⟩ := pt_of_get hc.pa
    obtain ⟨lb, rfl⟩ := pt_of_get hc.pb
    obtain ⟨lc, rfl⟩ := pt_of_get hc.pc
    obtain ⟨ld, rfl⟩ := pt_of_get hc.pd
    obtain ⟨g, y, e, gl, hg, gs⟩ := glued_sees D.reg.cons hlh hs
    have hf := hg.fwd
    simp only [Mesh.fsym, hx, Option.bind_eq_bind, Option.bind_eq_some_iff, Option.pure_def, Option.some.injEq, exists_eq_left'] at hf
    obtain ⟨nf, hnf, hh⟩ := hf
    have ht' : nf.tet = g.tet := by rw [← hh]
    have hhull : m.isHull nf.tet = some (y.data 3 == m.nPoints) := by simp [Mesh.isHull, ht', gs.get]
    have hsn : s = nf ∧ y.data 3 ≠ m.nPoints := by
      simp only [Mesh.cross, hx, hnf, hhull, Option.bind_eq_bind, Option.bind_some, Option.pure_def] at hcr
      split at hcr
      · simp at hcr
      · rename_i hne
        simp only [Option.some.injEq, Prod.mk.injEq, and_true] at hcr
        exact ⟨hcr.symm, by simpa using hne⟩
    obtain ⟨rfl, hy3⟩ := hsn
    rw [D.num] at hy3
    rw [ht']
    refine ⟨⟨gl, y, gs.get, hy3⟩, ?_⟩
    have k1 := (D.solidS hlh hs la.ne lb.ne lc.ne ld.ne).1
    have k2 := D.solid _ y gl gs.get hy3
    have k3 := D.reg.cross hlh gl hs gs (V pid) up (by rw [D.lift.br_up la lb lc hp]; linarith)
    rw [← ht, over_eq gs.get, over_eq hx, div_lt_div_iff₀ k2 k1]
    linarith
  rcases step_cross (get_pt hp) hc e with ⟨h1, h2⟩ | ⟨h1, h2⟩ | ⟨h1, h2⟩
  · exact main t.enextEsym _ _ _ _ _ _ _ _ rfl hc.enextEsym h1 h2
  · exact main t.eprevEsym _ _ _ _ _ _ _ _ rfl hc.eprevEsym h1 h2
  · exact main t.esym _ _ _ _ _ _ _ _ rfl hc.esym h1 h2

/-- In a Delaunay complex point location stops after at most as many rounds as there are tetrahedra, with a right answer. -/
theorem Dt.locate {pid : Nat} (hp : pid < pts.length) {s : TriFace} (hl : live s.tet) {fuel : Nat} (hf : m.tets.length < fuel) :
    ∃ loc r, m.locateDt pts fuel pid s = some (loc, r) ∧ live r.tet ∧ Answer m live pts (pt pts pid) r loc := by
  classical
  have he := D.embedded
  obtain ⟨t0, h0, hi0⟩ := locateStart_spec he (get_pt hp) hl
  let lower : Nat → Finset Nat := fun t => (Finset.range m.tets.length).filter fun t' => SolidAt m live pts.length t' ∧ over V m (V pid) t' < over V m (V pid) t
  have main : ∀ fuel t, WalkInv m live pts (pt pts pid) t → (lower t.tet).card < fuel → ∃ r, m.locateLoop pts pid fuel t = some r := by
    intro fuel
    induction fuel with
    | zero => intro t _ h; omega
    | succ n ih =>
      intro t hi hc
      obtain ⟨s', ⟨e', hi'⟩ | ⟨loc', e', hl', ha'⟩⟩ := locateStep_spec he (get_pt hp) hi
      · obtain ⟨hsol, hlt⟩ := D.step_down hp hi e'
        obtain ⟨r, hr⟩ := ih s' hi' (by
          have hsub : lower s'.tet ⊂ lower t.tet := by
            refine Finset.ssubset_iff_of_subset ?_ |>.2 ⟨s'.tet, ?_, ?_⟩
            · intro u hu
              simp only [lower, Finset.mem_filter] at hu ⊢
              exact ⟨hu.1, hu.2.1, hu.2.2.trans hlt⟩
            · simp only [lower, Finset.mem_filter, Finset.mem_range]
              obtain ⟨x, hx, -⟩ := hsol.2
              exact ⟨(List.getElem?_eq_some_iff.1 hx).1, hsol, hlt⟩
            · simp [lower]
          have := Finset.card_lt_card hsub
          omega)
        exact ⟨r, by simp [Mesh.locateLoop, e', hr]⟩
      · exact ⟨(loc', s'), by simp [Mesh.locateLoop, e']⟩
  have hcard : (lower t0.tet).card < fuel := by
    have := Finset.card_filter_le (Finset.range m.tets.length) (fun t' => SolidAt m live pts.length t' ∧ over V m (V pid) t' < over V m (V pid) t0.tet)
    rw [Finset.card_range] at this
    exact lt_of_le_of_lt this hf
  obtain ⟨⟨loc, r⟩, hr⟩ := main fuel t0 hi0 hcard
  have e : m.locateDt pts fuel pid s = some (loc, r) := by simp [Mesh.locateDt, h0, hr]
  obtain ⟨k1, k2⟩ := (c62_locate he (get_pt hp) s hl).2 fuel loc r e
  exact ⟨loc, r, e, k1, k2⟩

end
end Verif.Delaunay
