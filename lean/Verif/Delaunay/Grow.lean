import Verif.Delaunay.Reg
import Verif.Tet.Insert
/-!
# Inserting a vertex keeps a complex regular
-/
namespace Verif.Delaunay
open Tet

variable {K : Type} [Field K] [LinearOrder K] [IsStrictOrderedRing K]

section Handles
variable {m : Mesh} {h : TriFace} {x : Tet.Tet} {a b c d : Nat}
theorem Sees.eprev (hs : Sees m h x a b c d) : Sees m h.eprev x c a b d := by
  obtain ⟨h1, h2, h3, h4⟩ := tbl_eprev h.ver
  refine ⟨hs.get, ?_, ?_, ?_, ?_⟩ <;> simp only [TriFace.eprev, h1, h2, h3, h4]
  exacts [hs.apex, hs.org, hs.dest, hs.oppo]
theorem Sees.enext (hs : Sees m h x a b c d) : Sees m h.enext x b c a d := by
  obtain ⟨h1, h2, h3, h4⟩ := tbl_enext h.ver
  refine ⟨hs.get, ?_, ?_, ?_, ?_⟩ <;> simp only [TriFace.enext, h1, h2, h3, h4]
  exacts [hs.dest, hs.apex, hs.org, hs.oppo]
end Handles

theorem face_turns : ∀ v : Ver, face (enext v) = face v ∧ face (eprev v) = face v := by decide +kernel

omit [LinearOrder K] [IsStrictOrderedRing K] in
theorem phi_congr {V : Nat → Vec K} {x y : Tet.Tet} (h : x.data = y.data) : phi V x = phi V y := by unfold phi; rw [h]

theorem cover_back {f g : Fin 4 → Nat} (hf : Function.Injective f) (h : ∀ i, ∃ j, f i = g j) (j : Fin 4) : ∃ i, g j = f i := by
  choose k hk using h
  have hi : Function.Injective k := fun a b e => hf (by rw [hk, hk, e])
  obtain ⟨i, rfl⟩ := (Finite.injective_iff_surjective.1 hi) j
  exact ⟨i, (hk i).symm⟩

variable {V : Nat → Vec K} {m : Mesh} {live U : Nat → Prop}

/-- A boundary face of the conflict set, from both sides. -/
theorem Reg.outer_desc (R : Reg V m live U) {p : Vec K} (hgen : ∀ t x, live t → m.tets[t]? = some x → phi V x p ≠ 0) (H : TriFace) (ho : Outer m live (InConflict V m live p) H) :
    ∃ (h : TriFace) (x y : Tet.Tet) (a b c d e : Nat), live h.tet ∧ live H.tet ∧ Glued m H h ∧ Sees m h x a b c d ∧ Sees m H y b a c e ∧ phi V x p < 0 ∧ 0 < phi V y p := by
  obtain ⟨hl, hn, g, hg, hgl, x, hx, hneg⟩ := ho
  obtain ⟨-, gl⟩ := R.cons.glued_of_fsym hl hg
  obtain ⟨y, hy, -⟩ := R.cons.corners _ hl
  obtain ⟨g', x', e, gl', hg', gs⟩ := glued_sees R.cons hl (sees_of_get hy)
  have := hg'.fwd
  rw [hg] at this; cases this
  rw [gs.get] at hx; cases hx
  refine ⟨g, x, y, _, _, _, _, _, gl', hl, gl, gs, sees_of_get hy, hneg, ?_⟩
  refine lt_of_le_of_ne ?_ (Ne.symm (hgen _ _ hl hy))
  by_contra hlt
  exact hn ⟨hl, y, hy, not_le.1 hlt⟩

/-- What C60 says about the new tetrahedra. -/
structure Inserted (m m' : Mesh) (live S : Nat → Prop) (pid : Nat) : Prop where
  cons : Consistent m' (liveAfter m m' live S)
  fresh : ∀ t, m.tets.length ≤ t → t < m'.tets.length → ∃ v H, Outer m live S H ∧ Glued m' ⟨t, v⟩ H ∧ m'.oppo ⟨t, v⟩ = some pid
  data : ∀ j : Nat, j < m.tets.length → (m'.tets[j]?).map (·.data) = (m.tets[j]?).map (·.data)

theorem Inserted.old {S : Nat → Prop} {m' : Mesh} {pid : Nat} (I : Inserted m m' live S pid) {j : Nat} {x : Tet.Tet} (hj : j < m.tets.length) (hx : m'.tets[j]? = some x) :
    ∃ y, m.tets[j]? = some y ∧ x.data = y.data := by
  have := I.data j hj
  rw [hx] at this
  obtain ⟨y, hy, e⟩ := Option.map_eq_some_iff.1 this.symm
  exact ⟨y, hy, e.symm⟩

theorem Inserted.old' {S : Nat → Prop} {m' : Mesh} {pid : Nat} (I : Inserted m m' live S pid) {j : Nat} {x : Tet.Tet} (hx : m.tets[j]? = some x) :
    ∃ y, m'.tets[j]? = some y ∧ y.data = x.data := by
  have := I.data j (List.getElem?_eq_some_iff.1 hx).1
  rw [hx] at this
  obtain ⟨y, hy, e⟩ := Option.map_eq_some_iff.1 this
  exact ⟨y, hy, e⟩

/-- The new tetrahedron on a boundary face. -/
theorem Inserted.sees (R : Reg V m live U) {p : Vec K} (hgen : ∀ t x, live t → m.tets[t]? = some x → phi V x p ≠ 0) {m' : Mesh} {pid : Nat} (I : Inserted m m' live (InConflict V m live p) pid)
    {t : Nat} {z : Tet.Tet} (h1 : m.tets.length ≤ t) (hz : m'.tets[t]? = some z) :
    ∃ (v : Ver) (H h : TriFace) (x y : Tet.Tet) (a b c d e : Nat), live h.tet ∧ live H.tet ∧ Outer m live (InConflict V m live p) H ∧ Glued m H h ∧ Sees m h x a b c d ∧ Sees m H y b a c e ∧ phi V x p < 0 ∧ 0 < phi V y p ∧
      Sees m' ⟨t, v⟩ z a b c pid ∧ m'.fsym H = some ⟨t, v⟩ := by
  obtain ⟨v, H, ho, hg, hop⟩ := I.fresh t h1 (List.getElem?_eq_some_iff.1 hz).1
  obtain ⟨h, x, y, a, b, c, d, e, l1, l2, g, s1, s2, q1, q2⟩ := R.outer_desc hgen H ho
  obtain ⟨y', hy', ey⟩ := I.old' s2.get
  refine ⟨v, H, h, x, y, a, b, c, d, e, l1, l2, ho, g, s1, s2, q1, q2, ⟨hz, ?_, ?_, ?_, ?_⟩, hg.bwd⟩
  · have := hg.dest
    simp only [Mesh.org, Mesh.dest, hy', hz, Option.map_some, Option.some.injEq, ey, s2.dest] at this
    exact this.symm
  · have := hg.org
    simp only [Mesh.org, Mesh.dest, hy', hz, Option.map_some, Option.some.injEq, ey, s2.org] at this
    exact this.symm
  · have := hg.apex
    simp only [Mesh.apex, hy', hz, Option.map_some, Option.some.injEq, ey, s2.apex] at this
    exact this.symm
  · simpa [Mesh.oppo, hz] using hop

/-- Inserting a vertex keeps a complex regular. -/
theorem Reg.insert (R : Reg V m live U) {pid : Nat} (hpU : ¬ U pid) (hgen : ∀ t x, live t → m.tets[t]? = some x → phi V x (V pid) ≠ 0) {m' : Mesh}
    (I : Inserted m m' live (InConflict V m live (V pid)) pid) :
    Reg V m' (liveAfter m m' live (InConflict V m live (V pid))) (fun q => U q ∨ q = pid) := by
  have live_lt : ∀ t, live t → t < m.tets.length := fun t ht => by
    obtain ⟨x, hx, -⟩ := R.cons.corners _ ht; exact (List.getElem?_eq_some_iff.1 hx).1
  have oldMem : ∀ t x, live t → m'.tets[t]? = some x → ∀ i, U (x.data i) := by
    intro t x hl hx i
    obtain ⟨y, hy, e⟩ := I.old (live_lt t hl) hx
    rw [e]; exact R.mem _ _ _ hl hy
  have newMem : ∀ t x, m.tets.length ≤ t → m'.tets[t]? = some x → (∀ i, U (x.data i) ∨ x.data i = pid) ∧ ∃ i, x.data i = pid := by
    intro t z h1 hz
    obtain ⟨v, H, h, x, y, a, b, c, d, e, l1, l2, ho, g, s1, s2, q1, q2, s3, -⟩ := I.sees R hgen h1 hz
    obtain ⟨ua, ub, uc, ud⟩ := R.memO l1 s1
    refine ⟨fun i => ?_, (s3.corner pid).2 (by simp)⟩
    rcases (s3.corner (z.data i)).1 ⟨i, rfl⟩ with e | e | e | e
    · exact .inl (e ▸ ua)
    · exact .inl (e ▸ ub)
    · exact .inl (e ▸ uc)
    · exact .inr e
  have inj' : ∀ t x, liveAfter m m' live (InConflict V m live (V pid)) t → m'.tets[t]? = some x → Function.Injective x.data := by
    intro t x hl hx
    obtain ⟨y, hy, hi⟩ := I.cons.corners _ hl
    rw [hx] at hy; cases hy; exact hi
  refine ⟨I.cons, ?_, ?_, ?_⟩
  · rintro t x i (⟨hl, -⟩ | ⟨h1, -⟩) hx
    · exact .inl (oldMem t x hl hx i)
    · exact (newMem t x h1 hx).1 i
  · rintro t x q (⟨hl, hn⟩ | ⟨h1, -⟩) hx hq hne
    · obtain ⟨y, hy, e⟩ := I.old (live_lt t hl) hx
      rw [phi_congr e]
      rcases hq with hq | rfl
      · exact R.pos t y q hl hy hq (fun i => by rw [← e]; exact hne i)
      · refine lt_of_le_of_ne ?_ (Ne.symm (hgen _ _ hl hy))
        by_contra hlt
        exact hn ⟨hl, y, hy, not_le.1 hlt⟩
    · obtain ⟨v, H, h, x', y, a, b, c, d, e, l1, l2, ho, g, s1, s2, q1, q2, s3, -⟩ := I.sees R hgen h1 hx
      have hc : ∀ q', (q' = a ∨ q' = b ∨ q' = c ∨ q' = pid) → q ≠ q' := by
        intro q' h' e'
        obtain ⟨i, hi⟩ := (s3.corner q').2 h'
        exact hne i (hi.trans e'.symm)
      rcases hq with hq | rfl
      · rw [s3.phi]
        exact R.new_pos l1 l2 s1 s2 q1 q2 hq (hc _ (by simp)) (hc _ (by simp)) (hc _ (by simp))
      · exact absurd rfl (hc _ (by simp))
  · intro s t x y hs ht hx hy hcov
    have hback := cover_back (inj' s x hs hx) hcov
    rcases hs with ⟨sl, sn⟩ | ⟨s1, s1'⟩ <;> rcases ht with ⟨tl, tn⟩ | ⟨t1, t1'⟩
    · obtain ⟨x', hx', ex⟩ := I.old (live_lt s sl) hx
      obtain ⟨y', hy', ey⟩ := I.old (live_lt t tl) hy
      exact R.uniq s t x' y' sl tl hx' hy' (by rw [← ex, ← ey]; exact hcov)
    · exfalso
      obtain ⟨i, hi⟩ := (newMem t y t1 hy).2
      obtain ⟨j, hj⟩ := hback i
      apply hpU
      rw [← hi, hj]; exact oldMem s x sl hx j
    · exfalso
      obtain ⟨i, hi⟩ := (newMem s x s1 hx).2
      obtain ⟨j, hj⟩ := hcov i
      apply hpU
      rw [← hi, hj]; exact oldMem t y tl hy j
    · obtain ⟨v1, H1, h1, x1, y1, a1, b1, c1, d1, e1, l1, L1, o1, g1, ss1, S1, n1, p1, z1, f1⟩ := I.sees R hgen s1 hx
      obtain ⟨v2, H2, h2, x2, y2, a2, b2, c2, d2, e2, l2, L2, o2, g2, ss2, S2, n2, p2, z2, f2⟩ := I.sees R hgen t1 hy
      obtain ⟨ua, ub, uc, ud⟩ := R.memO l1 ss1
      obtain ⟨ua2, ub2, uc2, ud2⟩ := R.memO l2 ss2
      have cov2 : ∀ q, (q = a2 ∨ q = b2 ∨ q = c2) → q = a1 ∨ q = b1 ∨ q = c1 := by
        intro q hq
        have hqU : U q := by rcases hq with e | e | e <;> rw [e] <;> assumption
        obtain ⟨j, hj⟩ := (z2.corner q).2 (by tauto)
        obtain ⟨i, hi⟩ := hback j
        rcases (z1.corner q).1 ⟨i, by rw [← hi, hj]⟩ with e | e | e | e
        · exact .inl e
        · exact .inr (.inl e)
        · exact .inr (.inr e)
        · exact absurd (e ▸ hqU) hpU
      have hne2 := S2.ne (R.inj L2 S2.get)
      have fin_even : ∀ (G : TriFace) e, G.tet = H2.tet → face G.ver = face H2.ver → Sees m G y2 b1 a1 c1 e → s = t := by
        intro G e hG hf hs
        have heq := R.same_side L1 (by rw [hG]; exact L2) S1 hs
        subst heq
        simp only [Mesh.fsym, Option.bind_eq_bind, Option.bind_eq_some_iff, Option.pure_def, Option.some.injEq, TriFace.mk.injEq] at f1 f2
        obtain ⟨X, hX, nf, hnf, e1, -⟩ := f1
        obtain ⟨Y, hY, nf', hnf', e2, -⟩ := f2
        rw [hG, hY] at hX; cases hX
        rw [hf, hnf'] at hnf; cases hnf
        rw [← e1, ← e2]
      have fin_odd : ∀ (G : TriFace) e, G.tet = H2.tet → Sees m G y2 a1 b1 c1 e → s = t := by
        intro G e hG hs
        exfalso
        have heq := R.same_side l1 (by rw [hG]; exact L2) ss1 hs
        apply o2.2.1
        rw [← hG, ← heq]
        exact ⟨l1, x1, ss1.get, n1⟩
      have r1 := (face_turns H2.ver).1
      have r2 := (face_turns H2.ver).2
      have k1 := cov2 a2 (by simp)
      have k2 := cov2 b2 (by simp)
      have k3 := cov2 c2 (by simp)
      rcases k1 with rfl | rfl | rfl <;> rcases k2 with rfl | rfl | rfl <;> rcases k3 with rfl | rfl | rfl <;>
        first
          | exact fin_even H2 _ rfl rfl S2
          | exact fin_even H2.enext _ rfl r1 S2.enext
          | exact fin_even H2.eprev _ rfl r2 S2.eprev
          | exact fin_odd H2 _ rfl S2
          | exact fin_odd H2.enext _ rfl S2.enext
          | exact fin_odd H2.eprev _ rfl S2.eprev
          | (exfalso; tauto)

/-- The cavity found by the search from seeds in conflict is the set of all tetrahedra in conflict. -/
theorem Reg.cavity_eq (R : Reg V m live U) {p : Vec K} {test : Nat → Bool} (htest : ∀ t, live t → (test t = true ↔ InConflict V m live p t))
    {seed : List Nat} (hs : ∀ c ∈ seed, InConflict V m live p c) (hne : seed ≠ []) (t : Nat) : CavityReach m test seed t ↔ InConflict V m live p t := by
  constructor
  · intro h
    induction h with
    | seed hc => exact hs _ hc
    | @grow c x f h hr hx hn ht ih =>
      obtain ⟨g, hgl, gl⟩ := R.cons.glued c ih.1 (verOfFace f)
      have hf := gl.fwd
      simp only [Mesh.fsym, hx, Option.bind_eq_bind, Option.bind_eq_some_iff, Option.pure_def, Option.some.injEq, face_verOfFace, exists_eq_left'] at hf
      obtain ⟨nf, hnf, hh⟩ := hf
      rw [hn] at hnf; cases hnf
      have : g.tet = h.tet := by rw [← hh]
      exact (htest _ (this ▸ hgl)).1 ht
  · intro h
    obtain ⟨c, hc⟩ := List.exists_mem_of_ne_nil _ hne
    have hl := R.connected h (hs c hc)
    induction hl with
    | base _ => exact CavityReach.seed hc
    | @step h' g hl' hg hconf ih =>
      have hf := hg.fwd
      simp only [Mesh.fsym, Option.bind_eq_bind, Option.bind_eq_some_iff, Option.pure_def, Option.some.injEq] at hf
      obtain ⟨x, hx, nf, hnf, hh⟩ := hf
      have : nf.tet = g.tet := by rw [← hh]
      exact this ▸ CavityReach.grow (ih hl'.conf) hx hnf (by rw [this]; exact (htest _ hconf.1).2 hconf)

end Verif.Delaunay
