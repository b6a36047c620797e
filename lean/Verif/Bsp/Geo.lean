import Verif.Bsp.Reshape
import Verif.Bsp.SplitCell
/-!
# Complexes whose cells are convex

Every face is a convex polygon in a plane that has all vertices of the cells of the face on the proper sides, and faces of the same cell do not overlap.
-/
namespace Verif.Bsp
open InSphere (Pt)
open Geom (lerp)

variable {K : Type} [Field K] [LinearOrder K] [IsStrictOrderedRing K]

/-- Vertex `x` belongs to a face of cell `k`. -/
def OfCell (cl : List (Nat × Option Nat)) (fs : List Cycle) (k x : Nat) : Prop := ∃ (j : Nat) (Q : Nat × Option Nat) (d : Cycle), cl[j]? = some Q ∧ sg Q k ≠ 0 ∧ fs[j]? = some d ∧ ∃ y ∈ d, y.1 = x

/-- A plane that does not contain both faces has them on different sides. -/
def Apart (pos : Nat → Pt K) (c d : Cycle) : Prop :=
  ∃ ψ : Aff K, (∀ x ∈ c, ψ.ev (pos x.1) ≤ 0) ∧ (∀ x ∈ d, 0 ≤ ψ.ev (pos x.1)) ∧ ((∃ x ∈ c, ψ.ev (pos x.1) < 0) ∨ ∃ x ∈ d, 0 < ψ.ev (pos x.1))

/-- The vertices lie at `pos`, and face `i` lies in the plane `pl i = 0`. -/
structure Geo (pos : Nat → Pt K) (pl : Nat → Aff K) (cl : List (Nat × Option Nat)) (fs : List Cycle) : Prop where
  face : ∀ (i : Nat) (c : Cycle), fs[i]? = some c → FaceOk pos (pl i) c
  side : ∀ (k i : Nat) (P : Nat × Option Nat), cl[i]? = some P → sg P k ≠ 0 → ∀ x, OfCell cl fs k x → 0 ≤ (sg P k : K) * (pl i).ev (pos x)
  strict : ∀ (k i : Nat) (P : Nat × Option Nat), cl[i]? = some P → sg P k ≠ 0 → ∃ x, OfCell cl fs k x ∧ (pl i).ev (pos x) ≠ 0
  apart : ∀ (k i : Nat) (P : Nat × Option Nat) (j : Nat) (Q : Nat × Option Nat) (c d : Cycle), cl[i]? = some P → sg P k ≠ 0 → cl[j]? = some Q → sg Q k ≠ 0 → i ≠ j → fs[i]? = some c → fs[j]? = some d → Apart pos c d

theorem Apart.symm {pos : Nat → Pt K} {c d : Cycle} (h : Apart pos c d) : Apart pos d c := by
  obtain ⟨ψ, h1, h2, h3⟩ := h
  refine ⟨ψ.neg, fun x hx => ?_, fun x hx => ?_, ?_⟩
  · rw [Aff.neg_ev]; have := h2 x hx; linarith
  · rw [Aff.neg_ev]; have := h1 x hx; linarith
  · rcases h3 with ⟨x, hx, e⟩ | ⟨x, hx, e⟩
    · exact Or.inr ⟨x, hx, by rw [Aff.neg_ev]; linarith⟩
    · exact Or.inl ⟨x, hx, by rw [Aff.neg_ev]; linarith⟩

/-- The vertices of `c'` are vertices of `c` or lie between two of them. -/
def Within (pos : Nat → Pt K) (c' c : Cycle) : Prop := ∀ x ∈ c', ∃ a ∈ c, ∃ b ∈ c, ∃ t : K, 0 ≤ t ∧ t ≤ 1 ∧ pos x.1 = lerp (pos a.1) (pos b.1) t

theorem Within.of_sub {pos : Nat → Pt K} {c' c : Cycle} (h : ∀ x ∈ c', ∃ a ∈ c, a.1 = x.1) : Within pos c' c := by
  intro x hx
  obtain ⟨a, ha, e⟩ := h x hx
  exact ⟨a, ha, a, ha, 0, le_rfl, zero_le_one, by rw [lerp_zero, e]⟩

theorem Within.nonneg {pos : Nat → Pt K} {c' c : Cycle} (h : Within pos c' c) {ψ : Aff K} (h0 : ∀ x ∈ c, 0 ≤ ψ.ev (pos x.1)) : ∀ x ∈ c', 0 ≤ ψ.ev (pos x.1) := by
  intro x hx
  obtain ⟨a, ha, b, hb, t, t0, t1, e⟩ := h x hx
  rw [e, ev_lerp]
  exact add_nonneg (mul_nonneg (by linarith) (h0 a ha)) (mul_nonneg t0 (h0 b hb))

theorem Within.nonpos {pos : Nat → Pt K} {c' c : Cycle} (h : Within pos c' c) {ψ : Aff K} (h0 : ∀ x ∈ c, ψ.ev (pos x.1) ≤ 0) : ∀ x ∈ c', ψ.ev (pos x.1) ≤ 0 := by
  intro x hx
  have := h.nonneg (ψ := ψ.neg) (fun x hx => by rw [Aff.neg_ev]; have := h0 x hx; linarith) x hx
  rw [Aff.neg_ev] at this
  linarith

/-- Parts of faces that are apart are apart. -/
theorem Apart.within {pos : Nat → Pt K} {c d c' d' : Cycle} {A B : Aff K} (h : Apart pos c d) (hc : Within pos c' c) (hd : Within pos d' d) (f1 : FaceOk pos A c') (f2 : FaceOk pos B d')
    (hA : ∀ x ∈ c, A.ev (pos x.1) = 0) (hB : ∀ x ∈ d, B.ev (pos x.1) = 0) : Apart pos c' d' := by
  obtain ⟨ψ, h1, h2, h3⟩ := h
  have k1 := hc.nonpos h1
  have k2 := hd.nonneg h2
  refine ⟨ψ, k1, k2, ?_⟩
  by_contra hcon
  rw [not_or] at hcon
  obtain ⟨n1, n2⟩ := hcon
  rcases h3 with ⟨x, hx, e⟩ | ⟨x, hx, e⟩
  · obtain ⟨μ, hμ⟩ := f1.vanish (G := ψ) fun z hz => le_antisymm (k1 z hz) (not_lt.1 fun hlt => n1 ⟨z, hz, hlt⟩)
    rw [hμ, hA x hx, mul_zero] at e
    exact lt_irrefl _ e
  · obtain ⟨μ, hμ⟩ := f2.vanish (G := ψ) fun z hz => le_antisymm (not_lt.1 fun hlt => n2 ⟨z, hz, hlt⟩) (k2 z hz)
    rw [hμ, hB x hx, mul_zero] at e
    exact lt_irrefl _ e

/-- Faces are replaced by parts of them. -/
theorem Geo.refine {pos : Nat → Pt K} {pl pl' : Nat → Aff K} {cl cl' : List (Nat × Option Nat)} {fs fs' : List Cycle} (g : Geo pos pl cl fs) (o : Nat → Nat)
    (hcl : ∀ (i : Nat) (P : Nat × Option Nat), cl'[i]? = some P → cl[o i]? = some P ∧ pl' i = pl (o i))
    (hfs : ∀ (i : Nat) (c' : Cycle), fs'[i]? = some c' → FaceOk pos (pl' i) c' ∧ ∃ c, fs[o i]? = some c ∧ Within pos c' c)
    (hparts : ∀ (i j : Nat) (P Q : Nat × Option Nat) (k : Nat) (c d : Cycle), i ≠ j → o i = o j → cl'[i]? = some P → sg P k ≠ 0 → cl'[j]? = some Q → fs'[i]? = some c → fs'[j]? = some d → Apart pos c d)
    (hold : ∀ k x, OfCell cl fs k x → OfCell cl' fs' k x) : Geo pos pl' cl' fs' := by
  refine ⟨fun i c h => (hfs i c h).1, ?_, ?_, ?_⟩
  · rintro k i P hP hs x ⟨j, Q, d, hQ, hs', hd, y, hy, rfl⟩
    obtain ⟨hP', e⟩ := hcl i P hP
    obtain ⟨hQ', -⟩ := hcl j Q hQ
    obtain ⟨-, d', hd', hw⟩ := hfs j d hd
    rw [e]
    have := hw.nonneg (ψ := (pl (o i)).smul (sg P k : K)) (fun z hz => by
      rw [Aff.smul_ev]
      exact g.side k (o i) P hP' hs z.1 ⟨o j, Q, d', hQ', hs', hd', z, hz, rfl⟩) y hy
    rwa [Aff.smul_ev] at this
  · intro k i P hP hs
    obtain ⟨hP', e⟩ := hcl i P hP
    obtain ⟨x, hx, hx'⟩ := g.strict k (o i) P hP' hs
    exact ⟨x, hold k x hx, by rw [e]; exact hx'⟩
  · intro k i P j Q c d hP hs hQ hs' hij hc hd
    by_cases hoo : o i = o j
    · exact hparts i j P Q k c d hij hoo hP hs hQ hc hd
    · obtain ⟨hP', e1⟩ := hcl i P hP
      obtain ⟨hQ', e2⟩ := hcl j Q hQ
      obtain ⟨f1, c0, hc0, w1⟩ := hfs i c hc
      obtain ⟨f2, d0, hd0, w2⟩ := hfs j d hd
      exact (g.apart k (o i) P (o j) Q c0 d0 hP' hs hQ' hs' hoo hc0 hd0).within w1 w2 f1 f2 (by rw [e1]; exact (g.face _ _ hc0).plane) (by rw [e2]; exact (g.face _ _ hd0).plane)

/-! ### A new vertex on an edge -/

/-- A side occurs only once, in one direction. -/
theorem FaceOk.one_way {pos : Nat → Pt K} {B : Aff K} {c : Cycle} (hf : FaceOk pos B c) {h k : HE} (hh : h ∈ hes c) (hk : k ∈ hes c) (e : k = h.rev) : False := by
  obtain ⟨z, hz, hz0⟩ := hf.not_flat (hf.ev_tail hh) (hf.ev_tip hh) (hf.pos_ne hh)
  have h1 := hf.left h hh z hz
  have h2 := hf.left k hk z hz
  rw [e] at h2
  simp only [HE.rev] at h2
  rw [turn_swap] at h2
  exact hz0 (le_antisymm (by linarith) h1)

theorem FaceOk.cutCorners {pos : Nat → Pt K} {B : Aff K} {c : Cycle} (hf : FaceOk pos B c) {e a w n : Nat} (hends : ∀ h ∈ hes c, ∀ k ∈ hes c, h.edge = k.edge → k = h ∨ k = h.rev)
    (hw : ∀ h ∈ hes c, h.edge = e → ∃ t : K, 0 < t ∧ t < 1 ∧ pos w = lerp (pos h.tail) (pos h.tip) t) (hfresh : ∀ z ∈ c, z.1 ≠ w) :
    FaceOk pos B (c.flatMap (cutCorner e a w n)) ∧ Within pos (c.flatMap (cutCorner e a w n)) c ∧ ∀ x ∈ c, ∃ y ∈ c.flatMap (cutCorner e a w n), y.1 = x.1 := by
  by_cases hex : ∃ x ∈ c, x.2 = e
  · obtain ⟨x, hx, hxe⟩ := hex
    obtain ⟨l, r, ec⟩ := List.append_of_mem hx
    have hr : c ~r (x :: (r ++ l)) := by rw [ec]; exact rot_swap l _
    have hf' := hf.rot hr
    have hnd : (x.1 :: (r ++ l).map Prod.fst).Nodup := hf'.simple
    have hh : (⟨x.1, x.2, firstTail (r ++ l) x.1⟩ : HE) ∈ hes c := by
      rw [mem_hes_rot hr, hes_cons, path]; simp
    -- the edge does not occur elsewhere
    have hno : ∀ z ∈ r ++ l, z.2 ≠ e := by
      intro z hz hze
      obtain ⟨k, hk, k1, k2⟩ := mem_hes (c := c) (x := z) (hr.perm.mem_iff.2 (List.mem_cons_of_mem _ hz))
      rcases hends _ hh k hk (by rw [k2, hze, ← hxe]) with h1 | h1
      · rw [h1] at k1
        simp only at k1
        rw [List.nodup_cons] at hnd
        exact hnd.1 (by rw [k1]; exact List.mem_map_of_mem hz)
      · exact hf.one_way hh hk h1
    have hrest : (r ++ l).flatMap (cutCorner e a w n) = r ++ l := flatMap_id fun z hz => by unfold cutCorner; rw [if_neg (hno z hz)]
    obtain ⟨p, q, epq⟩ : ∃ p q, cutCorner e a w n x = [(x.1, p), (w, q)] := by
      unfold cutCorner
      rw [if_pos hxe]
      split
      · exact ⟨_, _, rfl⟩
      · exact ⟨_, _, rfl⟩
    have hr' : c.flatMap (cutCorner e a w n) ~r ((x.1, p) :: (w, q) :: (r ++ l)) := by
      have := flatMap_rotated (cutCorner e a w n) hr
      rw [List.flatMap_cons, hrest, epq] at this
      exact this
    obtain ⟨t, t0, t1, ht⟩ := hw _ hh hxe
    have hnew := hf'.insert (p := p) (q := q) t0 t1 ht fun z hz => hfresh z (hr.perm.mem_iff.2 hz)
    obtain ⟨y, hy, ey⟩ := hes_tip hh
    refine ⟨hnew.rot hr'.symm, ?_, ?_⟩
    · intro z hz
      have hz := hr'.perm.mem_iff.1 hz
      rcases List.mem_cons.1 hz with rfl | hz
      · exact ⟨x, hx, x, hx, 0, le_rfl, zero_le_one, by rw [lerp_zero]⟩
      · rcases List.mem_cons.1 hz with rfl | hz
        · exact ⟨x, hx, y, hy, t, t0.le, t1.le, by rw [ey]; exact ht⟩
        · exact ⟨z, hr.perm.mem_iff.2 (List.mem_cons_of_mem _ hz), z, hr.perm.mem_iff.2 (List.mem_cons_of_mem _ hz), 0, le_rfl, zero_le_one, by rw [lerp_zero]⟩
    · intro z hz
      rcases List.mem_cons.1 (hr.perm.mem_iff.1 hz) with rfl | hz
      · exact ⟨(z.1, p), hr'.perm.mem_iff.2 (by simp), rfl⟩
      · exact ⟨z, hr'.perm.mem_iff.2 (by simp [List.mem_append.1 hz]), rfl⟩
  · have : c.flatMap (cutCorner e a w n) = c := flatMap_id fun z hz => by unfold cutCorner; rw [if_neg fun h => hex ⟨z, hz, h⟩]
    rw [this]
    exact ⟨hf, Within.of_sub fun x hx => ⟨x, hx, rfl⟩, fun x hx => ⟨x, hx, rfl⟩⟩

/-- `split_edge` with a vertex inside of the edge keeps the cells convex. -/
theorem Geo.splitEdge {pos : Nat → Pt K} {pl : Nat → Aff K} {cl : List (Nat × Option Nat)} {m m' : PMesh} (gm : MGood cl m) (g : Geo pos pl cl m.faces) {keep : Bool} {e : Nat}
    (hs : m.splitEdge keep e = some m') (hw : ∀ h ∈ m.all, h.edge = e → ∃ t : K, 0 < t ∧ t < 1 ∧ pos m.nV = lerp (pos h.tail) (pos h.tip) t) : Geo pos pl cl m'.faces := by
  unfold PMesh.splitEdge at hs
  obtain ⟨h0, hh0, hs⟩ := Option.bind_eq_some_iff.1 hs
  cases hs
  generalize (if keep = true then h0.tail else h0.tip) = a
  simp only
  have hface : ∀ (i : Nat) (c : Cycle), m.faces[i]? = some c → FaceOk pos (pl i) (c.flatMap (cutCorner e a m.nV m.nE)) ∧ Within pos (c.flatMap (cutCorner e a m.nV m.nE)) c ∧
      ∀ x ∈ c, ∃ y ∈ c.flatMap (cutCorner e a m.nV m.nE), y.1 = x.1 := by
    intro i c hc
    have hcm := List.mem_of_getElem? hc
    have hall : ∀ h ∈ hes c, h ∈ m.all := fun h hh => mem_all.2 ⟨c, hcm, hh⟩
    exact (g.face i c hc).cutCorners (fun h hh k hk => gm.ends h (hall h hh) k (hall k hk)) (fun h hh => hw h (hall h hh)) fun z hz => (gm.lt c hcm z hz).1.ne
  refine g.refine id (fun i P h => ⟨h, rfl⟩) ?_ (fun i j _ _ _ _ _ hij h => absurd h hij) ?_
  · intro i c' hc'
    rw [List.getElem?_map] at hc'
    obtain ⟨c, hc, rfl⟩ := Option.map_eq_some_iff.1 hc'
    exact ⟨(hface i c hc).1, c, hc, (hface i c hc).2.1⟩
  · rintro k x ⟨j, Q, d, hQ, hsg, hd, y, hy, rfl⟩
    obtain ⟨y', hy', e'⟩ := (hface j d hd).2.2 y hy
    exact ⟨j, Q, _, hQ, hsg, by rw [List.getElem?_map, hd]; rfl, y', hy', e'⟩

/-- All edges of a list are split. -/
theorem Geo.splitAll {pos : Nat → Pt K} {pl : Nat → Aff K} {cl : List (Nat × Option Nat)} (keep : Nat → Bool) : ∀ (L : List Nat) {m m1 : PMesh}, MGood cl m → Geo pos pl cl m.faces → L.Nodup →
    (∀ e ∈ L, ∃ h ∈ m.all, h.edge = e) → (∀ e ∈ L, ∀ h ∈ m.all, h.edge = e → ∃ t : K, 0 < t ∧ t < 1 ∧ pos (m.nV + L.idxOf e) = lerp (pos h.tail) (pos h.tip) t) →
    L.foldlM (fun m e => m.splitEdge (keep e) e) m = some m1 → Geo pos pl cl m1.faces
  | [], m, m1, _, g, _, _, _, hs => by
    cases hs; exact g
  | e :: L, m, m1, gm, g, hnd, hL, hw, hs => by
    rw [List.foldlM_cons] at hs
    obtain ⟨a, r, -, g1⟩ := splitEdge_good gm (keep e) (hL e (by simp))
    obtain ⟨hn1, hn2⟩ := List.nodup_cons.1 hnd
    have hge := g.splitEdge gm r fun h hh he => by
      have := hw e (by simp) h hh he
      rwa [List.idxOf_cons_self, Nat.add_zero] at this
    rw [r] at hs
    have hlt : ∀ x ∈ L, x < m.nE := by
      intro x hx
      obtain ⟨h, hh, rfl⟩ := hL x (by simp [hx])
      exact (all_lt gm hh).2.1
    have hback : ∀ h ∈ PMesh.all { nV := m.nV + 1, nE := m.nE + 1, faces := m.faces.map fun c => c.flatMap (cutCorner e a m.nV m.nE) }, h.edge ∈ L → h ∈ m.all := by
      intro h hh hL'
      obtain ⟨c', hc', hh⟩ := mem_all.1 hh
      obtain ⟨c, hc, rfl⟩ := List.mem_map.1 hc'
      rw [hes_cut] at hh
      obtain ⟨k, hk, hh⟩ := List.mem_flatMap.1 hh
      have hne : h.edge ≠ e := fun h' => hn1 (h' ▸ hL')
      have hnn : h.edge ≠ m.nE := (hlt _ hL').ne
      unfold cutHE at hh
      split at hh
      · exfalso
        split at hh
        · simp only [List.mem_cons, List.not_mem_nil, or_false] at hh
          rcases hh with rfl | rfl
          · exact hne rfl
          · exact hnn rfl
        · simp only [List.mem_cons, List.not_mem_nil, or_false] at hh
          rcases hh with rfl | rfl
          · exact hnn rfl
          · exact hne rfl
      · rw [List.mem_singleton] at hh
        subst hh
        exact mem_all.2 ⟨c, hc, hk⟩
    have hkeep : ∀ h ∈ m.all, h.edge ≠ e → h ∈ PMesh.all { nV := m.nV + 1, nE := m.nE + 1, faces := m.faces.map fun c => c.flatMap (cutCorner e a m.nV m.nE) } := by
      intro h hh hne
      obtain ⟨c, hc, hh⟩ := mem_all.1 hh
      refine mem_all.2 ⟨_, List.mem_map.2 ⟨c, hc, rfl⟩, ?_⟩
      rw [hes_cut]
      exact List.mem_flatMap.2 ⟨h, hh, by unfold cutHE; rw [if_neg hne]; simp⟩
    refine Geo.splitAll keep L g1 hge hn2 (fun x hx => ?_) (fun x hx h hh he => ?_) hs
    · obtain ⟨h, hh, rfl⟩ := hL x (by simp [hx])
      exact ⟨h, hkeep h hh (fun h' => hn1 (h' ▸ hx)), rfl⟩
    · have := hw x (by simp [hx]) h (hback h hh (by rw [he]; exact hx)) he
      rw [List.idxOf_cons_ne _ (fun h' : e = x => hn1 (h'.symm ▸ hx))] at this
      rwa [show m.nV + 1 + L.idxOf x = m.nV + (L.idxOf x).succ by omega]

/-! ### A face is cut -/

theorem Geo.splitFace {pos : Nat → Pt K} {pl : Nat → Aff K} {cl : List (Nat × Option Nat)} {fs : List Cycle} (g : Geo pos pl cl fs) (hlen : cl.length = fs.length) {f n n' : Nat} {P0 : Nat × Option Nat} {c : Cycle}
    (hP : cl[f]? = some P0) (hc : fs[f]? = some c) {x y : Nat × Nat} {P N : Cycle} (hr : c ~r (x :: P) ++ (y :: N)) (hP0 : P ≠ []) (hN0 : N ≠ []) {h : Aff K} (hx : h.ev (pos x.1) = 0)
    (hy : h.ev (pos y.1) = 0) (h1 : ∀ z ∈ P, 0 < h.ev (pos z.1)) (h2 : ∀ z ∈ N, h.ev (pos z.1) < 0) {co cn : Cycle}
    (hparts : (co = (y.1, n) :: x :: P ∧ cn = (x.1, n') :: y :: N) ∨ (co = (x.1, n') :: y :: N ∧ cn = (y.1, n) :: x :: P)) :
    Geo pos (Function.update pl fs.length (pl f)) (cl ++ [P0]) (fs.set f co ++ [cn]) := by
  have hf := g.face f c hc
  have f1 : FaceOk pos (pl f) ((y.1, n) :: x :: P) := (hf.rot hr).part hP0 hx hy h1 n
  have f2 : FaceOk pos (pl f) ((x.1, n') :: y :: N) := (hf.rot (hr.trans (rot_swap _ _))).part (G := h.neg) hN0 (by rw [Aff.neg_ev, hy, neg_zero]) (by rw [Aff.neg_ev, hx, neg_zero])
    (fun z hz => by rw [Aff.neg_ev]; have := h2 z hz; linarith) n'
  have hfl : f < fs.length := (List.getElem?_eq_some_iff.1 hc).1
  have hm : ∀ z, z ∈ c ↔ z ∈ (x :: P) ++ (y :: N) := fun z => hr.perm.mem_iff
  have w1 : Within pos ((y.1, n) :: x :: P) c := Within.of_sub fun z hz => by
    rcases List.mem_cons.1 hz with rfl | hz
    · exact ⟨y, (hm y).2 (by simp), rfl⟩
    · exact ⟨z, (hm z).2 (List.mem_append_left _ hz), rfl⟩
  have w2 : Within pos ((x.1, n') :: y :: N) c := Within.of_sub fun z hz => by
    rcases List.mem_cons.1 hz with rfl | hz
    · exact ⟨x, (hm x).2 (by simp), rfl⟩
    · exact ⟨z, (hm z).2 (List.mem_append_right _ hz), rfl⟩
  have ap : Apart pos ((x.1, n') :: y :: N) ((y.1, n) :: x :: P) := by
    obtain ⟨p, hp⟩ := List.exists_mem_of_ne_nil P hP0
    refine ⟨h, fun z hz => ?_, fun z hz => ?_, Or.inr ⟨p, by simp [hp], h1 p hp⟩⟩
    · rcases List.mem_cons.1 hz with rfl | hz
      · exact hx.le
      · rcases List.mem_cons.1 hz with rfl | hz
        · exact hy.le
        · exact (h2 z hz).le
    · rcases List.mem_cons.1 hz with rfl | hz
      · exact hy.ge
      · rcases List.mem_cons.1 hz with rfl | hz
        · exact hx.ge
        · exact (h1 z hz).le
  have hco : FaceOk pos (pl f) co ∧ Within pos co c := by
    rcases hparts with ⟨rfl, -⟩ | ⟨rfl, -⟩
    · exact ⟨f1, w1⟩
    · exact ⟨f2, w2⟩
  have hcn : FaceOk pos (pl f) cn ∧ Within pos cn c := by
    rcases hparts with ⟨-, rfl⟩ | ⟨-, rfl⟩
    · exact ⟨f2, w2⟩
    · exact ⟨f1, w1⟩
  have hap : Apart pos co cn := by
    rcases hparts with ⟨rfl, rfl⟩ | ⟨rfl, rfl⟩
    · exact ap.symm
    · exact ap
  have hall : ∀ z ∈ c, (∃ z' ∈ co, z'.1 = z.1) ∨ ∃ z' ∈ cn, z'.1 = z.1 := by
    intro z hz
    have hz := (hm z).1 hz
    rcases hparts with ⟨rfl, rfl⟩ | ⟨rfl, rfl⟩ <;> rcases List.mem_append.1 hz with hz | hz
    · exact Or.inl ⟨z, List.mem_cons_of_mem _ hz, rfl⟩
    · exact Or.inr ⟨z, List.mem_cons_of_mem _ hz, rfl⟩
    · exact Or.inr ⟨z, List.mem_cons_of_mem _ hz, rfl⟩
    · exact Or.inl ⟨z, List.mem_cons_of_mem _ hz, rfl⟩
  have hnew : (fs.set f co ++ [cn])[fs.length]? = some cn := by
    rw [List.getElem?_append_right (by simp)]; simp
  have hold : ∀ i : Nat, i < fs.length → (fs.set f co ++ [cn])[i]? = if i = f then some co else fs[i]? := by
    intro i hi
    rw [List.getElem?_append_left (by simpa using hi)]
    split
    · rename_i e; rw [e, List.getElem?_set_self hfl]
    · rename_i e; rw [List.getElem?_set_ne (Ne.symm e)]
  have hlast : ∀ (i : Nat) (c' : Cycle), (fs.set f co ++ [cn])[i]? = some c' → i < fs.length ∨ i = fs.length := by
    intro i c' h
    have := (List.getElem?_eq_some_iff.1 h).1
    simp at this; omega
  have hcl : ∀ (i : Nat) (P : Nat × Option Nat), (cl ++ [P0])[i]? = some P → (i < fs.length ∧ cl[i]? = some P) ∨ (i = fs.length ∧ P = P0) := by
    intro i P h
    have hi := (List.getElem?_eq_some_iff.1 h).1
    simp only [List.length_append, List.length_singleton] at hi
    by_cases h' : i < fs.length
    · rw [List.getElem?_append_left (by omega)] at h
      exact Or.inl ⟨h', h⟩
    · have : i = fs.length := by omega
      subst this
      rw [List.getElem?_append_right (by omega)] at h
      simp [hlen] at h
      exact Or.inr ⟨rfl, h.symm⟩
  have hclo : ∀ i : Nat, i < fs.length → (cl ++ [P0])[i]? = cl[i]? := fun i hi => List.getElem?_append_left (by omega)
  have hcln : (cl ++ [P0])[fs.length]? = some P0 := by rw [List.getElem?_append_right (by omega)]; simp [hlen]
  refine g.refine (fun i => if i = fs.length then f else i) ?_ ?_ ?_ ?_
  · intro i P h
    rcases hcl i P h with ⟨hi, h⟩ | ⟨hi, h'⟩
    · simp only [if_neg hi.ne, Function.update_of_ne hi.ne]; exact ⟨h, trivial⟩
    · subst hi h'
      simp only [if_true, Function.update_self]
      exact ⟨hP, trivial⟩
  · intro i c' hc'
    rcases hlast i c' hc' with hi | hi
    · simp only [if_neg hi.ne, Function.update_of_ne hi.ne]
      rw [hold i hi] at hc'
      split at hc'
      · rename_i e
        cases hc'
        subst e
        exact ⟨hco.1, c, hc, hco.2⟩
      · exact ⟨g.face i c' hc', c', hc', Within.of_sub fun z hz => ⟨z, hz, rfl⟩⟩
    · subst hi
      rw [hnew] at hc'; cases hc'
      simp only [if_true, Function.update_self]
      exact ⟨hcn.1, c, hc, hcn.2⟩
  · intro i j P Q k d d' hij ho hP' hs hQ' hd hd'
    rcases hlast i d hd with hi | hi <;> rcases hlast j d' hd' with hj | hj
    · rw [if_neg hi.ne, if_neg hj.ne] at ho
      exact absurd ho hij
    · rw [if_neg hi.ne, if_pos hj] at ho
      subst ho hj
      rw [hold i hi, if_pos rfl] at hd
      rw [hnew] at hd'
      cases hd; cases hd'
      exact hap
    · rw [if_pos hi, if_neg hj.ne] at ho
      subst ho hi
      rw [hold f hj, if_pos rfl] at hd'
      rw [hnew] at hd
      cases hd; cases hd'
      exact hap.symm
    · exact absurd (hi.trans hj.symm) hij
  · rintro k v ⟨j, Q, d, hQ, hs, hd, y', hy', rfl⟩
    have hj := (List.getElem?_eq_some_iff.1 hd).1
    by_cases e : j = f
    · subst e
      rw [hc] at hd; cases hd
      rw [hP] at hQ; cases hQ
      rcases hall y' hy' with ⟨z, hz, ez⟩ | ⟨z, hz, ez⟩
      · exact ⟨j, P0, co, by rw [hclo j hj]; exact hP, hs, by rw [hold j hj, if_pos rfl], z, hz, ez⟩
      · exact ⟨fs.length, P0, cn, hcln, hs, hnew, z, hz, ez⟩
    · exact ⟨j, Q, d, by rw [hclo j hj]; exact hQ, hs, by rw [hold j hj, if_neg e]; exact hd, y', hy', rfl⟩

end Verif.Bsp
