import Verif.Bsp.Polygon
import Verif.Bsp.Dir
/-!
# Convex polygons stay convex

A vertex on a side, or a cut along a plane, gives convex polygons again.
-/
namespace Verif.Bsp
open InSphere (Pt)
open Geom (lerp)

variable {K : Type} [Field K] [LinearOrder K] [IsStrictOrderedRing K] {pos : Nat → Pt K} {B : Aff K} {c : Cycle}

theorem FaceOk.rot (hf : FaceOk pos B c) {d : Cycle} (hr : c ~r d) : FaceOk pos B d := by
  have hm : ∀ x, x ∈ d ↔ x ∈ c := fun x => hr.perm.mem_iff.symm
  have hh : ∀ h, h ∈ hes d ↔ h ∈ hes c := fun h => (mem_hes_rot hr h).symm
  refine ⟨(hr.perm.map Prod.fst).nodup_iff.1 hf.simple, fun x hx y hy => hf.inj x ((hm x).1 hx) y ((hm y).1 hy), fun x hx => hf.plane x ((hm x).1 hx),
    fun h h1 x hx => hf.left h ((hh h).1 h1) x ((hm x).1 hx), fun h h1 x hx => hf.nomid h ((hh h).1 h1) x ((hm x).1 hx), ?_⟩
  obtain ⟨h, h1, x, hx, e⟩ := hf.fat
  exact ⟨h, (hh h).2 h1, x, (hm x).2 hx, e⟩

theorem lerp_lerp (a b : Pt K) (r s t : K) : lerp (lerp a b r) (lerp a b s) t = lerp a b ((1 - t) * r + t * s) := by
  simp only [lerp, Pt.mk.injEq]; refine ⟨?_, ?_, ?_⟩ <;> ring

theorem lerp_inj {a b : Pt K} (hab : a ≠ b) {r s : K} (h : lerp a b r = lerp a b s) : r = s := by
  by_contra hrs
  apply hab
  have hd : r - s ≠ 0 := sub_ne_zero.2 hrs
  obtain ⟨x, y, z⟩ := a
  obtain ⟨x', y', z'⟩ := b
  simp only [lerp, Pt.mk.injEq] at h ⊢
  obtain ⟨h1, h2, h3⟩ := h
  have key : ∀ u v : K, u + r * (v - u) = u + s * (v - u) → u = v := by
    intro u v e
    have : (r - s) * (v - u) = 0 := by linear_combination e
    have := (mul_eq_zero.1 this).resolve_left hd
    linarith
  refine ⟨key _ _ ?_, key _ _ ?_, key _ _ ?_⟩ <;> linarith

/-- Not all vertices lie on a line. -/
theorem FaceOk.not_flat (hf : FaceOk pos B c) {a b : Pt K} (ha : B.ev a = 0) (hb : B.ev b = 0) (hab : a ≠ b) : ∃ z ∈ c, area B.n a b (pos z.1) ≠ 0 := by
  by_contra hc
  push Not at hc
  have hn := hf.normal
  obtain ⟨h, hh, x, hx, e⟩ := hf.fat
  obtain ⟨y, hy, ey⟩ := hes_tip hh
  obtain ⟨r, er⟩ := on_line hn ha hb (hf.ev_tail hh) hab (hc _ (hes_tail hh))
  obtain ⟨s, es⟩ := on_line hn ha hb (hf.ev_tip hh) hab (by rw [← ey]; exact hc y hy)
  rw [er, es, turn_line, hc x hx, mul_zero] at e
  exact lt_irrefl _ e

/-- A function that vanishes at all vertices vanishes on the plane of the face. -/
theorem FaceOk.vanish (hf : FaceOk pos B c) {G : Aff K} (h0 : ∀ x ∈ c, G.ev (pos x.1) = 0) : ∃ μ, ∀ q, G.ev q = μ * B.ev q := by
  obtain ⟨h, hh, x, hx, e⟩ := hf.fat
  obtain ⟨y, hy, ey⟩ := hes_tip hh
  exact three_points (hf.ev_tail hh) (hf.ev_tip hh) (hf.plane x hx) e.ne' (h0 _ (hes_tail hh)) (by rw [← ey]; exact h0 y hy) (h0 x hx)

/-- A new vertex inside of a side. -/
theorem FaceOk.insert {x : Nat × Nat} {r : Cycle} (hf : FaceOk pos B (x :: r)) {w p q : Nat} {t : K} (t0 : 0 < t) (t1 : t < 1)
    (hw : pos w = lerp (pos x.1) (pos (firstTail r x.1)) t) (hfresh : ∀ z ∈ x :: r, z.1 ≠ w) : FaceOk pos B ((x.1, p) :: (w, q) :: r) := by
  have hn := hf.normal
  obtain ⟨y, hy⟩ : ∃ y, firstTail r x.1 = y := ⟨_, rfl⟩
  have he0 : (⟨x.1, x.2, y⟩ : HE) ∈ hes (x :: r) := by rw [hes_cons, path, hy]; simp
  have hesO : hes (x :: r) = ⟨x.1, x.2, y⟩ :: path r x.1 := by rw [hes_cons, path, hy]
  have hesN : hes ((x.1, p) :: (w, q) :: r) = ⟨x.1, p, w⟩ :: ⟨w, q, y⟩ :: path r x.1 := by rw [hes_cons, path, path, ← hy]; rfl
  have hmem : ∀ z : Nat × Nat, z ∈ (x.1, p) :: (w, q) :: r → z.1 = w ∨ ∃ z' ∈ x :: r, z'.1 = z.1 := by
    intro z hz
    rcases List.mem_cons.1 hz with rfl | hz
    · exact Or.inr ⟨x, by simp, rfl⟩
    · rcases List.mem_cons.1 hz with rfl | hz
      · exact Or.inl rfl
      · exact Or.inr ⟨z, by simp [hz], rfl⟩
  rw [hy] at hw
  have bx : B.ev (pos x.1) = 0 := hf.ev_tail he0
  have by' : B.ev (pos y) = 0 := hf.ev_tip he0
  have hxy : pos x.1 ≠ pos y := hf.pos_ne he0
  have bw : B.ev (pos w) = 0 := by rw [hw, ev_lerp, bx, by']; ring
  have old : ∀ k ∈ path r x.1, k ∈ hes (x :: r) := fun k hk => by rw [hesO]; exact List.mem_cons_of_mem _ hk
  have hyx := hes_tip he0
  obtain ⟨y', hy', ey'⟩ := hyx
  simp only at ey'
  have wx : pos w ≠ pos x.1 := fun e => by
    have : lerp (pos x.1) (pos y) t = lerp (pos x.1) (pos y) 0 := by rw [← hw, e, lerp_zero]
    exact t0.ne' (lerp_inj hxy this)
  have wy : pos w ≠ pos y := fun e => by
    have : lerp (pos x.1) (pos y) t = lerp (pos x.1) (pos y) 1 := by rw [← hw, e, lerp_one]
    exact t1.ne (lerp_inj hxy this)
  -- the new vertex is not inside of another side
  have hno : ∀ k ∈ path r x.1, ∀ s : K, 0 < s → s < 1 → pos w ≠ lerp (pos k.tail) (pos k.tip) s := by
    intro k hk s s0 s1 e
    have hk' := old k hk
    have huv : pos k.tail ≠ pos k.tip := hf.pos_ne hk'
    have tx : 0 ≤ area B.n (pos k.tail) (pos k.tip) (pos x.1) := hf.left k hk' x (by simp)
    have ty : 0 ≤ area B.n (pos k.tail) (pos k.tip) (pos y) := by rw [← ey']; exact hf.left k hk' y' hy'
    have tw : area B.n (pos k.tail) (pos k.tip) (pos w) = 0 := by
      have := turn_line B.n (pos k.tail) (pos k.tip) (pos w) 0 s
      rw [lerp_zero, ← e, turn_right, sub_zero] at this
      exact (mul_eq_zero.1 this.symm).resolve_left s0.ne'
    rw [hw, turn_lerp] at tw
    have zx : area B.n (pos k.tail) (pos k.tip) (pos x.1) = 0 := by
      have h1 := mul_nonneg t0.le ty
      have h2 : (1 - t) * area B.n (pos k.tail) (pos k.tip) (pos x.1) = 0 := le_antisymm (by linarith) (mul_nonneg (by linarith) tx)
      exact (mul_eq_zero.1 h2).resolve_left (by linarith)
    have zy : area B.n (pos k.tail) (pos k.tip) (pos y) = 0 := by
      rw [zx, mul_zero, zero_add] at tw
      exact (mul_eq_zero.1 tw).resolve_left t0.ne'
    obtain ⟨α, eα⟩ := on_line hn (hf.ev_tail hk') (hf.ev_tip hk') bx huv zx
    obtain ⟨β, eβ⟩ := on_line hn (hf.ev_tail hk') (hf.ev_tip hk') by' huv zy
    have hs : (1 - t) * α + t * β = s := by
      apply lerp_inj huv
      rw [← lerp_lerp, ← eα, ← eβ, ← hw, e]
    rcases lt_trichotomy α β with hαβ | hαβ | hαβ
    · -- both sides pass the new vertex in the same direction
      let n : Pt K := vsub (pos k.tip) (pos k.tail)
      let G : Aff K := ⟨n, - vdot n (pos w)⟩
      have hG : ∀ r, G.ev (lerp (pos k.tail) (pos k.tip) r) = (r - s) * vdot n n := by
        intro r
        simp only [G, Aff.ev, e, n, vdot, vsub, lerp]; ring
      have hnn : 0 < vdot n n := vdot_pos (vsub_ne huv.symm)
      have g1 : G.ev (pos k.tail) ≤ 0 := by
        have := hG 0
        rw [lerp_zero] at this
        rw [this]; nlinarith
      have g2 : 0 < G.ev (pos k.tip) := by
        have := hG 1
        rw [lerp_one] at this
        rw [this]; exact mul_pos (by linarith) hnn
      have g3 : G.ev (pos x.1) ≤ 0 := by
        rw [eα, hG]
        have : α < s := by rw [← hs]; nlinarith
        nlinarith
      have g4 : 0 < G.ev (pos y) := by
        rw [eβ, hG]
        exact mul_pos (by rw [← hs]; nlinarith) hnn
      have := hf.once G he0 hk' g3 g4 g1 g2
      simp only at this
      have hnd := hf.simple
      rw [List.map_cons, List.nodup_cons] at hnd
      apply hnd.1
      rw [this]
      exact List.mem_map.2 ⟨_, path_tail hk, rfl⟩
    · exact hxy (by rw [eα, eβ, hαβ])
    · obtain ⟨z, hz, hz0⟩ := hf.not_flat (hf.ev_tail hk') (hf.ev_tip hk') huv
      have h1 := hf.left k hk' z hz
      have h2 := hf.left _ he0 z hz
      simp only at h2
      rw [eα, eβ, turn_line] at h2
      have h3 := mul_pos (show 0 < α - β by linarith) (lt_of_le_of_ne h1 (Ne.symm hz0))
      nlinarith
  refine ⟨?_, ?_, ?_, ?_, ?_, ?_⟩
  · have hnd := hf.simple
    rw [List.map_cons, List.nodup_cons] at hnd
    simp only [List.map_cons, List.nodup_cons, List.mem_cons, not_or]
    refine ⟨⟨hfresh x (by simp), hnd.1⟩, ?_, hnd.2⟩
    intro hm
    obtain ⟨z, hz, ez⟩ := List.mem_map.1 hm
    exact hfresh z (by simp [hz]) ez
  · intro a ha b hb e
    have key : ∀ z ∈ x :: r, pos z.1 ≠ pos w := fun z hz e => by
      rw [hw] at e
      exact hf.nomid _ he0 z hz t t0 t1 e
    rcases hmem a ha with ea | ⟨a', ha', ea⟩ <;> rcases hmem b hb with eb | ⟨b', hb', eb⟩
    · rw [ea, eb]
    · exact absurd (by rw [eb, ← e, ea]) (key b' hb')
    · exact absurd (by rw [ea, e, eb]) (key a' ha')
    · rw [← ea, ← eb]
      exact hf.inj a' ha' b' hb' (by rw [ea, eb]; exact e)
  · intro z hz
    rcases hmem z hz with e | ⟨z', hz', e⟩
    · rw [e]; exact bw
    · rw [← e]; exact hf.plane z' hz'
  · intro k hk z hz
    rw [hesN] at hk
    have hz' : ∀ a b : Nat, (∀ z' ∈ x :: r, 0 ≤ area B.n (pos a) (pos b) (pos z'.1)) → 0 ≤ area B.n (pos a) (pos b) (pos z.1) := by
      intro a b hab
      rcases hmem z hz with e | ⟨z', hz', e⟩
      · rw [e, hw, turn_lerp]
        have h1 := hab x (by simp)
        have h2 := hab y' hy'
        rw [ey'] at h2
        exact add_nonneg (mul_nonneg (by linarith) h1) (mul_nonneg t0.le h2)
      · rw [← e]; exact hab z' hz'
    rcases List.mem_cons.1 hk with rfl | hk
    · apply hz'
      intro z' hz'
      simp only
      rw [hw, turn_to]
      exact mul_nonneg t0.le (hf.left _ he0 z' hz')
    · rcases List.mem_cons.1 hk with rfl | hk
      · apply hz'
        intro z' hz'
        simp only
        rw [hw, turn_from]
        exact mul_nonneg (by linarith) (hf.left _ he0 z' hz')
      · exact hz' _ _ fun z' hz' => hf.left k (old k hk) z' hz'
  · intro k hk z hz s s0 s1 e
    rw [hesN] at hk
    rcases List.mem_cons.1 hk with rfl | hk
    · simp only at e
      rcases hmem z hz with ez | ⟨z', hz', ez⟩
      · rw [ez] at e
        have : lerp (pos x.1) (pos w) 1 = lerp (pos x.1) (pos w) s := by rw [lerp_one]; exact e
        exact s1.ne (lerp_inj wx.symm this).symm
      · rw [← ez] at e
        have h1 : lerp (pos x.1) (pos w) s = lerp (pos x.1) (pos y) (s * t) := by
          have := lerp_lerp (pos x.1) (pos y) 0 t s
          rw [lerp_zero, ← hw] at this
          rw [this]; congr 1; ring
        rw [h1] at e
        exact hf.nomid _ he0 z' hz' (s * t) (mul_pos s0 t0) (by nlinarith) e
    · rcases List.mem_cons.1 hk with rfl | hk
      · simp only at e
        rcases hmem z hz with ez | ⟨z', hz', ez⟩
        · rw [ez] at e
          have : lerp (pos w) (pos y) 0 = lerp (pos w) (pos y) s := by rw [lerp_zero]; exact e
          exact s0.ne (lerp_inj wy this)
        · rw [← ez] at e
          have h1 : lerp (pos w) (pos y) s = lerp (pos x.1) (pos y) ((1 - s) * t + s * 1) := by
            have := lerp_lerp (pos x.1) (pos y) t 1 s
            rw [lerp_one, ← hw] at this
            exact this
          rw [h1] at e
          exact hf.nomid _ he0 z' hz' _ (by nlinarith) (by nlinarith) e
      · rcases hmem z hz with ez | ⟨z', hz', ez⟩
        · rw [ez] at e
          exact hno k hk s s0 s1 e
        · rw [← ez] at e
          exact hf.nomid k (old k hk) z' hz' s s0 s1 e
  · obtain ⟨h, hh, z, hz, e⟩ := hf.fat
    have hz' : ∃ z' ∈ (x.1, p) :: (w, q) :: r, z'.1 = z.1 := by
      rcases List.mem_cons.1 hz with rfl | hz
      · exact ⟨(z.1, p), by simp, rfl⟩
      · exact ⟨z, by simp [hz], rfl⟩
    obtain ⟨z', hz', ez⟩ := hz'
    rw [hesO] at hh
    rcases List.mem_cons.1 hh with rfl | hh
    · refine ⟨⟨x.1, p, w⟩, by rw [hesN]; simp, z', hz', ?_⟩
      simp only at e ⊢
      rw [ez, hw, turn_to]
      exact mul_pos t0 e
    · exact ⟨h, by rw [hesN]; simp [hh], z', hz', by rw [ez]; exact e⟩

/-- The diagonal from `x` to `y` has the part after `x` on its right side. -/
theorem FaceOk.diag {x y : Nat × Nat} {P N : Cycle} (hf : FaceOk pos B ((x :: P) ++ (y :: N))) (hP0 : P ≠ []) {G : Aff K} (gx : G.ev (pos x.1) = 0) (gy : G.ev (pos y.1) = 0)
    (hP : ∀ z ∈ P, 0 < G.ev (pos z.1)) : pos x.1 ≠ pos y.1 ∧ ∀ z ∈ P, area B.n (pos x.1) (pos y.1) (pos z.1) < 0 := by
  have hn := hf.normal
  have hnd := hf.simple
  have hxy : pos x.1 ≠ pos y.1 := by
    intro e
    have := hf.inj x (by simp) y (by simp) e
    simp only [List.cons_append, List.map_cons, List.map_append, List.nodup_cons, List.mem_append, List.mem_cons, not_or] at hnd
    exact hnd.1.2.1 this
  refine ⟨hxy, ?_⟩
  obtain ⟨p, P', rfl⟩ := List.exists_cons_of_ne_nil hP0
  have he : (⟨x.1, x.2, p.1⟩ : HE) ∈ hes ((x :: p :: P') ++ (y :: N)) := by rw [List.cons_append, hes_cons, path]; simp [firstTail]
  have bx := hf.plane x (by simp)
  have bY := hf.plane y (by simp)
  have bp := hf.plane p (by simp)
  have gp := hP p (by simp)
  have h1 := hf.left _ he y (by simp)
  simp only at h1
  have h2 : area B.n (pos x.1) (pos y.1) (pos p.1) = - area B.n (pos x.1) (pos p.1) (pos y.1) := by
    rw [← turn_rot B.n (pos x.1) (pos y.1) (pos p.1), turn_swap, turn_rot]
  have hp : area B.n (pos x.1) (pos y.1) (pos p.1) < 0 := by
    refine lt_of_le_of_ne (by rw [h2]; linarith) fun e => ?_
    obtain ⟨u, eu⟩ := on_line hn bx bY bp hxy e
    rw [eu, ev_lerp, gx, gy] at gp
    simp at gp
  intro z hz
  have bz := hf.plane z (by
    rcases List.mem_cons.1 hz with rfl | hz
    · simp
    · simp [hz])
  have r := ev_ratio (G := G) hn bx bY bz bp gx gy
  by_contra hc
  rw [not_lt] at hc
  have h3 := mul_neg_of_pos_of_neg (hP z hz) hp
  have h4 := mul_nonneg gp.le hc
  linarith

/-- One of the two parts into which a plane cuts the face. -/
theorem FaceOk.part {x y : Nat × Nat} {P N : Cycle} (hf : FaceOk pos B ((x :: P) ++ (y :: N))) (hP0 : P ≠ []) {G : Aff K} (gx : G.ev (pos x.1) = 0) (gy : G.ev (pos y.1) = 0)
    (hP : ∀ z ∈ P, 0 < G.ev (pos z.1)) (n : Nat) : FaceOk pos B ((y.1, n) :: x :: P) := by
  obtain ⟨hxy, hd⟩ := hf.diag hP0 gx gy hP
  have hn := hf.normal
  have hesN : hes ((y.1, n) :: x :: P) = ⟨y.1, n, x.1⟩ :: path (x :: P) y.1 := rfl
  have hesO : ∀ k ∈ path (x :: P) y.1, k ∈ hes ((x :: P) ++ (y :: N)) := by
    intro k hk
    rw [hes_append]
    exact List.mem_append_left _ hk
  have hmem : ∀ z ∈ (y.1, n) :: x :: P, ∃ z' ∈ (x :: P) ++ (y :: N), z'.1 = z.1 ∧ (z.1 = y.1 ∨ z.1 = x.1 ∨ z ∈ P) := by
    intro z hz
    rcases List.mem_cons.1 hz with rfl | hz
    · exact ⟨y, by simp, rfl, Or.inl rfl⟩
    · rcases List.mem_cons.1 hz with rfl | hz
      · exact ⟨z, by simp, rfl, Or.inr (Or.inl rfl)⟩
      · exact ⟨z, by simp [hz], rfl, Or.inr (Or.inr hz)⟩
  have hd' : ∀ z ∈ P, 0 < area B.n (pos y.1) (pos x.1) (pos z.1) := fun z hz => by
    rw [turn_swap]; have := hd z hz; linarith
  refine ⟨?_, ?_, ?_, ?_, ?_, ?_⟩
  · have hnd := hf.simple
    simp only [List.cons_append, List.map_cons, List.map_append, List.nodup_cons, List.mem_append, List.mem_cons, not_or] at hnd ⊢
    have h2 := List.nodup_append.1 hnd.2
    refine ⟨⟨fun e => hnd.1.2.1 e.symm, fun hm => h2.2.2 _ hm y.1 (by simp) rfl⟩, hnd.1.1, h2.1⟩
  · intro a ha b hb e
    obtain ⟨a', ha', ea, -⟩ := hmem a ha
    obtain ⟨b', hb', eb, -⟩ := hmem b hb
    rw [← ea, ← eb]
    exact hf.inj a' ha' b' hb' (by rw [ea, eb]; exact e)
  · intro z hz
    obtain ⟨z', hz', e, -⟩ := hmem z hz
    rw [← e]; exact hf.plane z' hz'
  · intro k hk z hz
    obtain ⟨z', hz', e, h3⟩ := hmem z hz
    rw [hesN] at hk
    rcases List.mem_cons.1 hk with rfl | hk
    · rcases h3 with h3 | h3 | h3
      · simp only; rw [h3, turn_left]
      · simp only; rw [h3, turn_right]
      · exact (hd' z h3).le
    · rw [← e]; exact hf.left k (hesO k hk) z' hz'
  · intro k hk z hz s s0 s1 es
    obtain ⟨z', hz', e, h3⟩ := hmem z hz
    rw [hesN] at hk
    rcases List.mem_cons.1 hk with rfl | hk
    · simp only at es
      rcases h3 with h3 | h3 | h3
      · rw [h3] at es
        have : lerp (pos y.1) (pos x.1) 0 = lerp (pos y.1) (pos x.1) s := by rw [lerp_zero]; exact es
        exact s0.ne (lerp_inj hxy.symm this)
      · rw [h3] at es
        have : lerp (pos y.1) (pos x.1) 1 = lerp (pos y.1) (pos x.1) s := by rw [lerp_one]; exact es
        exact s1.ne (lerp_inj hxy.symm this).symm
      · have := hP z h3
        rw [es, ev_lerp, gx, gy] at this
        simp at this
    · rw [← e] at es
      exact hf.nomid k (hesO k hk) z' hz' s s0 s1 es
  · obtain ⟨p, hp⟩ := List.exists_mem_of_ne_nil P hP0
    exact ⟨⟨y.1, n, x.1⟩, by rw [hesN]; simp, p, by simp [hp], hd' p hp⟩

end Verif.Bsp
