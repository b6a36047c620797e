import Verif.Bsp.Flow
/-!
# Convex cells are cut properly

A plane with vertices of a convex cell on both sides meets its faces as `split_cell` needs it: what `c75_split_cell` assumes holds.
-/
namespace Verif.Bsp
open InSphere (Pt)
open Geom (lerp)

variable {K : Type} [Field K] [LinearOrder K] [IsStrictOrderedRing K]

theorem normal_pos {n : Pt K} (h : vdot n n ≠ 0) : 0 < vdot n n := by
  apply lt_of_le_of_ne _ h.symm
  simp only [vdot]
  nlinarith [mul_self_nonneg n.x, mul_self_nonneg n.y, mul_self_nonneg n.z]

theorem smul_dot (r : K) (B : Aff K) : vdot (B.smul r).n (B.smul r).n = r * r * vdot B.n B.n := by simp only [Aff.smul, vdot]; ring
theorem smul_area (r : K) (B : Aff K) (a b p : Pt K) : area (B.smul r).n a b p = r * area B.n a b p := by simp only [Aff.smul, area, vdet]; ring
theorem vdet_swap (u v w : Pt K) : vdet w v u = - vdet u v w := by simp only [vdet]; ring

/-- The direction of the segment from `a` to `b` of a face with the point `p` above the plane `h`. -/
theorem dir_left {A h : Aff K} {a b p : Pt K} (hA : vdot A.n A.n ≠ 0) (hh : vdot h.n h.n ≠ 0) (a1 : A.ev a = 0) (b1 : A.ev b = 0) (p1 : A.ev p = 0) (a2 : h.ev a = 0) (b2 : h.ev b = 0)
    (p2 : 0 < h.ev p) (ht : area A.n a b p < 0) : ∃ κ, 0 < κ ∧ ∀ q, h.ev q = 0 → area h.n a b q = κ * A.ev q := by
  have hA' := normal_pos hA
  have hh' := normal_pos hh
  refine ⟨vdot h.n h.n * (- area A.n a b p) / (vdot A.n A.n * h.ev p), div_pos (mul_pos hh' (by linarith)) (mul_pos hA' p2), fun q hq => ?_⟩
  have e1 := ev_det a1 b1 p1 q
  have e2 := ev_det a2 b2 hq p
  rw [vdet_swap] at e2
  have hd : vdot A.n A.n * h.ev p ≠ 0 := (mul_pos hA' p2).ne'
  rw [div_mul_eq_mul_div, eq_div_iff hd]
  linear_combination (- vdot A.n A.n) * e2 - vdot h.n h.n * e1

/-- How face `i` belongs to cell `k`. -/
def sgOf (cl : List (Nat × Option Nat)) (k i : Nat) : Int := match cl[i]? with
  | some P => sg P k
  | none => 0

theorem sgOf_some {cl : List (Nat × Option Nat)} {k i : Nat} {P : Nat × Option Nat} (h : cl[i]? = some P) : sgOf cl k i = sg P k := by simp [sgOf, h]
theorem sgOf_ne {cl : List (Nat × Option Nat)} {k i : Nat} (h : sgOf cl k i ≠ 0) : ∃ P, cl[i]? = some P ∧ sg P k ≠ 0 := by
  unfold sgOf at h
  cases e : cl[i]? with
  | none => rw [e] at h; exact absurd rfl h
  | some P => rw [e] at h; exact ⟨P, rfl, h⟩

def cellA (pl : Nat → Aff K) (cl : List (Nat × Option Nat)) (k : Nat) (i : Nat) : Aff K := (pl i).smul (sgOf cl k i : K)
def cellF (cl : List (Nat × Option Nat)) (k : Nat) (i : Nat) : Prop := sgOf cl k i ≠ 0
def cellV (pos : Nat → Pt K) (cl : List (Nat × Option Nat)) (fs : List Cycle) (k : Nat) (p : Pt K) : Prop := ∃ x, OfCell cl fs k x ∧ pos x = p
def cellFv (pos : Nat → Pt K) (fs : List Cycle) (i : Nat) (p : Pt K) : Prop := ∃ c, fs[i]? = some c ∧ ∃ x ∈ c, pos x.1 = p

theorem normal_of_sides {h : Aff K} {p q : Pt K} (hp : 0 < h.ev p) (hq : h.ev q < 0) : vdot h.n h.n ≠ 0 := by
  apply ne_of_gt
  apply vdot_pos
  intro e
  simp only [Aff.ev, e, vdot, zero_mul, zero_add] at hp hq
  linarith

variable {pos : Nat → Pt K} {pl : Nat → Aff K} {cl : List (Nat × Option Nat)} {fs : List Cycle} {h : Aff K} {cid : Nat}

/-- The cell seen as a convex cell. -/
theorem Geo.cell (g : Geo pos pl cl fs) (hlen : cl.length = fs.length) (hup : ∃ x, OfCell cl fs cid x ∧ 0 < h.ev (pos x)) (hdn : ∃ x, OfCell cl fs cid x ∧ h.ev (pos x) < 0) :
    CellGeo h (cellA pl cl cid) (cellV pos cl fs cid) (cellF cl cid) (cellFv pos fs) := by
  obtain ⟨xu, hu1, hu2⟩ := hup
  obtain ⟨xd, hd1, hd2⟩ := hdn
  have hface : ∀ i, cellF cl cid i → ∃ P c, cl[i]? = some P ∧ sg P cid ≠ 0 ∧ fs[i]? = some c := by
    intro i hi
    obtain ⟨P, h1, h2⟩ := sgOf_ne hi
    have hlt := (List.getElem?_eq_some_iff.1 h1).1
    rw [hlen] at hlt
    exact ⟨P, fs[i], h1, h2, List.getElem?_eq_getElem hlt⟩
  refine ⟨normal_of_sides hu2 hd2, ⟨_, ⟨xu, hu1, rfl⟩, hu2⟩, ⟨_, ⟨xd, hd1, rfl⟩, hd2⟩, ?_, ?_, ?_, ?_, ?_⟩
  · rintro i hi p ⟨x, hx, rfl⟩
    obtain ⟨P, c, h1, h2, h3⟩ := hface i hi
    rw [cellA, Aff.smul_ev, sgOf_some h1]
    exact g.side cid i P h1 h2 x hx
  · intro i hi
    obtain ⟨P, c, h1, h2, h3⟩ := hface i hi
    obtain ⟨x, hx, hne⟩ := g.strict cid i P h1 h2
    refine ⟨_, ⟨x, hx, rfl⟩, ?_⟩
    rw [cellA, Aff.smul_ev, sgOf_some h1]
    exact mul_ne_zero (Int.cast_ne_zero.2 h2) hne
  · rintro i hi p ⟨c, hc, x, hx, rfl⟩
    rw [cellA, Aff.smul_ev, (g.face i c hc).plane x hx, mul_zero]
  · rintro i hi p ⟨c, hc, x, hx, rfl⟩
    obtain ⟨P, h1, h2⟩ := sgOf_ne hi
    exact ⟨x.1, ⟨i, P, c, h1, h2, hc, x, hx, rfl⟩, rfl⟩
  · intro i hi j hj hij
    obtain ⟨P, c, h1, h2, h3⟩ := hface i hi
    obtain ⟨Q, d, k1, k2, k3⟩ := hface j hj
    obtain ⟨ψ, p1, p2, p3⟩ := g.apart cid i P j Q c d h1 h2 k1 k2 hij h3 k3
    refine ⟨ψ, ?_, ?_, ?_⟩
    · rintro p ⟨c', hc, x, hx, rfl⟩
      rw [h3] at hc; cases hc
      exact p1 x hx
    · rintro p ⟨c', hc, x, hx, rfl⟩
      rw [k3] at hc; cases hc
      exact p2 x hx
    · rcases p3 with ⟨x, hx, e⟩ | ⟨x, hx, e⟩
      · exact Or.inl ⟨_, ⟨c, h3, x, hx, rfl⟩, e⟩
      · exact Or.inr ⟨_, ⟨d, k3, x, hx, rfl⟩, e⟩

/-- One segment of a face. -/
theorem Geo.dir (g : Geo pos pl cl fs) (hn : vdot h.n h.n ≠ 0) {i : Nat} {P : Nat × Option Nat} {c : Cycle} (hP : cl[i]? = some P) (hc : fs[i]? = some c) {s : Int} (hs : sg P cid = s) (hs1 : s = 1 ∨ s = -1)
    {a b p : Nat × Nat} (ha : a ∈ c) (hb : b ∈ c) (hp : p ∈ c) (a0 : h.ev (pos a.1) = 0) (b0 : h.ev (pos b.1) = 0) (p0 : 0 < h.ev (pos p.1)) (hab : pos a.1 ≠ pos b.1)
    (ht : (s : K) * area (pl i).n (pos a.1) (pos b.1) (pos p.1) < 0) : Dir h (cellA pl cl cid) (cellF cl cid) (cellFv pos fs) i (pos a.1) (pos b.1) := by
  have f := g.face i c hc
  have e : sgOf cl cid i = s := by rw [sgOf_some hP, hs]
  have hs0 : (s : K) ≠ 0 := by rcases hs1 with rfl | rfl <;> simp
  refine ⟨?_, a0, b0, ⟨c, hc, a, ha, rfl⟩, ⟨c, hc, b, hb, rfl⟩, hab, ?_, _, ⟨c, hc, p, hp, rfl⟩, p0⟩
  · unfold cellF; rw [e]; rcases hs1 with rfl | rfl <;> decide
  · apply dir_left (p := pos p.1) _ hn _ _ _ a0 b0 p0
    · rw [cellA, e, smul_area]; exact ht
    · rw [cellA, e, smul_dot]; exact mul_ne_zero (mul_ne_zero hs0 hs0) f.normal
    all_goals
      rw [cellA, Aff.smul_ev]
    · rw [f.plane a ha, mul_zero]
    · rw [f.plane b hb, mul_zero]
    · rw [f.plane p hp, mul_zero]

/-- An edge in the plane and a vertex above it. -/
theorem FaceOk.edge_up {B : Aff K} {c : Cycle} (f : FaceOk pos B c) {k : HE} (hk : k ∈ hes c) (h1 : h.ev (pos k.tail) = 0) (h2 : h.ev (pos k.tip) = 0) {p : Nat × Nat} (hp : p ∈ c) (hp0 : h.ev (pos p.1) ≠ 0) :
    0 < area B.n (pos k.tail) (pos k.tip) (pos p.1) := by
  apply lt_of_le_of_ne (f.left k hk p hp)
  intro e
  obtain ⟨t, ht⟩ := on_line f.normal (f.ev_tail hk) (f.ev_tip hk) (f.plane p hp) (f.pos_ne hk) e.symm
  apply hp0
  rw [ht, ev_lerp, h1, h2, mul_zero, mul_zero, add_zero]

/-- **The pieces of the curve.** -/
theorem Geo.pieces {A : List HE} {σ : Nat → SignType} {L : List Nat} {nV : Nat} (g : Geo pos pl cl fs) (hn : vdot h.n h.n ≠ 0)
    (hσ : ∀ x, OfCell cl fs cid x → σ x = SignType.sign (h.ev (pos x))) {sp : List (Nat × Split)} (hnd : (sp.map Prod.fst).Nodup)
    (hpiece : ∀ p ∈ sp, p.2.outline = true ∧ ∃ P c, cl[p.1]? = some P ∧ sg P cid ≠ 0 ∧ fs[p.1]? = some c ∧ PieceOk σ L nV A (sg P cid) c p.2 ∧ PieceZ σ (sg P cid) c p.2) :
    Pieces pos h (cellA pl cl cid) (cellF cl cid) (cellFv pos fs) (sp.map fun p => (p.1, p.2.arcs L nV)) := by
  have key : ∀ p ∈ sp, (p.2.arcs L nV ≠ []) ∧ ((p.2.arcs L nV).IsChain fun a b => a.2 = b.1) ∧ (∀ a ∈ p.2.arcs L nV, Dir h (cellA pl cl cid) (cellF cl cid) (cellFv pos fs) p.1 (pos a.1) (pos a.2)) ∧
      ((p.2.arcs L nV).map Prod.fst).Nodup ∧ (∀ a ∈ p.2.arcs L nV, ∀ b ∈ p.2.arcs L nV, pos a.1 = pos b.1 → a.1 = b.1) ∧
      (∀ a ∈ p.2.arcs L nV, ∀ b ∈ p.2.arcs L nV, ∀ t : K, 0 < t → t < 1 → pos b.1 ≠ lerp (pos a.1) (pos a.2) t) := by
    intro p hp
    obtain ⟨ho, P, c, hP, hs0, hc, ok, oz⟩ := hpiece p hp
    have f := g.face _ c hc
    have hzero : ∀ x ∈ c, σ x.1 = 0 → h.ev (pos x.1) = 0 := fun x hx e => by
      rw [hσ x.1 ⟨p.1, P, c, hP, hs0, hc, x, hx, rfl⟩] at e
      exact sign_eq_zero_iff.1 e
    have hone : ∀ x ∈ c, σ x.1 = 1 → 0 < h.ev (pos x.1) := fun x hx e => by
      rw [hσ x.1 ⟨p.1, P, c, hP, hs0, hc, x, hx, rfl⟩] at e
      exact sign_eq_one_iff.1 e
    obtain ⟨i, sp'⟩ := p
    cases sp' with
    | isPos b => simp [Split.outline] at ho
    | two va vb =>
      obtain ⟨x, Ps, y, Ns, hr, hP0, hN0, h1, h2, sx, sy, hne, hid⟩ := ok
      have hm : ∀ z, z ∈ (x :: Ps) ++ (y :: Ns) → z ∈ c := fun z hz => hr.perm.mem_iff.2 hz
      have hx := hm x (by simp)
      have hy := hm y (by simp)
      have x0 := hzero x hx sx
      have y0 := hzero y hy sy
      obtain ⟨hxy, hd⟩ := (f.rot hr).diag hP0 x0 y0 fun z hz => hone z (hm z (by simp [hz])) (h1 z hz)
      obtain ⟨z, hz⟩ := List.exists_mem_of_ne_nil _ hP0
      have hzc := hm z (by simp [hz])
      have fin : ∀ a b : Nat × Nat, a ∈ c → b ∈ c → Dir h (cellA pl cl cid) (cellF cl cid) (cellFv pos fs) i (pos a.1) (pos b.1) → ([(a.1, b.1)] ≠ ([] : List (Nat × Nat))) ∧ ([(a.1, b.1)].IsChain fun a b : Nat × Nat => a.2 = b.1) ∧ (∀ q ∈ [(a.1, b.1)], Dir h (cellA pl cl cid) (cellF cl cid) (cellFv pos fs) i (pos q.1) (pos q.2)) ∧
          ([(a.1, b.1)].map Prod.fst).Nodup ∧ (∀ q ∈ [(a.1, b.1)], ∀ r ∈ [(a.1, b.1)], pos q.1 = pos r.1 → q.1 = r.1) ∧
          (∀ q ∈ [(a.1, b.1)], ∀ r ∈ [(a.1, b.1)], ∀ t : K, 0 < t → t < 1 → pos r.1 ≠ lerp (pos q.1) (pos q.2) t) := by
        intro a b ha hb hd
        refine ⟨by simp, by simp, by simpa using hd, by simp, by simp, ?_⟩
        intro q hq r hr t t0 t1 e
        rw [List.mem_singleton] at hq hr
        subst hq; subst hr
        simp only at e
        have := lerp_inj hd.ne ((lerp_zero _ _).trans e)
        rw [← this] at t0
        exact lt_irrefl _ t0
      rcases hid with ⟨es, i1, i2⟩ | ⟨es, i1, i2⟩
      · simp only [Split.arcs, i1, i2]
        exact fin x y hx hy (g.dir hn hP hc es (Or.inl rfl) hx hy hzc x0 y0 (hone z hzc (h1 z hz)) hxy (by simpa using hd z hz))
      · simp only [Split.arcs, i1, i2]
        refine fin y x hy hx (g.dir hn hP hc es (Or.inr rfl) hy hx hzc y0 x0 (hone z hzc (h1 z hz)) hxy.symm ?_)
        rw [turn_swap]
        simpa using hd z hz
    | zero l =>
      obtain ⟨l0, lch, -⟩ := ok
      obtain ⟨Z, w, Ps, hr, hZ, hPs, hZ0, hP0, hl⟩ := oz
      have hm : ∀ z, z ∈ (Z ++ [w]) ++ Ps → z ∈ c := fun z hz => hr.perm.mem_iff.2 hz
      have hsub : ∀ k ∈ path Z w.1, k ∈ hes c := by
        intro k hk
        rw [mem_hes_rot hr, hes_append, path_append, List.mem_append, List.mem_append]
        exact Or.inl (Or.inl hk)
      have hza : ∀ k ∈ path Z w.1, h.ev (pos k.tail) = 0 ∧ h.ev (pos k.tip) = 0 := by
        intro k hk
        refine ⟨hzero _ (hes_tail (hsub k hk)) (hZ _ (by simp [path_tail hk])), ?_⟩
        rcases path_tip hk with e | ⟨x, hx, e⟩
        · rw [e]; exact hzero w (hm w (by simp)) (hZ w (by simp))
        · rw [← e]; exact hzero x (hm x (by simp [hx])) (hZ x (by simp [hx]))
      obtain ⟨z, hz⟩ := List.exists_mem_of_ne_nil _ hP0
      have hzc := hm z (by simp [hz])
      have hz1 := hone z hzc (hPs z hz)
      have hnd1 : ((Z ++ [w]).map Prod.fst).Nodup := by
        have := (hr.perm.map Prod.fst).nodup_iff.1 f.simple
        rw [List.map_append] at this
        exact this.of_append_left
      have hl2 : ∀ k ∈ l, (∃ a ∈ c, a.1 = k.tail) ∧ (∃ a ∈ c, a.1 = k.tip) ∧ Dir h (cellA pl cl cid) (cellF cl cid) (cellFv pos fs) i (pos k.tail) (pos k.tip) ∧
          ∀ x ∈ c, ∀ t : K, 0 < t → t < 1 → pos x.1 ≠ lerp (pos k.tail) (pos k.tip) t := by
        intro k hk
        rcases hl with ⟨es, rfl⟩ | ⟨es, rfl⟩
        · obtain ⟨k', hk', rfl⟩ := List.mem_map.1 hk
          rw [List.mem_reverse] at hk'
          have hk2 := hsub k' hk'
          obtain ⟨y, hy, ey⟩ := hes_tip hk2
          refine ⟨⟨y, hy, ey⟩, ⟨_, hes_tail hk2, rfl⟩, ?_, ?_⟩
          · have := g.dir (h := h) (a := y) (b := (k'.tail, k'.edge)) (p := z) hn hP hc es (Or.inl rfl) hy (hes_tail hk2) hzc (by rw [ey]; exact (hza k' hk').2) (hza k' hk').1 hz1 (by rw [ey]; exact (f.pos_ne hk2).symm)
              (by
                rw [ey, turn_swap]
                have := f.edge_up hk2 (hza k' hk').1 (hza k' hk').2 hzc hz1.ne'
                simpa using this)
            rw [ey] at this
            exact this
          · intro x hx t t0 t1 e
            rw [lerp_symm] at e
            exact f.nomid k' hk2 x hx (1 - t) (by linarith) (by linarith) e
        · have hk2 := hsub k hk
          obtain ⟨y, hy, ey⟩ := hes_tip hk2
          refine ⟨⟨_, hes_tail hk2, rfl⟩, ⟨y, hy, ey⟩, ?_, fun x hx t t0 t1 => f.nomid k hk2 x hx t t0 t1⟩
          have := g.dir (h := h) (b := y) (a := (k.tail, k.edge)) (p := z) hn hP hc es (Or.inr rfl) (hes_tail hk2) hy hzc (hza k hk).1 (by rw [ey]; exact (hza k hk).2) hz1 (by rw [ey]; exact f.pos_ne hk2)
            (by
              rw [ey]
              have := f.edge_up hk2 (hza k hk).1 (hza k hk).2 hzc hz1.ne'
              simpa using this)
          rw [ey] at this
          exact this
      have hl3 : (l.map HE.tail).Nodup := by
        rcases hl with ⟨es, rfl⟩ | ⟨es, rfl⟩
        · have e : ((path Z w.1).reverse.map HE.rev).map HE.tail = ((path Z w.1).map HE.tip).reverse := by rw [List.map_map, ← List.map_reverse]; rfl
          rw [e, List.nodup_reverse]
          obtain ⟨x, Z, rfl⟩ := List.exists_cons_of_ne_nil hZ0
          rw [path_map_tip]
          rw [List.cons_append, List.map_cons, List.nodup_cons] at hnd1
          simpa using hnd1.2
        · have e : (path Z w.1).map HE.tail = Z.map Prod.fst := by
            rw [show HE.tail = Prod.fst ∘ (fun h : HE => (h.tail, h.edge)) from rfl, ← List.map_map, path_map]
          rw [e]
          rw [List.map_append] at hnd1
          exact hnd1.of_append_left
      simp only [Split.arcs]
      refine ⟨by simpa using l0, ?_, ?_, ?_, ?_, ?_⟩
      · rw [List.isChain_map]; exact lch
      · intro a ha
        obtain ⟨k, hk, rfl⟩ := List.mem_map.1 ha
        exact (hl2 k hk).2.2.1
      · rw [List.map_map]; exact hl3
      · intro a ha b hb e
        obtain ⟨k, hk, rfl⟩ := List.mem_map.1 ha
        obtain ⟨j, hj, rfl⟩ := List.mem_map.1 hb
        obtain ⟨⟨x, hx, ex⟩, -⟩ := hl2 k hk
        obtain ⟨⟨y, hy, ey⟩, -⟩ := hl2 j hj
        simp only at e ⊢
        rw [← ex, ← ey] at e ⊢
        exact f.inj x hx y hy e
      · intro a ha b hb t t0 t1 e
        obtain ⟨k, hk, rfl⟩ := List.mem_map.1 ha
        obtain ⟨j, hj, rfl⟩ := List.mem_map.1 hb
        obtain ⟨⟨y, hy, ey⟩, -⟩ := hl2 j hj
        simp only at e
        rw [← ey] at e
        exact (hl2 k hk).2.2.2 y hy t t0 t1 e
  refine ⟨by rw [List.map_map]; exact hnd, ?_, ?_, ?_, ?_, ?_, ?_⟩ <;> intro q hq <;> obtain ⟨p, hp, rfl⟩ := List.mem_map.1 hq
  · exact (key p hp).1
  · exact (key p hp).2.1
  · exact (key p hp).2.2.1
  · exact (key p hp).2.2.2.1
  · exact (key p hp).2.2.2.2.1
  · exact (key p hp).2.2.2.2.2

/-- No face of the cell lies in the plane. -/
theorem Geo.face_ne (g : Geo pos pl cl fs) (hlen : cl.length = fs.length) (hup : ∃ x, OfCell cl fs cid x ∧ 0 < h.ev (pos x)) (hdn : ∃ x, OfCell cl fs cid x ∧ h.ev (pos x) < 0)
    {i : Nat} {P : Nat × Option Nat} {c : Cycle} (hP : cl[i]? = some P) (hs : sg P cid ≠ 0) (hc : fs[i]? = some c) : ∃ x ∈ c, h.ev (pos x.1) ≠ 0 := by
  by_contra hcon
  push Not at hcon
  have f := g.face i c hc
  obtain ⟨μ, hμ⟩ := f.vanish hcon
  obtain ⟨xu, hu1, hu2⟩ := hup
  obtain ⟨xd, hd1, hd2⟩ := hdn
  have e1 := g.side cid i P hP hs xu hu1
  have e2 := g.side cid i P hP hs xd hd1
  rw [hμ] at hu2 hd2
  rcases lt_trichotomy μ 0 with hm | hm | hm
  · have h1 := neg_of_mul_pos_right hu2 hm.le
    have h2 : 0 < (pl i).ev (pos xd) := by
      by_contra hc
      have := mul_nonneg_of_nonpos_of_nonpos hm.le (not_lt.1 hc)
      linarith
    have h3 : (sg P cid : K) = 0 := le_antisymm (by
      by_contra hc
      have := mul_neg_of_pos_of_neg (not_le.1 hc) h1
      linarith) (by
      by_contra hc
      have := mul_neg_of_neg_of_pos (not_le.1 hc) h2
      linarith)
    exact hs (by exact_mod_cast h3)
  · rw [hm, zero_mul] at hu2; exact lt_irrefl _ hu2
  · have h1 : 0 < (pl i).ev (pos xu) := pos_of_mul_pos_right hu2 hm.le
    have h2 : (pl i).ev (pos xd) < 0 := by
      by_contra hc
      have := mul_nonneg hm.le (not_lt.1 hc)
      linarith
    have h3 : (sg P cid : K) = 0 := le_antisymm (by
      by_contra hc
      have := mul_neg_of_pos_of_neg (not_le.1 hc) h2
      linarith) (by
      by_contra hc
      have := mul_neg_of_neg_of_pos (not_le.1 hc) h1
      linarith)
    exact hs (by exact_mod_cast h3)

end Verif.Bsp
