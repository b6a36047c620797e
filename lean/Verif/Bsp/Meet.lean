import Verif.Bsp.Plane
/-!
# A plane with vertices of a convex cell on both sides meets its boundary
-/
namespace Verif.Bsp
open InSphere (Pt)
open Geom (lerp)

variable {K : Type} [Field K] [LinearOrder K] [IsStrictOrderedRing K]

/-- The pieces form one closed curve if there are any. -/
theorem Geo.oneLoop {pos : Nat → Pt K} {pl : Nat → Aff K} {h : Aff K} {sgn : Nat → SignType} {s : St} {cid : Nat} {C : Poly.Cell} (gd : Good s) (hC : s.cx.cells[cid]? = some C)
    (g : Geo pos pl s.cl s.mesh.faces) (ha : Across pos h sgn s.cl s.mesh.faces cid) {cf : List (Nat × Poly.Face × Cycle)} (hcf : cellFaces s C = some cf) {keys : List (Nat × Nat)}
    (hk : List.Forall₂ (fun p k => p.2.key (crossing sgn (cf.flatMap fun x => hes x.2.2)) s.mesh.nV = some k) ((cellSplits sgn s.mesh cid cf).filter fun p => p.2.outline) keys) (h0 : keys ≠ []) : OneLoop keys := by
  obtain ⟨cf', L, m1, E, hcf', hL, hLnd, hLf, hm, gm1, v1, fE, ex, hsp, hpiece⟩ := cell_pieces (fun _ => true) gd hC (g.convexFaces gd hC ha)
  rw [hcf] at hcf'; cases hcf'
  rw [hL] at hk
  obtain ⟨pos', -, -, -, g1, a1, -⟩ := g.splitEdges gd hC ha hLnd hLf hm fE ex v1 gm1
  have cg := g1.cell gm1.len a1.up a1.down
  have hnd : ((cellSplits sgn s.mesh cid cf).map Prod.fst).Nodup := by rw [hsp]; exact gd.linked.nodup cid C hC
  have hpc := Geo.pieces (L := L) (nV := s.mesh.nV) (A := m1.all) (sp := (cellSplits sgn s.mesh cid cf).filter fun p => p.2.outline) g1 cg.normal a1.sgn (hnd.sublist (List.Sublist.map _ List.filter_sublist))
    fun p hp => ⟨(List.mem_filter.1 hp).2, hpiece p (List.mem_filter.1 hp).1⟩
  refine hpc.oneLoop cg ?_ ?_ h0
  · rw [List.forall₂_map_left_iff]
    exact hk.imp fun p k hpk => arcs_key hpk
  · refine keys_perm gm1 (σ := newSgn sgn s.mesh.nV) (cid := cid) hnd ?_ ?_ hk
    · intro i P hP hs
      rw [hsp]
      rw [St.cl, List.getElem?_map] at hP
      obtain ⟨F, hF, rfl⟩ := Option.map_eq_some_iff.1 hP
      refine (gd.linked.link cid C hC i).2 ⟨F, hF, ?_⟩
      by_contra hb
      exact hs (sg_zero hb)
    · intro p hp
      obtain ⟨P, c, q1, -, q3, q4, q5⟩ := hpiece p hp
      exact ⟨P, c, q1, q3, q4, q5⟩

/-! ### A plane through two faces -/

def vcross (u v : Pt K) : Pt K := ⟨u.y * v.z - u.z * v.y, u.z * v.x - u.x * v.z, u.x * v.y - u.y * v.x⟩

theorem exists_dot {m m' : Pt K} (h1 : m ≠ ⟨0, 0, 0⟩) (h2 : m' ≠ ⟨0, 0, 0⟩) : ∃ c : Pt K, vdot c m ≠ 0 ∧ vdot c m' ≠ 0 := by
  have p1 := vdot_pos h1
  have p2 := vdot_pos h2
  by_cases hm : vdot m m' = 0
  · refine ⟨⟨m.x + m'.x, m.y + m'.y, m.z + m'.z⟩, ?_, ?_⟩
    · have : vdot ⟨m.x + m'.x, m.y + m'.y, m.z + m'.z⟩ m = vdot m m + vdot m m' := by simp only [vdot]; ring
      rw [this, hm, add_zero]; exact p1.ne'
    · have : vdot ⟨m.x + m'.x, m.y + m'.y, m.z + m'.z⟩ m' = vdot m m' + vdot m' m' := by simp only [vdot]; ring
      rw [this, hm, zero_add]; exact p2.ne'
  · exact ⟨m, p1.ne', hm⟩

/-- One of three points that are not on a line is not in direction `w` from their centre. -/
theorem exists_off {n a1 a2 a3 p w : Pt K} (ha : area n a1 a2 a3 ≠ 0) (hw : w ≠ ⟨0, 0, 0⟩) : ∃ a, (a = a1 ∨ a = a2 ∨ a = a3) ∧ vcross w (vsub a p) ≠ ⟨0, 0, 0⟩ := by
  by_contra hc
  push Not at hc
  have h1 := hc a1 (Or.inl rfl)
  have h2 := hc a2 (Or.inr (Or.inl rfl))
  have h3 := hc a3 (Or.inr (Or.inr rfl))
  apply ha
  simp only [vcross, vsub, Pt.mk.injEq] at h1 h2 h3
  obtain ⟨x1, y1, z1⟩ := h1
  obtain ⟨x2, y2, z2⟩ := h2
  obtain ⟨x3, y3, z3⟩ := h3
  have hw0 : w.x ≠ 0 ∨ w.y ≠ 0 ∨ w.z ≠ 0 := by
    by_contra hc
    push Not at hc
    apply hw
    obtain ⟨x, y, z⟩ := w
    simp only at hc
    rw [hc.1, hc.2.1, hc.2.2]
  simp only [area, vdet, vsub]
  rcases hw0 with h0 | h0 | h0
  · apply (mul_eq_zero.1 (_ : (w.x * w.x) * _ = 0)).resolve_left (mul_ne_zero h0 h0)
    have b2 : w.x * (a2.y - a1.y) = w.y * (a2.x - a1.x) := by linear_combination z2 - z1
    have b3 : w.x * (a3.y - a1.y) = w.y * (a3.x - a1.x) := by linear_combination z3 - z1
    have c2 : w.x * (a2.z - a1.z) = w.z * (a2.x - a1.x) := by linear_combination y1 - y2
    have c3 : w.x * (a3.z - a1.z) = w.z * (a3.x - a1.x) := by linear_combination y1 - y3
    have : (w.x * w.x) * (n.x * ((a2.y - a1.y) * (a3.z - a1.z) - (a2.z - a1.z) * (a3.y - a1.y)) + n.y * ((a2.z - a1.z) * (a3.x - a1.x) - (a2.x - a1.x) * (a3.z - a1.z)) + n.z * ((a2.x - a1.x) * (a3.y - a1.y) - (a2.y - a1.y) * (a3.x - a1.x))) =
      n.x * ((w.x * (a2.y - a1.y)) * (w.x * (a3.z - a1.z)) - (w.x * (a2.z - a1.z)) * (w.x * (a3.y - a1.y))) + n.y * w.x * ((w.x * (a2.z - a1.z)) * (a3.x - a1.x) - (a2.x - a1.x) * (w.x * (a3.z - a1.z))) + n.z * w.x * ((a2.x - a1.x) * (w.x * (a3.y - a1.y)) - (w.x * (a2.y - a1.y)) * (a3.x - a1.x)) := by ring
    rw [this, b2, b3, c2, c3]; ring
  · apply (mul_eq_zero.1 (_ : (w.y * w.y) * _ = 0)).resolve_left (mul_ne_zero h0 h0)
    have b2 : w.y * (a2.x - a1.x) = w.x * (a2.y - a1.y) := by linear_combination z1 - z2
    have b3 : w.y * (a3.x - a1.x) = w.x * (a3.y - a1.y) := by linear_combination z1 - z3
    have c2 : w.y * (a2.z - a1.z) = w.z * (a2.y - a1.y) := by linear_combination x2 - x1
    have c3 : w.y * (a3.z - a1.z) = w.z * (a3.y - a1.y) := by linear_combination x3 - x1
    have : (w.y * w.y) * (n.x * ((a2.y - a1.y) * (a3.z - a1.z) - (a2.z - a1.z) * (a3.y - a1.y)) + n.y * ((a2.z - a1.z) * (a3.x - a1.x) - (a2.x - a1.x) * (a3.z - a1.z)) + n.z * ((a2.x - a1.x) * (a3.y - a1.y) - (a2.y - a1.y) * (a3.x - a1.x))) =
      n.x * w.y * ((a2.y - a1.y) * (w.y * (a3.z - a1.z)) - (w.y * (a2.z - a1.z)) * (a3.y - a1.y)) + n.y * ((w.y * (a2.z - a1.z)) * (w.y * (a3.x - a1.x)) - (w.y * (a2.x - a1.x)) * (w.y * (a3.z - a1.z))) + n.z * w.y * ((w.y * (a2.x - a1.x)) * (a3.y - a1.y) - (a2.y - a1.y) * (w.y * (a3.x - a1.x))) := by ring
    rw [this, b2, b3, c2, c3]; ring
  · apply (mul_eq_zero.1 (_ : (w.z * w.z) * _ = 0)).resolve_left (mul_ne_zero h0 h0)
    have b2 : w.z * (a2.x - a1.x) = w.x * (a2.z - a1.z) := by linear_combination y2 - y1
    have b3 : w.z * (a3.x - a1.x) = w.x * (a3.z - a1.z) := by linear_combination y3 - y1
    have c2 : w.z * (a2.y - a1.y) = w.y * (a2.z - a1.z) := by linear_combination x1 - x2
    have c3 : w.z * (a3.y - a1.y) = w.y * (a3.z - a1.z) := by linear_combination x1 - x3
    have : (w.z * w.z) * (n.x * ((a2.y - a1.y) * (a3.z - a1.z) - (a2.z - a1.z) * (a3.y - a1.y)) + n.y * ((a2.z - a1.z) * (a3.x - a1.x) - (a2.x - a1.x) * (a3.z - a1.z)) + n.z * ((a2.x - a1.x) * (a3.y - a1.y) - (a2.y - a1.y) * (a3.x - a1.x))) =
      n.x * w.z * ((w.z * (a2.y - a1.y)) * (a3.z - a1.z) - (a2.z - a1.z) * (w.z * (a3.y - a1.y))) + n.y * w.z * ((a2.z - a1.z) * (w.z * (a3.x - a1.x)) - (w.z * (a2.x - a1.x)) * (a3.z - a1.z)) + n.z * ((w.z * (a2.x - a1.x)) * (w.z * (a3.y - a1.y)) - (w.z * (a2.y - a1.y)) * (w.z * (a3.x - a1.x))) := by ring
    rw [this, b2, b3, c2, c3]; ring

def centre (a b c : Pt K) : Pt K := ⟨(a.x + b.x + c.x) / 3, (a.y + b.y + c.y) / 3, (a.z + b.z + c.z) / 3⟩

theorem ev_centre (A : Aff K) (a b c : Pt K) : 3 * A.ev (centre a b c) = A.ev a + A.ev b + A.ev c := by
  simp only [Aff.ev, vdot, centre]
  have : (3 : K) ≠ 0 := by norm_num
  field_simp
  ring

theorem both_sides {x y z : K} (h : x + y + z = 0) (hne : x ≠ 0 ∨ y ≠ 0 ∨ z ≠ 0) : (0 < x ∨ 0 < y ∨ 0 < z) ∧ (x < 0 ∨ y < 0 ∨ z < 0) := by
  constructor
  · by_contra hc
    push Not at hc
    obtain ⟨h1, h2, h3⟩ := hc
    rcases hne with e | e | e <;> exact e (by linarith)
  · by_contra hc
    push Not at hc
    obtain ⟨h1, h2, h3⟩ := hc
    rcases hne with e | e | e <;> exact e (by linarith)

/-- A plane through the centres of two triangles that contains neither. -/
theorem through_two {n n' a1 a2 a3 b1 b2 b3 : Pt K} (ha : area n a1 a2 a3 ≠ 0) (hb : area n' b1 b2 b3 ≠ 0) (hne : centre a1 a2 a3 ≠ centre b1 b2 b3) :
    ∃ h : Aff K, ((0 < h.ev a1 ∨ 0 < h.ev a2 ∨ 0 < h.ev a3) ∧ (h.ev a1 < 0 ∨ h.ev a2 < 0 ∨ h.ev a3 < 0)) ∧ ((0 < h.ev b1 ∨ 0 < h.ev b2 ∨ 0 < h.ev b3) ∧ (h.ev b1 < 0 ∨ h.ev b2 < 0 ∨ h.ev b3 < 0)) := by
  set p := centre a1 a2 a3 with hp
  set q := centre b1 b2 b3 with hq
  have hw := vsub_ne hne.symm
  obtain ⟨a, ha1, ha2⟩ := exists_off (p := p) ha hw
  obtain ⟨b, hb1, hb2⟩ := exists_off (p := p) hb hw
  obtain ⟨c, c1, c2⟩ := exists_dot ha2 hb2
  set h : Aff K := ⟨vcross (vsub q p) c, - vdot (vcross (vsub q p) c) p⟩ with hh
  have hev : ∀ x, h.ev x = - vdot c (vcross (vsub q p) (vsub x p)) := by
    intro x
    simp only [hh, Aff.ev, vdot, vcross, vsub]; ring
  have h1 : h.ev p = 0 := by rw [hev]; simp only [vdot, vcross, vsub]; ring
  have h2 : h.ev q = 0 := by rw [hev]; simp only [vdot, vcross, vsub]; ring
  have e1 : h.ev a1 + h.ev a2 + h.ev a3 = 0 := by rw [← ev_centre, ← hp, h1, mul_zero]
  have e2 : h.ev b1 + h.ev b2 + h.ev b3 = 0 := by rw [← ev_centre, ← hq, h2, mul_zero]
  have na : h.ev a ≠ 0 := by rw [hev]; exact neg_ne_zero.2 c1
  have nb : h.ev b ≠ 0 := by rw [hev]; exact neg_ne_zero.2 c2
  refine ⟨h, both_sides e1 ?_, both_sides e2 ?_⟩
  · rcases ha1 with rfl | rfl | rfl
    · exact Or.inl na
    · exact Or.inr (Or.inl na)
    · exact Or.inr (Or.inr na)
  · rcases hb1 with rfl | rfl | rfl
    · exact Or.inl nb
    · exact Or.inr (Or.inl nb)
    · exact Or.inr (Or.inr nb)

/-- A plane next to it that avoids finitely many points. -/
theorem avoid (h : Aff K) (l : List (Pt K)) : ∃ h' : Aff K, ∀ p ∈ l, h'.ev p ≠ 0 ∧ (0 < h.ev p → 0 < h'.ev p) ∧ (h.ev p < 0 → h'.ev p < 0) := by
  have he : ∃ ε : K, 0 < ε ∧ ∀ p ∈ l, h.ev p < 0 → h.ev p + ε < 0 := by
    induction l with
    | nil => exact ⟨1, one_pos, by simp⟩
    | cons x l ih =>
      obtain ⟨ε, e0, e1⟩ := ih
      by_cases hx : h.ev x < 0
      · refine ⟨min ε (- h.ev x / 2), lt_min e0 (by linarith), ?_⟩
        intro p hp hp0
        rcases List.mem_cons.1 hp with rfl | hp
        · have := min_le_right ε (- h.ev p / 2); linarith
        · have := min_le_left ε (- h.ev x / 2); have := e1 p hp hp0; linarith
      · refine ⟨ε, e0, ?_⟩
        intro p hp hp0
        rcases List.mem_cons.1 hp with rfl | hp
        · exact absurd hp0 hx
        · exact e1 p hp hp0
  obtain ⟨ε, e0, e1⟩ := he
  refine ⟨⟨h.n, h.d + ε⟩, fun p hp => ?_⟩
  have e : (⟨h.n, h.d + ε⟩ : Aff K).ev p = h.ev p + ε := by simp only [Aff.ev]; ring
  rw [e]
  rcases lt_or_ge (h.ev p) 0 with h0 | h0
  · exact ⟨(e1 p hp h0).ne, fun h1 => by linarith, fun _ => e1 p hp h0⟩
  · exact ⟨by linarith, fun _ => by linarith, fun h1 => by linarith⟩

/-! ### The plane meets the boundary -/

/-- A face above the plane that contributes no piece: each of its edges has an end above. -/
theorem up_edges {sgn : Nat → SignType} {c : Cycle} (hc : Convex sgn c) {tw : HE → HE} {b : Bool} (ho : (splitFaceVerts sgn tw b c).outline = false) (hu : ∃ x ∈ c, sgn x.1 = 1) :
    ∀ k ∈ hes c, sgn k.tail = 1 ∨ sgn k.tip = 1 := by
  rcases hc.shape with ⟨s, hs0, Z, P, hr, hZ, hP, hP0⟩ | ⟨Z, P, Z', N, hr, h1, h2, hZ, hZ', hP, hN, hP0, hN0⟩
  · have hs1 : s = 1 := by
      obtain ⟨x, hx, e⟩ := hu
      rcases List.mem_append.1 (hr.perm.mem_iff.1 hx) with h | h
      · rw [hZ x h] at e; cases e
      · rw [← e, hP x h]
    subst hs1
    rw [split_side tw b hs0 hr hZ hP hP0, if_pos rfl] at ho
    have hz : Z.length ≤ 1 := by
      by_contra hz
      rw [if_neg hz] at ho
      simp [Split.outline] at ho
    intro k hk
    rw [mem_hes_rot hr, hes_append, List.mem_append] at hk
    rcases hk with hk | hk
    · match Z, hz with
      | [], _ => cases hk
      | [z], _ =>
        obtain ⟨y, P, rfl⟩ := List.exists_cons_of_ne_nil hP0
        simp only [path, List.mem_singleton] at hk
        subst hk
        exact Or.inr (hP y (by simp))
    · exact Or.inl (hP _ (path_tail hk))
  · rw [split_cut tw b hr h1 h2 hZ hZ' hP hN hP0 hN0] at ho
    cases b <;> simp [Split.outline] at ho

theorem one_side {sgn : Nat → SignType} {c : Cycle} (hc : Convex sgn c) {tw : HE → HE} {b : Bool} (ho : (splitFaceVerts sgn tw b c).outline = false) :
    (∀ x ∈ c, sgn x.1 ≠ -1) ∨ (∀ x ∈ c, sgn x.1 ≠ 1) := by
  rcases hc.shape with ⟨s, hs0, Z, P, hr, hZ, hP, hP0⟩ | ⟨Z, P, Z', N, hr, h1, h2, hZ, hZ', hP, hN, hP0, hN0⟩
  · have hm : ∀ x ∈ c, sgn x.1 = 0 ∨ sgn x.1 = s := fun x hx => by
      rcases List.mem_append.1 (hr.perm.mem_iff.1 hx) with h | h
      · exact Or.inl (hZ x h)
      · exact Or.inr (hP x h)
    by_cases h1 : s = 1
    · refine Or.inl fun x hx => ?_
      rcases hm x hx with h | h <;> rw [h]
      · decide
      · rw [h1]; decide
    · refine Or.inr fun x hx => ?_
      rcases hm x hx with h | h <;> rw [h]
      · decide
      · exact h1
  · rw [split_cut tw b hr h1 h2 hZ hZ' hP hN hP0 hN0] at ho
    cases b <;> simp [Split.outline] at ho

/-- A piece begins and ends at vertices of the face that are in the plane. -/
theorem key_mem {σ : Nat → SignType} {L : List Nat} {nV : Nat} {A : List HE} {s : Int} {c : Cycle} {p : Split} (ok : PieceOk σ L nV A s c p) (oz : PieceZ σ s c p) (ho : p.outline = true) :
    ∃ k, p.key L nV = some k ∧ (∃ x ∈ c, x.1 = k.1 ∧ σ x.1 = 0) ∧ ∃ x ∈ c, x.1 = k.2 ∧ σ x.1 = 0 := by
  cases p with
  | isPos b => simp [Split.outline] at ho
  | two X Y =>
    obtain ⟨x, P, y, N, hr, -, -, -, -, sx, sy, -, hid⟩ := ok
    have hx : x ∈ c := hr.perm.mem_iff.2 (by simp)
    have hy : y ∈ c := hr.perm.mem_iff.2 (by simp)
    rcases hid with ⟨-, a, b⟩ | ⟨-, a, b⟩
    · exact ⟨(x.1, y.1), by simp [Split.key, a, b], ⟨x, hx, rfl, sx⟩, y, hy, rfl, sy⟩
    · exact ⟨(y.1, x.1), by simp [Split.key, a, b], ⟨y, hy, rfl, sy⟩, x, hx, rfl, sx⟩
  | zero l =>
    obtain ⟨l0, lch, -⟩ := ok
    obtain ⟨k, hk, -, -, hh, hl⟩ := seg_of_chain l0 lch
    obtain ⟨Z, w, Ps, hr, hZ, -, -, -, hform⟩ := oz
    have hpath : ∀ j ∈ path Z w.1, (∃ x ∈ c, x.1 = j.tail ∧ σ x.1 = 0) ∧ ∃ x ∈ c, x.1 = j.tip ∧ σ x.1 = 0 := by
      intro j hj
      have hm : ∀ z, z ∈ Z ++ [w] → z ∈ c := fun z hz => hr.perm.mem_iff.2 (List.mem_append_left _ hz)
      have h1 : (j.tail, j.edge) ∈ Z ++ [w] := by simp [path_tail hj]
      refine ⟨⟨_, hm _ h1, rfl, hZ _ h1⟩, ?_⟩
      rcases path_tip hj with e | ⟨x, hx, e⟩
      · exact ⟨w, hm w (by simp), e.symm, hZ w (by simp)⟩
      · exact ⟨x, hm x (by simp [hx]), e, hZ x (by simp [hx])⟩
    have hall : ∀ j ∈ l, (∃ x ∈ c, x.1 = j.tail ∧ σ x.1 = 0) ∧ ∃ x ∈ c, x.1 = j.tip ∧ σ x.1 = 0 := by
      intro j hj
      rcases hform with ⟨-, rfl⟩ | ⟨-, rfl⟩
      · obtain ⟨j', hj', rfl⟩ := List.mem_map.1 hj
        have := hpath j' (List.mem_reverse.1 hj')
        exact ⟨this.2, this.1⟩
      · exact hpath j hj
    obtain ⟨a, ha, ea⟩ := Option.map_eq_some_iff.1 hh
    obtain ⟨b, hb, eb⟩ := Option.map_eq_some_iff.1 hl
    refine ⟨k, hk, ?_, ?_⟩
    · rw [← ea]; exact (hall a (List.mem_of_mem_head? ha)).1
    · rw [← eb]; exact (hall b (List.mem_of_getLast? hb)).2

theorem cellFaces_spec {s : St} {C : Poly.Cell} {cf : List (Nat × Poly.Face × Cycle)} (hcf : cellFaces s C = some cf) :
    (∀ x ∈ cf, x.1 ∈ C.faces ∧ s.cx.faces[x.1]? = some x.2.1 ∧ s.mesh.faces[x.1]? = some x.2.2) ∧ ∀ f ∈ C.faces, ∃ x ∈ cf, x.1 = f := by
  have hf2 : List.Forall₂ (fun f x => (do let F ← s.cx.faces[f]?; let c ← s.mesh.faces[f]?; some (f, F, c)) = some x) C.faces cf := by
    have aux : ∀ (l : List Nat) (r : List (Nat × Poly.Face × Cycle)), (l.mapM fun f => do let F ← s.cx.faces[f]?; let c ← s.mesh.faces[f]?; some (f, F, c)) = some r →
        List.Forall₂ (fun f x => (do let F ← s.cx.faces[f]?; let c ← s.mesh.faces[f]?; some (f, F, c)) = some x) l r := by
      intro l
      induction l with
      | nil => intro r hr; simp at hr; subst hr; exact List.Forall₂.nil
      | cons f l ih =>
        intro r hr
        rw [List.mapM_cons] at hr
        obtain ⟨x, hx, hr⟩ := Option.bind_eq_some_iff.1 hr
        obtain ⟨r', hr', hr⟩ := Option.bind_eq_some_iff.1 hr
        cases hr
        exact List.Forall₂.cons hx (ih r' hr')
    exact aux _ _ hcf
  have hcfget : ∀ (f : Nat) (x : Nat × Poly.Face × Cycle), (do let F ← s.cx.faces[f]?; let c ← s.mesh.faces[f]?; some (f, F, c)) = some x →
      x.1 = f ∧ s.cx.faces[f]? = some x.2.1 ∧ s.mesh.faces[f]? = some x.2.2 := by
    intro f x hx
    obtain ⟨F, hF, hx⟩ := Option.bind_eq_some_iff.1 hx
    obtain ⟨c, hc, hx⟩ := Option.bind_eq_some_iff.1 hx
    cases hx
    exact ⟨rfl, hF, hc⟩
  have hcf1 : cf.map (fun x => x.1) = C.faces := forall₂_map_eq hf2 fun f x hx => (hcfget f x hx).1
  constructor
  · intro x hx
    obtain ⟨f, hf, e⟩ := forall₂_mem_right hf2 x hx
    obtain ⟨e1, e2, e3⟩ := hcfget f x e
    subst e1
    exact ⟨hf, e2, e3⟩
  · intro f hf
    rw [← hcf1] at hf
    obtain ⟨x, hx, e⟩ := List.mem_map.1 hf
    exact ⟨x, hx, e⟩

theorem cellSplits_mem {sgn : Nat → SignType} {s : St} {cid : Nat} {C : Poly.Cell} {cf : List (Nat × Poly.Face × Cycle)} (hcf : cellFaces s C = some cf) {f : Nat} (hf : f ∈ C.faces) {c : Cycle} (hc : s.mesh.faces[f]? = some c) :
    ∃ b, (f, splitFaceVerts sgn s.mesh.twin b c) ∈ cellSplits sgn s.mesh cid cf := by
  obtain ⟨x, hx, rfl⟩ := (cellFaces_spec hcf).2 f hf
  have := ((cellFaces_spec hcf).1 x hx).2.2
  rw [hc] at this; cases this
  exact ⟨_, List.mem_map.2 ⟨x, hx, rfl⟩⟩

/-- **The plane meets the boundary**: some face is cut or has an edge in the plane. -/
theorem Geo.meets {pos : Nat → Pt K} {pl : Nat → Aff K} {h : Aff K} {sgn : Nat → SignType} {s : St} {cid : Nat} {C : Poly.Cell} (gd : Good s) (hC : s.cx.cells[cid]? = some C)
    (g : Geo pos pl s.cl s.mesh.faces) (ha : Across pos h sgn s.cl s.mesh.faces cid) {cf : List (Nat × Poly.Face × Cycle)} (hcf : cellFaces s C = some cf) :
    ∃ p ∈ cellSplits sgn s.mesh cid cf, p.2.outline = true := by
  by_contra hno
  push Not at hno
  have gm : MGood s.cl s.mesh := gd.mesh
  have hconv := g.convexFaces gd hC ha
  have hout : ∀ f ∈ C.faces, ∀ c, s.mesh.faces[f]? = some c → ∃ b, (splitFaceVerts sgn s.mesh.twin b c).outline = false := by
    intro f hf c hc
    obtain ⟨b, hb⟩ := cellSplits_mem (sgn := sgn) (cid := cid) hcf hf hc
    exact ⟨b, by simpa using hno _ hb⟩
  have hupe : ∀ f ∈ C.faces, ∀ c, s.mesh.faces[f]? = some c → (∃ x ∈ c, sgn x.1 = 1) → ∀ k ∈ hes c, sgn k.tail = 1 ∨ sgn k.tip = 1 := by
    intro f hf c hc hx
    obtain ⟨b, hb⟩ := hout f hf c hc
    exact up_edges (hconv f hf c hc) hb hx
  have hof : ∀ f ∈ C.faces, ∀ c, s.mesh.faces[f]? = some c → ∀ x ∈ c, OfCell s.cl s.mesh.faces cid x.1 := fun f hf c hc x hx => (ofCell_iff gd hC).2 ⟨f, hf, c, hc, x, hx, rfl⟩
  -- a face above and a face below
  obtain ⟨fU, hfU, cU, hcU, xU, hxU, sU⟩ : ∃ f ∈ C.faces, ∃ c, s.mesh.faces[f]? = some c ∧ ∃ x ∈ c, sgn x.1 = 1 := by
    obtain ⟨x, hx, e⟩ := ha.up
    have es := ha.sgn x hx
    obtain ⟨f, hf, c, hc, y, hy, rfl⟩ := (ofCell_iff gd hC).1 hx
    exact ⟨f, hf, c, hc, y, hy, by rw [es]; exact sign_eq_one_iff.2 e⟩
  obtain ⟨fD, hfD, cD, hcD, xD, hxD, sD⟩ : ∃ f ∈ C.faces, ∃ c, s.mesh.faces[f]? = some c ∧ ∃ x ∈ c, sgn x.1 = -1 := by
    obtain ⟨x, hx, e⟩ := ha.down
    have es := ha.sgn x hx
    obtain ⟨f, hf, c, hc, y, hy, rfl⟩ := (ofCell_iff gd hC).1 hx
    exact ⟨f, hf, c, hc, y, hy, by rw [es]; exact sign_eq_neg_one_iff.2 e⟩
  have hU : ∀ x ∈ cU, 0 ≤ h.ev (pos x.1) := by
    obtain ⟨b, hb⟩ := hout fU hfU cU hcU
    rcases one_side (hconv fU hfU cU hcU) hb with h1 | h1
    · intro x hx
      have := h1 x hx
      rw [ha.sgn _ (hof fU hfU cU hcU x hx)] at this
      by_contra hc
      exact this (sign_eq_neg_one_iff.2 (not_le.1 hc))
    · exact absurd sU (h1 xU hxU)
  have hDn : ∀ x ∈ cD, sgn x.1 ≠ 1 := by
    obtain ⟨b, hb⟩ := hout fD hfD cD hcD
    rcases one_side (hconv fD hfD cD hcD) hb with h1 | h1
    · exact absurd sD (h1 xD hxD)
    · exact h1
  have hD : ∀ x ∈ cD, h.ev (pos x.1) ≤ 0 := by
    intro x hx
    have := hDn x hx
    rw [ha.sgn _ (hof fD hfD cD hcD x hx)] at this
    by_contra hc
    exact this (sign_eq_one_iff.2 (not_le.1 hc))
  obtain ⟨kU, hkU, zU, hzU, aU⟩ := (g.face fU cU hcU).fat
  obtain ⟨kD, hkD, zD, hzD, aD⟩ := (g.face fD cD hcD).fat
  obtain ⟨tU, htU, etU⟩ := hes_tip hkU
  obtain ⟨tD, htD, etD⟩ := hes_tip hkD
  have hne : centre (pos kU.tail) (pos kU.tip) (pos zU.1) ≠ centre (pos kD.tail) (pos kD.tip) (pos zD.1) := by
    intro e
    have e1 := ev_centre h (pos kU.tail) (pos kU.tip) (pos zU.1)
    have e2 := ev_centre h (pos kD.tail) (pos kD.tip) (pos zD.1)
    rw [e, e2, ← etU, ← etD] at e1
    have u1 := hU _ (hes_tail hkU)
    have u2 := hU _ htU
    have u3 := hU _ hzU
    have d1 := hD _ (hes_tail hkD)
    have d2 := hD _ htD
    have d3 := hD _ hzD
    simp only at u1 d1
    have hs : 0 < h.ev (pos kU.tail) ∨ 0 < h.ev (pos tU.1) := by
      rcases hupe fU hfU cU hcU ⟨xU, hxU, sU⟩ kU hkU with h1 | h1
      · have := ha.sgn _ (hof fU hfU cU hcU _ (hes_tail hkU))
        simp only at this
        rw [h1, eq_comm] at this
        exact Or.inl (sign_eq_one_iff.1 this)
      · rw [← etU, ha.sgn _ (hof fU hfU cU hcU _ htU)] at h1
        exact Or.inr (sign_eq_one_iff.1 h1)
    rcases hs with hs | hs <;> linarith
  obtain ⟨h1, hh1⟩ := through_two aU.ne' aD.ne' hne
  obtain ⟨h2, hh2⟩ := avoid h1 (s.mesh.faces.flatten.map fun x => pos x.1)
  have hav : ∀ c ∈ s.mesh.faces, ∀ x ∈ c, h2.ev (pos x.1) ≠ 0 ∧ (0 < h1.ev (pos x.1) → 0 < h2.ev (pos x.1)) ∧ (h1.ev (pos x.1) < 0 → h2.ev (pos x.1) < 0) :=
    fun c hc x hx => hh2 _ (List.mem_map.2 ⟨x, List.mem_flatten.2 ⟨c, hc, hx⟩, rfl⟩)
  have hsides : ∀ (f : Nat) (c : Cycle) (k : HE) (z t : Nat × Nat), s.mesh.faces[f]? = some c → k ∈ hes c → z ∈ c → t ∈ c → t.1 = k.tip →
      ((0 < h1.ev (pos k.tail) ∨ 0 < h1.ev (pos k.tip) ∨ 0 < h1.ev (pos z.1)) ∧ (h1.ev (pos k.tail) < 0 ∨ h1.ev (pos k.tip) < 0 ∨ h1.ev (pos z.1) < 0)) →
      (∃ x ∈ c, 0 < h2.ev (pos x.1)) ∧ ∃ x ∈ c, h2.ev (pos x.1) < 0 := by
    intro f c k z t hc hk hz ht et hs
    have hm := List.mem_of_getElem? hc
    rw [← et] at hs
    constructor
    · rcases hs.1 with e | e | e
      · exact ⟨_, hes_tail hk, (hav c hm _ (hes_tail hk)).2.1 e⟩
      · exact ⟨t, ht, (hav c hm t ht).2.1 e⟩
      · exact ⟨z, hz, (hav c hm z hz).2.1 e⟩
    · rcases hs.2 with e | e | e
      · exact ⟨_, hes_tail hk, (hav c hm _ (hes_tail hk)).2.2 e⟩
      · exact ⟨t, ht, (hav c hm t ht).2.2 e⟩
      · exact ⟨z, hz, (hav c hm z hz).2.2 e⟩
  have sdU := hsides fU cU kU zU tU hcU hkU hzU htU etU hh1.1
  have sdD := hsides fD cD kD zD tD hcD hkD hzD htD etD hh1.2
  -- the curve for the other plane
  set sgn2 : Nat → SignType := fun v => SignType.sign (h2.ev (pos v)) with hsgn2
  have ha2 : Across pos h2 sgn2 s.cl s.mesh.faces cid := by
    refine ⟨fun _ _ => rfl, ?_, ?_⟩
    · obtain ⟨x, hx, e⟩ := sdU.1
      exact ⟨x.1, hof fU hfU cU hcU x hx, e⟩
    · obtain ⟨x, hx, e⟩ := sdU.2
      exact ⟨x.1, hof fU hfU cU hcU x hx, e⟩
  obtain ⟨cf', L, m1, E, hcf', hL, hLnd, hLf, hm, gm1, v1, fE, ex, hsp, hpiece⟩ := cell_pieces (fun _ => true) gd hC (g.convexFaces gd hC ha2)
  rw [hcf] at hcf'; cases hcf'
  -- where the pieces begin and end
  have hkey : ∀ p ∈ cellSplits sgn2 s.mesh cid cf, p.2.outline = true → ∃ k c, p.2.key L s.mesh.nV = some k ∧ p.1 ∈ C.faces ∧ s.mesh.faces[p.1]? = some c ∧
      (∃ y ∈ c, y.2 ∈ L ∧ k.1 = s.mesh.nV + L.idxOf y.2) ∧ ∃ y ∈ c, y.2 ∈ L ∧ k.2 = s.mesh.nV + L.idxOf y.2 := by
    intro p hp ho
    obtain ⟨P, c1, q1, q2, q3, q4, q5⟩ := hpiece p hp
    obtain ⟨k, hk, ⟨x, hx, ex1, sx⟩, y, hy, ey1, sy⟩ := key_mem q4 q5 ho
    rw [fE, List.getElem?_map] at q3
    obtain ⟨c, hc, rfl⟩ := Option.map_eq_some_iff.1 q3
    have hnew : ∀ x ∈ c.flatMap E, newSgn sgn2 s.mesh.nV x.1 = 0 → ∃ y ∈ c, y.2 ∈ L ∧ x.1 = s.mesh.nV + L.idxOf y.2 := by
      intro x hx sx
      rcases expand_mem ex hx with ⟨y, hy, e⟩ | h
      · exfalso
        have hm := List.mem_of_getElem? hc
        rw [← e, newSgn, if_pos (gm.lt c hm y hy).1] at sx
        exact (hav c hm y hy).1 (sign_eq_zero_iff.1 sx)
      · exact h
    refine ⟨k, c, hk, ?_, hc, ?_, ?_⟩
    · rw [← hsp]; exact List.mem_map_of_mem hp
    · rw [← ex1]; exact hnew x hx sx
    · rw [← ey1]; exact hnew y hy sy
  -- the two faces are cut
  have hcut : ∀ f ∈ C.faces, ∀ c, s.mesh.faces[f]? = some c → (∃ x ∈ c, 0 < h2.ev (pos x.1)) → (∃ x ∈ c, h2.ev (pos x.1) < 0) → ∃ p ∈ cellSplits sgn2 s.mesh cid cf, p.2.outline = true ∧ p.1 = f := by
    intro f hf c hc e1 e2
    obtain ⟨b, hb⟩ := cellSplits_mem (sgn := sgn2) (cid := cid) hcf hf hc
    refine ⟨_, hb, ?_, rfl⟩
    by_contra ho
    rcases one_side (g.convexFaces gd hC ha2 f hf c hc) (by simpa using ho) with h1 | h1
    · obtain ⟨x, hx, e⟩ := e2
      exact h1 x hx (sign_eq_neg_one_iff.2 e)
    · obtain ⟨x, hx, e⟩ := e1
      exact h1 x hx (sign_eq_one_iff.2 e)
  obtain ⟨pU, hpU, oU, eU⟩ := hcut fU hfU cU hcU sdU.1 sdU.2
  obtain ⟨pD, hpD, oD, eD⟩ := hcut fD hfD cD hcD sdD.1 sdD.2
  obtain ⟨keys, hkeys, hk2⟩ : ∃ keys, ((((cellSplits sgn2 s.mesh cid cf).filter fun p => p.2.outline)).mapM fun p => p.2.key L s.mesh.nV) = some keys ∧
      List.Forall₂ (fun p k => p.2.key L s.mesh.nV = some k) ((cellSplits sgn2 s.mesh cid cf).filter fun p => p.2.outline) keys := by
    apply mapM_total
    intro p hp
    obtain ⟨k, c, e, -⟩ := hkey p (List.mem_filter.1 hp).1 (List.mem_filter.1 hp).2
    exact ⟨k, e⟩
  have hget : ∀ p ∈ cellSplits sgn2 s.mesh cid cf, p.2.outline = true → ∃ k ∈ keys, p.2.key L s.mesh.nV = some k ∧ ∀ q ∈ cellSplits sgn2 s.mesh cid cf, q.2.outline = true → q.2.key L s.mesh.nV = some k → (keys.map Prod.fst).Nodup → q = p := by
    intro p hp ho
    obtain ⟨i, hi⟩ := List.mem_iff_getElem?.1 (List.mem_filter (p := fun q : Nat × Split => q.2.outline) |>.2 ⟨hp, ho⟩)
    obtain ⟨k, e1, e2⟩ := forall₂_get hk2 hi
    refine ⟨k, List.mem_of_getElem? e1, e2, ?_⟩
    intro q hq hqo hqk hnd
    obtain ⟨j, hj⟩ := List.mem_iff_getElem?.1 (List.mem_filter (p := fun q : Nat × Split => q.2.outline) |>.2 ⟨hq, hqo⟩)
    obtain ⟨k', e1', e2'⟩ := forall₂_get hk2 hj
    rw [hqk] at e2'; cases e2'
    have hij : i = j := by
      have l1 := (List.getElem?_eq_some_iff.1 e1).1
      exact (List.getElem?_inj l1 (List.Nodup.of_map Prod.fst hnd)).1 (by rw [e1, e1'])
    subst hij
    rw [hi] at hj
    exact (Option.some.inj hj).symm
  obtain ⟨kU', hkU', ekU, -⟩ := hget pU hpU oU
  obtain ⟨kD', hkD', ekD, uniq⟩ := hget pD hpD oD
  have one : OneLoop keys := by
    refine g.oneLoop gd hC ha2 hcf (by rw [hL]; exact hk2) ?_
    intro e; rw [e] at hkU'; cases hkU'
  obtain ⟨hnd, l, hperm, -, hch, hcl⟩ := one
  -- from a face above the curve comes only to faces above
  have hall := loop_all (T := fun k => ∃ p ∈ cellSplits sgn2 s.mesh cid cf, p.2.outline = true ∧ p.2.key L s.mesh.nV = some k ∧ ∃ c, s.mesh.faces[p.1]? = some c ∧ ∃ x ∈ c, sgn x.1 = 1) hch hcl ?_
    (hperm.mem_iff.2 hkU') ⟨pU, hpU, oU, ekU, cU, by rw [eU]; exact hcU, xU, hxU, sU⟩ kD' (hperm.mem_iff.2 hkD')
  · obtain ⟨q, hq, hqo, hqk, c, hc, x, hx, e⟩ := hall
    have := uniq q hq hqo hqk hnd
    subst this
    rw [eD, hcD] at hc; cases hc
    exact hDn x hx e
  · rintro a q hql ⟨p, hp, hpo, hpk, c, hc, x, hx, sx⟩ hqa
    obtain ⟨p', hp', hpk'⟩ := forall₂_mem_right hk2 q (hperm.mem_iff.1 hql)
    obtain ⟨hp1, hp2⟩ := List.mem_filter.1 hp'
    refine ⟨p', hp1, hp2, hpk', ?_⟩
    obtain ⟨k, c0, r1, r2, r3, -, y, hy, hyL, ey⟩ := hkey p hp hpo
    rw [hpk] at r1; cases r1
    rw [hc] at r3; cases r3
    obtain ⟨k', c', r1', r2', r3', ⟨y', hy', hyL', ey'⟩, -⟩ := hkey p' hp1 hp2
    rw [hpk'] at r1'; cases r1'
    have hyy : y.2 = y'.2 := by
      have e : L.idxOf y.2 = L.idxOf y'.2 := by omega
      exact (List.idxOf_inj hyL).1 e
    obtain ⟨j, hj, -, ej⟩ := mem_hes hy
    obtain ⟨j', hj', -, ej'⟩ := mem_hes hy'
    have hjall : j ∈ s.mesh.all := mem_all.2 ⟨c, List.mem_of_getElem? hc, hj⟩
    have hjall' : j' ∈ s.mesh.all := mem_all.2 ⟨c', List.mem_of_getElem? r3', hj'⟩
    have hend := gm.ends j hjall j' hjall' (by rw [ej, ej', hyy])
    have hs1 := hupe p.1 r2 c hc ⟨x, hx, sx⟩ j hj
    have hs2 : sgn j'.tail = 1 ∨ sgn j'.tip = 1 := by
      rcases hend with rfl | rfl
      · exact hs1
      · exact hs1.symm
    refine ⟨c', r3', ?_⟩
    rcases hs2 with e | e
    · exact ⟨_, hes_tail hj', e⟩
    · obtain ⟨w, hw, ew⟩ := hes_tip hj'
      exact ⟨w, hw, by rw [ew]; exact e⟩

/-- **What `c75_split_cell` assumes holds for a plane with vertices of a convex cell on both sides.** -/
theorem Geo.cutOk {pos : Nat → Pt K} {pl : Nat → Aff K} {h : Aff K} {sgn : Nat → SignType} {s : St} {cid : Nat} {C : Poly.Cell} (gd : Good s) (hC : s.cx.cells[cid]? = some C)
    (g : Geo pos pl s.cl s.mesh.faces) (ha : Across pos h sgn s.cl s.mesh.faces cid) : CutOk sgn s cid C := by
  refine ⟨g.convexFaces gd hC ha, ?_, ?_, ?_⟩
  · obtain ⟨x, hx, e⟩ := ha.up
    have es := ha.sgn x hx
    obtain ⟨f, hf, c, hc, y, hy, rfl⟩ := (ofCell_iff gd hC).1 hx
    exact ⟨f, hf, c, hc, y, hy, by rw [es]; exact sign_eq_one_iff.2 e⟩
  · obtain ⟨x, hx, e⟩ := ha.down
    have es := ha.sgn x hx
    obtain ⟨f, hf, c, hc, y, hy, rfl⟩ := (ofCell_iff gd hC).1 hx
    exact ⟨f, hf, c, hc, y, hy, by rw [es]; exact sign_eq_neg_one_iff.2 e⟩
  · intro cf keys hcf hkeys
    have hk2 : List.Forall₂ (fun p k => p.2.key (crossing sgn (cf.flatMap fun x => hes x.2.2)) s.mesh.nV = some k) ((cellSplits sgn s.mesh cid cf).filter fun p => p.2.outline) keys := by
      obtain ⟨keys', e1, e2⟩ := mapM_total (f := fun p : Nat × Split => p.2.key (crossing sgn (cf.flatMap fun x => hes x.2.2)) s.mesh.nV) (l := (cellSplits sgn s.mesh cid cf).filter fun p => p.2.outline) (by
        obtain ⟨cf', L, m1, E, hcf', hL, hLnd, hLf, hm, gm1, v1, fE, ex, hsp, hpiece⟩ := cell_pieces (fun _ => true) gd hC (g.convexFaces gd hC ha)
        rw [hcf] at hcf'; cases hcf'
        intro p hp
        obtain ⟨P, c1, q1, q2, q3, q4, q5⟩ := hpiece p (List.mem_filter.1 hp).1
        obtain ⟨k, hk, -⟩ := key_mem q4 q5 (List.mem_filter.1 hp).2
        rw [hL]
        exact ⟨k, hk⟩)
      rw [e1] at hkeys; cases hkeys
      exact e2
    refine g.oneLoop gd hC ha hcf hk2 ?_
    obtain ⟨p, hp, ho⟩ := g.meets gd hC ha hcf
    intro e
    rw [e] at hk2
    have := List.forall₂_nil_right_iff.1 hk2
    have hm := List.mem_filter (p := fun q : Nat × Split => q.2.outline) |>.2 ⟨hp, ho⟩
    rw [this] at hm
    cases hm

end Verif.Bsp
