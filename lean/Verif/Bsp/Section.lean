import Verif.Bsp.Slices
/-!
# The section of a cell

`split_cell` describes the polygon in which the plane meets the cell by the beginnings of its pieces (`intersect_poly`, `bsp_complex.rs` lines 354-360).
-/
namespace Verif.Bsp
open InSphere (Pt)
open Geom (lerp)

variable {K : Type} [Field K] [LinearOrder K] [IsStrictOrderedRing K]

/-- `circular_tuple_windows`: the pairs of neighbours in a closed list. -/
def circ {α : Type} (l : List α) : List (α × α) := l.zip (l.tail ++ l.take 1)

/-- `intersect_poly` (lines 354-360): where the pieces begin. -/
def sectionVerts (sgn : Nat → SignType) (s : St) (cid : Nat) (C : Poly.Cell) : Option (List Nat) := do
  let cf ← cellFaces s C
  let ord ← sectionPieces sgn s cid C
  let ks ← ord.mapM fun p => p.2.key (crossing sgn (cf.flatMap fun x => hes x.2.2)) s.mesh.nV
  some (ks.map Prod.fst)

/-- The points of the plane `h = 0` in cell `cid` form the polygon with the vertices `vs`, counterclockwise as seen from the positive side. -/
structure SectionOk (pos : Nat → Pt K) (pl : Nat → Aff K) (h : Aff K) (cl : List (Nat × Option Nat)) (cid : Nat) (vs : List Nat) : Prop where
  plane : ∀ v ∈ vs, h.ev (pos v) = 0
  edge : ∀ p ∈ circ vs, ∃ (i : Nat) (P : Nat × Option Nat), cl[i]? = some P ∧ sg P cid ≠ 0 ∧ pos p.1 ≠ pos p.2 ∧
    ∃ κ : K, 0 < κ ∧ ∀ q, h.ev q = 0 → area h.n (pos p.1) (pos p.2) q = κ * ((sg P cid : K) * (pl i).ev q)
  hull : ∀ q, h.ev q = 0 → Region pl cl cid q → ∀ B : Aff K, (∀ v ∈ vs, 0 ≤ B.ev (pos v)) → 0 ≤ B.ev q

/-- There are points of the plane to the left of a segment. -/
theorem exists_left {h : Aff K} (hn : vdot h.n h.n ≠ 0) {a b : Pt K} (ha : h.ev a = 0) (hb : h.ev b = 0) (hab : a ≠ b) : ∃ q, h.ev q = 0 ∧ 0 < area h.n a b q := by
  have hu := vdot_pos (vsub_ne hab.symm)
  have hn' : 0 < vdot h.n h.n := normal_pos hn
  refine ⟨⟨a.x + (h.n.y * (b.z - a.z) - h.n.z * (b.y - a.y)), a.y + (h.n.z * (b.x - a.x) - h.n.x * (b.z - a.z)), a.z + (h.n.x * (b.y - a.y) - h.n.y * (b.x - a.x))⟩, ?_, ?_⟩
  · simp only [Aff.ev, vdot] at *; linear_combination ha
  · have e : vdot h.n (vsub b a) = 0 := by rw [vdot_vsub, ha, hb, sub_zero]
    have : area h.n a b ⟨a.x + (h.n.y * (b.z - a.z) - h.n.z * (b.y - a.y)), a.y + (h.n.z * (b.x - a.x) - h.n.x * (b.z - a.z)), a.z + (h.n.x * (b.y - a.y) - h.n.y * (b.x - a.x))⟩ =
        vdot h.n h.n * vdot (vsub b a) (vsub b a) := by
      simp only [area, vdet, vsub, vdot] at *
      linear_combination (-(h.n.x * (b.x - a.x) + h.n.y * (b.y - a.y) + h.n.z * (b.z - a.z))) * e
    rw [this]
    exact mul_pos hn' hu

theorem area_add (n x y z q : Pt K) : area n x z q = area n x y q + area n y z q - area n x y z := by simp only [area, vdet, vsub]; ring

/-- Segments that follow each other on a line, seen together. -/
theorem arcs_line {pos : Nat → Pt K} {h A : Aff K} (hn : vdot h.n h.n ≠ 0) : ∀ (l : List (Nat × Nat)) (x y : Nat),
    (l.IsChain fun a b => a.2 = b.1) → l.head?.map Prod.fst = some x → l.getLast?.map Prod.snd = some y →
    (∀ a ∈ l, h.ev (pos a.1) = 0 ∧ h.ev (pos a.2) = 0 ∧ A.ev (pos a.1) = 0 ∧ A.ev (pos a.2) = 0 ∧ pos a.1 ≠ pos a.2 ∧ ∃ κ, 0 < κ ∧ ∀ q, h.ev q = 0 → area h.n (pos a.1) (pos a.2) q = κ * A.ev q) →
    (pos x ≠ pos y ∧ h.ev (pos x) = 0 ∧ h.ev (pos y) = 0 ∧ A.ev (pos x) = 0 ∧ A.ev (pos y) = 0 ∧ ∃ κ, 0 < κ ∧ ∀ q, h.ev q = 0 → area h.n (pos x) (pos y) q = κ * A.ev q) ∧
      ∀ a ∈ l, ∃ t : K, 0 ≤ t ∧ t ≤ 1 ∧ pos a.1 = lerp (pos x) (pos y) t
  | [], x, y, _, hx, _, _ => by simp at hx
  | [a], x, y, _, hx, hy, hl => by
    simp at hx hy
    subst hx; subst hy
    obtain ⟨h1, h2, h3, h4, h5, h6⟩ := hl a (by simp)
    exact ⟨⟨h5, h1, h2, h3, h4, h6⟩, fun b hb => ⟨0, le_rfl, zero_le_one, by rw [List.mem_singleton] at hb; subst hb; rw [lerp_zero]⟩⟩
  | a :: b :: l, x, y, hc, hx, hy, hl => by
    simp at hx
    subst hx
    obtain ⟨hab, hc'⟩ := List.isChain_cons_cons.1 hc
    obtain ⟨⟨i1, i2, i3, i4, i5, κ2, κ20, e2⟩, im⟩ := arcs_line hn (b :: l) a.2 y hc' (by simp [hab]) (by rw [← hy]; rfl) (fun c hc => hl c (by simp [hc]))
    obtain ⟨h1, h2, h3, h4, h5, κ1, κ10, e1⟩ := hl a (by simp)
    have e3 : ∀ q, h.ev q = 0 → area h.n (pos a.1) (pos y) q = (κ1 + κ2) * A.ev q := by
      intro q hq
      rw [area_add _ _ (pos a.2), e1 q hq, e2 q hq, e1 _ i3, i5]; ring
    obtain ⟨q, hq, hq'⟩ := exists_left hn h1 h2 h5
    rw [e1 q hq] at hq'
    have hA : 0 < A.ev q := (pos_iff_pos_of_mul_pos hq').1 κ10
    have hne : pos a.1 ≠ pos y := by
      intro e
      have := e3 q hq
      rw [e, turn_self] at this
      exact absurd this.symm (mul_pos (by linarith) hA).ne'
    obtain ⟨s, hs⟩ := on_line hn h1 i3 i2 hne (by rw [e3 _ i2, h4, mul_zero])
    have s1 : s * (κ1 + κ2) = κ1 := by
      have := turn_to h.n (pos a.1) (pos y) q s
      rw [← hs, e1 q hq, e3 q hq, ← mul_assoc] at this
      exact (mul_right_cancel₀ hA.ne' this).symm
    have hk : 0 < κ1 + κ2 := by linarith
    have s0 : 0 < s := by
      have : 0 < s * (κ1 + κ2) := by rw [s1]; exact κ10
      exact (pos_iff_pos_of_mul_pos this).2 hk
    have s2 : s < 1 := by
      by_contra hh
      push Not at hh
      nlinarith
    refine ⟨⟨hne, h1, i3, h3, i5, κ1 + κ2, hk, e3⟩, fun c hc => ?_⟩
    rcases List.mem_cons.1 hc with rfl | hc
    · exact ⟨0, le_rfl, zero_le_one, by rw [lerp_zero]⟩
    · obtain ⟨t, t0, t1, et⟩ := im c hc
      refine ⟨s + t * (1 - s), by nlinarith, by nlinarith, ?_⟩
      rw [et, hs]
      simp only [lerp, Pt.mk.injEq]
      refine ⟨?_, ?_, ?_⟩ <;> ring

theorem circ_chain {ks : List (Nat × Nat)} (hc : ks.IsChain fun p q => p.2 = q.1) (hl : ks.getLast?.map Prod.snd = ks.head?.map Prod.fst) : ∀ p ∈ circ (ks.map Prod.fst), p ∈ ks := by
  have key : ∀ (l : List (Nat × Nat)) (z : Nat), (l.IsChain fun p q => p.2 = q.1) → l.getLast?.map Prod.snd = some z → (l.map Prod.fst).zip ((l.map Prod.fst).tail ++ [z]) = l := by
    intro l
    induction l with
    | nil => simp
    | cons a l ih =>
      intro z hc hz
      cases l with
      | nil => simp at hz; subst hz; rfl
      | cons b l =>
        obtain ⟨hab, hc'⟩ := List.isChain_cons_cons.1 hc
        have := ih z hc' (by rw [← hz]; rfl)
        simp only [List.map_cons, List.tail_cons, List.cons_append, List.zip_cons_cons] at this ⊢
        rw [this, ← hab]
  intro p hp
  cases ks with
  | nil => simp [circ] at hp
  | cons a l =>
    have h2 := key (a :: l) a.1 hc (by rw [hl]; rfl)
    have : circ ((a :: l).map Prod.fst) = a :: l := h2
    rwa [this] at hp

theorem mapM_of_forall₂ {α β : Type} {f : α → Option β} {l : List α} {r : List β} (h : List.Forall₂ (fun x y => f x = some y) l r) : l.mapM f = some r := by
  induction h with
  | nil => rfl
  | cons h1 _ ih => rw [List.mapM_cons, h1, ih]; rfl

/-- The beginnings of the pieces are the corners of the section. -/
theorem Geo.sectionOk {pos : Nat → Pt K} {pl : Nat → Aff K} {h : Aff K} {sgn : Nat → SignType} {s : St} {cid : Nat} {C : Poly.Cell} (gd : Good s) (hC : s.cx.cells[cid]? = some C) (hne : C.inner ≠ [])
    (g : Geo pos pl s.cl s.mesh.faces) (ha : Across pos h sgn s.cl s.mesh.faces cid) :
    ∃ vs, sectionVerts sgn s cid C = some vs ∧ SectionOk (slicePos h sgn pos s C) pl h s.cl cid vs := by
  obtain ⟨s', h1, h2, hinn, h3⟩ := splitCell_full ⟨fun _ _ => true, fun _ => true, fun _ => true, fun _ => true, fun _ => true, fun _ => true⟩ sgn (fun _ => true) 0 s cid C gd (fun _ => rfl) hC hne (g.cutOk gd hC ha)
  rcases h3 with ⟨-, -, e3⟩ | ⟨-, cf, m1, m', cl2, ord, segs, posL, negL, H⟩
  · exfalso
    have e := hinn _ (List.getLast?_eq_some_getLast hne)
    have e4 := congrArg List.length e3
    replace e := congrArg List.length e
    simp only [Poly.innersAfter, tests, List.filter_true, List.isEmpty_iff, hne, if_false, List.length_map, List.length_append, List.length_set, List.length_singleton] at e e4
    omega
  obtain ⟨cf', L, m1', E, hcf', hL, hLnd, hLf, hm, gm1, v1, fE, ex, hsp, hpiece⟩ := cell_pieces (fun _ => true) gd hC (g.convexFaces gd hC ha)
  have := H.hcf
  rw [hcf'] at this; cases this
  have he := H.edges
  rw [hL, hm] at he; cases he
  obtain ⟨pos', hpos', hold, hnew, g1, a1, hbet⟩ := g.splitEdges gd hC ha hLnd hLf hm fE ex v1 gm1
  have hsl : slicePos h sgn pos s C = pos' := by rw [slicePos, hcf', Option.getD_some, hL, hpos']
  rw [hsl]
  have cg := g1.cell gm1.len a1.up a1.down
  have hpc := Geo.pieces (L := L) (nV := s.mesh.nV) (A := m1.all) (sp := ord) g1 cg.normal a1.sgn H.nodup fun p hp => ⟨(H.hord p hp).2, hpiece p (H.hord p hp).1⟩
  have hs2 := H.hsegs
  rw [hL] at hs2
  have hZ := hpc.face cg (segs := segs) (by rw [List.forall₂_map_left_iff]; exact hs2) H.loop (by simpa using H.ne)
  obtain ⟨ks, k1, k2, k3⟩ := H.links
  rw [hL] at k1
  -- each piece as one segment
  have piece : ∀ p ∈ ord, ∀ k, p.2.key L s.mesh.nV = some k → (pos' k.1 ≠ pos' k.2 ∧ h.ev (pos' k.1) = 0 ∧ h.ev (pos' k.2) = 0 ∧ (cellA pl s.cl cid p.1).ev (pos' k.1) = 0 ∧
      (cellA pl s.cl cid p.1).ev (pos' k.2) = 0 ∧ ∃ κ, 0 < κ ∧ ∀ q, h.ev q = 0 → area h.n (pos' k.1) (pos' k.2) q = κ * (cellA pl s.cl cid p.1).ev q) ∧
      ∀ a ∈ p.2.arcs L s.mesh.nV, ∃ t : K, 0 ≤ t ∧ t ≤ 1 ∧ pos' a.1 = lerp (pos' k.1) (pos' k.2) t := by
    intro p hp k hk
    have hk' := arcs_key (f := p.1) hk
    have hm := List.mem_map_of_mem (f := fun p : Nat × Split => (p.1, p.2.arcs L s.mesh.nV)) hp
    refine arcs_line cg.normal _ _ _ (hpc.chain _ hm) hk'.1 hk'.2 fun a ha => ?_
    have d := hpc.dir _ hm a ha
    exact ⟨d.ha, d.hb, cg.plane _ d.face _ d.fa, cg.plane _ d.face _ d.fb, d.ne, d.left⟩
  have hface : ∀ p ∈ ord, ∃ P, s.cl[p.1]? = some P ∧ sg P cid ≠ 0 := fun p hp => by
    obtain ⟨P, c, q1, q2, -⟩ := hpiece p (H.hord p hp).1
    exact ⟨P, q1, q2⟩
  have hks : ∀ k ∈ ks, ∃ p ∈ ord, p.2.key L s.mesh.nV = some k := forall₂_mem_right k1
  refine ⟨ks.map Prod.fst, ?_, ?_, ?_, ?_⟩
  · rw [sectionVerts, hcf', H.pieces]
    simp only [Option.bind_eq_bind, Option.bind_some, hL]
    rw [mapM_of_forall₂ k1]; rfl
  · intro v hv
    obtain ⟨k, hk, rfl⟩ := List.mem_map.1 hv
    obtain ⟨p, hp, e⟩ := hks k hk
    exact (piece p hp k e).1.2.1
  · intro k hk
    obtain ⟨p, hp, e⟩ := hks k (circ_chain k2 k3 k hk)
    obtain ⟨⟨n1, -, -, -, -, κ, κ0, e1⟩, -⟩ := piece p hp k e
    obtain ⟨P, hP, hs⟩ := hface p hp
    exact ⟨p.1, P, hP, hs, n1, κ, κ0, fun q hq => by rw [e1 q hq, cellA, Aff.smul_ev, sgOf_some hP]⟩
  · intro q hq hr B hB
    refine hZ.hull hq ?_ ?_
    · intro k hk
      rw [H.loop] at hk
      obtain ⟨l, hl, hk⟩ := List.mem_flatten.1 hk
      obtain ⟨p, hp, e⟩ := forall₂_mem_right hs2 l hl
      have hk2 : (k.tail, k.tip) ∈ p.2.arcs L s.mesh.nV := by rw [← e]; exact List.mem_map_of_mem hk
      have d := hpc.dir _ (List.mem_map_of_mem hp) _ hk2
      obtain ⟨κ, κ0, e1⟩ := d.left
      obtain ⟨P, hP, hs⟩ := hface p hp
      rw [e1 q hq, cellA, Aff.smul_ev, sgOf_some hP]
      exact mul_nonneg κ0.le (hr _ P hP hs)
    · intro z hz
      obtain ⟨k, hk, rfl⟩ := List.mem_map.1 hz
      obtain ⟨l, hl, hk⟩ := List.mem_flatten.1 hk
      obtain ⟨p, hp, e⟩ := forall₂_mem_right hs2 l hl
      have hk2 : (k.tail, k.tip) ∈ p.2.arcs L s.mesh.nV := by rw [← e]; exact List.mem_map_of_mem hk
      obtain ⟨i, hi⟩ := List.getElem?_of_mem hp
      obtain ⟨k', hk', ek⟩ := forall₂_get k1 hi
      obtain ⟨-, pm⟩ := piece p hp k' ek
      obtain ⟨t, t0, t1, et⟩ := pm _ hk2
      have hend : 0 ≤ B.ev (pos' k'.2) := by
        -- the next piece begins there
        rcases chain_next k2 (List.mem_of_getElem? hk') with hn | ⟨b, hb, eb⟩
        · rw [k3] at hn
          obtain ⟨b, hb, eb⟩ := Option.map_eq_some_iff.1 hn
          rw [← eb]
          exact hB _ (List.mem_map_of_mem (List.mem_of_mem_head? hb))
        · rw [← eb]
          exact hB _ (List.mem_map_of_mem hb)
      show 0 ≤ B.ev (pos' k.tail)
      rw [et, ev_lerp]
      exact add_nonneg (mul_nonneg (by linarith) (hB _ (List.mem_map_of_mem (List.mem_of_getElem? hk')))) (mul_nonneg t0 hend)

end Verif.Bsp
