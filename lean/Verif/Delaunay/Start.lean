import Verif.Delaunay.Geo
import Verif.Delaunay.Spec
/-!
# The seeds of the cavity are in conflict with the new point
-/
namespace Verif.Delaunay
open Tet
open InSphere (Pt orient3d insphere insphereS doubleToSign liftedDet Ori)

variable {K : Type} [Field K] [LinearOrder K] [IsStrictOrderedRing K]

/-- `e` is the combination of four points with these weights. -/
structure Bary (a b c d e : Pt K) (wa wb wc wd : K) : Prop where
  sum : wa + wb + wc + wd = 1
  x : e.x = wa * a.x + wb * b.x + wc * c.x + wd * d.x
  y : e.y = wa * a.y + wb * b.y + wc * c.y + wd * d.y
  z : e.z = wa * a.z + wb * b.z + wc * c.z + wd * d.z

section
variable {a b c d e : Pt K} {wa wb wc wd : K}
omit [LinearOrder K] [IsStrictOrderedRing K]

theorem Bary.oa (h : Bary a b c d e wa wb wc wd) : orient3d b c d e = - wa * orient3d a b c d := by
  have hs : wd = 1 - wa - wb - wc := by rw [← h.sum]; ring
  simp only [orient3d, h.x, h.y, h.z, hs]; ring
theorem Bary.ob (h : Bary a b c d e wa wb wc wd) : orient3d a c d e = wb * orient3d a b c d := by
  have hs : wd = 1 - wa - wb - wc := by rw [← h.sum]; ring
  simp only [orient3d, h.x, h.y, h.z, hs]; ring
theorem Bary.oc (h : Bary a b c d e wa wb wc wd) : orient3d a b d e = - wc * orient3d a b c d := by
  have hs : wd = 1 - wa - wb - wc := by rw [← h.sum]; ring
  simp only [orient3d, h.x, h.y, h.z, hs]; ring
theorem Bary.od (h : Bary a b c d e wa wb wc wd) : orient3d a b c e = wd * orient3d a b c d := by
  have hs : wd = 1 - wa - wb - wc := by rw [← h.sum]; ring
  simp only [orient3d, h.x, h.y, h.z, hs]; ring

theorem insphere_dist (a b c d e : Pt K) : insphere a b c d e = - (dist2 a e * orient3d b c d e) + dist2 b e * orient3d a c d e - dist2 c e * orient3d a b d e +
    dist2 d e * orient3d a b c e := by
  simp only [insphere, orient3d, dist2]; ring

theorem Bary.insphere (h : Bary a b c d e wa wb wc wd) : insphere a b c d e = (wa * dist2 a e + wb * dist2 b e + wc * dist2 c e + wd * dist2 d e) * orient3d a b c d := by
  rw [insphere_dist, h.oa, h.ob, h.oc, h.od]; ring

end

theorem dist2_pos {a b : Pt K} (h : a ≠ b) : 0 < dist2 a b := by
  unfold dist2
  by_contra hcon
  push Not at hcon
  have h1 := sq_nonneg (a.x - b.x)
  have h2 := sq_nonneg (a.y - b.y)
  have h3 := sq_nonneg (a.z - b.z)
  apply h
  have e1 : a.x - b.x = 0 := pow_eq_zero_iff (two_ne_zero) |>.1 (by linarith)
  have e2 : a.y - b.y = 0 := pow_eq_zero_iff (two_ne_zero) |>.1 (by linarith)
  have e3 : a.z - b.z = 0 := pow_eq_zero_iff (two_ne_zero) |>.1 (by linarith)
  cases a; cases b
  simp only [InSphere.Pt.mk.injEq] at *
  exact ⟨by linarith, by linarith, by linarith⟩

/-- A point of a closed tetrahedron that is no corner lies strictly inside the circumsphere. -/
theorem Bary.neg {a b c d e : Pt K} {wa wb wc wd : K} (h : Bary a b c d e wa wb wc wd) (h1 : 0 ≤ wa) (h2 : 0 ≤ wb) (h3 : 0 ≤ wc) (h4 : 0 ≤ wd) (n1 : a ≠ e) (n2 : b ≠ e)
    (n3 : c ≠ e) (n4 : d ≠ e) (ho : orient3d a b c d < 0) : InSphere.insphere a b c d e < 0 := by
  rw [h.insphere]
  refine mul_neg_of_pos_of_neg ?_ ho
  have q1 := dist2_pos n1; have q2 := dist2_pos n2; have q3 := dist2_pos n3; have q4 := dist2_pos n4
  have m1 := mul_nonneg h1 q1.le; have m2 := mul_nonneg h2 q2.le; have m3 := mul_nonneg h3 q3.le; have m4 := mul_nonneg h4 q4.le
  by_contra hcon
  push Not at hcon
  have z1 : wa * dist2 a e = 0 := by linarith
  have z2 : wb * dist2 b e = 0 := by linarith
  have z3 : wc * dist2 c e = 0 := by linarith
  have z4 : wd * dist2 d e = 0 := by linarith
  have := h.sum
  rw [(mul_eq_zero.1 z1).resolve_right q1.ne', (mul_eq_zero.1 z2).resolve_right q2.ne', (mul_eq_zero.1 z3).resolve_right q3.ne', (mul_eq_zero.1 z4).resolve_right q4.ne'] at this
  simp at this

section
variable {pts : List (Pt K)} {V : Nat → Vec K} {p0 p1 p2 p3 : Nat} {m : Mesh} {live U : Nat → Prop} (D : Dt pts V p0 p1 p2 p3 m live U)
include D

/-- A solid tetrahedron that contains the new point is in conflict with it. -/
theorem Dt.conf_tet {h : TriFace} {x : Tet.Tet} {a b c d pid : Nat} {wa wb wc wd : K} (hl : live h.tet) (hs : Sees m h x a b c d) (ha : a < pts.length) (hb : b < pts.length)
    (hc : c < pts.length) (hd : d < pts.length) (hp : pid < pts.length) (hpU : ¬ U pid) (hB : Bary (pt pts a) (pt pts b) (pt pts c) (pt pts d) (pt pts pid) wa wb wc wd)
    (h1 : 0 ≤ wa) (h2 : 0 ≤ wb) (h3 : 0 ≤ wc) (h4 : 0 ≤ wd) : phi V x (V pid) < 0 := by
  obtain ⟨u1, u2, u3, u4⟩ := D.reg.memO hl hs
  have k1 : a ≠ pid := fun e => hpU (e ▸ u1)
  have k2 : b ≠ pid := fun e => hpU (e ▸ u2)
  have k3 : c ≠ pid := fun e => hpU (e ▸ u3)
  have k4 : d ≠ pid := fun e => hpU (e ▸ u4)
  have hup := (D.solidS hl hs ha.ne hb.ne hc.ne hd.ne).1
  rw [D.solid_orient hs ha hb hc hd] at hup
  have hin := hB.neg h1 h2 h3 h4 (D.dist _ ha _ hp k1) (D.dist _ hb _ hp k2) (D.dist _ hc _ hp k3) (D.dist _ hd _ hp k4) (by linarith)
  obtain ⟨e1, -⟩ := D.insphere hl hs ha hb hc hd hp hpU
  rw [← sign_negative, ← e1]
  simp only [insphereS, ne_eq, hin.ne, not_false_eq_true, if_true]
  exact (sign_negative _).2 hin

/-- A tetrahedron, solid or ghost, with a face that contains the new point. -/
theorem Dt.conf_face {h : TriFace} {x : Tet.Tet} {a b c d pid : Nat} {wa wb wc : K} (hl : live h.tet) (hs : Sees m h x a b c d) (ha : a < pts.length) (hb : b < pts.length)
    (hc : c < pts.length) (hp : pid < pts.length) (hpU : ¬ U pid) (q : Pt K) (hB : Bary (pt pts a) (pt pts b) (pt pts c) q (pt pts pid) wa wb wc 0)
    (h1 : 0 ≤ wa) (h2 : 0 ≤ wb) (h3 : 0 ≤ wc) : phi V x (V pid) < 0 := by
  have hB' : ∀ q', Bary (pt pts a) (pt pts b) (pt pts c) q' (pt pts pid) wa wb wc 0 := fun q' =>
    ⟨hB.sum, by rw [hB.x]; ring, by rw [hB.y]; ring, by rw [hB.z]; ring⟩
  by_cases hd : d = pts.length
  · subst hd
    obtain ⟨g, y, e, gl, hg, gs⟩ := glued_sees D.reg.cons hl hs
    obtain ⟨-, -, -, he, hup, hy3⟩ := D.behind hl gl hs gs
    have ho : orient3d (pt pts a) (pt pts b) (pt pts c) (pt pts pid) = 0 := by rw [(hB' (pt pts e)).od, zero_mul]
    obtain ⟨α, β, hα, hβ, heq⟩ := D.tie hl gl hs gs hp ho
    have hy : phi V y (V pid) < 0 := by
      have hB2 := hB' (pt pts e)
      exact D.conf_tet gl gs hb ha hc he hp hpU (wa := wb) (wb := wa) (wc := wc) (wd := 0)
        ⟨by rw [← hB2.sum]; ring, by rw [hB2.x]; ring, by rw [hB2.y]; ring, by rw [hB2.z]; ring⟩ h2 h1 h3 le_rfl
    have := mul_neg_of_pos_of_neg hα hy
    rw [heq] at this
    exact neg_of_mul_neg_right this hβ.le
  · exact D.conf_tet hl hs ha hb hc ((D.lt hl hs).2.2.2 hd) hp hpU (hB' _) h1 h2 h3 le_rfl

/-- A tetrahedron, solid or ghost, with an edge that contains the new point. -/
theorem Dt.conf_edge {h : TriFace} {x : Tet.Tet} {a b c d pid : Nat} {wa wb : K} (hl : live h.tet) (hs : Sees m h x a b c d) (ha : a < pts.length) (hb : b < pts.length)
    (hp : pid < pts.length) (hpU : ¬ U pid) (q : Pt K) (hB : Bary (pt pts a) (pt pts b) q q (pt pts pid) wa wb 0 0)
    (h1 : 0 ≤ wa) (h2 : 0 ≤ wb) : phi V x (V pid) < 0 := by
  have hB' : ∀ q', Bary (pt pts a) (pt pts b) q' q' (pt pts pid) wa wb 0 0 := fun q' =>
    ⟨hB.sum, by rw [hB.x]; ring, by rw [hB.y]; ring, by rw [hB.z]; ring⟩
  by_cases hc : c = pts.length
  · have hd : d ≠ pts.length := by
      obtain ⟨-, -, -, -, -, n⟩ := hs.ne (D.reg.inj hl hs.get)
      rw [hc] at n; exact n.symm
    have hB2 := hB' (pt pts d)
    refine D.conf_face (h := h.esym) hl hs.esym hb ha ((D.lt hl hs).2.2.2 hd) hp hpU (wa := wb) (wb := wa) (wc := 0) (pt pts d) ?_ h2 h1 le_rfl
    exact ⟨by rw [← hB2.sum]; ring, by rw [hB2.x]; ring, by rw [hB2.y]; ring, by rw [hB2.z]; ring⟩
  · refine D.conf_face hl hs ha hb ((D.lt hl hs).2.2.1 hc) hp hpU (wa := wa) (wb := wb) (wc := 0) (pt pts c) (hB' _) h1 h2 le_rfl

omit D [LinearOrder K] [IsStrictOrderedRing K] [Field K] in
theorem pt_of_get [Field K] {i : Nat} {a : Pt K} (h : pts[i]? = some a) : i < pts.length ∧ pt pts i = a := by
  refine ⟨(List.getElem?_eq_some_iff.1 h).1, ?_⟩
  simp [pt, List.getD, h]

omit [IsStrictOrderedRing K] D in
theorem inOpen_two {p a b : Pt K} (h : InOpen p [a, b]) : ∃ wa wb : K, 0 ≤ wa ∧ 0 ≤ wb ∧ ∀ q, Bary a b q q p wa wb 0 0 := by
  obtain ⟨w, hl, hpos, hsum, hx, hy, hz⟩ := h
  match w, hl with
  | [w1, w2], _ =>
    simp at hpos hsum hx hy hz
    exact ⟨w1, w2, hpos.1.le, hpos.2.le, fun q => ⟨by rw [← hsum]; ring, by rw [hx]; ring, by rw [hy]; ring, by rw [hz]; ring⟩⟩

omit [IsStrictOrderedRing K] D in
theorem inOpen_three {p a b c : Pt K} (h : InOpen p [a, b, c]) : ∃ wa wb wc : K, 0 ≤ wa ∧ 0 ≤ wb ∧ 0 ≤ wc ∧ ∀ q, Bary a b c q p wa wb wc 0 := by
  obtain ⟨w, hl, hpos, hsum, hx, hy, hz⟩ := h
  match w, hl with
  | [w1, w2, w3], _ =>
    simp at hpos hsum hx hy hz
    exact ⟨w1, w2, w3, hpos.1.le, hpos.2.1.le, hpos.2.2.le, fun q => ⟨by rw [← hsum]; ring, by rw [hx]; ring, by rw [hy]; ring, by rw [hz]; ring⟩⟩

omit [IsStrictOrderedRing K] D in
theorem inOpen_four {p a b c d : Pt K} (h : InOpen p [a, b, c, d]) : ∃ wa wb wc wd : K, 0 ≤ wa ∧ 0 ≤ wb ∧ 0 ≤ wc ∧ 0 ≤ wd ∧ Bary a b c d p wa wb wc wd := by
  obtain ⟨w, hl, hpos, hsum, hx, hy, hz⟩ := h
  match w, hl with
  | [w1, w2, w3, w4], _ =>
    simp at hpos hsum hx hy hz
    exact ⟨w1, w2, w3, w4, hpos.1.le, hpos.2.1.le, hpos.2.2.1.le, hpos.2.2.2.le, ⟨by rw [← hsum]; ring, by rw [hx]; ring, by rw [hy]; ring, by rw [hz]; ring⟩⟩

/-- For every right answer of point location the seeds are in conflict with the new point, and there are some. -/
theorem Dt.seeds {pid : Nat} (hp : pid < pts.length) (hpU : ¬ U pid) {s : TriFace} {loc : Loc} (hl : live s.tet) (ha : Answer m live pts (pt pts pid) s loc) :
    ∃ N ≤ m.tets.length, ∀ fuel, N ≤ fuel → ∃ seed, m.seeds fuel loc s = some (some seed) ∧ seed.Nodup ∧ seed ≠ [] ∧ ∀ t ∈ seed, InConflict V m live (V pid) t := by
  obtain ⟨N, hNl, hN⟩ := c61_seeds D.reg.cons loc hl
  obtain ⟨N', hNl', hN'⟩ := c61_ring D.reg.cons hl
  refine ⟨max N N', max_le hNl hNl', fun fuel hf => ?_⟩
  obtain ⟨r, hr, hnone, hR⟩ := hN fuel (le_trans (le_max_left _ _) hf)
  obtain ⟨Rg, hRg, -, -, -, hring, -⟩ := hN' fuel (le_trans (le_max_right _ _) hf)
  have getS : ∀ (h : TriFace), live h.tet → ∃ x a b c d, Sees m h x a b c d := fun h hl => by
    obtain ⟨x, hx, -⟩ := D.reg.cons.corners _ hl
    exact ⟨x, _, _, _, _, sees_of_get hx⟩
  have orgS : ∀ {h : TriFace} {x : Tet.Tet} {a b c d : Nat} {q : Pt K}, Sees m h x a b c d → coords pts (m.org h) q → a < pts.length ∧ pt pts a = q := by
    rintro h x a b c d q hs ⟨i, e, hi⟩
    simp only [Mesh.org, hs.get, Option.map_some, Option.some.injEq, hs.org] at e
    subst e; exact pt_of_get hi
  have destS : ∀ {h : TriFace} {x : Tet.Tet} {a b c d : Nat} {q : Pt K}, Sees m h x a b c d → coords pts (m.dest h) q → b < pts.length ∧ pt pts b = q := by
    rintro h x a b c d q hs ⟨i, e, hi⟩
    simp only [Mesh.dest, hs.get, Option.map_some, Option.some.injEq, hs.dest] at e
    subst e; exact pt_of_get hi
  have apexS : ∀ {h : TriFace} {x : Tet.Tet} {a b c d : Nat} {q : Pt K}, Sees m h x a b c d → coords pts (m.apex h) q → c < pts.length ∧ pt pts c = q := by
    rintro h x a b c d q hs ⟨i, e, hi⟩
    simp only [Mesh.apex, hs.get, Option.map_some, Option.some.injEq, hs.apex] at e
    subst e; exact pt_of_get hi
  have oppoS : ∀ {h : TriFace} {x : Tet.Tet} {a b c d : Nat} {q : Pt K}, Sees m h x a b c d → coords pts (m.oppo h) q → d < pts.length ∧ pt pts d = q := by
    rintro h x a b c d q hs ⟨i, e, hi⟩
    simp only [Mesh.oppo, hs.get, Option.map_some, Option.some.injEq, hs.oppo] at e
    subst e; exact pt_of_get hi
  obtain ⟨x, a, b, c, d, hs⟩ := getS s hl
  have fin : ∀ seed, r = some seed → (∀ t ∈ seed, InConflict V m live (V pid) t) →
      ∃ seed, m.seeds fuel loc s = some (some seed) ∧ seed.Nodup ∧ seed ≠ [] ∧ ∀ t ∈ seed, InConflict V m live (V pid) t := by
    intro seed e h
    obtain ⟨h1, h2, -⟩ := hR seed e
    exact ⟨seed, by rw [hr, e], h2, List.ne_nil_of_mem h1, h⟩
  cases loc with
  | inTet =>
    obtain ⟨-, qa, qb, qc, qd, ca, cb, cc, cd, hin⟩ := ha
    obtain ⟨la, rfl⟩ := orgS hs ca
    obtain ⟨lb, rfl⟩ := destS hs cb
    obtain ⟨lc, rfl⟩ := apexS hs cc
    obtain ⟨ld, rfl⟩ := oppoS hs cd
    obtain ⟨wa, wb, wc, wd, h1, h2, h3, h4, hB⟩ := inOpen_four hin
    simp only [Mesh.seeds, Option.some.injEq] at hr
    refine fin [s.tet] hr.symm ?_
    intro t ht
    rw [List.mem_singleton.1 ht]
    exact ⟨hl, x, hs.get, D.conf_tet hl hs la lb lc ld hp hpU hB h1 h2 h3 h4⟩
  | onFace =>
    obtain ⟨-, qa, qb, qc, ca, cb, cc, hin⟩ := ha
    obtain ⟨la, rfl⟩ := orgS hs ca
    obtain ⟨lb, rfl⟩ := destS hs cb
    obtain ⟨lc, rfl⟩ := apexS hs cc
    obtain ⟨wa, wb, wc, h1, h2, h3, hB⟩ := inOpen_three hin
    obtain ⟨g, y, e, gl, hg, gs⟩ := glued_sees D.reg.cons hl hs
    have hf := hg.fwd
    simp only [Mesh.fsym, hs.get, Option.bind_eq_bind, Option.bind_eq_some_iff, Option.pure_def, Option.some.injEq, exists_eq_left'] at hf
    obtain ⟨nf, hnf, hh⟩ := hf
    have ht' : nf.tet = g.tet := by rw [← hh]
    simp only [Mesh.seeds, hs.get, hnf, Option.bind_eq_bind, Option.bind_some, Option.pure_def, Option.some.injEq, ht'] at hr
    refine fin [s.tet, g.tet] hr.symm ?_
    intro t ht
    simp only [List.mem_cons, List.not_mem_nil, or_false] at ht
    rcases ht with rfl | rfl
    · exact ⟨hl, x, hs.get, D.conf_face hl hs la lb lc hp hpU _ (hB (pt pts a)) h1 h2 h3⟩
    · refine ⟨gl, y, gs.get, D.conf_face gl gs lb la lc hp hpU (wa := wb) (wb := wa) (wc := wc) (pt pts a) ?_ h2 h1 h3⟩
      have hB2 := hB (pt pts a)
      exact ⟨by rw [← hB2.sum]; ring, by rw [hB2.x]; ring, by rw [hB2.y]; ring, by rw [hB2.z]; ring⟩
  | onEdge =>
    obtain ⟨-, qa, qb, ca, cb, hin⟩ := ha
    obtain ⟨la, rfl⟩ := orgS hs ca
    obtain ⟨lb, rfl⟩ := destS hs cb
    obtain ⟨wa, wb, h1, h2, hB⟩ := inOpen_two hin
    simp only [Mesh.seeds, hRg, Option.map_some, Option.some.injEq] at hr
    refine fin Rg hr.symm ?_
    intro t ht
    obtain ⟨h, rfl, ho, hd⟩ := hring t ht
    have hll := (hR Rg hr.symm).2.2 _ ht
    obtain ⟨y, a', b', c', d', hs'⟩ := getS h hll
    simp only [Mesh.org, Mesh.dest, hs.get, hs'.get, Option.map_some, Option.some.injEq, hs.org, hs.dest, hs'.org, hs'.dest] at ho hd
    subst ho hd
    exact ⟨hll, y, hs'.get, D.conf_edge hll hs' la lb hp hpU _ (hB (pt pts a')) h1 h2⟩
  | onVertex =>
    exfalso
    obtain ⟨-, ca⟩ := ha
    obtain ⟨la, e⟩ := orgS hs ca
    have : a ≠ pid := fun e => hpU (e ▸ (D.reg.memO hl hs).1)
    exact D.dist _ la _ hp this e
  | outside =>
    obtain ⟨hns, h, hll, hsol, hft, qa, qb, qc, ca, cb, cc, ho⟩ := ha
    obtain ⟨z, a', b', c', d', hz⟩ := getS h hll
    obtain ⟨la, rfl⟩ := orgS hz ca
    obtain ⟨lb, rfl⟩ := destS hz cb
    obtain ⟨lc, rfl⟩ := apexS hz cc
    obtain ⟨g, y, e, gl, hg, gs⟩ := glued_sees D.reg.cons hll hz
    have ht' : g.tet = s.tet := by rw [hg.fwd] at hft; simpa using hft
    have he : e = pts.length := by
      by_contra hne
      obtain ⟨-, h3⟩ := D.solidS gl gs lb.ne la.ne lc.ne hne
      exact hns ⟨y, by rw [← ht']; exact gs.get, by rw [D.num]; exact h3⟩
    subst he
    simp only [Mesh.seeds, Option.some.injEq] at hr
    refine fin [s.tet] hr.symm ?_
    intro t ht
    rw [List.mem_singleton.1 ht, ← ht']
    refine ⟨gl, y, gs.get, ?_⟩
    have hneg : orient3d (pt pts b') (pt pts a') (pt pts c') (pt pts pid) < 0 := by rw [orient_flip]; linarith
    have := D.ghost_sign gs lb la lc hp hneg.ne
    exact neg_of_mul_pos_left this hneg.le

end
end Verif.Delaunay
