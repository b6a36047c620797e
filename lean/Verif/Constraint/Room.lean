import Verif.Constraint.Interior
import Verif.Delaunay.Reg
import Mathlib.Combinatorics.Enumerative.DoubleCounting
/-!
# C90: the table of orientations is long enough
-/
namespace Verif.Constraint
open InSphere (Pt Ori orient3d doubleToSign)
open Tet (Mesh TriFace face orientIdx Consistent)
open Delaunay (Comb SolidTet IsDelaunay)
open Geom

variable {K : Type} [Field K] [LinearOrder K] {m : Mesh} {pts : List (Pt K)}

/-- No tetrahedron is glued to itself. -/
theorem nei_ne {live : Nat → Prop} (hc : Consistent m live) {t : Nat} (ht : live t) {x : Tet.Tet} (hx : m.tets[t]? = some x) {f : Fin 4} {h : TriFace}
    (e : x.nei f = some h) : h.tet ≠ t := by
  intro ht'
  obtain ⟨g, hg, gl⟩ := hc.glued t ht (Tet.verOfFace f)
  obtain ⟨x', hx', inj⟩ := hc.corners t ht
  rw [hx, Option.some.injEq] at hx'
  subst hx'
  have hf := gl.fwd
  rw [Tet.Mesh.fsym_eq] at hf
  simp only [Tet.Mesh.slot, hx, Option.bind_some, Tet.face_verOfFace, e, Option.map_some, Option.some.injEq] at hf
  have : g.tet = t := by rw [← hf]; exact ht'
  have ho := gl.org; have hd := gl.dest; have ha := gl.apex
  simp only [Tet.Mesh.org, Tet.Mesh.dest, Tet.Mesh.apex, this, hx, Option.map_some, Option.some.injEq] at ho hd ha
  exact Delaunay.no_odd _ _ (inj ho) (inj hd) (inj ha)

variable [IsStrictOrderedRing K]

/-- A tetrahedron with the corners of a solid one is this one. -/
theorem same_corners (hD : IsDelaunay pts m) {s t : Nat} {x y : Tet.Tet} (hx : m.tets[s]? = some x) (hy : m.tets[t]? = some y) (h3 : x.data 3 ≠ m.nPoints)
    (h : ∀ i, ∃ j, y.data j = x.data i) : s = t := by
  obtain ⟨x', hx', ix⟩ := hD.whole.corners s (List.getElem?_eq_some_iff.1 hx).1
  rw [hx, Option.some.injEq] at hx'; subst hx'
  obtain ⟨c, hc⟩ := (solid_or_ghost hD hx).resolve_left h3
  have hc' := hc
  obtain ⟨x', hx', h3', cx⟩ := hc
  rw [hx, Option.some.injEq] at hx'; subst hx'
  choose σ hσ using h
  have iσ : Function.Injective σ := fun a b e => ix (by rw [← hσ a, ← hσ b, e])
  have bσ := Finite.injective_iff_bijective.1 iσ
  have lt : ∀ i, x.data i < pts.length := fun i => (List.getElem?_eq_some_iff.1 (cx i)).1
  have h3y : y.data 3 ≠ m.nPoints := by
    obtain ⟨i, hi⟩ := bσ.2 3
    rw [← hi, hσ, hD.num]
    exact (lt i).ne
  obtain ⟨c', hd⟩ := (solid_or_ghost hD hy).resolve_left h3y
  have hd' := hd
  obtain ⟨y', hy', -, cy⟩ := hd
  rw [hy, Option.some.injEq] at hy'; subst hy'
  have e : ∀ i, c' (σ i) = c i := fun i => by
    have := cy (σ i)
    rw [hσ, cx i, Option.some.injEq] at this
    exact this.symm
  have s1 : ∑ _i : Fin 4, (1 / 4 : K) = 1 := by simp
  obtain ⟨p, hp⟩ := comb_exists c s1
  have tr : ∀ f : Pt K → K, ∑ i, (1 / 4 : K) * f (c' i) = ∑ i, (1 / 4 : K) * f (c i) := fun f =>
    (Fintype.sum_bijective σ bσ (fun i => (1 / 4 : K) * f (c i)) (fun i => (1 / 4 : K) * f (c' i)) fun i => by rw [e]).symm
  exact hD.apart s t c c' _ _ p hc' hd' (fun _ => by norm_num) (fun _ => by norm_num) hp
    ⟨s1, hp.x.trans (tr (·.x)).symm, hp.y.trans (tr (·.y)).symm, hp.z.trans (tr (·.z)).symm⟩

/-- Two faces of a solid tetrahedron have different neighbours. -/
theorem nei_inj (hD : IsDelaunay pts m) {t : Nat} {x : Tet.Tet} (hx : m.tets[t]? = some x) (h3 : x.data 3 ≠ m.nPoints) {f f' : Fin 4} {h h' : TriFace}
    (e : x.nei f = some h) (e' : x.nei f' = some h') (ht : h.tet = h'.tet) : f = f' := by
  by_contra hne
  have hl := (List.getElem?_eq_some_iff.1 hx).1
  obtain ⟨g, y, eg, -, ey, hg⟩ := Tet.Mesh.neighbour hD.whole hl hx f
  obtain ⟨g', y', eg', -, ey', hg'⟩ := Tet.Mesh.neighbour hD.whole hl hx f'
  rw [e, Option.some.injEq] at eg; subst eg
  rw [e', Option.some.injEq] at eg'; subst eg'
  rw [← ht, ey, Option.some.injEq] at ey'; subst ey'
  refine nei_ne hD.whole hl hx e (same_corners hD hx ey h3 fun i => ?_).symm
  by_cases hi : i = f
  · exact hg' i (hi ▸ hne)
  · exact hg i hi

/-- Every point is a corner of four tetrahedra. -/
theorem four_tets (hD : IsDelaunay pts m) {v : Nat} (hv : v < pts.length) :
    4 ≤ (((Finset.range m.tets.length).filter fun t => ∃ x, m.tets[t]? = some x ∧ ∃ i, x.data i = v)).card := by
  obtain ⟨t, x, -, hx, ⟨i, hi⟩, h3⟩ := hD.vertex v hv
  have hl := (List.getElem?_eq_some_iff.1 hx).1
  choose h y e1 e2 e3 e4 using Tet.Mesh.neighbour hD.whole hl hx
  have inj : Function.Injective fun f => if f = i then t else (h f).tet := by
    intro f f' e
    dsimp only at e
    split at e <;> split at e
    · next a b => rw [a, b]
    · exact absurd e.symm (nei_ne hD.whole hl hx (e1 f'))
    · exact absurd e (nei_ne hD.whole hl hx (e1 f))
    · exact nei_inj hD hx h3 (e1 f) (e1 f') e
  have := Finset.card_le_card_of_injOn (s := (Finset.univ : Finset (Fin 4)))
    (t := (Finset.range m.tets.length).filter fun t => ∃ x, m.tets[t]? = some x ∧ ∃ i, x.data i = v) (fun f => if f = i then t else (h f).tet) (fun f _ => ?_) inj.injOn
  · simpa using this
  · simp only [Finset.coe_filter, Finset.mem_range, Set.mem_setOf_eq]
    split
    · exact ⟨hl, x, hx, i, hi⟩
    · next hne =>
      refine ⟨e2 f, y f, e3 f, ?_⟩
      rw [← hi]
      exact e4 f i fun e => hne e.symm

/-- There are at least as many tetrahedra as points. -/
theorem points_le_tets (hD : IsDelaunay pts m) : pts.length ≤ m.tets.length := by
  classical
  have := Finset.card_mul_le_card_mul (s := Finset.range pts.length) (t := Finset.range m.tets.length) (m := 4) (n := 4)
    (fun v t => ∃ x, m.tets[t]? = some x ∧ ∃ i, x.data i = v) (fun v hv => ?_) (fun t ht => ?_)
  · simp only [Finset.card_range] at this
    omega
  · have := four_tets hD (Finset.mem_range.1 hv)
    simp only [Finset.bipartiteAbove]
    convert this
  · have hl := Finset.mem_range.1 ht
    refine (Finset.card_le_card (t := Finset.univ.image (m.tets[t]).data) fun v hv => ?_).trans (Finset.card_image_le (s := (Finset.univ : Finset (Fin 4))))
    simp only [Finset.bipartiteBelow, Finset.mem_filter] at hv
    obtain ⟨-, x, hx, i, hi⟩ := hv
    rw [List.getElem?_eq_getElem hl, Option.some.injEq] at hx
    rw [Finset.mem_image]
    exact ⟨i, Finset.mem_univ _, by rw [hx, hi]⟩

/-! ### The tests on a tetrahedron that a side touches return -/

section
variable {v : Nat × Nat × Nat} {A B C : Pt K}

omit [IsStrictOrderedRing K]

theorem get_some {u : Nat} (h : u < pts.length) : ∃ p, pts[u]? = some p := ⟨pts[u], List.getElem?_eq_getElem h⟩

theorem anyM_isSome {α : Type} {f : α → Option Bool} : ∀ {l : List α}, (∀ a ∈ l, ∃ b, f a = some b) → ∃ b, anyM f l = some b
  | [], _ => ⟨_, rfl⟩
  | a :: l, h => by
    obtain ⟨b, hb⟩ := h a (by simp)
    obtain ⟨b', hb'⟩ := anyM_isSome (f := f) (l := l) fun a ha => h a (by simp [ha])
    cases b <;> simp [anyM, hb, hb']

theorem vSegCross0_ok {a b c d : Nat} (ha : a < pts.length) (hb : b < pts.length) (hc : c < pts.length) (hd : d < pts.length) : ∃ r, vSegCross0 pts a b c d = some r := by
  simp [vSegCross0, ha, hb, hc, hd]
theorem vSegInnerTri_ok {a b c d e : Nat} (ha : a < pts.length) (hb : b < pts.length) (hc : c < pts.length) (hd : d < pts.length) (he : e < pts.length) :
    ∃ r, vSegInnerTri pts a b c d e = some r := by
  unfold vSegInnerTri
  split <;> simp [ha, hb, hc, hd, he]
theorem vSegTri_ok {a b : Nat} (ha : a < pts.length) (hb : b < pts.length) (h1 : v.1 < pts.length) (h2 : v.2.1 < pts.length) (h3 : v.2.2 < pts.length) :
    ∃ r, vSegTri pts a b v = some r := by
  unfold vSegTri
  split <;> simp [ha, hb, h1, h2, h3]
theorem vSegCross_ok {a b c d : Nat} (ha : a < pts.length) (hb : b < pts.length) (hc : c < pts.length) (hd : d < pts.length) : ∃ r, vSegCross pts a b c d = some r := by
  unfold vSegCross
  split <;> simp [ha, hb, hc, hd]
theorem vInSeg_ok {a b c : Nat} (ha : a < pts.length) (hb : b < pts.length) (hc : c < pts.length) : ∃ r, vInSeg pts a b c = some r := by
  unfold vInSeg
  split <;> simp [ha, hb, hc]
theorem vInInnerTri_ok {a : Nat} (ha : a < pts.length) (h1 : v.1 < pts.length) (h2 : v.2.1 < pts.length) (h3 : v.2.2 < pts.length) : ∃ r, vInInnerTri pts a v = some r := by
  unfold vInInnerTri
  split <;> simp [ha, h1, h2, h3]
theorem vInTri_ok {a : Nat} (ha : a < pts.length) (h1 : v.1 < pts.length) (h2 : v.2.1 < pts.length) (h3 : v.2.2 < pts.length) : ∃ r, vInTri pts a v = some r := by
  unfold vInTri
  split <;> simp [ha, h1, h2, h3]

theorem sidesOf_lt (h1 : v.1 < pts.length) (h2 : v.2.1 < pts.length) (h3 : v.2.2 < pts.length) {e : Nat × Nat} (he : e ∈ sidesOf v) : e.1 < pts.length ∧ e.2 < pts.length := by
  simp only [sidesOf, List.mem_cons, List.not_mem_nil, or_false] at he
  rcases he with rfl | rfl | rfl <;> exact ⟨by assumption, by assumption⟩

theorem split_ok {l : List Nat} (hr : pts.length ≤ m.tets.length) (h1 : v.1 < pts.length) (h2 : v.2.1 < pts.length) (h3 : v.2.2 < pts.length) (hl : ∀ u ∈ l, u < pts.length) :
    ∃ zero pos neg, split m pts v l = some (zero, pos, neg) ∧ (zero ++ pos ++ neg).Perm l := by
  induction l with
  | nil => exact ⟨[], [], [], rfl, .refl _⟩
  | cons u l ih =>
    obtain ⟨zero, pos, neg, e, hp⟩ := ih fun u hu => hl u (List.mem_cons_of_mem _ hu)
    have hu := hl u (by simp)
    obtain ⟨r, er⟩ : ∃ r, lookupOri m pts v u = some r := by
      unfold lookupOri
      rw [if_pos (by omega)]
      simp [orientIdx, h1, h2, h3, hu]
    by_cases h0 : r = 0
    · exact ⟨u :: zero, pos, neg, by simp [split, er, e, h0], by simpa using hp⟩
    · by_cases h0' : 0 < r
      · refine ⟨zero, u :: pos, neg, by simp [split, er, e, h0, h0'], ?_⟩
        refine List.Perm.trans ?_ (hp.cons u)
        simp only [List.append_assoc, List.cons_append]
        exact List.perm_middle
      · refine ⟨zero, pos, u :: neg, by simp [split, er, e, h0, h0'], ?_⟩
        refine List.Perm.trans ?_ (hp.cons u)
        exact List.perm_middle

theorem faceTest_ok (h1 : v.1 < pts.length) (h2 : v.2.1 < pts.length) (h3 : v.2.2 < pts.length) {a b c : Nat} (ha : a < pts.length) (hb : b < pts.length) (hc : c < pts.length) :
    ∃ r, faceTest pts v a b c = some r := by
  obtain ⟨r1, e1⟩ := vInTri_ok ha h1 h2 h3
  obtain ⟨r2, e2⟩ := vInTri_ok hb h1 h2 h3
  obtain ⟨r3, e3⟩ := vInTri_ok hc h1 h2 h3
  unfold faceTest
  simp only [e1, e2, e3, Option.bind_eq_bind, Option.bind_some]
  split
  · exact ⟨_, rfl⟩
  · refine anyM_isSome fun e he => ?_
    simp only [List.mem_flatMap, List.mem_map, List.mem_cons, List.not_mem_nil, or_false] at he
    obtain ⟨d, hd, g, hg, rfl⟩ := he
    obtain ⟨g1, g2⟩ := sidesOf_lt h1 h2 h3 hg
    rcases hd with rfl | rfl | rfl <;> exact vSegCross_ok (by assumption) (by assumption) g1 g2

theorem edgeTest_ok (h1 : v.1 < pts.length) (h2 : v.2.1 < pts.length) (h3 : v.2.2 < pts.length) {a b c d : Nat} (ha : a < pts.length) (hb : b < pts.length)
    (hc : c < pts.length) (hd : d < pts.length) : ∃ r, edgeTest pts v a b c d = some r := by
  obtain ⟨r1, e1⟩ := vInInnerTri_ok ha h1 h2 h3
  obtain ⟨r2, e2⟩ := vInInnerTri_ok hb h1 h2 h3
  obtain ⟨a0, ea0⟩ := vInSeg_ok ha h2 h3
  obtain ⟨a1, ea1⟩ := vInSeg_ok ha h3 h1
  obtain ⟨a2, ea2⟩ := vInSeg_ok ha h1 h2
  obtain ⟨b0, eb0⟩ := vInSeg_ok hb h2 h3
  obtain ⟨b1, eb1⟩ := vInSeg_ok hb h3 h1
  obtain ⟨b2, eb2⟩ := vInSeg_ok hb h1 h2
  obtain ⟨r3, e3⟩ := vSegTri_ok hc hd h1 h2 h3
  unfold edgeTest onSides
  simp only [e1, e2, ea0, ea1, ea2, eb0, eb1, eb2, e3, Option.bind_eq_bind, Option.bind_some, Option.pure_def]
  split
  · exact ⟨_, rfl⟩
  split
  · split
    · exact ⟨_, rfl⟩
    split
    · exact ⟨_, rfl⟩
    · refine anyM_isSome fun e he => ?_
      have hx : ∀ o : Nat × Nat × Nat, (o = (v.1, v.2.1, v.2.2) ∨ o = (v.2.1, v.2.2, v.1) ∨ o = (v.2.2, v.1, v.2.1)) →
          o.1 < pts.length ∧ o.2.1 < pts.length ∧ o.2.2 < pts.length := by
        rintro o (rfl | rfl | rfl) <;> exact ⟨by assumption, by assumption, by assumption⟩
      obtain ⟨o1, o2, o3⟩ := hx (if (a0 && b0) = true then (v.1, v.2.1, v.2.2) else if (a1 && b1) = true then (v.2.1, v.2.2, v.1) else (v.2.2, v.1, v.2.1))
        (by split <;> [skip; split] <;> simp)
      simp only [List.mem_cons, List.not_mem_nil, or_false] at he
      rcases he with rfl | rfl | rfl | rfl <;> exact vSegInnerTri_ok (by assumption) o1 hc hd (by assumption)
  split
  · obtain ⟨r4, e4⟩ : ∃ r, anyM (fun (e : Nat × Nat) => vSegCross pts a b e.1 e.2) (sidesOf v) = some r :=
      anyM_isSome fun e he => vSegCross_ok ha hb (sidesOf_lt h1 h2 h3 he).1 (sidesOf_lt h1 h2 h3 he).2
    simp only [e4, Option.bind_some]
    split
    · exact ⟨_, rfl⟩
    split
    · exact ⟨_, rfl⟩
    · refine anyM_isSome fun e he => ?_
      simp only [List.mem_flatMap, List.mem_map, List.mem_cons, List.not_mem_nil, or_false] at he
      obtain ⟨g, hg, u, hu, rfl⟩ := he
      obtain ⟨g1, g2⟩ := sidesOf_lt h1 h2 h3 hg
      rcases hu with rfl | rfl
      · exact vSegInnerTri_ok g1 g2 hc hd ha
      · exact vSegInnerTri_ok g1 g2 hc hd hb
  · exact ⟨_, rfl⟩

theorem vertexTest_ok (h1 : v.1 < pts.length) (h2 : v.2.1 < pts.length) (h3 : v.2.2 < pts.length) {a b c d : Nat} (ha : a < pts.length) (hb : b < pts.length)
    (hc : c < pts.length) (hd : d < pts.length) : ∃ r, vertexTest pts v a b c d = some r := by
  obtain ⟨r1, e1⟩ := vInInnerTri_ok ha h1 h2 h3
  obtain ⟨r2, e2⟩ : ∃ r, anyM (fun (e : Nat × Nat) => vInSeg pts a e.1 e.2) (sidesOf v) = some r :=
    anyM_isSome fun e he => vInSeg_ok ha (sidesOf_lt h1 h2 h3 he).1 (sidesOf_lt h1 h2 h3 he).2
  obtain ⟨r3, e3⟩ := vSegTri_ok hb hc h1 h2 h3
  obtain ⟨r4, e4⟩ := vSegTri_ok hb hd h1 h2 h3
  unfold vertexTest
  simp only [e1, e2, e3, e4, Option.bind_eq_bind, Option.bind_some]
  split
  · exact ⟨_, rfl⟩
  split
  · exact ⟨_, rfl⟩
  split
  · exact ⟨_, rfl⟩
  · refine anyM_isSome fun e he => ?_
    obtain ⟨g1, g2⟩ := sidesOf_lt h1 h2 h3 he
    obtain ⟨r5, e5⟩ := vSegInnerTri_ok g1 g2 ha hb hc
    obtain ⟨r6, e6⟩ := vSegInnerTri_ok g1 g2 ha hb hd
    obtain ⟨r7, e7⟩ := vSegInnerTri_ok g1 g2 hb hc hd
    simp [e5, e6, e7]

theorem emptyTest_ok (h1 : v.1 < pts.length) (h2 : v.2.1 < pts.length) (h3 : v.2.2 < pts.length) {x : Tet.Tet} (hx : ∀ i, x.data i < pts.length) {neg pos : List Nat}
    (hneg : ∀ u ∈ neg, u < pts.length) (hpos : ∀ u ∈ pos, u < pts.length) : ∃ r, emptyTest pts v x neg pos = some r := by
  have hp : ∀ e ∈ neg.flatMap fun n => pos.map fun p => (n, p), e.1 < pts.length ∧ e.2 < pts.length := by
    intro e he
    simp only [List.mem_flatMap, List.mem_map] at he
    obtain ⟨n, hn, p, hp, rfl⟩ := he
    exact ⟨hneg n hn, hpos p hp⟩
  obtain ⟨r1, e1⟩ : ∃ r, allCross pts v (neg.flatMap fun n => pos.map fun p => (n, p)) = some r := by
    generalize neg.flatMap (fun n => pos.map fun p => (n, p)) = l at hp
    induction l with
    | nil => exact ⟨_, rfl⟩
    | cons e l ih =>
      obtain ⟨r, er⟩ := ih fun e he => hp e (List.mem_cons_of_mem _ he)
      obtain ⟨q1, q2⟩ := hp e (by simp)
      obtain ⟨r', er'⟩ : ∃ r, anyM (fun (d : Nat × Nat) => vSegCross0 pts e.1 e.2 d.1 d.2) (sidesOf v) = some r :=
        anyM_isSome fun d hd => vSegCross0_ok q1 q2 (sidesOf_lt h1 h2 h3 hd).1 (sidesOf_lt h1 h2 h3 hd).2
      cases r' <;> simp [allCross, er, er']
  obtain ⟨r2, e2⟩ : ∃ r, anyM (fun (e : Nat × Nat) => vSegInnerTri pts e.1 e.2 v.1 v.2.1 v.2.2) (neg.flatMap fun n => pos.map fun p => (n, p)) = some r :=
    anyM_isSome fun e he => vSegInnerTri_ok (hp e he).1 (hp e he).2 h1 h2 h3
  unfold emptyTest
  simp only [e1, e2, Option.bind_eq_bind, Option.bind_some]
  split
  · exact ⟨_, rfl⟩
  split
  · exact ⟨_, rfl⟩
  · refine anyM_isSome fun e he => ?_
    simp only [List.mem_flatMap, List.mem_map, List.mem_cons, List.not_mem_nil, or_false] at he
    obtain ⟨d, hd, f, hf, rfl⟩ := he
    obtain ⟨g1, g2⟩ := sidesOf_lt h1 h2 h3 hd
    rcases hf with rfl | rfl | rfl | rfl <;> exact vSegInnerTri_ok g1 g2 (hx _) (hx _) (hx _)

end

/-- C90. In a Delaunay tetrahedralization the classification of a solid tetrahedron does not panic: `vert_oris` has one entry per tetrahedron, which is
enough for all vertices, and the lists of corners over and under the plane are long enough. -/
theorem c90_improper (hD : IsDelaunay pts m) (v : Nat × Nat × Nat) (h1 : v.1 < pts.length) (h2 : v.2.1 < pts.length) (h3 : v.2.2 < pts.length)
    (t : Nat) (c : Fin 4 → Pt K) (hc : SolidTet pts m t c) : ∃ r, improper m pts v t = some r ∧ ∀ k ∈ r, k ≤ 4 := by
  obtain ⟨x, hx, -, hp⟩ := hc
  have lt : ∀ i, x.data i < pts.length := fun i => (List.getElem?_eq_some_iff.1 (hp i)).1
  have ltc : ∀ u ∈ corners x, u < pts.length := by
    intro u hu
    simp only [corners, List.mem_cons, List.not_mem_nil, or_false] at hu
    rcases hu with rfl | rfl | rfl | rfl <;> exact lt _
  obtain ⟨zero, pos, neg, es, perm⟩ := split_ok (m := m) (points_le_tets hD) h1 h2 h3 ltc
  have hz : ∀ u ∈ zero, u < pts.length := fun u hu => ltc u (perm.mem_iff.1 (by simp [hu]))
  have hpos : ∀ u ∈ pos, u < pts.length := fun u hu => ltc u (perm.mem_iff.1 (by simp [hu]))
  have hneg : ∀ u ∈ neg, u < pts.length := fun u hu => ltc u (perm.mem_iff.1 (by simp [hu]))
  have hlen := perm.length_eq
  have hidx : ∀ u, u ∈ pos ∨ u ∈ neg → ∃ i, x.index u = some i := by
    intro u hu
    have : u ∈ corners x := perm.mem_iff.1 (by rcases hu with h | h <;> simp [h])
    obtain ⟨i, hi, -⟩ := Tet.Mesh.index_spec (x := x) (v := u) (by
      simp only [corners, List.mem_cons, List.not_mem_nil, or_false] at this
      rcases this with rfl | rfl | rfl | rfl <;> exact ⟨_, rfl⟩)
    exact ⟨i, hi⟩
  have lcor : (corners x).length = 4 := rfl
  rw [lcor] at hlen
  unfold improper
  simp only [hx, es, Option.bind_eq_bind, Option.bind_some]
  match zero, es, hz, hlen with
  | [], _, hz, hlen =>
    obtain ⟨r, er⟩ := emptyTest_ok h1 h2 h3 lt hneg hpos
    cases r <;> simp [er]
  | [z0], _, hz, hlen =>
    simp only [List.length_append, List.length_cons, List.length_nil] at hlen
    match neg, pos, hneg, hpos, hlen with
    | [], _, _, _, _ => simp
    | _ :: _, [], _, _, _ => simp
    | n0 :: n1 :: [], p0 :: [], hneg, hpos, _ =>
      obtain ⟨r, er⟩ := vertexTest_ok h1 h2 h3 (hz z0 (by simp)) (hpos p0 (by simp)) (hneg n0 (by simp)) (hneg n1 (by simp))
      cases r <;> simp [er]
    | n0 :: [], p0 :: p1 :: [], hneg, hpos, _ =>
      obtain ⟨r, er⟩ := vertexTest_ok h1 h2 h3 (hz z0 (by simp)) (hneg n0 (by simp)) (hpos p0 (by simp)) (hpos p1 (by simp))
      cases r <;> simp [er]
    | n0 :: n1 :: n2 :: ns, p0 :: ps, _, _, hlen => simp at hlen; omega
    | n0 :: ns, p0 :: p1 :: p2 :: ps, _, _, hlen => simp at hlen; omega
    | n0 :: n1 :: ns, p0 :: p1 :: ps, _, _, hlen => simp at hlen; omega
    | n0 :: [], p0 :: [], _, _, hlen => simp at hlen
  | [z0, z1], _, hz, hlen =>
    simp only [List.length_append, List.length_cons, List.length_nil] at hlen
    by_cases h : neg.length = 1
    swap
    · simp [h]
    · match neg, pos, hneg, hpos, hlen, h with
      | [n0], [p0], hneg, hpos, _, _ =>
        obtain ⟨r, er⟩ := edgeTest_ok h1 h2 h3 (hz z0 (by simp)) (hz z1 (by simp)) (hneg n0 (by simp)) (hpos p0 (by simp))
        cases r <;> simp [er]
      | [], _, _, _, _, h => simp at h
      | _ :: _ :: _, _, _, _, _, h => simp at h
      | [_], [], _, _, hlen, _ => simp at hlen
      | [_], _ :: _ :: _, _, _, hlen, _ => simp at hlen; omega
  | [z0, z1, z2], _, hz, hlen =>
    simp only [List.length_append, List.length_cons, List.length_nil] at hlen
    obtain ⟨r, er⟩ := faceTest_ok h1 h2 h3 (hz z0 (by simp)) (hz z1 (by simp)) (hz z2 (by simp))
    match neg, pos, hidx, hlen with
    | [], p0 :: ps, hidx, _ =>
      obtain ⟨i, ei⟩ := hidx p0 (by simp)
      have := i.isLt
      cases r <;> simp [er, ei]
    | n0 :: ns, [], hidx, _ =>
      obtain ⟨i, ei⟩ := hidx n0 (by simp)
      have := i.isLt
      cases r <;> simp [er, ei]
    | [], [], _, hlen => simp at hlen
    | n0 :: ns, p0 :: ps, _, hlen => simp at hlen; omega
  | z0 :: z1 :: z2 :: z3 :: r, _, hz, hlen =>
    obtain ⟨r, er⟩ := emptyTest_ok h1 h2 h3 lt hneg hpos
    cases r <;> simp [er]

omit [IsStrictOrderedRing K] in
theorem tetType_ok (hD : IsDelaunay pts m) {v : Nat × Nat × Nat} (h1 : v.1 < pts.length) (h2 : v.2.1 < pts.length) (h3 : v.2.2 < pts.length)
    {t : Nat} (ht : t < m.tets.length) : ∃ k, tetType m pts v t = some k := by
  have hx := List.getElem?_eq_getElem ht
  rcases solid_or_ghost hD hx with h | ⟨c, x, hx', -, hp⟩
  · exact ⟨5, c87_ghost m pts v t _ hx h⟩
  · rw [hx, Option.some.injEq] at hx'
    subst hx'
    have lt : ∀ i, (m.tets[t]).data i < pts.length := fun i => (List.getElem?_eq_some_iff.1 (hp i)).1
    have ho : ∀ i, ∃ r, orientIdx pts ((m.tets[t]).data i) v.1 v.2.1 v.2.2 = some r := fun i => by simp [orientIdx, lt, h1, h2, h3]
    choose o eo using ho
    have hin : ∀ i, ∃ r, vInInnerTri pts ((m.tets[t]).data i) v = some r := fun i => vInInnerTri_ok (lt i) h1 h2 h3
    choose n en using hin
    have hg : m.isHull t = some (decide ((m.tets[t]).data 3 = m.nPoints)) := by
      simp [Tet.Mesh.isHull, hx]; rfl
    unfold tetType
    simp only [hg, hx, eo, en, Option.bind_eq_bind, Option.bind_some, Option.pure_def]
    split
    · exact ⟨_, rfl⟩
    have ite : ∀ i : Fin 4, ∃ b, (if ![doubleToSign (o 0), doubleToSign (o 1), doubleToSign (o 2), doubleToSign (o 3)] i = Ori.zero then some (n i) else some false) = some b := by
      intro i; split <;> exact ⟨_, rfl⟩
    obtain ⟨b0, e0⟩ := ite 0
    obtain ⟨b1, e1⟩ := ite 1
    obtain ⟨b2, e2⟩ := ite 2
    obtain ⟨b3, e3⟩ := ite 3
    simp only [e0, e1, e2, e3, Option.bind_some]
    split
    · exact ⟨_, rfl⟩
    · exact ⟨_, rfl⟩
    · exact ⟨_, rfl⟩
    · obtain ⟨r, er⟩ : ∃ r, anyM (fun (e : Fin 4 × Fin 4) =>
          if ![doubleToSign (o 0), doubleToSign (o 1), doubleToSign (o 2), doubleToSign (o 3)] e.1 ≠ ![doubleToSign (o 0), doubleToSign (o 1), doubleToSign (o 2), doubleToSign (o 3)] e.2
          then vSegInnerTri pts ((m.tets[t]).data e.1) ((m.tets[t]).data e.2) v.1 v.2.1 v.2.2 else some false)
          [(0, 1), (0, 2), (0, 3), (1, 2), (1, 3), (2, 3)] = some r := by
        refine anyM_isSome fun e he => ?_
        split
        · exact vSegInnerTri_ok (lt _) (lt _) h1 h2 h3
        · exact ⟨_, rfl⟩
      rw [er]
      cases r <;> simp

omit [IsStrictOrderedRing K] in
theorem interiorFaces_ok (hD : IsDelaunay pts m) {v : Nat × Nat × Nat} (h1 : v.1 < pts.length) (h2 : v.2.1 < pts.length) (h3 : v.2.2 < pts.length) {cid t : Nat} {x : Tet.Tet}
    (hx : m.tets[t]? = some x) : ∀ (fs : List (Fin 4)) (s : Info) (marks : List Mark), s.intersected.Nodup → (∀ t ∈ s.intersected, t < m.tets.length) →
      (∀ t ∈ s.intersected, t ∈ s.visited) → ∃ s' marks', interiorFaces m pts v cid x fs s marks = some (s', marks') ∧ s'.intersected.Nodup ∧
        (∀ t ∈ s'.intersected, t < m.tets.length) ∧ (∀ t ∈ s'.intersected, t ∈ s'.visited) ∧ s.intersected.length ≤ s'.intersected.length
  | [], s, marks, a, b, c => ⟨s, marks, rfl, a, b, c, le_rfl⟩
  | f :: fs, s, marks, a, b, c => by
    obtain ⟨h, y, eh, hl, -, -⟩ := Tet.Mesh.neighbour hD.whole (List.getElem?_eq_some_iff.1 hx).1 hx f
    obtain ⟨k, ek⟩ := tetType_ok hD h1 h2 h3 hl
    simp only [interiorFaces, eh, ek, Option.bind_eq_bind, Option.bind_some]
    split
    · exact interiorFaces_ok hD h1 h2 h3 hx fs s marks a b c
    · next hv =>
      split
      · have a1 : (s.intersected ++ [h.tet]).Nodup := by
          rw [List.nodup_append]
          exact ⟨a, by simp, fun u hu w hw e => hv (by rw [List.mem_singleton] at hw; subst hw; subst e; exact c _ hu)⟩
        have b1 : ∀ u ∈ s.intersected ++ [h.tet], u < m.tets.length := by
          intro u hu
          rcases List.mem_append.1 hu with hu | hu
          · exact b u hu
          · rw [List.mem_singleton.1 hu]; exact hl
        have c1 : ∀ u ∈ s.intersected ++ [h.tet], u ∈ h.tet :: s.visited := by
          intro u hu
          rcases List.mem_append.1 hu with hu | hu
          · exact List.mem_cons_of_mem _ (c u hu)
          · rw [List.mem_singleton.1 hu]; exact List.mem_cons_self
        obtain ⟨s', marks', e, a', b', c', d'⟩ := interiorFaces_ok hD h1 h2 h3 (cid := cid) hx fs ⟨s.intersected ++ [h.tet], h.tet :: s.visited⟩ (marks ++ [⟨k, h.tet, cid⟩]) a1 b1 c1
        refine ⟨s', marks', e, a', b', c', ?_⟩
        simp only [List.length_append, List.length_cons] at d'
        omega
      · exact interiorFaces_ok hD h1 h2 h3 hx fs { s with visited := h.tet :: s.visited } marks a b fun u hu => List.mem_cons_of_mem _ (c u hu)

omit [IsStrictOrderedRing K] in
theorem interiorLoop_ok (hD : IsDelaunay pts m) {v : Nat × Nat × Nat} (h1 : v.1 < pts.length) (h2 : v.2.1 < pts.length) (h3 : v.2.2 < pts.length) (cid : Nat) :
    ∀ (fuel idx : Nat) (s : Info) (marks : List Mark), s.intersected.Nodup → (∀ t ∈ s.intersected, t < m.tets.length) → (∀ t ∈ s.intersected, t ∈ s.visited) →
      idx ≤ s.intersected.length → m.tets.length < fuel + idx → ∃ r, interiorLoop m pts v cid fuel idx s marks = some r
  | 0, idx, s, marks, a, b, c, hi, hf => by
    have := (List.Nodup.subperm a (l₂ := List.range m.tets.length) fun t ht => List.mem_range.2 (b t ht)).length_le
    simp only [List.length_range] at this
    omega
  | fuel + 1, idx, s, marks, a, b, c, _, hf => by
    rw [interiorLoop]
    split
    · next hi =>
      have hx := List.getElem?_eq_getElem (b _ (List.getElem_mem hi))
      obtain ⟨s', marks', e, a', b', c', d'⟩ := interiorFaces_ok hD h1 h2 h3 (cid := cid) hx [0, 1, 2, 3] s marks a b c
      simp only [List.getElem?_eq_getElem hi, hx, e, Option.bind_eq_bind, Option.bind_some]
      exact interiorLoop_ok hD h1 h2 h3 cid fuel (idx + 1) s' marks' a' b' c' (by omega) (by omega)
    · exact ⟨_, rfl⟩

omit [IsStrictOrderedRing K] in
/-- C90. `interior_intersections` returns: no panic, and at most one round per tetrahedron. -/
theorem c90_interior (hD : IsDelaunay pts m) (v : Nat × Nat × Nat) (h1 : v.1 < pts.length) (h2 : v.2.1 < pts.length) (h3 : v.2.2 < pts.length) (cid : Nat)
    (S V : List Nat) (hnd : S.Nodup) (hS : ∀ t ∈ S, t < m.tets.length) (hV : ∀ t ∈ S, t ∈ V) (marks : List Mark) (fuel : Nat) (hf : m.tets.length < fuel) :
    ∃ r, interiorLoop m pts v cid fuel 0 ⟨S, V⟩ marks = some r :=
  interiorLoop_ok hD h1 h2 h3 cid fuel 0 ⟨S, V⟩ marks hnd hS hV (Nat.zero_le _) (by omega)

end Verif.Constraint
