import Verif.Delaunay.Initial
import Verif.Delaunay.Complex
/-!
# The whole construction returns a Delaunay tetrahedralization
-/
namespace Verif.Delaunay
open Tet
open InSphere (Pt orient3d insphere insphereS doubleToSign Ori)
open scoped BigOperators

variable {K : Type} [Field K] [LinearOrder K] [IsStrictOrderedRing K]

/-- All insertions take the branch for small cavities. -/
def SmallRun (pts : List (Pt K)) (fuel : Nat) : List Nat → Mesh → TriFace → Prop
  | [], _, _ => True
  | p :: ps, m, s => SmallStep m pts fuel p s ∧ ∀ m' s', m.insertVertexBw pts fuel p s = some (m', s', true) → SmallRun pts fuel ps m' s'

variable {pts : List (Pt K)} {V : Nat → Vec K} {p0 p1 p2 p3 : Nat}

theorem State.card {m : Mesh} {live : Nat → Prop} {F : Finset Nat} {s : TriFace} (S : State pts V p0 p1 p2 p3 m live F s) {p : Nat} (hp : p < pts.length)
    (hpF : p ∉ F) : F.card ≤ pts.length := by
  have : F ⊆ (Finset.range (pts.length + 1)).erase p := by
    intro q hq
    rw [Finset.mem_erase, Finset.mem_range]
    exact ⟨fun e => hpF (e ▸ hq), by have := S.dt.le q hq; omega⟩
  have := Finset.card_le_card this
  rw [Finset.card_erase_of_mem (by simp; omega), Finset.card_range] at this
  exact this

/-- The loop over the remaining points keeps the invariant. -/
theorem State.loop {fuel : Nat} : ∀ (rest : List Nat) (m : Mesh) (live : Nat → Prop) (F : Finset Nat) (s : TriFace), State pts V p0 p1 p2 p3 m live F s →
    rest.Nodup → (∀ q ∈ rest, q < pts.length ∧ q ∉ F) → m.tets.length + 2 * pts.length * rest.length ≤ fuel → 0 < pts.length →
    (pts.length ≤ 1021 ∨ SmallRun pts fuel rest m s) →
    ∃ m' s' live', m.insertLoop pts fuel rest s = some m' ∧ State pts V p0 p1 p2 p3 m' live' (rest.foldl (fun F p => insert p F) F) s'
  | [], m, live, F, s, S, _, _, _, _, _ => ⟨m, s, live, rfl, S⟩
  | p :: rest, m, live, F, s, S, hnd, hq, hf, hn, hlim => by
    obtain ⟨hp, hpF⟩ := hq p (by simp)
    have hcard := S.card hp hpF
    simp only [List.length_cons, Nat.mul_add, Nat.mul_one] at hf
    have hlim' : F.card ≤ 1021 ∨ SmallStep m pts fuel p s := hlim.imp (fun h => by omega) (fun h => h.1)
    obtain ⟨m', s', live', e, S', hlen⟩ := S.step hp hpF (fuel := fuel) (by omega) hlim'
    rw [List.nodup_cons] at hnd
    obtain ⟨m'', s'', live'', e', S''⟩ := State.loop rest m' live' (insert p F) s' S' hnd.2 (fun q hqr => by
      obtain ⟨a, b⟩ := hq q (by simp [hqr])
      refine ⟨a, ?_⟩
      rw [Finset.mem_insert, not_or]
      exact ⟨fun h => hnd.1 (h ▸ hqr), b⟩) (by omega) hn (hlim.imp id (fun h => h.2 m' s' e))
    refine ⟨m'', s'', live'', ?_, S''⟩
    simp only [Mesh.insertLoop, e, Option.bind_eq_bind, Option.bind_some, if_true]
    exact e'

theorem mem_foldl_insert {q : Nat} : ∀ (l : List Nat) (F : Finset Nat), q ∈ l.foldl (fun F p => insert p F) F ↔ q ∈ F ∨ q ∈ l
  | [], F => by simp
  | p :: l, F => by rw [List.foldl_cons, mem_foldl_insert l]; simp [or_assoc, or_comm, or_left_comm]

/-- The tetrahedra that `finish` keeps are those of the complex. -/
theorem State.alive {m : Mesh} {live : Nat → Prop} {F : Finset Nat} {s : TriFace} (S : State pts V p0 p1 p2 p3 m live F s) : Alive m = live := by
  funext t
  apply propext
  constructor
  · rintro ⟨x, hx, ha⟩
    by_contra hl
    have hlt : t < m.tets.length := by
      by_contra hge
      rw [List.getElem?_eq_none (by omega)] at hx
      cases hx
    obtain ⟨x', hx', h1, h2, h3⟩ := S.gone t hlt hl
    rw [hx'] at hx
    cases hx
    simp [Tet.Tet.alive, h1, h2, h3] at ha
  · intro hl
    obtain ⟨x, hx, -⟩ := S.dt.reg.cons.corners t hl
    refine ⟨x, hx, ?_⟩
    simp [Tet.Tet.alive, (S.clean t x hl hx).1]

theorem get_eq_pt {l : List (Pt K)} {i : Nat} {a : Pt K} (h : l[i]? = some a) : i < l.length ∧ pt l i = a := by
  have hi : i < l.length := by
    by_contra hge
    rw [List.getElem?_eq_none (by omega)] at h
    cases h
  rw [get_pt hi] at h
  cases h
  exact ⟨hi, rfl⟩

theorem State.finish {m : Mesh} {live : Nat → Prop} {F : Finset Nat} {s : TriFace} (S : State pts V p0 p1 p2 p3 m live F s) (hall : ∀ q < pts.length, q ∈ F) :
    ∃ m', m.finish = some m' ∧ IsDelaunay pts m' := by
  have D := S.dt
  have E := D.embedded
  obtain ⟨m', φ, e, hn, hc, hφ, hmono, hsurj, hdata, hsym, hmark, hgood⟩ := c63_finish m (by rw [S.alive]; exact D.reg.cons)
    (by
      intro t x hx ha h3
      have hl : live t := by rw [← S.alive]; exact ⟨x, hx, ha⟩
      obtain ⟨h, h1, h2, h3⟩ := E.hull t x hl hx h3
      exact ⟨h, h1, h3⟩)
    (by
      intro v hv
      rw [S.alive]
      rw [D.num] at hv
      exact S.link v (hall v hv) hv)
  rw [S.alive] at *
  -- every tetrahedron of the result is one of the complex
  have back : ∀ (k : Nat) (y : Tet.Tet), m'.tets[k]? = some y → ∃ t x, live t ∧ φ t = k ∧ m.tets[t]? = some x ∧ x.data = y.data := by
    intro k y hy
    have hk : k < m'.tets.length := by
      by_contra hge
      rw [List.getElem?_eq_none (by omega)] at hy
      cases hy
    obtain ⟨t, hl, ht⟩ := hsurj k hk
    obtain ⟨x, hx, -⟩ := D.reg.cons.corners t hl
    refine ⟨t, x, hl, ht, hx, ?_⟩
    have := hdata t hl
    rw [ht, hy, hx] at this
    simpa using this.symm
  have solid : ∀ k c, SolidTet pts m' k c → ∃ t x, live t ∧ φ t = k ∧ m.tets[t]? = some x ∧ x.data 3 ≠ pts.length ∧ ∀ i, pt pts (x.data i) = c i := by
    rintro k c ⟨y, hy, h3, hp⟩
    obtain ⟨t, x, hl, ht, hx, he⟩ := back k y hy
    refine ⟨t, x, hl, ht, hx, by rw [he]; exact h3, fun i => ?_⟩
    rw [he]
    exact (get_eq_pt (hp i)).2
  -- faces across which the complex continues
  have cross : ∀ (t : Nat) (x y : Tet.Tet) (i : Fin 4) (h : TriFace), live t → m.tets[t]? = some x → m'.tets[φ t]? = some y → x.nei i = some h →
      ∃ h', y.nei i = some h' ∧ h'.tet = φ h.tet := by
    intro t x y i h hl hx hy hnei
    have hs := hsym t hl (verOfFace i)
    simp only [Mesh.fsym, hy, hx, face_verOfFace, hnei, Option.bind_eq_bind, Option.bind_some, Option.pure_def, Option.map_some] at hs
    cases hn3 : y.nei i with
    | none => rw [hn3] at hs; cases hs
    | some h' =>
      rw [hn3] at hs
      simp only [Option.bind_some, Option.some.injEq, TriFace.mk.injEq] at hs
      exact ⟨h', rfl, hs.1⟩
  have fwd : ∀ (t : Nat) (x : Tet.Tet), live t → m.tets[t]? = some x → ∃ y, m'.tets[φ t]? = some y ∧ y.data = x.data := by
    intro t x hl hx
    have hd := hdata t hl
    rw [hx, Option.map_some, Option.map_eq_some_iff] at hd
    exact hd
  refine ⟨m', e, ?_, hc, ?_, ?_, ?_, ?_, ?_, ?_, ?_, ?_, ?_, ?_, ?_⟩
  · rw [hn, D.num]
  · intro k y hy
    obtain ⟨t, x, hl, -, hx, he⟩ := back k y hy
    rw [← he]
    by_cases h3 : x.data 3 = pts.length
    · obtain ⟨a, b, c, -⟩ := D.hull hall hl hx h3
      exact ⟨a, b, c, h3.le⟩
    · have := D.solid_lt hl hx h3
      exact ⟨this 0, this 1, this 2, (this 3).le⟩
  · intro k c hk
    obtain ⟨t, x, hl, -, hx, h3, hp⟩ := solid k c hk
    obtain ⟨ho, o, r, hr, hall'⟩ := D.sphere hl hx h3
    simp only [hp] at ho hr
    refine ⟨ho, o, r, hr, ?_⟩
    intro e he
    obtain ⟨q, hq, rfl⟩ := List.getElem_of_mem he
    have := hall' q hq (hall q hq)
    simpa [pt, hq] using this
  · intro k y a b c hy h3 ha hb hcc
    obtain ⟨t, x, hl, ht, hx, he⟩ := back k y hy
    rw [← he] at ha hb hcc h3
    obtain ⟨-, -, -, hh⟩ := D.hull hall hl hx h3
    rw [(get_eq_pt ha).2, (get_eq_pt hb).2, (get_eq_pt hcc).2] at hh
    refine ⟨?_, ?_⟩
    · intro e he
      obtain ⟨q, hq, rfl⟩ := List.getElem_of_mem he
      have := hh q hq
      simpa [pt, hq] using this
    · obtain ⟨h, hnei, hl', hsol⟩ := E.hull t x hl hx (by rw [D.num]; exact h3)
      have hy3 : ∃ h', y.nei 3 = some h' ∧ h'.tet = φ h.tet := by
        have hs := hsym t hl 11
        rw [ht] at hs
        have hf11 : face 11 = 3 := by decide
        simp only [Mesh.fsym, hy, hx, hf11, hnei, Option.bind_eq_bind, Option.bind_some, Option.pure_def, Option.map_some] at hs
        cases hn3 : y.nei 3 with
        | none => rw [hn3] at hs; cases hs
        | some h' =>
          rw [hn3] at hs
          simp only [Option.bind_some, Option.some.injEq, TriFace.mk.injEq] at hs
          exact ⟨h', rfl, hs.1⟩
      obtain ⟨h', e1, e2⟩ := hy3
      obtain ⟨z, hz, hz3⟩ := hsol
      have hd := hdata h.tet hl'
      rw [hz, Option.map_some, Option.map_eq_some_iff] at hd
      obtain ⟨y', hy', hyd⟩ := hd
      refine ⟨h', e1, y', by rw [e2]; exact hy', ?_⟩
      rw [hyd, hn]
      exact hz3
  · intro k k' c c' w w' p hk hk' hw hw' hcb hcb'
    obtain ⟨t, x, hl, ht, hx, h3, hp⟩ := solid k c hk
    obtain ⟨t', x', hl', ht', hx', h3', hp'⟩ := solid k' c' hk'
    rw [← ht, ← ht']
    congr 1
    refine D.apart hl hl' hx hx' h3 h3' hw hw' (p := p) ?_ ?_
    · simpa only [hp] using hcb
    · simpa only [hp'] using hcb'
  · intro p w hw hcb
    obtain ⟨t, x, w', hl, hx, h3, hw', hcomb⟩ := D.cover hall s.tet S.search p w hw (by
      have : (fun i : Fin pts.length => pts[i]) = fun i : Fin pts.length => pt pts i.val := by
        funext i; simp [pt]
      rw [this] at hcb
      exact hcb)
    have hd := hdata t hl
    rw [hx, Option.map_some, Option.map_eq_some_iff] at hd
    obtain ⟨y, hy, hyd⟩ := hd
    refine ⟨φ t, fun i => pt pts (x.data i), w', ⟨y, hy, by rw [hyd]; exact h3, fun i => ?_⟩, hw', hcomb⟩
    rw [hyd]
    exact get_pt (D.solid_lt hl hx h3 i)
  · intro v hv
    exact hgood v (by rw [D.num]; exact hv)
  · intro k k' y y' c c' w w' p hy hy' hk hk' hw hw' hcb hcb' i hi
    obtain ⟨z, hz, h3, hp⟩ := hk
    rw [hy] at hz; cases hz
    obtain ⟨z', hz', h3', hp'⟩ := hk'
    rw [hy'] at hz'; cases hz'
    obtain ⟨t, x, hl, -, hx, he⟩ := back k y hy
    obtain ⟨t', x', hl', -, hx', he'⟩ := back k' y' hy'
    have e1 : (fun i => pt pts (x.data i)) = c := by
      funext j; rw [he]; exact (get_eq_pt (hp j)).2
    have e2 : (fun i => pt pts (x'.data i)) = c' := by
      funext j; rw [he']; exact (get_eq_pt (hp' j)).2
    have := D.meet hl hl' hx hx' (by rw [he]; exact h3) (by rw [he']; exact h3') hw hw' (by rw [e1]; exact hcb) (by rw [e2]; exact hcb') i hi
    rwa [he, he'] at this
  · rintro ⟨k, ver⟩ ⟨k', ver'⟩ hk hk' ho hd ha
    obtain ⟨t, hl, rfl⟩ := hsurj k hk
    obtain ⟨t', hl', rfl⟩ := hsurj k' hk'
    obtain ⟨x, hx, -⟩ := D.reg.cons.corners t hl
    obtain ⟨x', hx', -⟩ := D.reg.cons.corners t' hl'
    obtain ⟨y, hy, he⟩ := fwd t x hl hx
    obtain ⟨y', hy', he'⟩ := fwd t' x' hl' hx'
    simp only [Mesh.org, Mesh.dest, Mesh.apex, hy, hy', Option.map_some, Option.some.injEq, he, he'] at ho hd ha
    have := D.reg.same_side (h := ⟨t, ver⟩) (g := ⟨t', ver'⟩) hl hl' (sees_of_get hx) (y := x') (e := x'.data (oppoPivot ver'))
      ⟨hx', ho.symm, hd.symm, ha.symm, rfl⟩
    simp only [TriFace.mk.injEq] at this
    rw [this.1, this.2]
  · intro v k k' y y' hy hy' h3 h3' hv hv'
    obtain ⟨t, x, hl, rfl, hx, he⟩ := back k y hy
    obtain ⟨t', x', hl', rfl, hx', he'⟩ := back k' y' hy'
    rw [← he] at h3 hv
    rw [← he'] at h3' hv'
    have hst := D.star hall hl' hl hx' hx h3' h3 hv' hv
    have key : ∀ u, Star m v t u → live u ∧ Star m' v (φ t) (φ u) := by
      intro u hu
      induction hu with
      | base => exact ⟨hl, .base⟩
      | @step u xu i h z hu hxu hne hnei hz h3 ih =>
        obtain ⟨lu, su⟩ := ih
        obtain ⟨h', z', e', lh, hz', -⟩ := Mesh.neighbour D.reg.cons lu hxu i
        rw [hnei] at e'; cases e'
        refine ⟨lh, ?_⟩
        obtain ⟨yu, hyu, hyd⟩ := fwd u xu lu hxu
        obtain ⟨h'', e1, e2⟩ := cross u xu yu i h lu hxu hyu hnei
        obtain ⟨zu, hzu, hzd⟩ := fwd h.tet z lh hz
        rw [← e2] at hzu ⊢
        exact .step su hyu (by rw [hyd]; exact hne) e1 hzu (by rw [hzd, hn]; exact h3)
    exact (key t' hst).2
  · intro a b k k' y y' hy hy' ha hb ha' hb'
    obtain ⟨t, x, hl, rfl, hx, he⟩ := back k y hy
    obtain ⟨t', x', hl', rfl, hx', he'⟩ := back k' y' hy'
    rw [← he] at ha hb
    rw [← he'] at ha' hb'
    have hst := D.ring hl' hl hx' hx ha' hb' ha hb
    have key : ∀ u, Ring m a b t u → live u ∧ Ring m' a b (φ t) (φ u) := by
      intro u hu
      induction hu with
      | base => exact ⟨hl, .base⟩
      | @step u xu i h hu hxu hne hne' hnei ih =>
        obtain ⟨lu, su⟩ := ih
        obtain ⟨h', z', e', lh, hz', -⟩ := Mesh.neighbour D.reg.cons lu hxu i
        rw [hnei] at e'; cases e'
        refine ⟨lh, ?_⟩
        obtain ⟨yu, hyu, hyd⟩ := fwd u xu lu hxu
        obtain ⟨h'', e1, e2⟩ := cross u xu yu i h lu hxu hyu hnei
        rw [← e2]
        exact .step su hyu (by rw [hyd]; exact hne) (by rw [hyd]; exact hne') e1
    exact (key t' hst).2
  · intro k y hy
    have hk : k < m'.tets.length := (List.getElem?_eq_some_iff.1 hy).1
    obtain ⟨t, hl, rfl⟩ := hsurj k hk
    obtain ⟨x, hx, -⟩ := D.reg.cons.corners t hl
    have := hmark t hl
    rw [hy, hx] at this
    simp only [Option.map_some, Option.some.injEq] at this
    rw [this]
    exact (S.clean t x hl hx).2

/-- The construction on a permutation of the points, the first four of which are negatively oriented. -/
theorem tetrahedralizeFrom_delaunay (hd : pts.Nodup) (p0 p1 p2 p3 : Nat) (rest : List Nat) (hperm : (p0 :: p1 :: p2 :: p3 :: rest).Perm (List.range pts.length))
    (ho : orient3d (pt pts p0) (pt pts p1) (pt pts p2) (pt pts p3) < 0) (fuel : Nat) (hf : 2 * pts.length * pts.length ≤ fuel)
    (hlim : pts.length ≤ 1021 ∨ ∀ m s, initialDelaunay (Mesh.new pts.length) p0 p1 p2 p3 = some (m, s) → SmallRun pts fuel rest m s) :
    ∃ m, tetrahedralizeFrom pts fuel (p0 :: p1 :: p2 :: p3 :: rest) = some m ∧ IsDelaunay pts m := by
  have hmem : ∀ q, q ∈ (p0 :: p1 :: p2 :: p3 :: rest) ↔ q < pts.length := fun q => by rw [hperm.mem_iff, List.mem_range]
  have hnd := hperm.nodup_iff.2 List.nodup_range
  have hlen := hperm.length_eq
  simp only [List.length_cons, List.length_range] at hlen
  have h0 := (hmem p0).1 (by simp)
  have h1 := (hmem p1).1 (by simp)
  have h2 := (hmem p2).1 (by simp)
  have h3 := (hmem p3).1 (by simp)
  simp only [List.nodup_cons, List.mem_cons, not_or] at hnd
  obtain ⟨⟨n01, n02, n03, r0⟩, ⟨n12, n13, r1⟩, ⟨n23, r2⟩, r3, hrest⟩ := hnd
  have hd' : ∀ i < pts.length, ∀ j < pts.length, i ≠ j → pt pts i ≠ pt pts j := by
    intro i hi j hj hij e
    apply hij
    have : pts[i] = pts[j] := by simpa [pt, hi, hj] using e
    exact (List.Nodup.getElem_inj_iff hd).1 this
  obtain ⟨V, L⟩ := exists_lift (pt pts) pts.length p0 p1 p2 p3 hd' h0 h1 h2 h3
  obtain ⟨m, e, hl, S⟩ := initial_state hd' L h0 h1 h2 h3 n01 n02 n03 n12 n13 n23 ho
  obtain ⟨m', s', live', e', S'⟩ := State.loop rest m _ _ _ S hrest (by
    intro q hq
    have hqn := (hmem q).1 (by simp [hq])
    refine ⟨hqn, ?_⟩
    simp only [Finset.mem_insert, Finset.mem_singleton, not_or]
    exact ⟨fun h => r0 (h ▸ hq), fun h => r1 (h ▸ hq), fun h => r2 (h ▸ hq), fun h => r3 (h ▸ hq), by omega⟩) (fuel := fuel) (by
      rw [hl]
      have : 2 * pts.length * pts.length = 2 * pts.length * rest.length + 2 * pts.length * 4 := by rw [← hlen]; ring
      omega) (by omega) (hlim.imp id (fun h => h m _ e))
  obtain ⟨m'', e'', hD⟩ := S'.finish (by
    intro q hq
    rw [mem_foldl_insert]
    have := (hmem q).2 hq
    simp only [List.mem_cons] at this
    simp only [Finset.mem_insert, Finset.mem_singleton]
    rcases this with h | h | h | h | h <;> simp [h])
  refine ⟨m'', ?_, hD⟩
  simp only [tetrahedralizeFrom, e, e', Option.bind_eq_bind, Option.bind_some]
  exact e''

end Verif.Delaunay
