import Verif.Bsp.Read
import Verif.Bsp.Kept
import Verif.Poly.New
import Mathlib.Algebra.BigOperators.Group.Finset.Sigma
import Mathlib.Algebra.BigOperators.Fin
/-!
# The initial complex with its mesh

`BSPComplex::new` (`src/polygonlization/bsp_complex.rs` lines 121-241) makes the cells from the solid tetrahedra (`Verif.Poly.newComplex`) and the mesh
from the corners of the faces (`let mesh = SurfaceMesh::new(faces)`, `Verif.Surface.new`). Here both are put together: the state with which
`split_cell` starts is watertight.
-/
namespace Verif.Bsp
open Surface (get Chain Valid)
open Poly (Whole ordOf mate Owns rep owned slotsUpTo Upto Build Linked FaceOf)

/-- The initial state (lines 126-187 and the mesh of line 187). -/
def initial (order : List Nat → List Nat) (m : Tet.Mesh) (marks : Nat → Nat → List Nat) (nOri : Nat) : Option (St × Surface.Mesh) := do
  let b ← Poly.newComplex m marks nOri
  let sm ← Surface.new order (b.faces.map Prod.snd)
  some (⟨b.complex, readMesh sm⟩, sm)

/-! ### Four faces of a tetrahedron -/

/-- The coefficient of the pair `i, j` in the outline of the face `σ 0, σ 1, σ 2`. -/
def coef (σ : Equiv.Perm (Fin 4)) (i j : Fin 4) : Int :=
  (Equiv.Perm.sign σ : Int) * (([(0, 1), (1, 2), (2, 0)] : List (Fin 4 × Fin 4)).map fun p =>
    (if σ p.1 = i ∧ σ p.2 = j then (1 : Int) else 0) - (if σ p.1 = j ∧ σ p.2 = i then 1 else 0)).sum

/-- It depends only on the face. -/
def faceCoef (p i j : Fin 4) : Int :=
  coef (Equiv.swap p 3) i j

theorem coef_eq : ∀ (σ : Equiv.Perm (Fin 4)) (i j : Fin 4), coef σ i j = faceCoef (σ 3) i j := by decide +kernel

theorem faceCoef_sum : ∀ i j : Fin 4, faceCoef 0 i j + faceCoef 1 i j + faceCoef 2 i j + faceCoef 3 i j = 0 := by decide +kernel

theorem pick {n : Nat} (B : Fin n → Fin n → Int) (a b : Fin n) : (∑ i, ∑ j, (if a = i ∧ b = j then (1 : Int) else 0) * B i j) = B a b := by
  simp [ite_and]

theorem coef_sum {B : Fin 4 → Fin 4 → Int} (hB : ∀ i j, B j i = - B i j) (σ : Equiv.Perm (Fin 4)) :
    (∑ i, ∑ j, coef σ i j * B i j) = 2 * ((Equiv.Perm.sign σ : Int) * (B (σ 0) (σ 1) + B (σ 1) (σ 2) + B (σ 2) (σ 0))) := by
  have one : ∀ a b : Fin 4, (∑ i, ∑ j, ((if a = i ∧ b = j then (1 : Int) else 0) - (if a = j ∧ b = i then 1 else 0)) * B i j) = 2 * B a b := by
    intro a b
    simp only [sub_mul, Finset.sum_sub_distrib, pick]
    have : (∑ i, ∑ j, (if a = j ∧ b = i then (1 : Int) else 0) * B i j) = B b a := by
      rw [← pick B b a]
      refine Finset.sum_congr rfl fun i _ => Finset.sum_congr rfl fun j _ => ?_
      simp only [and_comm]
    rw [this, hB a b]; ring
  have e : ∀ i j, coef σ i j * B i j = (Equiv.Perm.sign σ : Int) *
      (((if σ 0 = i ∧ σ 1 = j then (1 : Int) else 0) - (if σ 0 = j ∧ σ 1 = i then 1 else 0)) * B i j +
       ((if σ 1 = i ∧ σ 2 = j then (1 : Int) else 0) - (if σ 1 = j ∧ σ 2 = i then 1 else 0)) * B i j +
       ((if σ 2 = i ∧ σ 0 = j then (1 : Int) else 0) - (if σ 2 = j ∧ σ 0 = i then 1 else 0)) * B i j) := by
    intro i j
    simp only [coef, List.map_cons, List.map_nil, List.sum_cons, List.sum_nil]
    ring
  simp only [e, ← Finset.mul_sum, Finset.sum_add_distrib, one]
  ring

/-- The outlines of the four faces of a tetrahedron cancel. -/
theorem four_faces {B : Fin 4 → Fin 4 → Int} (hB : ∀ i j, B j i = - B i j) (σ : Fin 4 → Equiv.Perm (Fin 4)) (hσ : ∀ p, σ p 3 = p) :
    (∑ p, (Equiv.Perm.sign (σ p) : Int) * (B (σ p 0) (σ p 1) + B (σ p 1) (σ p 2) + B (σ p 2) (σ p 0))) = 0 := by
  have h2 : (2 : Int) * (∑ p, (Equiv.Perm.sign (σ p) : Int) * (B (σ p 0) (σ p 1) + B (σ p 1) (σ p 2) + B (σ p 2) (σ p 0))) = 0 := by
    rw [Finset.mul_sum]
    simp only [← coef_sum hB, coef_eq, hσ]
    rw [Finset.sum_comm]
    refine Finset.sum_eq_zero fun i _ => ?_
    rw [Finset.sum_comm]
    refine Finset.sum_eq_zero fun j _ => ?_
    rw [← Finset.sum_mul, Fin.sum_univ_four, faceCoef_sum, zero_mul]
  omega

/-! ### The mesh -/

/-- What `SurfaceMesh::new` makes of the corners of the faces, as cycles. -/
structure Fresh (ps : List (List Nat)) (pm : PMesh) : Prop where
  len : pm.faces.length = ps.length
  lt : ∀ c ∈ pm.faces, ∀ x ∈ c, x.1 < pm.nV ∧ x.2 < pm.nE
  ends : ∀ h ∈ pm.all, ∀ k ∈ pm.all, h.edge = k.edge → k = h ∨ k = h.rev
  same : ∀ h ∈ pm.all, ∀ k ∈ pm.all, k.tail = h.tail ∧ k.tip = h.tip ∨ k.tail = h.tip ∧ k.tip = h.tail → h.edge = k.edge
  face : ∀ (f : Nat) (p : List Nat), ps[f]? = some p → ∃ c, pm.faces[f]? = some c ∧ c.map Prod.fst = p

theorem map_vertOf {m : Surface.Mesh} : ∀ {hs p : List Nat}, hs.mapM (get m.heVertex) = some p → hs.map (vertOf m) = p
  | [], p, h => by simp at h; simp [h]
  | x :: hs, p, h => by
    rw [List.mapM_cons] at h
    obtain ⟨a, h1, h2⟩ := Option.bind_eq_some_iff.1 h
    obtain ⟨q, h3, h4⟩ := Option.bind_eq_some_iff.1 h2
    cases h4
    rw [List.map_cons, map_vertOf h3, vertOf, h1]; rfl

theorem fresh_new {order : List Nat → List Nat} (ho : ∀ l, (order l).Perm l) {ps : List (List Nat)} (h1 : ps ≠ []) (h2 : ∀ p ∈ ps, p ≠ []) :
    ∃ sm, Surface.new order ps = some sm ∧ Valid sm ∧ Fresh ps (readMesh sm) := by
  obtain ⟨m, e, v, nF, nH, -, hf, he, -⟩ := Surface.new_spec ho h1 h2
  refine ⟨m, e, v, ?_, readMesh_lt v, readMesh_ends v, ?_, ?_⟩
  · simp [readMesh, nF]
  · intro h hh k hk hs
    obtain ⟨x, hx, rfl⟩ := (mem_readMesh v).1 hh
    obtain ⟨y, hy, rfl⟩ := (mem_readMesh v).1 hk
    have := (he x hx y hy).2 (by
      unfold Surface.SameEnds
      rw [(Valid.vert v hx).1, (Valid.vert v hy).1, (Valid.tip v hx).1, (Valid.tip v hy).1]
      simpa [heOf] using hs)
    show edgeOf m x = edgeOf m y
    rw [edgeOf, edgeOf, this]
  · intro f p hp
    obtain ⟨hlt, rfl⟩ := List.getElem?_eq_some_iff.1 hp
    have hsplit : ps = ps.take f ++ ps[f] :: ps.drop (f + 1) := by rw [List.getElem_cons_drop, List.take_append_drop]
    have hl : (ps.take f).length = f := by rw [List.length_take]; omega
    obtain ⟨g1, g2⟩ := hf _ _ _ hsplit
    rw [hl] at g1 g2
    refine ⟨_, readMesh_face (by omega), ?_⟩
    rw [List.map_map]
    rw [Surface.faceVertices, g1] at g2
    rw [loopOf, g1]
    exact map_vertOf g2

/-! ### Good -/

theorem three {c : Cycle} {a b d : Nat} (h : c.map Prod.fst = [a, b, d]) : ∃ e0 e1 e2, hes c = [⟨a, e0, b⟩, ⟨b, e1, d⟩, ⟨d, e2, a⟩] := by
  match c, h with
  | [(a', e0), (b', e1), (d', e2)], h =>
    simp only [List.map_cons, List.map_nil, List.cons.injEq, and_true] at h
    obtain ⟨rfl, rfl, rfl⟩ := h
    exact ⟨e0, e1, e2, rfl⟩

/-- The ends of edge `e`. -/
def OnEdge (pm : PMesh) (e a b : Nat) : Prop := ∃ h ∈ pm.all, h.edge = e ∧ (h.tail = a ∧ h.tip = b ∨ h.tail = b ∧ h.tip = a)

open Classical in
/-- What a half-edge from `a` to `b` contributes. -/
noncomputable def flux (pm : PMesh) (e u a b : Nat) : Int := if OnEdge pm e a b then (if a = u then 1 else 0) - (if b = u then 1 else 0) else 0

theorem flux_anti (pm : PMesh) (e u a b : Nat) : flux pm e u b a = - flux pm e u a b := by
  have : OnEdge pm e b a ↔ OnEdge pm e a b := by
    unfold OnEdge
    constructor <;> rintro ⟨h, h1, h2, h3⟩ <;> exact ⟨h, h1, h2, h3.symm⟩
  unfold flux
  by_cases h : OnEdge pm e a b
  · rw [if_pos h, if_pos (this.2 h)]; ring
  · rw [if_neg h, if_neg (fun x => h (this.1 x))]; rfl

theorem Fresh.inc {ps : List (List Nat)} {pm : PMesh} (hp : Fresh ps pm) {h : HE} (hh : h ∈ pm.all) (e u : Nat) : inc h e u = flux pm e u h.tail h.tip := by
  unfold Bsp.inc flux
  by_cases he : h.edge = e
  · have : OnEdge pm e h.tail h.tip := ⟨h, hh, he, .inl ⟨rfl, rfl⟩⟩
    rw [if_pos he, if_pos this]
  · rw [if_neg he, if_neg]
    rintro ⟨k, hk, k1, k2⟩
    apply he
    rw [← k1]
    refine hp.same h hh k hk ?_
    rcases k2 with ⟨k2, k3⟩ | ⟨k2, k3⟩
    · exact .inl ⟨k2, k3⟩
    · exact .inr ⟨k2, k3⟩

theorem mem_all_of {pm : PMesh} {f : Nat} {c : Cycle} (h : pm.faces[f]? = some c) {x : HE} (hx : x ∈ hes c) : x ∈ pm.all :=
  List.mem_flatMap.2 ⟨c, List.mem_of_getElem? h, hx⟩

theorem Fresh.bd {ps : List (List Nat)} {pm : PMesh} (hp : Fresh ps pm) {f a b d : Nat} (h : ps[f]? = some [a, b, d]) (e u : Nat) :
    ∃ c, pm.faces[f]? = some c ∧ bd (hes c) e u = flux pm e u a b + flux pm e u b d + flux pm e u d a := by
  obtain ⟨c, c1, c2⟩ := hp.face f _ h
  obtain ⟨e0, e1, e2, eh⟩ := three c2
  refine ⟨c, c1, ?_⟩
  have m1 := hp.inc (mem_all_of c1 (x := ⟨a, e0, b⟩) (by rw [eh]; simp)) e u
  have m2 := hp.inc (mem_all_of c1 (x := ⟨b, e1, d⟩) (by rw [eh]; simp)) e u
  have m3 := hp.inc (mem_all_of c1 (x := ⟨d, e2, a⟩) (by rw [eh]; simp)) e u
  rw [eh, bd_cons, bd_cons, bd_cons, bd_nil, m1, m2, m3]
  ring

/-- Every face is that of a slot of a solid tetrahedron. -/
theorem slot_of_face {m : Tet.Mesh} {marks : Nat → Nat → List Nat} {nOri : Nat} {b : Build} (h : Upto m marks nOri m.tets.length b) {f : Nat}
    {q : Poly.Face × List Nat} (hq : b.faces[f]? = some q) : ∃ s k x, (owned m (slotsUpTo m m.tets.length))[f]? = some s ∧ ordOf m s.1 = some k ∧
      m.tets[s.1]? = some x ∧ q.2 = Poly.faceVerts x s.2 ∧ q.1.cells = (k, ordOf m (mate m s).1) := by
  have hfl : f < (owned m (slotsUpTo m m.tets.length)).length := by
    rw [← h.visited.len]; exact (List.getElem?_eq_some_iff.1 hq).1
  obtain ⟨k, x, F, q1, q2, q3, q4, q5⟩ := h.visited.faces f _ (List.getElem?_eq_getElem hfl)
  rw [hq] at q3; cases q3
  exact ⟨_, k, x, List.getElem?_eq_getElem hfl, q1, q2, rfl, q4⟩

theorem init_closed {m : Tet.Mesh} (hm : Whole m) {marks : Nat → Nat → List Nat} {nOri : Nat} {b : Build} (h : Upto m marks nOri m.tets.length b)
    {pm : PMesh} (hp : Fresh (b.faces.map Prod.snd) pm) (k e u : Nat) :
    ((Finset.range pm.faces.length).sum fun i => term (b.complex.faces.map Poly.Face.cells) pm.faces k e u i) = 0 := by
  have hl := Poly.upto_linked hm h
  have hlen : pm.faces.length = b.faces.length := by rw [hp.len, List.length_map]
  have hcl : ∀ (i : Nat) (q : Poly.Face × List Nat), b.faces[i]? = some q → (b.complex.faces.map Poly.Face.cells)[i]? = some q.1.cells := by
    intro i q hq
    simp [Build.complex, hq]
  have hzero : ∀ i < pm.faces.length, (∀ q, b.faces[i]? = some q → ¬ q.1.bounds k) → term (b.complex.faces.map Poly.Face.cells) pm.faces k e u i = 0 := by
    intro i hi hq
    have hb := List.getElem?_eq_getElem (show i < b.faces.length by omega)
    have hn := hq _ hb
    unfold Poly.Face.bounds at hn
    push Not at hn
    unfold term
    rw [hcl i _ hb, List.getElem?_eq_getElem hi]
    simp only [sg, hn.1, hn.2, if_false]
    ring
  by_cases hex : ∃ (i : Nat) (q : Poly.Face × List Nat), b.faces[i]? = some q ∧ q.1.bounds k
  · obtain ⟨i, q, hq, hbd⟩ := hex
    obtain ⟨s, k', x', s1, s2, s3, s4, s5⟩ := slot_of_face h hq
    obtain ⟨t, ht⟩ : ∃ t, ordOf m t = some k := by
      unfold Poly.Face.bounds at hbd
      rw [s5] at hbd
      rcases hbd with hb | hb
      · simp only at hb; subst hb; exact ⟨_, s2⟩
      · exact ⟨_, hb⟩
    obtain ⟨f0, f1, f2, f3, hC, ho⟩ := h.cells t k (Poly.ordOf_lt ht) ht
    obtain ⟨x, hx⟩ : ∃ x, m.tets[t]? = some x := ⟨_, List.getElem?_eq_getElem (Poly.ordOf_lt ht)⟩
    have hC' : b.complex.cells[k]? = some ⟨[f0, f1, f2, f3], marks 4 t⟩ := hC
    have hnd : [f0, f1, f2, f3].Nodup := hl.nodup k _ hC'
    have hlk := hl.link k _ hC'
    have hface : ∀ p : Fin 4, ∃ σ : Equiv.Perm (Fin 4), σ 3 = p ∧ term (b.complex.faces.map Poly.Face.cells) pm.faces k e u ([f0, f1, f2, f3][p]) =
        (Equiv.Perm.sign σ : Int) * (flux pm e u (x.data (σ 0)) (x.data (σ 1)) + flux pm e u (x.data (σ 1)) (x.data (σ 2)) +
          flux pm e u (x.data (σ 2)) (x.data (σ 0))) := by
      intro p
      obtain ⟨F, vs, g1, ⟨σ, t1, t2, t3⟩, -, -⟩ := Poly.face_of_rep hm h.visited hx ht (ho p _ rfl)
      refine ⟨σ, t1, ?_⟩
      obtain ⟨c, c1, c2⟩ := hp.bd (f := [f0, f1, f2, f3][p]) (a := x.data (σ 0)) (b := x.data (σ 1)) (d := x.data (σ 2))
        (by rw [List.getElem?_map, g1, ← t2]; rfl) e u
      unfold term
      rw [hcl _ _ g1, c1]
      simp only [c2]
      congr 1
      have hbb : F.bounds k := by
        obtain ⟨F', e1, e2⟩ := (hlk _).1 (List.getElem_mem (l := [f0, f1, f2, f3]) (n := p.1) p.2)
        have : b.complex.faces[[f0, f1, f2, f3][p]]? = some F := by simp only [Build.complex, List.getElem?_map, g1]; rfl
        rw [show [f0, f1, f2, f3][p.1] = [f0, f1, f2, f3][p] from rfl, this] at e1
        cases e1; exact e2
      have hF : b.complex.faces[[f0, f1, f2, f3][p]]? = some F := by simp only [Build.complex, List.getElem?_map, g1]; rfl
      have hc := hl.cells _ _ hF
      unfold sg
      rw [t3]
      by_cases h1 : F.cells.1 = k
      · have h2 : F.cells.2 ≠ some k := fun h2 => (hc.2 k h2).2 h1.symm
        simp [h1, h2]
      · have h2 : F.cells.2 = some k := hbb.resolve_left h1
        simp [h1, h2]
    choose σ σ1 σ2 using hface
    have hf4 : ∀ f ∈ [f0, f1, f2, f3], f < pm.faces.length := by
      intro f hf
      obtain ⟨F, hF, -⟩ := (hlk f).1 hf
      have := (List.getElem?_eq_some_iff.1 hF).1
      rw [hlen]
      simpa [Build.complex] using this
    rw [sum_filter_nodup hnd hf4]
    · have e0 := σ2 0
      have e1 := σ2 1
      have e2 := σ2 2
      have e3 := σ2 3
      have key := four_faces (B := fun i j => flux pm e u (x.data i) (x.data j)) (fun i j => flux_anti ..) σ σ1
      rw [Fin.sum_univ_four, ← e0, ← e1, ← e2, ← e3] at key
      simp only [List.map_cons, List.map_nil, List.sum_cons, List.sum_nil]
      have k0 : term (b.complex.faces.map Poly.Face.cells) pm.faces k e u f0 + term (b.complex.faces.map Poly.Face.cells) pm.faces k e u f1 +
        term (b.complex.faces.map Poly.Face.cells) pm.faces k e u f2 + term (b.complex.faces.map Poly.Face.cells) pm.faces k e u f3 = 0 := key
      omega
    · intro i hi hni
      refine hzero i hi fun q hq hb => hni ((hlk i).2 ⟨q.1, by simp [Build.complex, hq], hb⟩)
  · exact Finset.sum_eq_zero fun i hi => hzero i (Finset.mem_range.1 hi) fun q hq hb => hex ⟨i, q, hq, hb⟩

/-- Any two different corners follow each other on some face. -/
theorem follows : ∀ i j : Fin 4, i ≠ j → ∃ p : Fin 4, let v := Tet.verOfFace p
    (Tet.destPivot v = i ∧ Tet.apexPivot v = j) ∨ (Tet.apexPivot v = i ∧ Tet.orgPivot v = j) ∨ (Tet.orgPivot v = i ∧ Tet.destPivot v = j) := by decide +kernel

theorem three_ne : ∀ p : Fin 4, let v := Tet.verOfFace p
    Tet.destPivot v ≠ Tet.apexPivot v ∧ Tet.apexPivot v ≠ Tet.orgPivot v ∧ Tet.orgPivot v ≠ Tet.destPivot v := by decide +kernel

/-- A half-edge joins two corners of a solid tetrahedron. -/
theorem he_corners {m : Tet.Mesh} {marks : Nat → Nat → List Nat} {nOri : Nat} {b : Build} (h : Upto m marks nOri m.tets.length b)
    {pm : PMesh} (hp : Fresh (b.faces.map Prod.snd) pm) {k : HE} (hk : k ∈ pm.all) :
    ∃ t x, m.tets[t]? = some x ∧ (ordOf m t).isSome = true ∧ ∃ i j, i ≠ j ∧ x.data i = k.tail ∧ x.data j = k.tip := by
  obtain ⟨c, hc, hkc⟩ := List.mem_flatMap.1 hk
  obtain ⟨f, hf⟩ := List.getElem?_of_mem hc
  have hfl : f < b.faces.length := by
    have := (List.getElem?_eq_some_iff.1 hf).1
    rw [hp.len, List.length_map] at this; exact this
  have hq := List.getElem?_eq_getElem hfl
  obtain ⟨s, k', x, s1, s2, s3, s4, s5⟩ := slot_of_face h hq
  obtain ⟨c', c1, c2⟩ := hp.face f _ (by rw [List.getElem?_map, hq, Option.map_some, s4])
  rw [hf] at c1; cases c1
  obtain ⟨e0, e1, e2, eh⟩ := three c2
  obtain ⟨n1, n2, n3⟩ := three_ne s.2
  refine ⟨s.1, x, s3, by rw [s2]; rfl, ?_⟩
  rw [eh] at hkc
  simp only [List.mem_cons, List.not_mem_nil, or_false] at hkc
  rcases hkc with rfl | rfl | rfl
  · exact ⟨_, _, n1, rfl, rfl⟩
  · exact ⟨_, _, n2, rfl, rfl⟩
  · exact ⟨_, _, n3, rfl, rfl⟩

theorem init_sides {m : Tet.Mesh} (hm : Whole m) {marks : Nat → Nat → List Nat} {nOri : Nat} {b : Build} (h : Upto m marks nOri m.tets.length b)
    {pm : PMesh} (hp : Fresh (b.faces.map Prod.snd) pm) : ∀ k ∈ pm.all, k.rev ∈ pm.all := by
  intro k hk
  have hex : ∃ t, ∃ x, m.tets[t]? = some x ∧ (ordOf m t).isSome = true ∧ ∃ i j, i ≠ j ∧ x.data i = k.tail ∧ x.data j = k.tip := he_corners h hp hk
  classical
  obtain ⟨x, hx, hs, i, j, hij, hi, hj⟩ := Nat.find_spec hex
  have hmin := fun t (ht : t < Nat.find hex) => Nat.find_min hex ht
  set t := Nat.find hex
  obtain ⟨p, hv⟩ := follows j i hij.symm
  have hO : Owns m (t, p) := by
    obtain ⟨g, sf⟩ := Poly.slot_facts hm hx p
    unfold Owns
    rw [sf.mate]
    by_contra hno
    push Not at hno
    obtain ⟨no1, no2⟩ := hno
    have hlt : g.tet < t := lt_of_le_of_ne no1 sf.ne
    obtain ⟨y, hy⟩ : ∃ y, m.tets[g.tet]? = some y := ⟨_, List.getElem?_eq_getElem sf.lt⟩
    have hverts := sf.verts
    simp only [Poly.faceVerts, List.map_cons, List.map_nil, List.cons.injEq, and_true, Tet.Mesh.org, Tet.Mesh.apex, Tet.Mesh.dest, hy, Option.map_some, Option.some.injEq] at hverts
    obtain ⟨v1, v2, v3⟩ := hverts
    refine hmin g.tet hlt ⟨_, hy, Option.isSome_iff_ne_none.2 no2, ?_⟩
    have hinj : ∀ a b, a = b → y.data a = k.tail → y.data b = k.tip → False := by
      intro a b hab h1 h2
      subst hab
      obtain ⟨x', hx', hin⟩ := hm.corners t (List.getElem?_eq_some_iff.1 hx).1
      rw [hx] at hx'; cases hx'
      exact hij (hin (by rw [hi, hj, ← h1, ← h2]))
    rcases hv with ⟨p1, p2⟩ | ⟨p1, p2⟩ | ⟨p1, p2⟩
    · rw [p1, hj] at v1; rw [p2, hi] at v2
      exact ⟨_, _, fun e => hinj _ _ e v2 v1, v2, v1⟩
    · rw [p1, hj] at v2; rw [p2, hi] at v3
      exact ⟨_, _, fun e => hinj _ _ e v3 v2, v3, v2⟩
    · rw [p1, hj] at v3; rw [p2, hi] at v1
      exact ⟨_, _, fun e => hinj _ _ e v1 v3, v1, v3⟩
  have hmem : (t, p) ∈ owned m (slotsUpTo m m.tets.length) :=
    List.mem_filter.2 ⟨Poly.mem_slotsUpTo.2 ⟨(List.getElem?_eq_some_iff.1 hx).1, hs⟩, decide_eq_true hO⟩
  obtain ⟨f, hf⟩ := List.getElem?_of_mem hmem
  obtain ⟨k', x', F, q1, q2, q3, q4, q5⟩ := h.visited.faces f _ hf
  rw [hx] at q2; cases q2
  obtain ⟨c, c1, c2⟩ := hp.face f _ (by rw [List.getElem?_map, q3, Option.map_some])
  obtain ⟨e0, e1, e2, eh⟩ := three c2
  have hrev : ∃ e, (⟨k.tip, e, k.tail⟩ : HE) ∈ pm.all := by
    rcases hv with ⟨p1, p2⟩ | ⟨p1, p2⟩ | ⟨p1, p2⟩
    · exact ⟨e0, mem_all_of c1 (by rw [eh, ← hi, ← hj, p1, p2]; simp)⟩
    · exact ⟨e1, mem_all_of c1 (by rw [eh, ← hi, ← hj, p1, p2]; simp)⟩
    · exact ⟨e2, mem_all_of c1 (by rw [eh, ← hi, ← hj, p1, p2]; simp)⟩
  obtain ⟨e, he⟩ := hrev
  have := hp.same k hk _ he (.inr ⟨rfl, rfl⟩)
  simp only at this
  rw [← this] at he
  exact he

theorem init_proper {m : Tet.Mesh} (hm : Whole m) {marks : Nat → Nat → List Nat} {nOri : Nat} {b : Build} (h : Upto m marks nOri m.tets.length b)
    {pm : PMesh} (hp : Fresh (b.faces.map Prod.snd) pm) : ∀ k ∈ pm.all, k.tail ≠ k.tip := by
  intro k hk e
  obtain ⟨t, x, hx, hs, i, j, hij, hi, hj⟩ := he_corners h hp hk
  obtain ⟨x', hx', hin⟩ := hm.corners t (List.getElem?_eq_some_iff.1 hx).1
  rw [hx] at hx'; cases hx'
  exact hij (hin (by rw [hi, hj, e]))

theorem initial_full (order : List Nat → List Nat) (ho : ∀ l, (order l).Perm l) (m : Tet.Mesh) (hm : Whole m) (marks : Nat → Nat → List Nat) (nOri : Nat)
    (hs : ∃ x ∈ m.tets, x.data 3 ≠ m.nPoints) :
    ∃ s sm, initial order m marks nOri = some (s, sm) ∧ Valid sm ∧ s.mesh = readMesh sm ∧ Good s ∧ ∃ b, s.cx = b.complex ∧ Upto m marks nOri m.tets.length b ∧ Fresh (b.faces.map Prod.snd) s.mesh := by
  obtain ⟨b, r, h⟩ := Poly.newComplex_upto hm marks nOri m.tets.length (le_refl _)
  have hb : Poly.newComplex m marks nOri = some b := r
  have hlen3 : ∀ p ∈ b.faces.map Prod.snd, p ≠ [] := by
    intro p hp
    obtain ⟨q, q1, rfl⟩ := List.mem_map.1 hp
    obtain ⟨f, hf⟩ := List.getElem?_of_mem q1
    obtain ⟨s, k', x, s1, s2, s3, s4, s5⟩ := slot_of_face h hf
    rw [s4]; simp [Poly.faceVerts]
  have hne : b.faces.map Prod.snd ≠ [] := by
    obtain ⟨x, hx, hx3⟩ := hs
    obtain ⟨t, ht⟩ := List.getElem?_of_mem hx
    have hk : ordOf m t = some (Poly.solidBefore m.nPoints m.tets t) := by rw [Poly.ordOf_eq ht, if_neg hx3]
    obtain ⟨f0, f1, f2, f3, hC, ho⟩ := h.cells t _ (Poly.ordOf_lt hk) hk
    obtain ⟨k, x', F, q1, q2, q3, -⟩ := h.visited.faces _ _ (ho 0 _ rfl)
    intro e
    rw [List.map_eq_nil_iff] at e
    rw [e] at q3; cases q3
  obtain ⟨sm, e, v, hp⟩ := fresh_new ho hne hlen3
  refine ⟨⟨b.complex, readMesh sm⟩, sm, ?_, v, rfl, ⟨Poly.upto_linked hm h, ?_, hp.lt, hp.ends, init_sides hm h hp, init_proper hm h hp, init_closed hm h hp⟩, b, rfl, h, hp⟩
  · unfold initial
    rw [hb]
    show (Surface.new order (b.faces.map Prod.snd)).bind _ = _
    rw [e]; rfl
  · simp [hp.len, Build.complex]

/-- C82. For every consistent tetrahedral mesh with a solid tetrahedron `BSPComplex::new` does not panic, whatever the order in which the hash map of the
edges is walked; its surface mesh is valid, and **the initial complex is watertight**: every edge has two different ends, occurs in both directions, and the
four faces of each cell cancel along each edge. -/
theorem c82_initial (order : List Nat → List Nat) (ho : ∀ l, (order l).Perm l) (m : Tet.Mesh) (hm : Whole m) (marks : Nat → Nat → List Nat) (nOri : Nat)
    (hs : ∃ x ∈ m.tets, x.data 3 ≠ m.nPoints) :
    ∃ s sm, initial order m marks nOri = some (s, sm) ∧ Valid sm ∧ s.mesh = readMesh sm ∧ Good s := by
  obtain ⟨s, sm, e, v, em, g, -⟩ := initial_full order ho m hm marks nOri hs
  exact ⟨s, sm, e, v, em, g⟩

/-- **C82**, together with C76: after any number of cuts the complex is still watertight, and whatever set of cells is kept, the faces between kept and
not kept cells, with their signs, form a closed surface. -/
theorem c82_kept (order : List Nat → List Nat) (ho : ∀ l, (order l).Perm l) (m : Tet.Mesh) (hm : Whole m) (marks : Nat → Nat → List Nat) (nOri : Nat)
    (hs : ∃ x ∈ m.tets, x.data 3 ≠ m.nPoints) : ∃ s0 sm, initial order m marks nOri = some (s0, sm) ∧
      ∀ s, Reached nOri s0 s → ∀ kept, Good s ∧ ∀ e u, balance s.mesh (keptFaces kept s) e u = 0 := by
  obtain ⟨s0, sm, e, -, -, g⟩ := c82_initial order ho m hm marks nOri hs
  exact ⟨s0, sm, e, fun s h kept => c76_all_cuts nOri s0 s g h kept⟩

/-! ### Example -/

/-- The complex of a tetrahedron with a point inside: ten faces and ten edges. -/
example : ((initial id Poly.exMesh5 Poly.exMarks 2).map fun p => (p.1.mesh.nV, p.1.mesh.nE, p.1.mesh.faces)) = some (5, 10,
    [[(4, 0), (3, 1), (1, 2)], [(2, 3), (4, 2), (1, 4)], [(2, 4), (1, 1), (3, 5)], [(4, 3), (2, 5), (3, 0)], [(0, 6), (4, 3), (2, 7)],
     [(0, 7), (2, 5), (3, 8)], [(4, 6), (0, 8), (3, 0)], [(0, 8), (3, 1), (1, 9)], [(4, 6), (0, 9), (1, 2)], [(2, 7), (0, 9), (1, 4)]]) := by decide +kernel

example : ∃ s0 sm, initial id Poly.exMesh5 Poly.exMarks 2 = some (s0, sm) ∧ ∀ s, Reached 2 s0 s → ∀ kept, Good s ∧ ∀ e u, balance s.mesh (keptFaces kept s) e u = 0 :=
  c82_kept id (fun l => List.Perm.refl l) Poly.exMesh5 Poly.exMesh5_whole Poly.exMarks 2 (by decide +kernel)

end Verif.Bsp
