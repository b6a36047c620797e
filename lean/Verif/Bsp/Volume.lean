import Verif.Bsp.Fits
import Verif.Bsp.GeoLoop
/-!
# C101: the triangles on the faces determine the cells inside

Every cell has a positive volume, and the volume of a set of cells is a sum over the faces between the set and its complement.
-/
namespace Verif.Bsp
open InSphere (Pt)
open Geom (lerp)

section
variable {K : Type} [Field K]

/-- The sum of a function over the half-edges of a face. -/
def loopSum (ω : Nat → Nat → K) (c : Cycle) : K := ((hes c).map fun h => ω h.tail h.tip).sum

/-- What goes up also comes down. -/
theorem loopSum_telescope (f : Nat → K) (c : Cycle) : loopSum (fun a b => f b - f a) c = 0 := by
  have e : loopSum (fun a b => f b - f a) c = (((hes c).map HE.tip).map f).sum - (((hes c).map HE.tail).map f).sum := by
    rw [loopSum]
    generalize hes c = l
    induction l with
    | nil => simp
    | cons h l ih => simp only [List.map_cons, List.sum_cons, ih]; ring
  rw [e, hes_map_tip, sub_eq_zero]
  exact ((List.rotate_perm _ 1).map f).sum_eq

/-- The part of face `i` in the boundary of cell `k`. -/
def sgAt (cl : List (Nat × Option Nat)) (i k : Nat) : Int := (cl[i]?).elim 0 fun P => sg P k

/-- The sum of `ω` around face `i`. -/
def loopSumAt (ω : Nat → Nat → K) (fs : List Cycle) (i : Nat) : K := (fs[i]?).elim 0 (loopSum ω)

/-- Along the closed surface of a cell, everything that changes its sign with the direction of an edge cancels. -/
theorem closed_sum {cl : List (Nat × Option Nat)} {m : PMesh} (g : MGood cl m) (ω : Nat → Nat → K) (hω : ∀ a b, ω b a = -ω a b) (k : Nat) :
    ((Finset.range m.faces.length).sum fun i => (sgAt cl i k : K) * loopSumAt ω m.faces i) = 0 := by
  classical
  let rep : Nat → HE := fun e => if h : ∃ x ∈ m.all, x.edge = e then h.choose else ⟨0, 0, 0⟩
  have hrep : ∀ h ∈ m.all, h = rep h.edge ∨ h = (rep h.edge).rev := by
    intro h hh
    have hex : ∃ x ∈ m.all, x.edge = h.edge := ⟨h, hh, rfl⟩
    have := hex.choose_spec
    simp only [rep, dif_pos hex]
    exact g.ends _ this.1 h hh this.2
  have hlt : ∀ h ∈ m.all, h.edge < m.nE := by
    intro h hh
    obtain ⟨c, hc, hh⟩ := List.mem_flatMap.1 hh
    exact (g.lt c hc _ (hes_tail hh)).2
  have one : ∀ h ∈ m.all, ω h.tail h.tip = (Finset.range m.nE).sum fun e => (inc h e (rep e).tail : K) * ω (rep e).tail (rep e).tip := by
    intro h hh
    rw [Finset.sum_eq_single h.edge]
    · rcases hrep h hh with e | e
      · have hp := g.proper h hh
        have : inc h h.edge (rep h.edge).tail = 1 := by rw [← e]; simp [inc, Ne.symm hp]
        rw [this, ← e]; simp
      · have hp := g.proper h hh
        have e1 : (rep h.edge).tail = h.tip := (congrArg HE.tip e).symm
        have e2 : (rep h.edge).tip = h.tail := (congrArg HE.tail e).symm
        have : inc h h.edge (rep h.edge).tail = -1 := by rw [e1]; simp [inc, hp]
        rw [this, e1, e2, hω]; push_cast; ring
    · intro e _ hne
      simp [inc, Ne.symm hne]
    · intro h0
      exact absurd (Finset.mem_range.2 (hlt h hh)) h0
  have face : ∀ c ∈ m.faces, loopSum ω c = (Finset.range m.nE).sum fun e => (bd (hes c) e (rep e).tail : K) * ω (rep e).tail (rep e).tip := by
    intro c hc
    have : ∀ l : List HE, (∀ h ∈ l, h ∈ m.all) → (l.map fun h => ω h.tail h.tip).sum = (Finset.range m.nE).sum fun e => (bd l e (rep e).tail : K) * ω (rep e).tail (rep e).tip := by
      intro l
      induction l with
      | nil => intro _; simp [bd]
      | cons h l ih =>
        intro hl
        rw [List.map_cons, List.sum_cons, ih fun x hx => hl x (List.mem_cons_of_mem _ hx), one h (hl h (by simp)), ← Finset.sum_add_distrib]
        refine Finset.sum_congr rfl fun e _ => ?_
        rw [bd_cons]; push_cast; ring
    exact this _ fun h hh => List.mem_flatMap.2 ⟨c, hc, hh⟩
  have hi : ∀ i ∈ Finset.range m.faces.length, (sgAt cl i k : K) * loopSumAt ω m.faces i =
      (Finset.range m.nE).sum fun e => (term cl m.faces k e (rep e).tail i : K) * ω (rep e).tail (rep e).tip := by
    intro i hi
    have hf := Finset.mem_range.1 hi
    have hc : i < cl.length := by rw [g.len]; exact hf
    simp only [sgAt, loopSumAt, term, List.getElem?_eq_getElem hf, List.getElem?_eq_getElem hc, Option.elim_some]
    rw [face _ (List.getElem_mem hf), Finset.mul_sum]
    refine Finset.sum_congr rfl fun e _ => ?_
    push_cast; ring
  rw [Finset.sum_congr rfl hi, Finset.sum_comm]
  refine Finset.sum_eq_zero fun e _ => ?_
  rw [← Finset.sum_mul, ← Int.cast_sum, g.closed k e]
  simp

/-- A plane figure: one volume with a direction is a multiple of the other. -/
theorem flat_det {n u v y : Pt K} (hu : vdot n u = 0) (hv : vdot n v = 0) : vdot n n * vdet u v y = vdet n u v * vdot n y := by
  simp only [vdot, vdet] at *
  linear_combination (exp := 1) (n.x * (v.y * y.z - v.z * y.y) + n.y * (v.z * y.x - v.x * y.z) + n.z * (v.x * y.y - v.y * y.x)) * hu
    - (n.x * (u.y * y.z - u.z * y.y) + n.y * (u.z * y.x - u.x * y.z) + n.z * (u.x * y.y - u.y * y.x)) * hv

end

variable {K : Type} [Field K] [LinearOrder K] [IsStrictOrderedRing K]

/-- The area of a face: it is positive, and the sum around the face is the normal vector times the area. -/
theorem FaceOk.size {pos : Nat → Pt K} {A : Aff K} {c : Cycle} (f : FaceOk pos A c) : ∃ l : K, 0 < l ∧ ∀ y, loopSum (fun a b => vdet (pos a) (pos b) y) c = l * vdot A.n y := by
  have hN0 := f.normal
  have hN : 0 < vdot A.n A.n := lt_of_le_of_ne (by unfold vdot; nlinarith [mul_self_nonneg A.n.x, mul_self_nonneg A.n.y, mul_self_nonneg A.n.z]) (Ne.symm hN0)
  obtain ⟨h0, hh0, x, hx, hpos⟩ := f.fat
  refine ⟨loopSum (fun a b => area A.n (pos a) (pos b) (pos x.1)) c / vdot A.n A.n, div_pos ?_ hN, fun y => ?_⟩
  · rw [loopSum]
    have hall : ∀ h ∈ hes c, 0 ≤ area A.n (pos h.tail) (pos h.tip) (pos x.1) := fun h hh => f.left h hh x hx
    generalize hes c = l at *
    induction l with
    | nil => cases hh0
    | cons h l ih =>
      rw [List.map_cons, List.sum_cons]
      have hl : ∀ h ∈ l, 0 ≤ area A.n (pos h.tail) (pos h.tip) (pos x.1) := fun h hh => hall h (List.mem_cons_of_mem _ hh)
      rcases List.mem_cons.1 hh0 with rfl | hm
      · refine add_pos_of_pos_of_nonneg hpos (List.sum_nonneg fun a ha => ?_)
        obtain ⟨h, hh, rfl⟩ := List.mem_map.1 ha
        exact hl h hh
      · exact add_pos_of_nonneg_of_pos (hall h (by simp)) (ih hm hl)
  · have key : ∀ h ∈ hes c, vdet (pos h.tail) (pos h.tip) y = area A.n (pos h.tail) (pos h.tip) (pos x.1) / vdot A.n A.n * vdot A.n y +
        (vdet (pos x.1) (pos h.tip) y - vdet (pos x.1) (pos h.tail) y) := by
      intro h hh
      have e1 := f.ev_tail hh
      have e2 := f.ev_tip hh
      have e3 := f.plane x hx
      have h1 : vdot A.n (vsub (pos h.tail) (pos x.1)) = 0 := by simp only [Aff.ev, vdot, vsub] at *; linear_combination e1 - e3
      have h2 : vdot A.n (vsub (pos h.tip) (pos x.1)) = 0 := by simp only [Aff.ev, vdot, vsub] at *; linear_combination e2 - e3
      have := flat_det h1 h2 (y := y)
      have e4 : area A.n (pos h.tail) (pos h.tip) (pos x.1) = vdet A.n (vsub (pos h.tail) (pos x.1)) (vsub (pos h.tip) (pos x.1)) := by simp only [area, vdet, vsub]; ring
      have e5 : vdet (vsub (pos h.tail) (pos x.1)) (vsub (pos h.tip) (pos x.1)) y = vdet (pos h.tail) (pos h.tip) y - (vdet (pos x.1) (pos h.tip) y - vdet (pos x.1) (pos h.tail) y) := by simp only [vdet, vsub]; ring
      rw [e4, div_mul_eq_mul_div, ← this, mul_div_cancel_left₀ _ hN0, e5]; ring
    have tele := loopSum_telescope (fun a => vdet (pos x.1) (pos a) y) c
    rw [loopSum] at *
    rw [List.map_congr_left key]
    have split : ∀ l : List HE, (l.map fun h => area A.n (pos h.tail) (pos h.tip) (pos x.1) / vdot A.n A.n * vdot A.n y + (vdet (pos x.1) (pos h.tip) y - vdet (pos x.1) (pos h.tail) y)).sum =
        (l.map fun h => area A.n (pos h.tail) (pos h.tip) (pos x.1)).sum / vdot A.n A.n * vdot A.n y + (l.map fun h => vdet (pos x.1) (pos h.tip) y - vdet (pos x.1) (pos h.tail) y).sum := by
      intro l
      induction l with
      | nil => simp
      | cons h l ih => simp only [List.map_cons, List.sum_cons, ih]; ring
    rw [split, tele, add_zero]
    rfl

/-- The volumes: there are numbers for the faces so that the sum over the boundary of any cell that has a face is positive. -/
theorem volumes {pos : Nat → Pt K} {pl : Nat → Aff K} {cl : List (Nat × Option Nat)} {m : PMesh} (g : Geo pos pl cl m.faces) (gm : MGood cl m) :
    ∃ φ : Nat → K, (∀ (i : Nat) (c : Cycle), m.faces[i]? = some c → ∀ x ∈ c, loopSum (fun a b => vdet (pos a) (pos b) (pos x.1)) c = -φ i) ∧ ∀ k, (∃ P ∈ cl, sg P k ≠ 0) → 0 < (Finset.range m.faces.length).sum fun i => (sgAt cl i k : K) * φ i := by
  have hsz : ∀ i, ∃ l : K, ∀ c, m.faces[i]? = some c → 0 < l ∧ ∀ y, loopSum (fun a b => vdet (pos a) (pos b) y) c = l * vdot (pl i).n y := by
    intro i
    cases hc : m.faces[i]? with
    | none => exact ⟨0, fun c h => by cases h⟩
    | some c =>
      obtain ⟨l, h⟩ := (g.face i c hc).size
      exact ⟨l, fun d hd => by cases hd; exact h⟩
  choose size hsz using hsz
  refine ⟨fun i => size i * (pl i).d, fun i c hc x hx => ?_, fun k ⟨P, hP, hs⟩ => ?_⟩
  · rw [(hsz i c hc).2]
    have := (g.face i c hc).plane x hx
    rw [Aff.ev] at this
    linear_combination size i * this
  obtain ⟨j, hj, rfl⟩ := List.mem_iff_getElem.1 hP
  have hPj := List.getElem?_eq_getElem hj
  obtain ⟨x, hx, hx0⟩ := g.strict k j _ hPj hs
  have e : ((Finset.range m.faces.length).sum fun i => (sgAt cl i k : K) * (size i * (pl i).d)) = (Finset.range m.faces.length).sum fun i => (sgAt cl i k : K) * (size i * (pl i).ev (pos x)) := by
    have h0 := closed_sum gm (fun a b => vdet (pos a) (pos b) (pos x)) (fun a b => by simp only [vdet]; ring) k
    rw [← add_zero (Finset.sum _ _), ← h0, ← Finset.sum_add_distrib]
    refine Finset.sum_congr rfl fun i hi => ?_
    have hf := Finset.mem_range.1 hi
    have := (hsz i _ (List.getElem?_eq_getElem hf)).2 (pos x)
    simp only [loopSumAt, List.getElem?_eq_getElem hf, Option.elim_some]
    rw [this, Aff.ev]; ring
  rw [e]
  have hnn : ∀ i ∈ Finset.range m.faces.length, 0 ≤ (sgAt cl i k : K) * (size i * (pl i).ev (pos x)) := by
    intro i hi
    have hf := Finset.mem_range.1 hi
    have hl := (hsz i _ (List.getElem?_eq_getElem hf)).1
    rcases hQ : cl[i]? with _ | Q
    · simp [sgAt, hQ]
    · by_cases h0 : sg Q k = 0
      · simp [sgAt, hQ, h0]
      · have := mul_nonneg hl.le (g.side k i Q hQ h0 x hx)
        simp only [sgAt, hQ, Option.elim_some]
        linarith [this, mul_left_comm (size i) (sg Q k : K) ((pl i).ev (pos x))]
  have hjf : j < m.faces.length := by rw [← gm.len]; exact hj
  refine Finset.sum_pos' hnn ⟨j, Finset.mem_range.2 hjf, ?_⟩
  refine lt_of_le_of_ne (hnn j (Finset.mem_range.2 hjf)) (Ne.symm ?_)
  simp only [sgAt, hPj, Option.elim_some]
  exact mul_ne_zero (by exact_mod_cast hs) (mul_ne_zero (ne_of_gt (hsz j _ (List.getElem?_eq_getElem hjf)).1) hx0)

/-- A set of cells without boundary is empty. -/
theorem no_boundary {pos : Nat → Pt K} {pl : Nat → Aff K} {cl : List (Nat × Option Nat)} {m : PMesh} (g : Geo pos pl cl m.faces) (gm : MGood cl m) (D : Finset Nat)
    (hD : ∀ P ∈ cl, (D.sum fun k => sg P k) = 0) : ∀ k ∈ D, ∀ P ∈ cl, sg P k = 0 := by
  classical
  obtain ⟨φ, -, hφ⟩ := volumes g gm
  intro k hk P hP
  by_contra hs
  have hz : (D.sum fun k => (Finset.range m.faces.length).sum fun i => (sgAt cl i k : K) * φ i) = 0 := by
    rw [Finset.sum_comm]
    refine Finset.sum_eq_zero fun i _ => ?_
    rw [← Finset.sum_mul, ← Int.cast_sum]
    rcases hQ : cl[i]? with _ | Q
    · simp [sgAt, hQ]
    · have := hD Q (List.mem_of_getElem? hQ)
      simp only [sgAt, hQ, Option.elim_some, this, Int.cast_zero, zero_mul]
  have hpos : 0 < D.sum fun k => (Finset.range m.faces.length).sum fun i => (sgAt cl i k : K) * φ i := by
    refine Finset.sum_pos' (fun l _ => ?_) ⟨k, hk, hφ k ⟨P, hP, hs⟩⟩
    by_cases h : ∃ P ∈ cl, sg P l ≠ 0
    · exact (hφ l h).le
    · push Not at h
      refine (Finset.sum_eq_zero fun i _ => ?_).ge
      rcases hQ : cl[i]? with _ | Q
      · simp [sgAt, hQ]
      · simp [sgAt, hQ, h Q (List.mem_of_getElem? hQ)]
  exact absurd hz (ne_of_gt hpos)

/-- **C101.** In a complex of convex cells there is at most one choice of the cells with which the triangles of a shell agree. -/
theorem c101_unique {T : Type} [Field T] [LinearOrder T] [IsStrictOrderedRing T] {s : St} (gd : Good s) {pos : Nat → Pt K} {pl : Nat → Aff K} (g : Geo pos pl s.cl s.mesh.faces) {I : Shells T}
    (hI : ∀ i < s.cx.faces.length, 0 < I.area i) {sh : Nat} {C C' : Nat → Bool} (h : Fits I s.cx sh C) (h' : Fits I s.cx sh C') : ∀ k, (∃ P ∈ s.cl, sg P k ≠ 0) → C k = C' k := by
  classical
  intro k ⟨P, hP, hs⟩
  by_contra hne
  have hcell : ∀ P ∈ s.cl, ∃ i F, s.cx.faces[i]? = some F ∧ P = F.cells ∧ i < s.cx.faces.length := by
    intro P hP
    obtain ⟨F, hF, rfl⟩ := List.mem_map.1 hP
    obtain ⟨i, hi, rfl⟩ := List.mem_iff_getElem.1 hF
    exact ⟨i, _, List.getElem?_eq_getElem hi, rfl, hi⟩
  have hkn : k < s.cx.cells.length := by
    obtain ⟨i, F, hF, rfl, -⟩ := hcell P hP
    have := gd.linked.cells i F hF
    by_contra hk
    refine hs ?_
    unfold sg
    rw [if_neg (by omega), if_neg (fun e => hk (this.2 k e).1)]; rfl
  refine hs (no_boundary g gd.mesh ((Finset.range s.cx.cells.length).filter fun k => C k ≠ C' k) (fun P hP => ?_) k (by simp [hkn, hne]) P hP)
  obtain ⟨i, F, hF, rfl, hi⟩ := hcell P hP
  have h1 := h i F hF (hI i hi)
  have h2 := h' i F hF (hI i hi)
  obtain ⟨l1, l2⟩ := gd.linked.cells i F hF
  have key : (C F.cells.1 ≠ C' F.cells.1) ↔ ∃ c, F.cells.2 = some c ∧ C c ≠ C' c := by
    unfold FitsFace at h1 h2
    cases ho : onFace I sh i F with
    | some t =>
      rw [ho] at h1 h2
      refine ⟨fun e => absurd (h1.1.trans h2.1.symm) e, fun ⟨c, hc, e⟩ => absurd ((h1.2 c hc).trans (h2.2 c hc).symm) e⟩
    | none =>
      rw [ho] at h1 h2
      simp only at h1 h2
      cases hc : F.cells.2 with
      | none => rw [hc] at h1 h2; simp [h1, h2]
      | some c => rw [hc] at h1 h2; simp [h1, h2]
  simp only [sg, Finset.sum_sub_distrib, Finset.sum_ite_eq, Finset.mem_filter, Finset.mem_range, l1, true_and]
  cases hc : F.cells.2 with
  | none =>
    rw [hc] at key
    have : ¬ C F.cells.1 ≠ C' F.cells.1 := fun e => by obtain ⟨c, hc, -⟩ := key.1 e; cases hc
    rw [if_neg this]; simp
  | some c =>
    rw [hc] at key
    have hk : (C F.cells.1 ≠ C' F.cells.1) ↔ C c ≠ C' c := key.trans ⟨fun ⟨d, hd, e⟩ => by cases hd; exact e, fun e => ⟨c, rfl, e⟩⟩
    simp only [Option.some.injEq, Finset.sum_ite_eq, Finset.mem_filter, Finset.mem_range, (l2 c hc).1, true_and]
    by_cases hh : C c ≠ C' c
    · rw [if_pos hh, if_pos (hk.2 hh)]; rfl
    · rw [if_neg hh, if_neg fun e => hh (hk.1 e)]; rfl

end Verif.Bsp
