import Verif.Bsp.Test
/-!
# The faces between kept and dropped cells (`src/polygonlization/bsp_complex.rs` lines 741-757)
-/
namespace Verif.Bsp

/-- `cell_kept[c]` for a side of a face; the outer cell is never kept (`cell_kept` has one more entry than there are cells, which stays `false`). -/
def sideKept (kept : Nat → Bool) : Option Nat → Bool
  | some c => kept c
  | none => false

/-- `kept_faces[fid]` (lines 741-757). -/
def keptFace (kept : Nat → Bool) (p : Nat × Option Nat) : Int :=
  if kept p.1 ^^ sideKept kept p.2 then (if kept p.1 then -1 else 1) else 0

/-- `kept_faces`. -/
def keptFaces (kept : Nat → Bool) (s : St) : List Int := s.cx.faces.map fun F => keptFace kept F.cells

/-- Specification: how often the faces, taken with the signs `w`, leave vertex `u` along edge `e` minus how often they arrive there. -/
def balance (m : PMesh) (w : List Int) (e u : Nat) : Int := ((w.zip m.faces).map fun p => p.1 * bd (hes p.2) e u).sum

theorem keptFace_eq (kept : Nat → Bool) (p : Nat × Option Nat) {n : Nat} (h1 : p.1 < n) (h2 : ∀ c, p.2 = some c → c < n) :
    keptFace kept p = -((List.range n).map fun k => if kept k then sg p k else 0).sum := by
  have hone : ∀ (n a : Nat), a < n → ((List.range n).map fun k => if kept k then (if a = k then (1 : Int) else 0) else 0).sum = if kept a then 1 else 0 := by
    intro n a
    induction n with
    | zero => intro h; omega
    | succ n ih =>
      intro h
      rw [List.range_succ, List.map_append, List.sum_append]
      by_cases ha : a = n
      · subst ha
        have hz : ((List.range a).map fun k => if kept k then (if a = k then (1 : Int) else 0) else 0) = (List.range a).map fun _ => 0 := by
          apply List.map_congr_left
          intro k hk
          have := List.mem_range.1 hk
          rw [if_neg (by omega : ¬ a = k)]; simp
        rw [hz]; simp
      · rw [ih (by omega)]; simp [ha]
  have hsub : ∀ (l : List Nat), (l.map fun k => if kept k then sg p k else 0).sum =
      (l.map fun k => if kept k then (if p.1 = k then (1 : Int) else 0) else 0).sum - (l.map fun k => if kept k then (if p.2 = some k then (1 : Int) else 0) else 0).sum := by
    intro l
    induction l with
    | nil => rfl
    | cons k l ih =>
      simp only [List.map_cons, List.sum_cons, ih]
      unfold sg
      split <;> ring
  rw [hsub, hone n p.1 h1]
  have h3 : ((List.range n).map fun k => if kept k then (if p.2 = some k then (1 : Int) else 0) else 0).sum = if sideKept kept p.2 then 1 else 0 := by
    cases hp : p.2 with
    | none => simp [sideKept]
    | some c =>
      rw [show (if sideKept kept (some c) then (1 : Int) else 0) = if kept c then 1 else 0 from rfl, ← hone n c (h2 c hp)]
      simp
  rw [h3, keptFace]
  cases kept p.1 <;> cases sideKept kept p.2 <;> rfl

theorem balance_eq (kept : Nat → Bool) (n : Nat) (m : PMesh) (cl : List (Nat × Option Nat)) (hl : cl.length = m.faces.length) (e u : Nat)
    (h : ∀ p ∈ cl, p.1 < n ∧ ∀ c, p.2 = some c → c < n) :
    balance m (cl.map (keptFace kept)) e u = -((List.range n).map fun k => if kept k then ((List.range m.faces.length).map fun i => term cl m.faces k e u i).sum else 0).sum := by
  unfold balance
  generalize m.faces = fs at *
  have key : ∀ (cl : List (Nat × Option Nat)) (fs : List Cycle), cl.length = fs.length → (∀ p ∈ cl, p.1 < n ∧ ∀ c, p.2 = some c → c < n) →
      (((cl.map (keptFace kept)).zip fs).map fun p => p.1 * bd (hes p.2) e u).sum =
        -((List.range n).map fun k => if kept k then ((cl.zip fs).map fun p => sg p.1 k * bd (hes p.2) e u).sum else 0).sum := by
    intro cl
    induction cl with
    | nil => intro fs _ _; simp
    | cons p cl ih =>
      intro fs hl hp
      cases fs with
      | nil => simp at hl
      | cons c fs =>
        rw [List.map_cons, List.zip_cons_cons, List.map_cons, List.sum_cons, ih fs (by simpa using hl) fun q hq => hp q (by simp [hq])]
        rw [keptFace_eq kept p (hp p (by simp)).1 (hp p (by simp)).2]
        simp only [List.zip_cons_cons, List.map_cons, List.sum_cons]
        have hadd : ∀ l : List Nat, (l.map fun k => if kept k then sg p k * bd (hes c) e u + ((cl.zip fs).map fun p => sg p.1 k * bd (hes p.2) e u).sum else 0).sum =
            (l.map fun k => if kept k then sg p k else 0).sum * bd (hes c) e u + (l.map fun k => if kept k then ((cl.zip fs).map fun p => sg p.1 k * bd (hes p.2) e u).sum else 0).sum := by
          intro l
          induction l with
          | nil => simp
          | cons k l ih =>
            simp only [List.map_cons, List.sum_cons, ih]
            split <;> ring
        rw [hadd]; ring
  rw [key cl fs hl h]
  congr 2
  apply List.map_congr_left
  intro k _
  split
  · congr 1
    apply List.ext_getElem?
    intro i
    rw [List.getElem?_map, List.getElem?_map]
    unfold term
    by_cases hi : i < fs.length
    · rw [List.getElem?_range hi, List.getElem?_eq_getElem (by simp; omega), List.getElem_zip]
      simp [List.getElem?_eq_getElem hi, List.getElem?_eq_getElem (show i < cl.length by omega)]
    · rw [List.getElem?_eq_none (by simp; omega), List.getElem?_eq_none (by simp; omega)]; rfl
  · rfl

/-- **C76.** Whatever set of cells is kept, the faces between kept and other cells, oriented as `kept_faces` says, form a closed surface: on every edge and at
each of its ends, they leave as often as they arrive, so no edge of the surface is open. A face is used iff exactly one of its sides is kept. -/
theorem c76_kept_faces (s : St) (h : Good s) (kept : Nat → Bool) :
    (∀ e u, balance s.mesh (keptFaces kept s) e u = 0) ∧
    ∀ (f : Nat) (F : Poly.Face), s.cx.faces[f]? = some F → ∃ w, (keptFaces kept s)[f]? = some w ∧
      (w = -1 ↔ kept F.cells.1 = true ∧ ∀ c, F.cells.2 = some c → kept c = false) ∧
      (w = 1 ↔ kept F.cells.1 = false ∧ ∃ c, F.cells.2 = some c ∧ kept c = true) ∧ (w = -1 ∨ w = 0 ∨ w = 1) := by
  refine ⟨fun e u => ?_, fun f F hF => ⟨keptFace kept F.cells, by simp [keptFaces, hF], ?_⟩⟩
  · have e1 : keptFaces kept s = (s.cx.faces.map Poly.Face.cells).map (keptFace kept) := by rw [keptFaces, List.map_map]; rfl
    rw [e1, balance_eq kept s.cx.cells.length s.mesh _ h.mesh.len e u]
    · rw [neg_eq_zero]
      refine List.sum_eq_zero fun x hx => ?_
      obtain ⟨k, _, rfl⟩ := List.mem_map.1 hx
      split
      · rw [← sum_range_list]; exact h.mesh.closed k e u
      · rfl
    · intro p hp
      obtain ⟨F, hF, rfl⟩ := List.mem_map.1 hp
      obtain ⟨f, hf⟩ := List.getElem?_of_mem hF
      have := h.linked.cells f F hf
      exact ⟨this.1, fun c hc => (this.2 c hc).1⟩
  · unfold keptFace
    cases h2 : F.cells.2 with
    | none => cases kept F.cells.1 <;> simp [sideKept]
    | some c => cases h1 : kept F.cells.1 <;> cases h3 : kept c <;> simp [sideKept, h3]

/-- One of the two tetrahedra is kept. -/
example : keptFaces (fun c => c = 1) exSt = [1, 0, 0, 0, -1, -1, -1] := by decide +kernel

/-! ### Any sequence of cuts -/

/-- States that the loop can reach: each call may come with another triangle, and with other test results. -/
inductive Reached (nOri : Nat) (s0 : St) : St → Prop
  | start : Reached nOri s0 s0
  | cut {s s' : St} {G : Oracle} {sgn : Nat → SignType} {keep : Nat → Bool} {cid : Nat} {C : Poly.Cell} : Reached nOri s0 s → (∀ t, G.coplanar t t = true) →
      s.cx.cells[cid]? = some C → C.inner ≠ [] → CutOk sgn s cid C → splitCell G sgn keep nOri s cid = some s' → Reached nOri s0 s'

/-- **C76**, after any number of cuts. -/
theorem c76_all_cuts (nOri : Nat) (s0 s : St) (h0 : Good s0) (h : Reached nOri s0 s) (kept : Nat → Bool) : Good s ∧ ∀ e u, balance s.mesh (keptFaces kept s) e u = 0 := by
  have hg : Good s := by
    induction h with
    | start => exact h0
    | @cut s1 s2 G sgn keep cid C _ hG hC hne ok hs ih =>
      obtain ⟨s', e, g, -⟩ := c75_split_cell G sgn keep nOri s1 cid C ih hG hC hne ok
      rw [hs] at e; cases e
      exact g
  exact ⟨hg, (c76_kept_faces s hg kept).1⟩

end Verif.Bsp
