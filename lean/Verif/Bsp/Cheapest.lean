import Verif.Bsp.Price
import Mathlib.Tactic.Linarith
/-!
# The kept cells are a cheapest choice
-/
namespace Verif.Bsp

variable {T : Type} [Field T] [LinearOrder T] [IsStrictOrderedRing T]

/-- The areas are not negative and sum up to 1, as after lines 606-609. -/
structure Normal (I : Shells T) (cx : Poly.Complex) : Prop where
  nonneg : ∀ f, 0 ≤ I.area f
  sum : ((List.range cx.faces.length).map I.area).sum = 1

/-- Every face lies between two different cells or between a cell and the outside. -/
def CellsOk (cx : Poly.Complex) : Prop := ∀ F ∈ cx.faces, F.cells.1 < cx.cells.length ∧ ∀ c, F.cells.2 = some c → c < cx.cells.length ∧ c ≠ F.cells.1

theorem linked_cellsOk {cx : Poly.Complex} (h : Poly.Linked cx) : CellsOk cx := by
  intro F hF
  obtain ⟨f, hf⟩ := List.getElem?_of_mem hF
  exact h.cells f F hf

/-! ### The costs are not negative -/

theorem addAt_nonneg {a : Nat → Nat → T} {i j : Nat} {w : T} (ha : ∀ x y, 0 ≤ a x y) (hw : 0 ≤ w) (x y : Nat) : 0 ≤ addAt a i j w x y := by
  unfold addAt
  split
  · exact add_nonneg (ha x y) hw
  · exact ha x y

theorem addSecond_nonneg {a : Nat → Nat → T} {i : Nat} {c : Option Nat} {w : T} (ha : ∀ x y, 0 ≤ a x y) (hw : 0 ≤ w) (x y : Nat) : 0 ≤ addSecond a i c w x y := by
  cases c with
  | none => exact ha x y
  | some j => exact addAt_nonneg ha hw x y

def CostsOk (s : Costs T) : Prop := (∀ x y, 0 ≤ s.ext x y) ∧ ∀ x y, 0 ≤ s.int x y

theorem paint_nonneg {I : Shells T} (hI : ∀ f, 0 ≤ I.area f) (f : Nat) (F : Poly.Face) (s : Costs T) (t : Nat) (h : CostsOk s) : CostsOk (paint I f F s t) := by
  have hw : 0 ≤ 1 / 2 * I.area f := mul_nonneg (by norm_num) (hI f)
  unfold paint
  simp only
  split
  · exact h
  · split
    · split
      · exact ⟨addSecond_nonneg h.1 hw, addAt_nonneg h.2 hw⟩
      · exact ⟨addAt_nonneg h.1 hw, addSecond_nonneg h.2 hw⟩
    · exact h

theorem costs_nonneg {I : Shells T} (hI : ∀ f, 0 ≤ I.area f) : ∀ (l : List Poly.Face) (i : Nat) (s : Costs T), CostsOk s → CostsOk (costs I i l s)
  | [], _, _, h => h
  | F :: l, i, s, h => by
    refine costs_nonneg hI l (i + 1) _ ?_
    generalize F.tris = ts
    induction ts generalizing s with
    | nil => exact h
    | cons t ts ih => exact ih _ (paint_nonneg hI i F s t h)

theorem allCosts_nonneg {I : Shells T} (hI : ∀ f, 0 ≤ I.area f) (cx : Poly.Complex) : CostsOk (allCosts I cx) := costs_nonneg hI _ _ _ ⟨fun _ _ => le_refl _, fun _ _ => le_refl _⟩

omit [IsStrictOrderedRing T] in
theorem allCosts_black (I : Shells T) (cx : Poly.Complex) (sh j : Nat) (F : Poly.Face) (h : cx.faces[j]? = some F) : (allCosts I cx).black sh j = (onFace I sh j F).isSome := by
  rw [allCosts, costs_black]
  simp [h]

/-! ### The arcs -/

omit [IsStrictOrderedRing T] in
theorem arcOps_mem {I : Shells T} {n : Nat} {black : Nat → Bool} : ∀ {l : List Poly.Face} {i : Nat} {o}, o ∈ arcOps I n black i l →
    ∃ F ∈ l, ∃ j, o = (F.cells.1, F.cells.2.getD n, I.area j, true)
  | [], _, _, h => by cases h
  | F :: l, i, o, h => by
    rw [arcOps] at h
    rcases List.mem_append.1 h with h | h
    · split at h
      · cases h
      · exact ⟨F, by simp, i, List.mem_singleton.1 h⟩
    · obtain ⟨G, hG, j, e⟩ := arcOps_mem h
      exact ⟨G, by simp [hG], j, e⟩

omit [IsStrictOrderedRing T] in
/-- The faces without a triangle of the shell. -/
theorem arcOps_price (I : Shells T) (n sh : Nat) (black : Nat → Bool) (K : Nat → Bool) (hK : K n = false) : ∀ (l : List Poly.Face) (i : Nat),
    (∀ (j : Nat) (F : Poly.Face), l[j]? = some F → black (i + j) = (onFace I sh (i + j) F).isSome) →
    blackSum I sh K i l + ((arcOps I n black i l).map fun o => if K o.1 = K o.2.1 then 0 else o.2.2.1).sum = price I sh K i l
  | [], i, _ => by simp [blackSum, arcOps, price]
  | F :: l, i, h => by
    have ih := arcOps_price I n sh black K hK l (i + 1) fun j G hG => by
      have := h (j + 1) G (by simpa using hG)
      rwa [show i + (j + 1) = i + 1 + j by omega] at this
    have h0 := h 0 F (by simp)
    rw [blackSum, arcOps, price, ← ih, Nat.add_zero] at *
    rw [List.map_append, List.sum_append]
    cases ho : onFace I sh i F with
    | some t =>
      rw [h0, ho]
      simp [add_assoc]
    | none =>
      rw [h0, ho]
      have e : K (F.cells.2.getD n) = sideKept K F.cells.2 := by
        cases F.cells.2 with
        | none => exact hK
        | some c => rfl
      simp only [Option.isSome_none, Bool.false_eq_true, if_false, List.map_cons, List.map_nil, List.sum_cons, List.sum_nil, Option.map_none, Option.elim, facePrice, e, add_zero, zero_add]
      ring

omit [IsStrictOrderedRing T] in
theorem built_good {m : Nat} {source sink : List T} {ops : List (Nat × Nat × T × Bool)} (h1 : source.length = m) (h2 : sink.length = m)
    (h3 : ∀ o ∈ ops, o.1 < m ∧ o.2.1 < m ∧ o.1 ≠ o.2.1 ∧ 0 ≤ o.2.2.1) (h4 : ∀ x ∈ source, 0 ≤ x) (h5 : ∀ x ∈ sink, 0 ≤ x) : Flow.GoodArcs (m + 2) (Flow.built source sink ops) := by
  have hnew : Flow.GoodArcs (m + 2) (Flow.builderNew source sink) := by
    intro a ha
    rcases List.mem_append.1 ha with ha | ha
    · obtain ⟨p, hp, rfl⟩ := List.mem_map.1 ha
      have := List.mem_zipIdx hp
      refine ⟨by simp only; omega, by simp only; omega, by simp only; omega, h4 _ (List.fst_mem_of_mem_zipIdx hp)⟩
    · obtain ⟨p, hp, rfl⟩ := List.mem_map.1 ha
      have := List.mem_zipIdx hp
      refine ⟨by simp only; omega, by simp only; omega, by simp only; omega, h5 _ (List.fst_mem_of_mem_zipIdx hp)⟩
  have key : ∀ (ops : List (Nat × Nat × T × Bool)) (arcs : List (Nat × Nat × T)), (∀ o ∈ ops, o.1 < m ∧ o.2.1 < m ∧ o.1 ≠ o.2.1 ∧ 0 ≤ o.2.2.1) → Flow.GoodArcs (m + 2) arcs →
      Flow.GoodArcs (m + 2) (ops.foldl (fun arcs o => Flow.addArc arcs o.1 o.2.1 o.2.2.1 o.2.2.2) arcs) := by
    intro ops
    induction ops with
    | nil => intro arcs _ h; exact h
    | cons o ops ih =>
      intro arcs ho h
      have h' := ho o (by simp)
      refine ih _ (fun p hp => ho p (List.mem_cons_of_mem _ hp)) ?_
      intro a ha
      unfold Flow.addArc at ha
      simp only at ha
      split at ha <;> simp only [List.mem_append, List.mem_singleton] at ha
      · rcases ha with (ha | rfl) | rfl
        · exact h a ha
        · exact ⟨by simp only; omega, by simp only; omega, by simp only; omega, h'.2.2.2⟩
        · exact ⟨by simp only; omega, by simp only; omega, by simp only; omega, h'.2.2.2⟩
      · rcases ha with ha | rfl
        · exact h a ha
        · exact ⟨by simp only; omega, by simp only; omega, by simp only; omega, h'.2.2.2⟩
  exact key ops _ h3 hnew

omit [IsStrictOrderedRing T] in
theorem ops_good {I : Shells T} {cx : Poly.Complex} (hx : CellsOk cx) (hI : ∀ f, 0 ≤ I.area f) (black : Nat → Bool) : ∀ o ∈ arcOps I cx.cells.length black 0 cx.faces,
    o.1 < cx.cells.length + 1 ∧ o.2.1 < cx.cells.length + 1 ∧ o.1 ≠ o.2.1 ∧ 0 ≤ o.2.2.1 ∧ o.2.2.2 = true := by
  intro o ho
  obtain ⟨F, hF, j, rfl⟩ := arcOps_mem ho
  have := hx F hF
  cases hc : F.cells.2 with
  | none => refine ⟨by simp only; omega, by simp, by simp only [Option.getD_none]; omega, hI j, rfl⟩
  | some c =>
    have h2 := this.2 c hc
    refine ⟨by simp only; omega, by simp only [Option.getD_some]; omega, by simp only [Option.getD_some]; exact fun e => h2.2 e.symm, hI j, rfl⟩

theorem shell_good {I : Shells T} {cx : Poly.Complex} (hx : CellsOk cx) (hI : ∀ f, 0 ≤ I.area f) (sh : Nat) : Flow.GoodArcs (cx.cells.length + 3) (shellArcs I cx sh) := by
  have hc := allCosts_nonneg hI cx
  refine built_good (m := cx.cells.length + 1) (by simp) (by simp) (fun o ho => ?_) ?_ ?_
  · have := ops_good hx hI _ o ho
    exact ⟨this.1, this.2.1, this.2.2.1, this.2.2.2.1⟩
  · intro x hx
    obtain ⟨c, _, rfl⟩ := List.mem_map.1 hx
    exact hc.1 sh c
  · intro x hx
    rcases List.mem_append.1 hx with hx | hx
    · obtain ⟨c, _, rfl⟩ := List.mem_map.1 hx
      exact hc.2 sh c
    · rw [List.mem_singleton.1 hx]; exact zero_le_one

/-- What the sink side of a cell costs, the outer cell included. -/
def inner (s : Costs T) (sh n i : Nat) : T := if i = n then 1 else s.int sh i

omit [LinearOrder T] [IsStrictOrderedRing T] in
theorem inner_list (s : Costs T) (sh n : Nat) : (List.range n).map (s.int sh) ++ [1] = (List.range (n + 1)).map (inner s sh n) := by
  rw [List.range_succ, List.map_append]
  congr 1
  · apply List.map_congr_left
    intro i hi
    rw [inner, if_neg (by have := List.mem_range.1 hi; omega)]
  · simp [inner]

omit [IsStrictOrderedRing T] in
/-- The capacity of any cut. -/
theorem shell_cut {I : Shells T} {cx : Poly.Complex} (hx : CellsOk cx) (hI : ∀ f, 0 ≤ I.area f) (sh : Nat) (S : Nat → Bool) (h0 : S 0 = true) (ht : S (cx.cells.length + 2) = false) :
    Flow.cutCap (cx.cells.length + 3) (Flow.totalCap (shellArcs I cx sh)) S =
      ((List.range (cx.cells.length + 1)).map fun i => if S (i + 1) = true then inner (allCosts I cx) sh cx.cells.length i else (allCosts I cx).ext sh i).sum +
      ((arcOps I cx.cells.length ((allCosts I cx).black sh) 0 cx.faces).map fun o => if S (o.1 + 1) = S (o.2.1 + 1) then 0 else o.2.2.1).sum := by
  unfold shellArcs
  simp only
  rw [inner_list]
  exact cutCap_built (cx.cells.length + 1) _ _ _ (fun o ho => by have := ops_good hx hI _ o ho; exact ⟨this.1, this.2.1, this.2.2.2.2⟩) S h0 ht

omit [IsStrictOrderedRing T] in
/-- The capacity of a cut that has the outer cell on the side of the sink. -/
theorem shell_cut_price {I : Shells T} {cx : Poly.Complex} (hx : CellsOk cx) (hI : ∀ f, 0 ≤ I.area f) (sh : Nat) (S : Nat → Bool) (h0 : S 0 = true)
    (ho : S (cx.cells.length + 1) = false) (ht : S (cx.cells.length + 2) = false) :
    Flow.cutCap (cx.cells.length + 3) (Flow.totalCap (shellArcs I cx sh)) S = price I sh (fun c => S (c + 1)) 0 cx.faces := by
  rw [shell_cut hx hI sh S h0 ht, ← arcOps_price I cx.cells.length sh ((allCosts I cx).black sh) (fun c => S (c + 1)) ho cx.faces 0
    fun j F hF => by rw [Nat.zero_add]; exact allCosts_black I cx sh j F hF]
  congr 1
  have e : cellPrice (cx.cells.length + 1) sh (fun c => S (c + 1)) (allCosts I cx) = blackSum I sh (fun c => S (c + 1)) 0 cx.faces := by
    rw [allCosts, costs_price (n := cx.cells.length + 1) I (fun c => S (c + 1)) cx.faces 0 _ (fun F hF => ⟨by have := (hx F hF).1; omega, fun c hc => by have := ((hx F hF).2 c hc).1; omega⟩) fun _ _ => rfl]
    rw [cellPrice, sum_range_zero _ _ fun i _ => by split <;> rfl, zero_add]
  rw [← e, cellPrice]
  congr 1
  apply List.map_congr_left
  intro i hi
  by_cases hin : i = cx.cells.length
  · subst hin; rw [ho]; rfl
  · rw [inner, if_neg hin]

/-- A cut with the outer cell on the side of the source costs at least 1. -/
theorem shell_cut_outer {I : Shells T} {cx : Poly.Complex} (hx : CellsOk cx) (hI : ∀ f, 0 ≤ I.area f) (sh : Nat) (S : Nat → Bool) (h0 : S 0 = true)
    (ho : S (cx.cells.length + 1) = true) (ht : S (cx.cells.length + 2) = false) :
    1 ≤ Flow.cutCap (cx.cells.length + 3) (Flow.totalCap (shellArcs I cx sh)) S := by
  rw [shell_cut hx hI sh S h0 ht, List.range_succ, List.map_append, List.sum_append]
  have hc := allCosts_nonneg hI cx
  have e1 : 0 ≤ ((List.range cx.cells.length).map fun i => if S (i + 1) = true then inner (allCosts I cx) sh cx.cells.length i else (allCosts I cx).ext sh i).sum := by
    refine List.sum_nonneg fun x hx => ?_
    obtain ⟨i, hi, rfl⟩ := List.mem_map.1 hx
    split
    · unfold inner
      split
      · exact zero_le_one
      · exact hc.2 sh i
    · exact hc.1 sh i
  have e2 : 0 ≤ ((arcOps I cx.cells.length ((allCosts I cx).black sh) 0 cx.faces).map fun o => if S (o.1 + 1) = S (o.2.1 + 1) then 0 else o.2.2.1).sum := by
    refine List.sum_nonneg fun x hx' => ?_
    obtain ⟨o, ho, rfl⟩ := List.mem_map.1 hx'
    split
    · exact le_refl _
    · exact (ops_good hx hI _ o ho).2.2.2.1
  have e3 : ([cx.cells.length].map fun i => if S (i + 1) = true then inner (allCosts I cx) sh cx.cells.length i else (allCosts I cx).ext sh i).sum = 1 := by simp [ho, inner]
  rw [e3]
  linarith

/-! ### Prices -/

omit [LinearOrder T] [IsStrictOrderedRing T] in
theorem price_congr (I : Shells T) (sh n : Nat) {K K' : Nat → Bool} (h : ∀ c < n, K c = K' c) : ∀ (l : List Poly.Face) (i : Nat),
    (∀ F ∈ l, F.cells.1 < n ∧ ∀ c, F.cells.2 = some c → c < n) → price I sh K i l = price I sh K' i l
  | [], _, _ => rfl
  | F :: l, i, hl => by
    rw [price, price, price_congr I sh n h l (i + 1) fun G hG => hl G (by simp [hG])]
    congr 1
    have h1 := h _ (hl F (by simp)).1
    cases (onFace I sh i F).map (I.pos i) <;> cases hc : F.cells.2 with
    | none => simp [facePrice, h1, hc, sideKept]
    | some c => have h2 := h _ ((hl F (by simp)).2 c hc); simp [facePrice, h1, h2, hc, sideKept]

/-- To keep nothing costs at most half of the area. -/
theorem price_empty {I : Shells T} (hI : ∀ f, 0 ≤ I.area f) (sh : Nat) : ∀ (l : List Poly.Face) (i : Nat), price I sh (fun _ => false) i l ≤ 1 / 2 * ((List.range' i l.length).map I.area).sum
  | [], _ => by simp [price]
  | F :: l, i => by
    have ih := price_empty hI sh l (i + 1)
    rw [price, List.length_cons, List.range'_succ, List.map_cons, List.sum_cons, mul_add]
    refine add_le_add ?_ ih
    have h2 : 0 ≤ 1 / 2 * I.area i := mul_nonneg (by norm_num) (hI i)
    cases (onFace I sh i F).map (I.pos i) with
    | none =>
      have e : false = sideKept (fun _ => false) F.cells.2 := by cases F.cells.2 <;> rfl
      rw [facePrice, if_pos e]
      exact h2
    | some o =>
      cases o <;> cases hc : F.cells.2 <;> simp only [facePrice, hc, Option.elim, if_true, Bool.false_eq_true, if_false] <;> linarith

omit [Field T] [LinearOrder T] [IsStrictOrderedRing T] in
/-- The cut of a set of cells. -/
def sideOf (n : Nat) (K : Nat → Bool) (u : Nat) : Bool := decide (u = 0) || (decide (u ≤ n) && K (u - 1))

open Classical in
/-- A shell: the maximum flow is found; the cells that do not reach the sink are a cheapest choice; and a cell that is not on the side of the sink does not reach it. -/
theorem shell_spec {I : Shells T} {cx : Poly.Complex} (hx : CellsOk cx) (hI : Normal I cx) (sh : Nat) :
    ∃ k g, (∀ k' ≥ k, shellFlow k' I cx sh = some g) ∧
      Cheapest I cx sh (fun c => decide ¬ Flow.Reaches (cx.cells.length + 3) (Flow.res g.net) (c + 1) (cx.cells.length + 2)) ∧
      ∀ c < cx.cells.length, ∃ b, Flow.isSink g (c + 1) = some b ∧ (b = false → ¬ Flow.Reaches (cx.cells.length + 3) (Flow.res g.net) (c + 1) (cx.cells.length + 2)) := by
  have hg := shell_good hx hI.nonneg sh
  obtain ⟨g0, k, g, h1, h2, h3, -, -, h6, -⟩ := Flow.c16_source_side (n := cx.cells.length + 3) (by omega) hg
  obtain ⟨g0', e1, f1⟩ := Flow.fromArcs_spec (n := cx.cells.length + 3) (by omega) hg
  obtain ⟨k', g', e2, f2, f3⟩ := Flow.findMaxFlow_spec (by omega) (by omega) (by omega) f1
  rw [h1] at e1; cases e1
  have : g = g' := by
    have a1 := h2 (max k k') (le_max_left _ _)
    have a2 := e2 (max k k') (le_max_right _ _)
    rw [a1] at a2; cases a2; rfl
  subst this
  rw [show cx.cells.length + 3 - 1 = cx.cells.length + 2 by omega] at *
  obtain ⟨-, m2, m3⟩ := f2.max f3 (Flow.totalCap_nonneg hg) (by omega) (by omega) (by omega) (fun u => decide ¬ Flow.Reaches (cx.cells.length + 3) (Flow.res g.net) u (cx.cells.length + 2)) (by simp)
  rw [m3] at m2
  have hS0 : decide (¬ Flow.Reaches (cx.cells.length + 3) (Flow.res g.net) 0 (cx.cells.length + 2)) = true := decide_eq_true (Flow.source_stuck f2.f (by omega))
  have hSt : decide (¬ Flow.Reaches (cx.cells.length + 3) (Flow.res g.net) (cx.cells.length + 2) (cx.cells.length + 2)) = false := by
    simp [Flow.Reaches, Relation.ReflTransGen.refl]
  have hmin : ∀ K, Flow.cutCap (cx.cells.length + 3) (Flow.totalCap (shellArcs I cx sh)) (fun u => decide ¬ Flow.Reaches (cx.cells.length + 3) (Flow.res g.net) u (cx.cells.length + 2))
      ≤ price I sh K 0 cx.faces := by
    intro K
    have := m2.2 ⟨sideOf cx.cells.length K, ⟨by simp [sideOf], by simp [sideOf]⟩, rfl⟩
    rw [shell_cut_price hx hI.nonneg sh (sideOf cx.cells.length K) (by simp [sideOf]) (by simp [sideOf]) (by simp [sideOf])] at this
    rwa [price_congr I sh cx.cells.length (K := fun c => sideOf cx.cells.length K (c + 1)) (K' := K) (fun c hc => by simp [sideOf, hc]; omega) cx.faces 0 fun F hF => ⟨(hx F hF).1, fun c hc => ((hx F hF).2 c hc).1⟩] at this
  have hSo : decide (¬ Flow.Reaches (cx.cells.length + 3) (Flow.res g.net) (cx.cells.length + 1) (cx.cells.length + 2)) = false := by
    by_contra hc
    rw [Bool.not_eq_false] at hc
    have a1 := shell_cut_outer hx hI.nonneg sh (fun u => decide ¬ Flow.Reaches (cx.cells.length + 3) (Flow.res g.net) u (cx.cells.length + 2)) hS0 hc hSt
    have a2 := (a1.trans (hmin fun _ => false)).trans (price_empty hI.nonneg sh cx.faces 0)
    rw [← List.range_eq_range', hI.sum] at a2
    norm_num at a2
  refine ⟨k, g, fun k' hk => ?_, fun K => ?_, fun c hc => ?_⟩
  · unfold shellFlow
    rw [h1]
    exact h2 k' hk
  · have := hmin K
    rwa [shell_cut_price hx hI.nonneg sh (fun u => decide ¬ Flow.Reaches (cx.cells.length + 3) (Flow.res g.net) u (cx.cells.length + 2)) hS0 hSo hSt] at this
  · obtain ⟨b, hb⟩ := h3 (c + 1) (by omega)
    exact ⟨b, hb, fun e => h6 (c + 1) (by rw [hb, e])⟩

end Verif.Bsp
