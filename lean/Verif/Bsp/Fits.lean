import Verif.Bsp.Choice
import Verif.Flow.Fresh
/-!
# C78: triangles that agree with a choice of the cells
-/
namespace Verif.Bsp

variable {T : Type} [Field T] [LinearOrder T] [IsStrictOrderedRing T]

/-- The triangles of the shell agree with the choice `K` at face number `i`: if a triangle lies on the face, the cells on its two sides are chosen as the triangle tells; otherwise the
face does not separate a chosen cell from one that is not chosen or from the outside. -/
def FitsFace (I : Shells T) (sh : Nat) (K : Nat → Bool) (i : Nat) (F : Poly.Face) : Prop :=
  match onFace I sh i F with
  | some t => K F.cells.1 = !I.pos i t ∧ ∀ c, F.cells.2 = some c → K c = I.pos i t
  | none => K F.cells.1 = F.cells.2.elim false K

/-- The triangles of the shell agree with the choice `K` at all faces that have an area. -/
def Fits (I : Shells T) (cx : Poly.Complex) (sh : Nat) (K : Nat → Bool) : Prop := ∀ (i : Nat) (F : Poly.Face), cx.faces[i]? = some F → 0 < I.area i → FitsFace I sh K i F

theorem facePrice_nonneg {K : Nat → Bool} {p : Nat × Option Nat} {a : T} (ha : 0 ≤ a) (o : Option Bool) : 0 ≤ facePrice K p a o := by
  have h2 : 0 ≤ 1 / 2 * a := mul_nonneg (by norm_num) ha
  cases o with
  | none =>
    rw [facePrice]
    by_cases h : K p.1 = sideKept K p.2
    · rw [if_pos h]
    · rw [if_neg h]; exact ha
  | some o =>
    unfold facePrice
    refine add_nonneg ?_ ?_
    · split
      · exact h2
      · exact le_refl _
    · cases p.2 with
      | none => exact le_refl _
      | some c =>
        simp only [Option.elim]
        split
        · exact le_refl _
        · exact h2

theorem facePrice_zero {I : Shells T} {sh i : Nat} {K : Nat → Bool} {F : Poly.Face} (ha : 0 ≤ I.area i) :
    facePrice K F.cells (I.area i) ((onFace I sh i F).map (I.pos i)) = 0 ↔ (0 < I.area i → FitsFace I sh K i F) := by
  rcases ha.eq_or_lt with h | h
  · rw [← h]
    refine ⟨fun _ h => absurd h (lt_irrefl _), fun _ => ?_⟩
    cases (onFace I sh i F).map (I.pos i) with
    | none => rw [facePrice]; exact ite_self _
    | some o => cases hc : F.cells.2 <;> simp [facePrice, hc]
  · have h2 : 0 < 1 / 2 * I.area i := mul_pos (by norm_num) h
    have h3 := ne_of_gt h2
    simp only [h, forall_const]
    unfold FitsFace
    cases onFace I sh i F with
    | none =>
      simp only [Option.map_none, facePrice]
      have e : F.cells.2.elim false K = sideKept K F.cells.2 := by cases F.cells.2 <;> rfl
      rw [e]
      exact ⟨fun e => by by_contra hne; rw [if_neg hne] at e; exact ne_of_gt h e, fun e => if_pos e⟩
    | some t =>
      simp only [Option.map_some, facePrice]
      cases hc : F.cells.2 with
      | none => cases K F.cells.1 <;> cases I.pos i t <;> simp [ne_of_gt h]
      | some c => cases K F.cells.1 <;> cases hk : K c <;> cases I.pos i t <;> simp [ne_of_gt h, hk] <;> intro e <;> rw [← add_mul] at e <;> norm_num at e <;> exact ne_of_gt h e

/-- A choice costs nothing exactly if the triangles agree with it. -/
theorem price_zero {I : Shells T} (hI : ∀ f, 0 ≤ I.area f) (sh : Nat) (K : Nat → Bool) : ∀ (l : List Poly.Face) (i : Nat), 0 ≤ price I sh K i l ∧
    (price I sh K i l = 0 ↔ ∀ (j : Nat) (F : Poly.Face), l[j]? = some F → 0 < I.area (i + j) → FitsFace I sh K (i + j) F)
  | [], i => by simp [price]
  | F :: l, i => by
    obtain ⟨ih1, ih2⟩ := price_zero hI sh K l (i + 1)
    have h1 := facePrice_nonneg (K := K) (p := F.cells) (hI i) ((onFace I sh i F).map (I.pos i))
    rw [price]
    refine ⟨add_nonneg h1 ih1, ?_⟩
    rw [add_eq_zero_iff_of_nonneg h1 ih1, facePrice_zero (hI i), ih2]
    constructor
    · rintro ⟨a, b⟩ j G hG
      cases j with
      | zero => simp at hG; subst hG; exact a
      | succ j => rw [show i + (j + 1) = i + 1 + j by omega]; exact b j G (by simpa using hG)
    · intro a
      refine ⟨a 0 F (by simp), fun j G hG => ?_⟩
      have := a (j + 1) G (by simpa using hG)
      rwa [show i + (j + 1) = i + 1 + j by omega] at this

theorem fits_price {I : Shells T} (hI : ∀ f, 0 ≤ I.area f) (cx : Poly.Complex) (sh : Nat) (K : Nat → Bool) : price I sh K 0 cx.faces = 0 ↔ Fits I cx sh K := by
  rw [(price_zero hI sh K cx.faces 0).2]
  simp only [Nat.zero_add]
  rfl

open Classical in
/-- C78. If for every shell the triangles agree with some choice of the cells, then the kept cells are the union of choices, one for each shell, with which its triangles agree; and no
larger choice of a shell is possible. Outside of the cells that can be chosen nothing is kept. This takes one round. -/
theorem c78_fits {I : Shells T} {cx : Poly.Complex} (hx : CellsOk cx) (hI : Normal I cx) (h : ∀ sh < I.nShells, ∃ K, Fits I cx sh K) :
    ∃ (kept : List Bool) (best : Nat → Nat → Bool), (∀ fuel ≥ 1, cellKept fuel I cx = some kept) ∧ kept.length = cx.cells.length ∧
      (∀ sh < I.nShells, Fits I cx sh (best sh) ∧ ∀ K, Fits I cx sh K → ∀ c < cx.cells.length, K c = true → best sh c = true) ∧
      ∀ c < cx.cells.length, kept[c]? = some true ↔ ∃ sh < I.nShells, best sh c = true := by
  have key : ∀ sh, ∃ (g : Flow.PR T) (side : Nat → Bool), sh < I.nShells → (∀ fuel ≥ 1, shellFlow fuel I cx sh = some g) ∧
      (∀ c < cx.cells.length, Flow.isSink g (c + 1) = some (side c)) ∧ Fits I cx sh (fun c => !side c) ∧
      ∀ K, Fits I cx sh K → ∀ c < cx.cells.length, K c = true → side c = false := by
    intro sh
    by_cases hsh : sh < I.nShells
    swap
    · obtain ⟨k, g, -⟩ := shell_spec hx hI sh
      exact ⟨g, fun _ => false, fun e => absurd e hsh⟩
    have hg := shell_good hx hI.nonneg sh
    have hcut : ∀ K, Fits I cx sh K → Flow.cutCap (cx.cells.length + 3) (Flow.totalCap (shellArcs I cx sh)) (sideOf cx.cells.length K) = 0 := by
      intro K hK
      rw [shell_cut_price hx hI.nonneg sh _ (by simp [sideOf]) (by simp [sideOf]) (by simp [sideOf]),
        price_congr I sh cx.cells.length (K' := K) (fun c hc => by simp [sideOf]; omega) cx.faces 0 fun F hF => ⟨(hx F hF).1, fun c hc => ((hx F hF).2 c hc).1⟩]
      exact (fits_price hI.nonneg cx sh K).2 hK
    have hiscut : ∀ K, Flow.IsCut 0 (cx.cells.length + 3 - 1) (sideOf cx.cells.length K) := fun K => ⟨by simp [sideOf], by simp [sideOf]⟩
    obtain ⟨K, hK⟩ := h sh hsh
    obtain ⟨g0, g, h1, h2, h3, h4⟩ := Flow.zero_cut_labels (by omega) hg (sideOf cx.cells.length K) (hiscut K) (hcut K hK)
    obtain ⟨k', g', s1, s2, -⟩ := shell_spec hx hI sh
    have hrun : ∀ fuel ≥ 1, shellFlow fuel I cx sh = some g := by
      intro fuel hf
      unfold shellFlow
      rw [h1]
      exact h2 fuel hf
    have e : g' = g := by
      have a1 := s1 (max k' 1) (le_max_left _ _)
      rw [hrun (max k' 1) (le_max_right _ _)] at a1
      exact (Option.some.inj a1).symm
    subst e
    refine ⟨g', fun c => decide (Flow.Reaches (cx.cells.length + 3) (Flow.res g'.net) (c + 1) (cx.cells.length + 2)), fun _ => ⟨hrun, fun c hc => ?_, ?_, fun K' hK' c hc hKc => ?_⟩⟩
    · obtain ⟨b, hb, hb2⟩ := h3 (c + 1) (by omega)
      rw [hb, Option.some.injEq]
      rw [show cx.cells.length + 3 - 1 = cx.cells.length + 2 by omega] at hb2
      exact (Bool.decide_coe b).symm.trans (decide_eq_decide.2 hb2)
    · rw [← fits_price hI.nonneg cx sh]
      have := s2 K
      rw [(fits_price hI.nonneg cx sh K).2 hK] at this
      simp only [decide_not] at this
      exact le_antisymm this (price_zero hI.nonneg sh _ cx.faces 0).1
    · have := h4 _ (hiscut K') (hcut K' hK') (c + 1) (by omega) (by simp [sideOf, hKc]; omega)
      obtain ⟨b, hb, hb2⟩ := h3 (c + 1) (by omega)
      rw [this, Option.some.injEq] at hb
      subst hb
      rw [show cx.cells.length + 3 - 1 = cx.cells.length + 2 by omega] at hb2
      exact decide_eq_false fun e => by simpa using hb2.2 e
  choose g side hs using key
  refine ⟨(List.range cx.cells.length).map fun c => (List.range I.nShells).any fun sh => !side sh c, fun sh c => !side sh c, fun fuel hf => ?_, by simp, fun sh hsh => ?_, fun c hc => ?_⟩
  · unfold cellKept
    have := shells_fold fuel I cx g side (List.range I.nShells) (fun sh hsh => ⟨(hs sh (List.mem_range.1 hsh)).1 fuel hf, (hs sh (List.mem_range.1 hsh)).2.1⟩) fun _ => false
    simp only [Bool.false_or] at this
    rw [← this]
    congr 1
    simp
  · refine ⟨(hs sh hsh).2.2.1, fun K hK c hc hKc => ?_⟩
    beta_reduce
    rw [(hs sh hsh).2.2.2 K hK c hc hKc]; rfl
  · rw [List.getElem?_map, List.getElem?_range hc, Option.map_some, Option.some.injEq, List.any_eq_true]
    simp only [List.mem_range]

/-! ### Examples -/

/-- A triangle on every face but the common one: the surface of both cells. -/
def shutTris (f : Nat) : List Nat := if f = 3 then [] else [f]

example : ∀ sh < (inShell [2, 1, 1, 2, 1, 1, 1]).nShells, ∃ K, Fits (inShell [2, 1, 1, 2, 1, 1, 1]) (twoTets shutTris) sh K := by
  intro sh hsh
  obtain rfl : sh = 0 := by simp [inShell] at hsh; exact hsh
  refine ⟨fun _ => true, (fits_price (inShell_normal (by simp) rfl (by norm_num) shutTris).nonneg _ 0 _).1 ?_⟩
  decide +kernel

example : cellKept 1 (inShell [2, 1, 1, 2, 1, 1, 1]) (twoTets shutTris) = some [true, true] := by decide +kernel

/-- The surface of the first cell only. -/
example : cellKept 1 (inShell [2, 1, 1, 2, 1, 1, 1]) (twoTets fun f => if f < 4 then [f] else []) = some [true, false] := by decide +kernel

end Verif.Bsp
