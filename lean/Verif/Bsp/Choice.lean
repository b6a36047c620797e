import Verif.Bsp.Cheapest
import Mathlib.Tactic.IntervalCases
/-!
# C77: the cells that `complex_partition` keeps
-/
namespace Verif.Bsp

variable {T : Type} [Field T] [LinearOrder T] [IsStrictOrderedRing T]

omit [Field T] [IsStrictOrderedRing T] [LinearOrder T] in
theorem mapM_some {α β : Type} (f : α → Option β) (g : α → β) : ∀ (l : List α), (∀ a ∈ l, f a = some (g a)) → l.mapM f = some (l.map g)
  | [], _ => rfl
  | a :: l, h => by
    rw [List.mapM_cons, h a (by simp), mapM_some f g l fun b hb => h b (by simp [hb])]
    rfl

/-- The loop over the shells (lines 732-740) when the side of every cell is known. -/
theorem shells_fold (fuel : Nat) (I : Shells T) (cx : Poly.Complex) (G : Nat → Flow.PR T) (side : Nat → Nat → Bool) : ∀ (l : List Nat),
    (∀ sh ∈ l, shellFlow fuel I cx sh = some (G sh) ∧ ∀ c < cx.cells.length, Flow.isSink (G sh) (c + 1) = some (side sh c)) → ∀ (K : Nat → Bool),
    l.foldlM (fun kept sh => do
      let g ← shellFlow fuel I cx sh
      let sides ← (List.range cx.cells.length).mapM fun c => Flow.isSink g (c + 1)
      some (List.zipWith (fun k s => k || !s) kept sides)) ((List.range cx.cells.length).map K) =
    some ((List.range cx.cells.length).map fun c => K c || l.any fun sh => !side sh c)
  | [], _, K => by simp
  | sh :: l, h, K => by
    obtain ⟨h1, h2⟩ := h sh (by simp)
    rw [List.foldlM_cons, h1]
    simp only [Option.bind_eq_bind, Option.bind_some]
    rw [mapM_some _ (side sh) _ fun c hc => h2 c (List.mem_range.1 hc)]
    simp only [Option.bind_some]
    rw [List.zipWith_map, List.zipWith_self]
    have := shells_fold fuel I cx G side l (fun x hx => h x (by simp [hx])) (fun c => K c || !side sh c)
    simp only [Option.bind_eq_bind] at this
    rw [this]
    simp [Bool.or_assoc]

/-- C77, partial. The choice of the cells ends. Every kept cell belongs to a cheapest set of cells of one of the shells. If no cell that cannot reach the sink is
reported on its side, then the kept cells are the union of cheapest sets, one for each shell. What is missing is that condition, which does not always hold
(`c77_refuted`). -/
theorem c77_cells_partial {I : Shells T} {cx : Poly.Complex} (hx : CellsOk cx) (hI : Normal I cx) : ∃ fuel kept, (∀ k ≥ fuel, cellKept k I cx = some kept) ∧ kept.length = cx.cells.length ∧
    ∃ best : Nat → Nat → Bool, (∀ sh, Cheapest I cx sh (best sh)) ∧
      (∀ c : Nat, kept[c]? = some true → ∃ sh < I.nShells, best sh c = true) ∧
      ((∀ sh < I.nShells, ∀ g, shellFlow fuel I cx sh = some g → ∀ c < cx.cells.length, Flow.isSink g (c + 1) = some true →
          Flow.Reaches (cx.cells.length + 3) (Flow.res g.net) (c + 1) (cx.cells.length + 2)) →
        ∀ c < cx.cells.length, kept[c]? = some true ↔ ∃ sh < I.nShells, best sh c = true) := by
  classical
  choose k g h1 h2 h3 using fun sh => shell_spec hx hI sh
  have hside : ∀ sh c, ∃ b, c < cx.cells.length → Flow.isSink (g sh) (c + 1) = some b ∧
      (b = false → ¬ Flow.Reaches (cx.cells.length + 3) (Flow.res (g sh).net) (c + 1) (cx.cells.length + 2)) := by
    intro sh c
    by_cases hc : c < cx.cells.length
    · obtain ⟨b, hb⟩ := h3 sh c hc
      exact ⟨b, fun _ => hb⟩
    · exact ⟨true, fun h => absurd h hc⟩
  choose side hs using hside
  have hfuel : ∃ fuel, ∀ sh < I.nShells, k sh ≤ fuel := by
    refine ⟨((List.range I.nShells).map k).sum, fun sh hsh => ?_⟩
    exact List.le_sum_of_mem (List.mem_map.2 ⟨sh, List.mem_range.2 hsh, rfl⟩)
  obtain ⟨fuel, hfuel⟩ := hfuel
  have hget : ∀ c < cx.cells.length, ((List.range cx.cells.length).map fun c => (List.range I.nShells).any fun sh => !side sh c)[c]? = some ((List.range I.nShells).any fun sh => !side sh c) := by
    intro c hc
    rw [List.getElem?_map, List.getElem?_range hc]; rfl
  refine ⟨fuel, (List.range cx.cells.length).map fun c => (List.range I.nShells).any fun sh => !side sh c, fun k' hk => ?_, by simp, fun sh c => decide ¬ Flow.Reaches (cx.cells.length + 3) (Flow.res (g sh).net) (c + 1) (cx.cells.length + 2),
    h2, ?_, ?_⟩
  · unfold cellKept
    have := shells_fold k' I cx g side (List.range I.nShells) (fun sh hsh => ⟨h1 sh k' ((hfuel sh (List.mem_range.1 hsh)).trans hk), fun c hc => (hs sh c hc).1⟩) fun _ => false
    simp only [Bool.false_or] at this
    rw [← this]
    congr 1
    simp
  · intro c hc
    have hcn : c < cx.cells.length := by
      have := (List.getElem?_eq_some_iff.1 hc).1
      simpa using this
    rw [hget c hcn] at hc
    obtain ⟨sh, hsh, e⟩ := List.any_eq_true.1 (Option.some.inj hc)
    exact ⟨sh, List.mem_range.1 hsh, decide_eq_true ((hs sh c hcn).2 (by simpa using e))⟩
  · intro hcond c hcn
    rw [hget c hcn, Option.some.injEq, List.any_eq_true]
    constructor
    · rintro ⟨sh, hsh, e⟩
      exact ⟨sh, List.mem_range.1 hsh, decide_eq_true ((hs sh c hcn).2 (by simpa using e))⟩
    · rintro ⟨sh, hsh, e⟩
      refine ⟨sh, List.mem_range.2 hsh, ?_⟩
      by_contra hc
      have hb : side sh c = true := by simpa using hc
      have := hcond sh hsh (g sh) (h1 sh fuel (hfuel sh hsh)) c hcn (by rw [(hs sh c hcn).1, hb])
      exact of_decide_eq_true e this

/-! ### Examples -/

/-- Two tetrahedra with a common face (number 3). -/
def twoTets (tris : Nat → List Nat) : Poly.Complex :=
  { cells := [⟨[0, 1, 2, 3], []⟩, ⟨[3, 4, 5, 6], []⟩]
    faces := (List.range 7).map fun f => ⟨if f < 3 then (0, none) else if f = 3 then (0, some 1) else (1, none), tris f⟩ }

/-- The areas are given in the ratio of `w`; there is one shell, and its triangles have the cells on their inner sides. -/
def inShell (w : List ℚ) : Shells ℚ := { area := fun f => w.getD f 0 / w.sum, shell := fun _ => 0, nShells := 1, hits := fun _ _ => true, pos := fun _ _ => false }

/-- A triangle on every face but the common one and the last one. -/
def holeTris (f : Nat) : List Nat := if f = 3 ∨ f = 6 then [] else [f]

theorem inShell_normal {w : List ℚ} (h : ∀ x ∈ w, 0 ≤ x) (hl : w.length = 7) (hs : w.sum ≠ 0) (tris : Nat → List Nat) : Normal (inShell w) (twoTets tris) := by
  refine ⟨fun f => div_nonneg ?_ (List.sum_nonneg h), ?_⟩
  · rw [List.getD_eq_getElem?_getD]
    cases hf : w[f]? with
    | none => exact le_refl _
    | some x => exact h x (List.mem_of_getElem? hf)
  · match w, hl with
    | [a, b, c, d, e, f, g], _ =>
      show a / [a, b, c, d, e, f, g].sum + (b / [a, b, c, d, e, f, g].sum + (c / [a, b, c, d, e, f, g].sum + (d / [a, b, c, d, e, f, g].sum + (e / [a, b, c, d, e, f, g].sum +
        (f / [a, b, c, d, e, f, g].sum + (g / [a, b, c, d, e, f, g].sum + 0)))))) = 1
      rw [add_zero, ← add_div, ← add_div, ← add_div, ← add_div, ← add_div, ← add_div, div_eq_one_iff_eq hs]
      simp

theorem twoTets_ok (tris : Nat → List Nat) : CellsOk (twoTets tris) := by
  intro F hF
  obtain ⟨f, hf, rfl⟩ := List.mem_map.1 hF
  have hf := List.mem_range.1 hf
  interval_cases f <;> simp [twoTets]

/-- The hole is small: both cells are kept, at the price of the hole. -/
example : cellKept 60 (inShell [4, 4, 4, 4, 1, 1, 1]) (twoTets holeTris) = some [true, true] := by decide +kernel
example : price (inShell [4, 4, 4, 4, 1, 1, 1]) 0 (fun _ => true) 0 (twoTets holeTris).faces = 1 / 19 := by decide +kernel

/-- C77 fails: the surface covers two tetrahedra but for a hole of a ninth of the area. Both together have the price 1/9. Only one of them is kept, at the price 1/3. -/
theorem c77_refuted : Normal (inShell [2, 1, 1, 2, 1, 1, 1]) (twoTets holeTris) ∧ CellsOk (twoTets holeTris) ∧ cellKept 60 (inShell [2, 1, 1, 2, 1, 1, 1]) (twoTets holeTris) = some [true, false] ∧
    price (inShell [2, 1, 1, 2, 1, 1, 1]) 0 (fun c => [true, false].getD c false) 0 (twoTets holeTris).faces = 1 / 3 ∧
    price (inShell [2, 1, 1, 2, 1, 1, 1]) 0 (fun c => [true, true].getD c false) 0 (twoTets holeTris).faces = 1 / 9 := by
  refine ⟨inShell_normal (by simp) rfl (by norm_num) _, twoTets_ok _, ?_, ?_, ?_⟩ <;> decide +kernel

end Verif.Bsp
