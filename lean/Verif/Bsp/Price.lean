import Verif.Bsp.Partition
import Mathlib.Algebra.Order.BigOperators.Group.List
/-!
# The capacity of a cut is the price of a set of cells
-/
namespace Verif.Bsp

section Cuts
variable {T : Type} [AddCommGroup T]

theorem sum_range_zero (n : Nat) (f : Nat → T) (h : ∀ i < n, f i = 0) : ((List.range n).map f).sum = 0 := by
  refine List.sum_eq_zero fun x hx => ?_
  obtain ⟨i, hi, rfl⟩ := List.mem_map.1 hx
  exact h i (List.mem_range.1 hi)

theorem sum_range_add (n : Nat) (f g : Nat → T) : ((List.range n).map fun i => f i + g i).sum = ((List.range n).map f).sum + ((List.range n).map g).sum := by
  induction n with
  | zero => simp
  | succ n ih => rw [List.range_succ]; simp only [List.map_append, List.sum_append, ih, List.map_cons, List.map_nil, List.sum_cons, List.sum_nil]; abel

/-- One term. -/
theorem sum_range_one (n a : Nat) (x : T) (h : a < n) : ((List.range n).map fun i => if i = a then x else 0).sum = x := by
  induction n with
  | zero => omega
  | succ n ih =>
    rw [List.range_succ, List.map_append, List.sum_append]
    by_cases ha : a = n
    · subst ha
      rw [sum_range_zero a _ fun i hi => if_neg (by omega)]; simp
    · rw [ih (by omega)]; simp [Ne.symm ha]

/-- The capacity of a cut, arc by arc. -/
theorem cutCap_arcs (n : Nat) (S : Nat → Bool) : ∀ (arcs : List (Nat × Nat × T)), (∀ a ∈ arcs, a.1 < n ∧ a.2.1 < n) →
    Flow.cutCap n (Flow.totalCap arcs) S = (arcs.map fun a => if S a.1 = true ∧ S a.2.1 = false then a.2.2 else 0).sum
  | [], _ => by simp [Flow.cutCap, Flow.totalCap]
  | a :: arcs, h => by
    have ih := cutCap_arcs n S arcs fun b hb => h b (by simp [hb])
    rw [List.map_cons, List.sum_cons, ← ih]
    unfold Flow.cutCap
    have e : ∀ u v, (if S u = true ∧ S v = false then Flow.totalCap (a :: arcs) u v else 0) =
        (if u = a.1 then (if v = a.2.1 then (if S a.1 = true ∧ S a.2.1 = false then a.2.2 else 0) else 0) else 0) + if S u = true ∧ S v = false then Flow.totalCap arcs u v else 0 := by
      intro u v
      rw [Flow.totalCap_cons]
      by_cases hu : u = a.1
      · by_cases hv : v = a.2.1
        · subst hu hv; split <;> simp
        · simp [Ne.symm hv, hv]
      · simp [Ne.symm hu, hu]
    simp only [e, Finset.sum_add_distrib]
    congr 1
    rw [Finset.sum_eq_single_of_mem a.1 (Finset.mem_range.2 (h a (by simp)).1)]
    · simp only [if_true]
      rw [Finset.sum_eq_single_of_mem a.2.1 (Finset.mem_range.2 (h a (by simp)).2), if_pos rfl]
      intro v _ hv; rw [if_neg hv]
    · intro u _ hu; simp [hu]

/-- The arcs that a sequence of `add_arc` calls adds. -/
theorem built_sum (source sink : List T) (w : Nat × Nat × T → T) : ∀ (ops : List (Nat × Nat × T × Bool)),
    ((Flow.built source sink ops).map w).sum = ((Flow.builderNew source sink).map w).sum +
      (ops.map fun o => w (o.1 + 1, o.2.1 + 1, o.2.2.1) + if o.2.2.2 = true then w (o.2.1 + 1, o.1 + 1, o.2.2.1) else 0).sum := by
  have key : ∀ (ops : List (Nat × Nat × T × Bool)) (arcs : List (Nat × Nat × T)), ((ops.foldl (fun arcs o => Flow.addArc arcs o.1 o.2.1 o.2.2.1 o.2.2.2) arcs).map w).sum =
      (arcs.map w).sum + (ops.map fun o => w (o.1 + 1, o.2.1 + 1, o.2.2.1) + if o.2.2.2 = true then w (o.2.1 + 1, o.1 + 1, o.2.2.1) else 0).sum := by
    intro ops
    induction ops with
    | nil => intro arcs; simp
    | cons o ops ih =>
      intro arcs
      rw [List.foldl_cons, ih, List.map_cons, List.sum_cons, ← add_assoc]
      congr 1
      unfold Flow.addArc
      simp only
      split <;> simp [add_assoc]
  exact fun ops => key ops _

theorem zipIdx_range (m : Nat) (f : Nat → T) : ((List.range m).map f).zipIdx = (List.range m).map fun i => (f i, i) := by
  apply List.ext_getElem?
  intro i
  rw [List.getElem?_zipIdx, List.getElem?_map, List.getElem?_map]
  by_cases hi : i < m
  · rw [List.getElem?_range hi]; simp
  · rw [List.getElem?_eq_none (by simpa using hi)]; rfl

/-- The price of a cut of the network of an `ArcBuilder` on `m` inner nodes. -/
theorem cutCap_built (m : Nat) (a b : Nat → T) (ops : List (Nat × Nat × T × Bool)) (hops : ∀ o ∈ ops, o.1 < m ∧ o.2.1 < m ∧ o.2.2.2 = true) (S : Nat → Bool)
    (h0 : S 0 = true) (ht : S (m + 1) = false) :
    Flow.cutCap (m + 2) (Flow.totalCap (Flow.built ((List.range m).map a) ((List.range m).map b) ops)) S =
      ((List.range m).map fun i => if S (i + 1) = true then b i else a i).sum + (ops.map fun o => if S (o.1 + 1) = S (o.2.1 + 1) then 0 else o.2.2.1).sum := by
  obtain ⟨-, -, -, -, hr⟩ := Flow.c13_arc_builder (m := m) ((List.range m).map a) ((List.range m).map b) ops (by simp) (by simp) fun o ho => ⟨(hops o ho).1, (hops o ho).2.1⟩
  rw [cutCap_arcs _ _ _ hr, built_sum]
  congr 1
  · rw [Flow.builderNew, zipIdx_range, zipIdx_range]
    simp only [List.map_append, List.map_map, List.sum_append, List.length_map, List.length_range, Function.comp_def, h0, ht, true_and, and_true]
    rw [← sum_range_add]
    congr 1
    apply List.map_congr_left
    intro i _
    cases S (i + 1) <;> simp
  · congr 1
    apply List.map_congr_left
    intro o ho
    rw [if_pos (hops o ho).2.2]
    simp only
    cases S (o.1 + 1) <;> cases S (o.2.1 + 1) <;> simp

end Cuts

variable {T : Type} [Field T] [LinearOrder T]

/-! ### The costs of the cells -/

/-- The price of the cells for the labelling `K`. -/
def cellPrice (n sh : Nat) (K : Nat → Bool) (s : Costs T) : T := ((List.range n).map fun i => if K i = true then s.int sh i else s.ext sh i).sum

/-- The price of a face on which a triangle lies. -/
def blackPrice (K : Nat → Bool) (p : Nat × Option Nat) (a : T) (ori : Bool) : T := facePrice K p a (some ori)

omit [LinearOrder T] in
theorem cellPrice_int {n sh i c : Nat} (K : Nat → Bool) (s : Costs T) (w : T) (hc : c < n) (E : Nat → Nat → T) (B B' : Nat → Nat → Bool) :
    cellPrice n sh K ⟨E, addAt s.int i c w, B⟩ = cellPrice n sh K ⟨E, s.int, B'⟩ + if sh = i ∧ K c = true then w else 0 := by
  have e : ∀ k, (if K k = true then addAt s.int i c w sh k else E sh k) = (if K k = true then s.int sh k else E sh k) + if k = c then (if sh = i ∧ K c = true then w else 0) else 0 := by
    intro k
    unfold addAt
    by_cases hk : k = c
    · subst hk
      by_cases hi : sh = i <;> by_cases hq : K k = true <;> simp [hi, hq]
    · simp [hk]
  unfold cellPrice
  simp only [e]
  rw [sum_range_add, sum_range_one n c _ hc]

omit [LinearOrder T] in
theorem cellPrice_ext {n sh i c : Nat} (K : Nat → Bool) (s : Costs T) (w : T) (hc : c < n) (E : Nat → Nat → T) (B B' : Nat → Nat → Bool) :
    cellPrice n sh K ⟨addAt s.ext i c w, E, B⟩ = cellPrice n sh K ⟨s.ext, E, B'⟩ + if sh = i ∧ K c = false then w else 0 := by
  have e : ∀ k, (if K k = true then E sh k else addAt s.ext i c w sh k) = (if K k = true then E sh k else s.ext sh k) + if k = c then (if sh = i ∧ K c = false then w else 0) else 0 := by
    intro k
    unfold addAt
    by_cases hk : k = c
    · subst hk
      by_cases hi : sh = i <;> by_cases hq : K k = true <;> simp [hi, hq]
    · simp [hk]
  unfold cellPrice
  simp only [e]
  rw [sum_range_add, sum_range_one n c _ hc]

omit [LinearOrder T] in
/-- One triangle of a face. -/
theorem paint_price {n sh : Nat} (I : Shells T) (K : Nat → Bool) (f : Nat) (F : Poly.Face) (s : Costs T) (t : Nat) (h1 : F.cells.1 < n) (h2 : ∀ c, F.cells.2 = some c → c < n) :
    cellPrice n sh K (paint I f F s t) = cellPrice n sh K s +
      if I.shell t = sh ∧ s.black sh f = false ∧ I.hits f t = true then facePrice K F.cells (I.area f) (some (I.pos f t)) else 0 := by
  unfold paint
  simp only
  by_cases hb : s.black (I.shell t) f = true
  · rw [if_pos hb, if_neg, add_zero]
    rintro ⟨rfl, h, -⟩
    rw [hb] at h; cases h
  rw [if_neg hb]
  by_cases hh : I.hits f t = true
  · rw [if_pos hh]
    have hb' : s.black (I.shell t) f = false := by simpa using hb
    have hcond : (I.shell t = sh ∧ s.black sh f = false ∧ I.hits f t = true) ↔ sh = I.shell t := ⟨fun h => h.1.symm, fun h => ⟨h.symm, by rw [h]; exact hb', hh⟩⟩
    simp only [hcond]
    by_cases hp : I.pos f t = true
    · rw [if_pos hp, cellPrice_int K s _ h1 _ _ s.black]
      cases hc : F.cells.2 with
      | none =>
        simp only [addSecond, facePrice, hp, hc, Option.elim, add_zero]
        congr 1
        by_cases h : sh = I.shell t <;> simp [h]
      | some c =>
        simp only [addSecond, facePrice, hp, hc, Option.elim]
        rw [cellPrice_ext K s _ (h2 c hc) _ _ s.black]
        show cellPrice n sh K s + _ + _ = _
        rw [add_assoc]
        congr 1
        by_cases h : sh = I.shell t
        · cases K c <;> simp [h, add_comm]
        · simp [h]
    · rw [if_neg hp, cellPrice_ext K s _ h1 _ _ s.black]
      rw [Bool.not_eq_true] at hp
      cases hc : F.cells.2 with
      | none =>
        simp only [addSecond, facePrice, hp, hc, Option.elim, add_zero]
        congr 1
        by_cases h : sh = I.shell t <;> simp [h]
      | some c =>
        simp only [addSecond, facePrice, hp, hc, Option.elim]
        rw [cellPrice_int K s _ (h2 c hc) _ _ s.black]
        show cellPrice n sh K s + _ + _ = _
        rw [add_assoc]
        congr 1
        by_cases h : sh = I.shell t
        · cases K c <;> simp [h, add_comm]
        · simp [h]
  · rw [if_neg hh, if_neg (fun h => hh h.2.2), add_zero]

omit [LinearOrder T] in
theorem paint_black (I : Shells T) (f : Nat) (F : Poly.Face) (s : Costs T) (t x y : Nat) :
    (paint I f F s t).black x y = (s.black x y || (decide (x = I.shell t) && decide (y = f) && I.hits f t)) := by
  unfold paint
  simp only
  by_cases hb : s.black (I.shell t) f = true
  · rw [if_pos hb]
    by_cases h : x = I.shell t ∧ y = f
    · rw [h.1, h.2, hb]; rfl
    · rw [not_and_or] at h
      rcases h with h | h <;> simp [h]
  rw [if_neg hb]
  by_cases hh : I.hits f t = true
  · rw [if_pos hh]
    by_cases hp : I.pos f t = true
    · rw [if_pos hp]
      by_cases h : x = I.shell t <;> by_cases h' : y = f <;> simp [h, h', hh]
    · rw [if_neg hp]
      by_cases h : x = I.shell t <;> by_cases h' : y = f <;> simp [h, h', hh]
  · rw [if_neg hh]; simp [hh]

omit [LinearOrder T] in
/-- All triangles of a face. -/
theorem tris_price {n sh : Nat} (I : Shells T) (K : Nat → Bool) (f : Nat) (F : Poly.Face) (h1 : F.cells.1 < n) (h2 : ∀ c, F.cells.2 = some c → c < n) :
    ∀ (l : List Nat) (s : Costs T), s.black sh f = false → cellPrice n sh K (l.foldl (paint I f F) s) = cellPrice n sh K s +
      (((l.find? fun t => decide (I.shell t = sh) && I.hits f t).map (I.pos f)).elim 0 fun o => facePrice K F.cells (I.area f) (some o)) := by
  have hstop : ∀ (l : List Nat) (s : Costs T), s.black sh f = true → cellPrice n sh K (l.foldl (paint I f F) s) = cellPrice n sh K s := by
    intro l
    induction l with
    | nil => intro s _; rfl
    | cons t l ih =>
      intro s hs
      rw [List.foldl_cons, ih _ (by rw [paint_black, hs]; rfl), paint_price I K f F s t h1 h2, if_neg (fun h => by rw [hs] at h; cases h.2.1), add_zero]
  intro l
  induction l with
  | nil => intro s _; simp
  | cons t l ih =>
    intro s hs
    rw [List.foldl_cons]
    by_cases hc : I.shell t = sh ∧ I.hits f t = true
    · rw [hstop _ _ (by rw [paint_black]; simp [hc.1, hc.2]), paint_price I K f F s t h1 h2, if_pos ⟨hc.1, hs, hc.2⟩, List.find?_cons_of_pos (by simp [hc])]
      rfl
    · rw [ih _ (by rw [paint_black, hs]; rw [not_and_or] at hc; rcases hc with h | h <;> simp [h, Ne.symm h]), paint_price I K f F s t h1 h2,
        if_neg (fun h => hc ⟨h.1, h.2.2⟩), add_zero, List.find?_cons_of_neg (by simpa using hc)]

omit [LinearOrder T] in
theorem tris_black (I : Shells T) (f : Nat) (F : Poly.Face) (x y : Nat) : ∀ (l : List Nat) (s : Costs T),
    (l.foldl (paint I f F) s).black x y = (s.black x y || (decide (y = f) && (l.find? fun t => decide (I.shell t = x) && I.hits f t).isSome))
  | [], s => by simp
  | t :: l, s => by
    rw [List.foldl_cons, tris_black I f F x y l, paint_black]
    by_cases hc : I.shell t = x ∧ I.hits f t = true
    · rw [List.find?_cons_of_pos (by simp [hc])]
      by_cases hy : y = f <;> simp [hc.1, hc.2, hy]
    · rw [List.find?_cons_of_neg (by simpa using hc)]
      rw [not_and_or] at hc
      rcases hc with h | h <;> simp [h, Ne.symm h]

/-- The faces on which a triangle of the shell lies. -/
def blackSum (I : Shells T) (sh : Nat) (K : Nat → Bool) : Nat → List Poly.Face → T
  | _, [] => 0
  | i, F :: l => (((onFace I sh i F).map (I.pos i)).elim 0 fun o => facePrice K F.cells (I.area i) (some o)) + blackSum I sh K (i + 1) l

omit [LinearOrder T] in
theorem costs_black (I : Shells T) (x y : Nat) : ∀ (l : List Poly.Face) (i : Nat) (s : Costs T),
    (costs I i l s).black x y = (s.black x y || (decide (i ≤ y) && (l[y - i]?).any fun F => (onFace I x y F).isSome))
  | [], i, s => by simp [costs]
  | F :: l, i, s => by
    rw [costs, costs_black I x y l, tris_black]
    by_cases hy : y = i
    · subst hy
      have : ¬ y + 1 ≤ y := by omega
      simp [this, onFace]
    · by_cases hle : i ≤ y
      · have h1 : i + 1 ≤ y := by omega
        have h2 : y - i = (y - (i + 1)) + 1 := by omega
        simp [hy, hle, h1, h2]
      · have h1 : ¬ i + 1 ≤ y := by omega
        simp [hy, hle, h1]

omit [LinearOrder T] in
theorem costs_price {n sh : Nat} (I : Shells T) (K : Nat → Bool) : ∀ (l : List Poly.Face) (i : Nat) (s : Costs T),
    (∀ F ∈ l, F.cells.1 < n ∧ ∀ c, F.cells.2 = some c → c < n) → (∀ j ≥ i, s.black sh j = false) → cellPrice n sh K (costs I i l s) = cellPrice n sh K s + blackSum I sh K i l
  | [], i, s, _, _ => by simp [costs, blackSum]
  | F :: l, i, s, h, hb => by
    rw [costs, costs_price I K l (i + 1) _ (fun G hG => h G (by simp [hG])), tris_price I K i F (h F (by simp)).1 (h F (by simp)).2 _ _ (hb i (le_refl _)), blackSum, onFace, add_assoc]
    intro j hj
    rw [tris_black, hb j (by omega)]
    have : j ≠ i := by omega
    simp [this]

end Verif.Bsp
