import Verif.Bsp.MergeAll
import Verif.Bsp.OutputProps
/-!
# C110: the triangles of the output form a closed surface (`src/polygonlization/bsp_complex.rs` lines 759-840)
-/
namespace Verif.Bsp
open Output (triples FaceOut circular output area2 IsLargest project swap)

/-- The directed edges of a list of triangles, given by their corners. -/
def triEdges (l : List Nat) : List (Nat × Nat) := (triples l).flatMap fun t => [(t.1, t.2.1), (t.2.1, t.2.2), (t.2.2, t.1)]

/-- The triangles have the given directed segments as their boundary: edges passed in both directions cancel. -/
def HasBoundary (tris : List Nat) (segs : List (Nat × Nat)) : Prop :=
  3 ∣ tris.length ∧ ∀ a b, ((triEdges tris).count (a, b) : Int) - (triEdges tris).count (b, a) = segs.count (a, b) - segs.count (b, a)

/-! ### Sums over directed edges -/

/-- The sum of an antisymmetric function depends only on the boundary. -/
theorem sum_of_counts {l l' : List (Nat × Nat)} (h : ∀ a b, (l.count (a, b) : Int) - l.count (b, a) = l'.count (a, b) - l'.count (b, a)) (φ : Nat × Nat → Int) (hφ : ∀ p, φ p.swap = - φ p) :
    (l.map φ).sum = (l'.map φ).sum := by
  have hs : ∀ L : List (Nat × Nat), ((L.map Prod.swap).map φ).sum = - (L.map φ).sum := by
    intro L
    induction L with
    | nil => rfl
    | cons p L ih => simp only [List.map_cons, List.sum_cons, ih, hφ]; ring
  have hcs : ∀ (L : List (Nat × Nat)) a b, (L.map Prod.swap).count (a, b) = L.count (b, a) := fun L a b => List.count_map_of_injective L _ Prod.swap_injective (b, a)
  have hp : (l ++ l'.map Prod.swap).Perm ((l ++ l'.map Prod.swap).map Prod.swap) := by
    refine List.perm_iff_count.2 fun p => ?_
    obtain ⟨a, b⟩ := p
    have := h a b
    rw [hcs, List.count_append, List.count_append, hcs, hcs]
    omega
  have e := (hp.map φ).sum_eq
  rw [hs, List.map_append, List.sum_append, hs] at e
  omega

theorem counts_of_sum {l l' : List (Nat × Nat)} (h : ∀ φ : Nat × Nat → Int, (∀ p, φ p.swap = - φ p) → (l.map φ).sum = (l'.map φ).sum) (a b : Nat) :
    (l.count (a, b) : Int) - l.count (b, a) = l'.count (a, b) - l'.count (b, a) := by
  have key : ∀ L : List (Nat × Nat), (L.map fun p => (if p = (a, b) then (1 : Int) else 0) - if p = (b, a) then 1 else 0).sum = (L.count (a, b) : Int) - L.count (b, a) := by
    intro L
    induction L with
    | nil => rfl
    | cons p L ih =>
      rw [List.map_cons, List.sum_cons, ih, List.count_cons, List.count_cons]
      simp only [beq_iff_eq]
      push_cast
      split_ifs <;> ring
  rw [← key l, ← key l']
  refine h _ fun p => ?_
  obtain ⟨x, y⟩ := p
  have e1 : ((y, x) = (a, b)) = ((x, y) = (b, a)) := by simp only [Prod.mk.injEq, and_comm]
  have e2 : ((y, x) = (b, a)) = ((x, y) = (a, b)) := by simp only [Prod.mk.injEq, and_comm]
  simp only [Prod.swap_prod_mk, e1, e2]
  ring

/-! ### Triangles and their corners -/

theorem triples_append : ∀ {n : Nat} {l : List Nat}, l.length = 3 * n → ∀ l', triples (l ++ l') = triples l ++ triples l'
  | 0, l, h, l' => by
    have : l = [] := List.length_eq_zero_iff.1 (by omega)
    subst this; rfl
  | n + 1, l, h, l' => by
    match l with
    | a :: b :: c :: l =>
      simp only [List.length_cons] at h
      simp only [List.cons_append, triples, triples_append (n := n) (l := l) (by omega) l']
    | [] => simp at h
    | [_] => simp at h; omega
    | [_, _] => simp at h; omega

theorem triEdges_append {l : List Nat} (h : 3 ∣ l.length) (l' : List Nat) : triEdges (l ++ l') = triEdges l ++ triEdges l' := by
  obtain ⟨n, h⟩ := h
  unfold triEdges
  rw [triples_append h, List.flatMap_append]

theorem triEdges_flatten : ∀ {bs : List (List Nat)}, (∀ b ∈ bs, 3 ∣ b.length) → triEdges bs.flatten = bs.flatMap triEdges
  | [], _ => rfl
  | b :: bs, h => by
    rw [List.flatten_cons, triEdges_append (h b (by simp)), triEdges_flatten fun c hc => h c (by simp [hc]), List.flatMap_cons]

/-- Corners with other names. -/
theorem triEdges_map {f : Nat → Option Nat} {l b : List Nat} (h : b.map some = l.map f) : (triEdges b).map (fun p => (some p.1, some p.2)) = (triEdges l).map fun p => (f p.1, f p.2) := by
  unfold triEdges
  rcases Output.triples_map le_rfl h with ⟨e1, e2⟩ | e
  · rw [e1, e2]; rfl
  · have key : ∀ {T U : List (Nat × Nat × Nat)}, T.map (fun t => (some t.1, some t.2.1, some t.2.2)) = U.map (fun t => (f t.1, f t.2.1, f t.2.2)) →
        (T.flatMap fun t => [(t.1, t.2.1), (t.2.1, t.2.2), (t.2.2, t.1)]).map (fun p => (some p.1, some p.2)) = (U.flatMap fun t => [(t.1, t.2.1), (t.2.1, t.2.2), (t.2.2, t.1)]).map fun p => (f p.1, f p.2) := by
      intro T
      induction T with
      | nil => intro U h; cases U with
        | nil => rfl
        | cons _ _ => cases h
      | cons t T ih =>
        intro U h
        cases U with
        | nil => cases h
        | cons u U =>
          simp only [List.map_cons, List.cons.injEq, Prod.mk.injEq] at h
          obtain ⟨⟨h1, h2, h3⟩, h4⟩ := h
          simp only [List.flatMap_cons, List.map_append, List.map_cons, List.map_nil, ih h4, h1, h2, h3]
    exact key e

theorem map_getD {L : List Nat} {l : List (Nat × Nat)} {l' : List (Nat × Nat)} (h : (l.map fun p => (some p.1, some p.2)) = l'.map fun p => (L[p.1]?, L[p.2]?)) : l = l'.map fun p => (L.getD p.1 0, L.getD p.2 0) := by
  have := congrArg (List.map fun p : Option Nat × Option Nat => (p.1.getD 0, p.2.getD 0)) h
  rw [List.map_map, List.map_map] at this
  simpa [Function.comp_def, List.getD_eq_getElem?_getD] using this

section
variable {K : Type} [Field K] [LinearOrder K]

/-- What is asked of the triangulation for one face: the triangles of the plane points have the segments of the loops as their boundary, when the loop of greatest area runs counterclockwise. -/
def TriOk (tri : List (K × K) → List (Nat × Nat) → List Nat) (pos : Nat → K × K × K) (f : List (List Nat) × Nat) : Prop :=
  (∀ l, f.1 = [l] → l.length = 3 → l.Nodup) ∧
  ((∀ l, f.1 = [l] → l.length ≠ 3) → ∀ (corners : List Nat) (segs : List (Nat × Nat)) (a : K), (∀ v, v ∈ corners ↔ ∃ l ∈ f.1, v ∈ l) → ((∀ l ∈ f.1, l.Nodup) → corners = f.1.flatten) → (segs.map fun q => (corners[q.1]?, corners[q.2]?)) = (f.1.flatMap circular).map (fun q => (some q.1, some q.2)) →
    IsLargest (f.1.map fun l => area2 (l.map fun v => project f.2 (pos v))) a →
    HasBoundary (tri (corners.map fun v => if a < 0 then swap (project f.2 (pos v)) else project f.2 (pos v)) segs) segs)

/-- The triangles of a face have its loops as their boundary. -/
theorem face_boundary {tri : List (K × K) → List (Nat × Nat) → List Nat} {pos : Nat → K × K × K} {f : List (List Nat) × Nat} {b : List Nat} (h : FaceOut tri pos f b) (ht : TriOk tri pos f) :
    HasBoundary b (f.1.flatMap circular) := by
  by_cases h3 : ∃ l, f.1 = [l] ∧ l.length = 3
  · obtain ⟨l, hl, hl3⟩ := h3
    have hb := h.single l hl hl3 (ht.1 l hl hl3)
    subst hb
    match b, hl3 with
    | [x, y, z], _ =>
      rw [hl]
      exact ⟨⟨1, rfl⟩, fun a b => rfl⟩
  · obtain ⟨cs, segs, a, c1, c2, h0, h1, h2⟩ := h.other fun l hl hl3 => h3 ⟨l, hl, hl3⟩
    obtain ⟨hd, hc⟩ := ht.2 (fun l hl hl3 => h3 ⟨l, hl, hl3⟩) cs segs a c1 c2 h0 h1
    generalize tri _ segs = T at h2 hd hc
    have hlen : b.length = T.length := by simpa using congrArg List.length h2
    refine ⟨hlen ▸ hd, counts_of_sum fun φ hφ => ?_⟩
    rw [map_getD (triEdges_map h2), map_getD h0.symm, List.map_map, List.map_map]
    exact sum_of_counts hc (φ ∘ fun p => (cs.getD p.1 0, cs.getD p.2 0)) fun p => hφ (cs.getD p.1 0, cs.getD p.2 0)

/-- **C110.** If the loops of the merged faces are closed and the triangulation keeps the boundary of each face, the triangles that `complex_partition` returns form a closed surface: each
directed edge between two points of the output occurs as often as the opposite one. -/
theorem c110_output (tri : List (K × K) → List (Nat × Nat) → List Nat) (hT : ∀ p segs, ∀ i ∈ tri p segs, i < p.length) (pos : Nat → K × K × K) (fs : List (List (List Nat) × Nat)) (hf : ∀ f ∈ fs, f.1 ≠ [])
    (hc : ClosedLoops fs) (ht : ∀ f ∈ fs, TriOk tri pos f) :
    ∃ pts tris, output tri pos fs = some (pts, tris) ∧ 3 ∣ tris.length ∧ ∀ i j, (triEdges tris).count (i, j) = (triEdges tris).count (j, i) := by
  obtain ⟨vs, tris, bs, e, hnd, -, h1, h2⟩ := Output.c81_output tri hT pos fs hf
  refine ⟨_, _, e, ?_⟩
  have key : ∀ {fs : List (List (List Nat) × Nat)} {bs : List (List Nat)}, List.Forall₂ (FaceOut tri pos) fs bs → (∀ f ∈ fs, TriOk tri pos f) →
      (∀ b ∈ bs, 3 ∣ b.length) ∧ ∀ φ : Nat × Nat → Int, (∀ p, φ p.swap = - φ p) → ((bs.flatMap triEdges).map φ).sum = ((loopSegments fs).map φ).sum := by
    intro fs bs h
    induction h with
    | nil => intro _; exact ⟨by simp, fun _ _ => rfl⟩
    | @cons f b fs bs h _ ih =>
      intro ht
      obtain ⟨a1, a2⟩ := ih fun g hg => ht g (by simp [hg])
      obtain ⟨b1, b2⟩ := face_boundary h (ht f (by simp))
      refine ⟨by simpa using ⟨b1, a1⟩, fun φ hφ => ?_⟩
      have : loopSegments (f :: fs) = f.1.flatMap circular ++ loopSegments fs := rfl
      rw [this, List.flatMap_cons, List.map_append, List.sum_append, List.map_append, List.sum_append, a2 φ hφ, sum_of_counts b2 φ hφ]
  obtain ⟨hd, hs⟩ := key h2 ht
  have hlen : tris.length = bs.flatten.length := by
    have := congrArg List.length h1
    rwa [List.length_map, List.length_map] at this
  have hdv : 3 ∣ bs.flatten.length := by
    rw [List.length_flatten]
    exact List.dvd_sum fun x hx => by
      obtain ⟨b, hb, rfl⟩ := List.mem_map.1 hx
      exact hd b hb
  refine ⟨hlen ▸ hdv, fun i j => ?_⟩
  have hmap := map_getD (triEdges_map h1.symm)
  rw [triEdges_flatten hd] at hmap
  have hlt : ∀ p ∈ triEdges tris, p.1 < vs.length ∧ p.2 < vs.length := by
    intro p hp
    have hall : ∀ i ∈ tris, i < vs.length := by
      intro i hi
      have : vs[i]? ∈ bs.flatten.map some := by rw [← h1]; exact List.mem_map.2 ⟨i, hi, rfl⟩
      obtain ⟨v, -, e⟩ := List.mem_map.1 this
      by_contra hn
      rw [List.getElem?_eq_none (by omega)] at e
      cases e
    have hmem : ∀ (n : Nat) (l : List Nat), l.length ≤ n → ∀ t ∈ triples l, t.1 ∈ l ∧ t.2.1 ∈ l ∧ t.2.2 ∈ l := by
      intro n
      induction n with
      | zero =>
        intro l hl t ht
        have : l = [] := List.length_eq_zero_iff.1 (by omega)
        subst this; cases ht
      | succ n ih =>
        intro l hl t ht
        match l with
        | a :: b :: c :: l =>
          simp only [triples, List.mem_cons] at ht
          rcases ht with rfl | ht
          · simp
          · have := ih l (by simp at hl; omega) t ht
            simp [this]
        | [] => cases ht
        | [_] => cases ht
        | [_, _] => cases ht
    obtain ⟨t, ht, hp⟩ := List.mem_flatMap.1 hp
    obtain ⟨m1, m2, m3⟩ := hmem _ _ le_rfl t ht
    simp only [List.mem_cons, List.not_mem_nil, or_false] at hp
    rcases hp with rfl | rfl | rfl
    · exact ⟨hall _ m1, hall _ m2⟩
    · exact ⟨hall _ m2, hall _ m3⟩
    · exact ⟨hall _ m3, hall _ m1⟩
  have hcl : ∀ a b, (bs.flatMap triEdges).count (a, b) = (bs.flatMap triEdges).count (b, a) := by
    intro a b
    have h3 := counts_of_sum (l := bs.flatMap triEdges) (l' := loopSegments fs) (fun φ hφ => hs φ hφ) a b
    have := hc a b
    omega
  have hcnt : ∀ i j, i < vs.length → j < vs.length → (triEdges tris).count (i, j) = (bs.flatMap triEdges).count (vs.getD i 0, vs.getD j 0) := by
    intro i j hi hj
    rw [hmap, List.count_eq_countP, List.count_eq_countP, List.countP_map]
    refine List.countP_congr fun p hp => ?_
    obtain ⟨p1, p2⟩ := hlt p hp
    have hinj : ∀ a < vs.length, ∀ b < vs.length, vs.getD a 0 = vs.getD b 0 → a = b := by
      intro a ha b hb e
      rw [List.getD_eq_getElem?_getD, List.getD_eq_getElem?_getD, List.getElem?_eq_getElem ha, List.getElem?_eq_getElem hb, Option.getD_some, Option.getD_some] at e
      exact (hnd.getElem_inj_iff).1 e
    obtain ⟨x, y⟩ := p
    simp only [beq_iff_eq, Prod.mk.injEq, Function.comp]
    exact ⟨fun ⟨a, b⟩ => ⟨by rw [a], by rw [b]⟩, fun ⟨a, b⟩ => ⟨hinj _ p1 _ hi a, hinj _ p2 _ hj b⟩⟩
  by_cases hi : i < vs.length ∧ j < vs.length
  · rw [hcnt i j hi.1 hi.2, hcnt j i hi.2 hi.1]
    exact hcl _ _
  · rw [List.count_eq_zero_of_not_mem fun h => hi (hlt _ h), List.count_eq_zero_of_not_mem fun h => hi ⟨(hlt _ h).2, (hlt _ h).1⟩]

end

/-! ### Example: a pyramid. The base is a square that two triangles fill. -/

def pyrLoops : List (List (List Nat) × Nat) := [([[10, 13, 12, 11]], 2), ([[10, 11, 14]], 1), ([[11, 12, 14]], 0), ([[12, 13, 14]], 1), ([[13, 10, 14]], 0)]

def pyrPos (v : Nat) : ℚ × ℚ × ℚ := [(0, 0, 0), (2, 0, 0), (2, 2, 0), (0, 2, 0), (1, 1, 3)].getD (v - 10) (0, 0, 0)

example : ClosedLoops pyrLoops := by
  have h1 : ∀ p ∈ loopSegments pyrLoops, (loopSegments pyrLoops).count p = (loopSegments pyrLoops).count p.swap := by decide +kernel
  intro a b
  by_cases ha : (a, b) ∈ loopSegments pyrLoops
  · exact h1 _ ha
  · by_cases hb : (b, a) ∈ loopSegments pyrLoops
    · exact (h1 _ hb).symm
    · rw [List.count_eq_zero_of_not_mem ha, List.count_eq_zero_of_not_mem hb]

example : ∀ f ∈ pyrLoops, TriOk Output.fan pyrPos f := by
  intro f hf
  simp only [pyrLoops, List.mem_cons, List.not_mem_nil, or_false] at hf
  rcases hf with rfl | hf
  · refine ⟨fun l hl h3 => ?_, fun _ cs segs a _ hcs hs _ => ?_⟩
    · cases hl; cases h3
    · have hcs : cs = [10, 13, 12, 11] := hcs (by decide)
      subst hcs
      have hseg : segs = [(0, 1), (1, 2), (2, 3), (3, 0)] := by
        have hlt : ∀ (i v : Nat), ([10, 13, 12, 11] : List Nat)[i]? = some v → i = ([10, 13, 12, 11] : List Nat).idxOf v := by
          intro i v h
          match i with
          | 0 | 1 | 2 | 3 => cases h; rfl
          | i + 4 => cases h
        have := congrArg (List.map fun p : Option Nat × Option Nat => (([10, 13, 12, 11] : List Nat).idxOf (p.1.getD 0), ([10, 13, 12, 11] : List Nat).idxOf (p.2.getD 0))) hs
        rw [List.map_map] at this
        have e : segs.map (fun q => q) = segs.map ((fun p : Option Nat × Option Nat => (([10, 13, 12, 11] : List Nat).idxOf (p.1.getD 0), ([10, 13, 12, 11] : List Nat).idxOf (p.2.getD 0))) ∘
            fun q => (([10, 13, 12, 11] : List Nat)[q.1]?, ([10, 13, 12, 11] : List Nat)[q.2]?)) := by
          refine List.map_congr_left fun q hq => ?_
          have hm : (([10, 13, 12, 11] : List Nat)[q.1]?, ([10, 13, 12, 11] : List Nat)[q.2]?) ∈ (([[10, 13, 12, 11]].flatMap Output.circular).map fun q => (some q.1, some q.2)) := by
            rw [← hs]; exact List.mem_map.2 ⟨q, hq, rfl⟩
          obtain ⟨x, -, hx⟩ := List.mem_map.1 hm
          simp only [Prod.mk.injEq] at hx
          have h1 := hlt _ _ hx.1.symm
          have h2 := hlt _ _ hx.2.symm
          simp only [Function.comp, ← hx.1, ← hx.2, Option.getD_some, ← h1, ← h2]
        rw [List.map_id'] at e
        rw [e, this]
        decide
      subst hseg
      have hfan : ∀ g : Nat → ℚ × ℚ, Output.fan ([10, 13, 12, 11].map g) [(0, 1), (1, 2), (2, 3), (3, 0)] = [0, 1, 2, 0, 2, 3] := fun g => rfl
      rw [hfan]
      refine ⟨⟨2, rfl⟩, counts_of_sum fun φ hφ => ?_⟩
      have h1 := hφ (0, 2)
      simp only [Prod.swap_prod_mk] at h1
      simp [triEdges, Output.triples, h1]
  · refine ⟨fun l hl _ => ?_, fun hne => ?_⟩
    · rcases hf with rfl | rfl | rfl | rfl <;> cases hl <;> decide
    · rcases hf with rfl | rfl | rfl | rfl <;> exact absurd rfl (hne _ rfl)

/-- The six triangles of the pyramid. -/
example : (output Output.fan pyrPos pyrLoops).map Prod.snd = some [0, 1, 2, 0, 2, 3, 0, 3, 4, 3, 2, 4, 2, 1, 4, 1, 0, 4] := by decide +kernel

end Verif.Bsp
