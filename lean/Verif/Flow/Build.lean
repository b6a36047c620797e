import Verif.Flow.Relabel
import Mathlib.Algebra.BigOperators.Group.List.Basic
/-!
# `PushRelabelFifo::from`: the network of a list of arcs
-/
namespace Verif.Flow

variable {T : Type} [AddCommGroup T] [LinearOrder T]

/-- A pair of entries of `edges`. -/
structure Chunk (T : Type) where
  f : Nat
  t : Nat
  ca : T
  cb : T

/-- The list `edges` of some chunks. -/
def flat (l : List (Chunk T)) : List (Nat × T) := l.flatMap fun c => [(c.t, c.ca), (c.f, c.cb)]

/-- Capacity from `u` to `v` in a chunk. -/
def Chunk.cap (c : Chunk T) (u v : Nat) : T := (if c.f = u ∧ c.t = v then c.ca else 0) + (if c.t = u ∧ c.f = v then c.cb else 0)

/-- Capacity from `u` to `v` in some chunks. -/
def capOf (l : List (Chunk T)) (u v : Nat) : T := (l.map fun c => c.cap u v).sum

/-- The chunks connect different pairs of nodes. -/
def Apart (c d : Chunk T) : Prop := ¬ (c.f = d.f ∧ c.t = d.t) ∧ ¬ (c.f = d.t ∧ c.t = d.f)

omit [AddCommGroup T] [LinearOrder T] in
theorem flat_length (l : List (Chunk T)) : (flat l).length = 2 * l.length := by
  induction l with
  | nil => rfl
  | cons c l ih =>
    have : flat (c :: l) = [(c.t, c.ca), (c.f, c.cb)] ++ flat l := rfl
    rw [this, List.length_append, ih, List.length_cons (a := c)]
    show 2 + _ = _
    omega

omit [AddCommGroup T] [LinearOrder T] in
theorem flat_get : ∀ (l : List (Chunk T)) (k : Nat) (c : Chunk T), l[k]? = some c →
    (flat l)[2 * k]? = some (c.t, c.ca) ∧ (flat l)[2 * k + 1]? = some (c.f, c.cb)
  | [], k, c, h => by simp at h
  | d :: l, 0, c, h => by simp at h; subst h; exact ⟨rfl, rfl⟩
  | d :: l, k + 1, c, h => by
    have := flat_get l k c (by simpa using h)
    have e : flat (d :: l) = (d.t, d.ca) :: (d.f, d.cb) :: flat l := rfl
    rw [e, show 2 * (k + 1) = 2 * k + 1 + 1 by omega]
    simpa using this

omit [AddCommGroup T] [LinearOrder T] in
theorem flat_set : ∀ (l : List (Chunk T)) (k : Nat) (c : Chunk T) (x y : T), l[k]? = some c →
    (flat l).set (2 * k) (c.t, x) = flat (l.set k ⟨c.f, c.t, x, c.cb⟩) ∧ (flat l).set (2 * k + 1) (c.f, y) = flat (l.set k ⟨c.f, c.t, c.ca, y⟩)
  | [], k, c, _, _, h => by simp at h
  | d :: l, 0, c, _, _, h => by simp at h; subst h; exact ⟨rfl, rfl⟩
  | d :: l, k + 1, c, x, y, h => by
    have := flat_set l k c x y (by simpa using h)
    have e : flat (d :: l) = (d.t, d.ca) :: (d.f, d.cb) :: flat l := rfl
    rw [e, show 2 * (k + 1) = 2 * k + 1 + 1 by omega]
    simp only [List.set_cons_succ]
    rw [this.1, this.2]
    exact ⟨rfl, rfl⟩

omit [LinearOrder T] in
theorem capOf_set : ∀ (l : List (Chunk T)) (k : Nat) (c d : Chunk T) (u v : Nat), l[k]? = some c →
    capOf (l.set k d) u v = capOf l u v + (d.cap u v - c.cap u v)
  | [], k, c, d, _, _, h => by simp at h
  | e :: l, 0, c, d, u, v, h => by
    simp at h; subst h
    simp only [List.set_cons_zero, capOf, List.map_cons, List.sum_cons]
    abel
  | e :: l, k + 1, c, d, u, v, h => by
    have := capOf_set l k c d u v (by simpa using h)
    simp only [List.set_cons_succ, capOf, List.map_cons, List.sum_cons] at this ⊢
    rw [this]
    abel

/-- The state of the loop over the input arcs. -/
structure EInv (n : Nat) (arcs : List (Nat × Nat × T)) (s : Edges T) (l : List (Chunk T)) : Prop where
  edges : s.edges = flat l
  len : s.map.length = n
  map : ∀ (u : Nat) row, s.map[u]? = some row → ∀ v id, row.lookup v = some id ↔ ∃ (k : Nat) (c : Chunk T), l[k]? = some c ∧ c.f = u ∧ c.t = v ∧ id = 2 * k
  lt : ∀ c ∈ l, c.f < n ∧ c.t < n ∧ c.f ≠ c.t
  apart : l.Pairwise Apart
  cap : ∀ u v, capOf l u v = totalCap arcs u v

omit [LinearOrder T] in
theorem totalCap_append (arcs : List (Nat × Nat × T)) (a : Nat × Nat × T) (u v : Nat) :
    totalCap (arcs ++ [a]) u v = totalCap arcs u v + if a.1 = u ∧ a.2.1 = v then a.2.2 else 0 := by
  unfold totalCap
  rw [List.filter_append, List.map_append, List.sum_append]
  congr 1
  by_cases h : a.1 = u ∧ a.2.1 = v
  · rw [if_pos h, List.filter_cons_of_pos (by simpa using h)]; simp
  · rw [if_neg h, List.filter_cons_of_neg (by simpa using h)]; simp

omit [AddCommGroup T] [LinearOrder T] in
theorem pairwise_set {l : List (Chunk T)} {k : Nat} {c d : Chunk T} (h : l[k]? = some c) (hf : d.f = c.f) (ht : d.t = c.t)
    (hp : l.Pairwise Apart) : (l.set k d).Pairwise Apart := by
  rw [List.pairwise_iff_getElem] at hp ⊢
  intro i j hi hj hij
  have hl : (l.set k d).length = l.length := List.length_set
  rw [hl] at hi hj
  have hc := List.getElem?_eq_some_iff.1 h
  have key : ∀ (i : Nat) (hi : i < l.length), ((l.set k d)[i]'(by rw [hl]; exact hi)).f = (l[i]).f ∧ ((l.set k d)[i]'(by rw [hl]; exact hi)).t = (l[i]).t := by
    intro i hi
    rw [List.getElem_set]
    split
    · next e => subst e; obtain ⟨_, hc⟩ := hc; rw [hc]; exact ⟨hf, ht⟩
    · exact ⟨rfl, rfl⟩
  have := hp i j hi hj hij
  unfold Apart at this ⊢
  rw [(key i hi).1, (key i hi).2, (key j hj).1, (key j hj).2]
  exact this

theorem mergeArc_spec {n : Nat} {arcs : List (Nat × Nat × T)} {s : Edges T} {l : List (Chunk T)} (h : EInv n arcs s l)
    {u v : Nat} {c : T} (hu : u < n) (hv : v < n) (huv : u ≠ v) :
    ∃ s' l', mergeArc s (u, v, c) = some s' ∧ EInv n (arcs ++ [(u, v, c)]) s' l' := by
  obtain ⟨ru, hru⟩ : ∃ row, s.map[u]? = some row := ⟨_, List.getElem?_eq_getElem (by rw [h.len]; exact hu)⟩
  obtain ⟨rv, hrv⟩ : ∃ row, s.map[v]? = some row := ⟨_, List.getElem?_eq_getElem (by rw [h.len]; exact hv)⟩
  have hsame : ∀ {k : Nat} {d d' : Chunk T}, l[k]? = some d → d'.f = d.f → d'.t = d.t →
      ∀ (x y id : Nat), (∃ (i : Nat) (e : Chunk T), (l.set k d')[i]? = some e ∧ e.f = x ∧ e.t = y ∧ id = 2 * i) ↔ ∃ (i : Nat) (e : Chunk T), l[i]? = some e ∧ e.f = x ∧ e.t = y ∧ id = 2 * i := by
    intro k d d' hd hf ht x y id
    have hk := (List.getElem?_eq_some_iff.1 hd).1
    constructor
    · rintro ⟨i, e, h1, h2, h3, h4⟩
      rw [List.getElem?_set] at h1
      split at h1
      · next hki => subst hki; cases h1; exact ⟨k, d, hd, by rw [← hf, h2], by rw [← ht, h3], h4⟩
      · exact ⟨i, e, h1, h2, h3, h4⟩
    · rintro ⟨i, e, h1, h2, h3, h4⟩
      by_cases hki : k = i
      · subst hki
        rw [hd] at h1; cases h1
        exact ⟨k, d', by rw [List.getElem?_set, if_pos rfl, if_pos hk], by rw [hf, h2], by rw [ht, h3], h4⟩
      · exact ⟨i, e, by rw [List.getElem?_set, if_neg hki, h1], h2, h3, h4⟩
  have hltset : ∀ {k : Nat} {d d' : Chunk T}, l[k]? = some d → d'.f = d.f → d'.t = d.t → ∀ e ∈ l.set k d', e.f < n ∧ e.t < n ∧ e.f ≠ e.t := by
    intro k d d' hd hf ht e he
    rcases List.mem_or_eq_of_mem_set he with he | he
    · exact h.lt e he
    · rw [he, hf, ht]; exact h.lt d (List.mem_of_getElem? hd)
  unfold mergeArc
  cases h1 : ru.lookup v with
  | some id =>
    obtain ⟨k, d, hd, hdf, hdt, rfl⟩ := (h.map u ru hru v id).1 h1
    refine ⟨⟨flat (l.set k ⟨d.f, d.t, d.ca + c, d.cb⟩), s.map⟩, l.set k ⟨d.f, d.t, d.ca + c, d.cb⟩, ?_, ⟨rfl, h.len, ?_, ?_, ?_, ?_⟩⟩
    · bstep hru
      simp only [h1]
      have : addEdge s.edges (2 * k) c = some (flat (l.set k ⟨d.f, d.t, d.ca + c, d.cb⟩)) := by
        unfold addEdge
        rw [h.edges]
        bstep (flat_get l k d hd).1
        rw [← (flat_set l k d (d.ca + c) d.cb hd).1]
        rfl
      bstep this
      rfl
    · intro x row hrow y id
      rw [hsame (d' := ⟨d.f, d.t, d.ca + c, d.cb⟩) hd rfl rfl]
      exact h.map x row hrow y id
    · exact hltset hd rfl rfl
    · exact pairwise_set hd rfl rfl h.apart
    · intro x y
      rw [capOf_set l k d _ x y hd, h.cap, totalCap_append]
      congr 1
      unfold Chunk.cap
      simp only [hdf, hdt]
      split <;> abel
  | none =>
    cases h2 : rv.lookup u with
    | some id =>
      obtain ⟨k, d, hd, hdf, hdt, rfl⟩ := (h.map v rv hrv u id).1 h2
      refine ⟨⟨flat (l.set k ⟨d.f, d.t, d.ca, d.cb + c⟩), s.map⟩, l.set k ⟨d.f, d.t, d.ca, d.cb + c⟩, ?_, ⟨rfl, h.len, ?_, ?_, ?_, ?_⟩⟩
      · bstep hru
        simp only [h1]
        bstep hrv
        simp only [h2]
        have : addEdge s.edges (2 * k + 1) c = some (flat (l.set k ⟨d.f, d.t, d.ca, d.cb + c⟩)) := by
          unfold addEdge
          rw [h.edges]
          bstep (flat_get l k d hd).2
          rw [← (flat_set l k d d.ca (d.cb + c) hd).2]
          rfl
        bstep this
        rfl
      · intro x row hrow y id
        rw [hsame (d' := ⟨d.f, d.t, d.ca, d.cb + c⟩) hd rfl rfl]
        exact h.map x row hrow y id
      · exact hltset hd rfl rfl
      · exact pairwise_set hd rfl rfl h.apart
      · intro x y
        rw [capOf_set l k d _ x y hd, h.cap, totalCap_append]
        congr 1
        unfold Chunk.cap
        simp only [hdf, hdt]
        split <;> split <;> abel
    | none =>
      have hnew : ∀ d ∈ l, ¬ (d.f = u ∧ d.t = v) := by
        intro d hd e
        obtain ⟨k, hk⟩ := List.mem_iff_getElem?.1 hd
        have := (h.map u ru hru v (2 * k)).2 ⟨k, d, hk, e.1, e.2, rfl⟩
        rw [h1] at this; cases this
      have hnew' : ∀ d ∈ l, ¬ (d.f = v ∧ d.t = u) := by
        intro d hd e
        obtain ⟨k, hk⟩ := List.mem_iff_getElem?.1 hd
        have := (h.map v rv hrv u (2 * k)).2 ⟨k, d, hk, e.1, e.2, rfl⟩
        rw [h2] at this; cases this
      refine ⟨⟨s.edges ++ [(v, c), (u, 0)], s.map.modify u ((v, s.edges.length) :: ·)⟩, l ++ [⟨u, v, c, 0⟩], ?_, ⟨?_, ?_, ?_, ?_, ?_, ?_⟩⟩
      · bstep hru
        simp only [h1]
        bstep hrv
        simp only [h2]
        rfl
      · show s.edges ++ _ = _
        rw [h.edges, flat, flat, List.flatMap_append]
        rfl
      · show (s.map.modify u _).length = n
        rw [List.length_modify, h.len]
      · intro x row hrow y id
        have hrow : (s.map.modify u ((v, s.edges.length) :: ·))[x]? = some row := hrow
        rw [List.getElem?_modify] at hrow
        have hadd : (∃ (k : Nat) (e : Chunk T), (l ++ [⟨u, v, c, 0⟩])[k]? = some e ∧ e.f = x ∧ e.t = y ∧ id = 2 * k) ↔
            (∃ (k : Nat) (e : Chunk T), l[k]? = some e ∧ e.f = x ∧ e.t = y ∧ id = 2 * k) ∨ (u = x ∧ v = y ∧ id = 2 * l.length) := by
          constructor
          · rintro ⟨k, e, h1, h2, h3, h4⟩
            rcases Nat.lt_trichotomy k l.length with hk | hk | hk
            · rw [List.getElem?_append_left hk] at h1; exact Or.inl ⟨k, e, h1, h2, h3, h4⟩
            · rw [List.getElem?_append_right (by omega), hk] at h1
              simp at h1; subst h1
              exact Or.inr ⟨h2, h3, by rw [h4, hk]⟩
            · rw [List.getElem?_append_right (by omega), List.getElem?_eq_none (by simp; omega)] at h1; cases h1
          · rintro (⟨k, e, h1, h2⟩ | ⟨h1, h2, h3⟩)
            · exact ⟨k, e, by rw [List.getElem?_append_left (List.getElem?_eq_some_iff.1 h1).1]; exact h1, h2⟩
            · exact ⟨l.length, ⟨u, v, c, 0⟩, by simp, h1, h2, h3⟩
        rw [hadd]
        by_cases hx : u = x
        · subst hx
          rw [hru] at hrow
          simp only [if_true, Option.map_eq_map, Option.map_some, Option.some.injEq] at hrow
          subst hrow
          rw [List.lookup_cons]
          by_cases hy : y = v
          · subst hy
            simp only [beq_self_eq_true]
            rw [Option.some.injEq]
            constructor
            · intro e; exact Or.inr ⟨trivial, trivial, by rw [← e, h.edges, flat_length]⟩
            · rintro (⟨k, e, h3, h4, h5, h6⟩ | ⟨_, _, h3⟩)
              · exact absurd ⟨h4, h5⟩ (hnew e (List.mem_of_getElem? h3))
              · rw [h3, h.edges, flat_length]
          · have : (y == v) = false := by simpa using hy
            rw [this]
            simp only
            rw [h.map u ru hru y id]
            exact ⟨Or.inl, fun h => h.resolve_right fun e => hy e.2.1.symm⟩
        · simp only [hx, if_false] at hrow
          have hrow : s.map[x]? = some row := by simpa using hrow
          rw [h.map x row hrow y id]
          exact ⟨Or.inl, fun h => h.resolve_right fun e => hx e.1⟩
      · intro e he
        rcases List.mem_append.1 he with he | he
        · exact h.lt e he
        · rw [List.mem_singleton.1 he]; exact ⟨hu, hv, huv⟩
      · rw [List.pairwise_append]
        refine ⟨h.apart, List.pairwise_singleton _ _, fun d hd e he => ?_⟩
        rw [List.mem_singleton.1 he]
        exact ⟨hnew d hd, hnew' d hd⟩
      · intro x y
        rw [totalCap_append, ← h.cap]
        unfold capOf
        rw [List.map_append, List.sum_append]
        congr 1
        simp [Chunk.cap]

theorem mergeArcs_spec {n : Nat} : ∀ (arcs done : List (Nat × Nat × T)) (s : Edges T) (l : List (Chunk T)), EInv n done s l →
    (∀ a ∈ arcs, a.1 < n ∧ a.2.1 < n ∧ a.1 ≠ a.2.1) → ∃ s' l', arcs.foldlM mergeArc s = some s' ∧ EInv n (done ++ arcs) s' l' := by
  intro arcs
  induction arcs with
  | nil => intro done s l h _; exact ⟨s, l, rfl, by rwa [List.append_nil]⟩
  | cons a arcs ih =>
    intro done s l h ha
    obtain ⟨u, v, c⟩ := a
    obtain ⟨h1, h2, h3⟩ := ha (u, v, c) (by simp)
    obtain ⟨s1, l1, g1, g2⟩ := mergeArc_spec (c := c) h h1 h2 h3
    obtain ⟨s2, l2, g3, g4⟩ := ih (done ++ [(u, v, c)]) s1 l1 g2 (fun b hb => ha b (List.mem_cons_of_mem _ hb))
    refine ⟨s2, l2, ?_, by rwa [List.append_assoc] at g4⟩
    rw [List.foldlM_cons]
    bstep g1
    exact g3

/-! ### The rows -/

/-- The network with a pair of arcs appended. -/
structure Added (net net' : Net T) (c : Chunk T) (i j : Nat) : Prop where
  len : net'.length = net.length
  fst : ∀ k, arcAt net c.f k ≠ none → k < i
  snd : ∀ k, arcAt net c.t k ≠ none → k < j
  arc : ∀ x k, arcAt net' x k = if x = c.f ∧ k = i then some ⟨c.t, j, c.ca⟩ else if x = c.t ∧ k = j then some ⟨c.f, i, c.cb⟩ else arcAt net x k

omit [AddCommGroup T] [LinearOrder T] in
theorem added_spec {net : Net T} {c : Chunk T} (hf : c.f < net.length) (ht : c.t < net.length) (hne : c.f ≠ c.t) (rest : List (Nat × T)) :
    ∃ net' i j, buildNet net ((c.t, c.ca) :: (c.f, c.cb) :: rest) = buildNet net' rest ∧ Added net net' c i j := by
  obtain ⟨rf, hrf⟩ : ∃ row, net[c.f]? = some row := ⟨_, List.getElem?_eq_getElem hf⟩
  obtain ⟨rt, hrt⟩ : ∃ row, net[c.t]? = some row := ⟨_, List.getElem?_eq_getElem ht⟩
  refine ⟨(net.modify c.f (· ++ [⟨c.t, rt.length, c.ca⟩])).modify c.t (· ++ [⟨c.f, rf.length, c.cb⟩]), rf.length, rt.length, ?_, ?_, ?_, ?_, ?_⟩
  · rw [buildNet]
    bstep (show net[c.f]?.map List.length = some rf.length by rw [hrf]; rfl)
    bstep (show net[c.t]?.map List.length = some rt.length by rw [hrt]; rfl)
    rfl
  · rw [List.length_modify, List.length_modify]
  · intro k hk
    rw [arcAt_row hrf] at hk
    by_contra hc
    exact hk (List.getElem?_eq_none (by omega))
  · intro k hk
    rw [arcAt_row hrt] at hk
    by_contra hc
    exact hk (List.getElem?_eq_none (by omega))
  · intro x k
    unfold arcAt
    rw [List.getElem?_modify, List.getElem?_modify]
    by_cases h1 : c.f = x
    · subst h1
      rw [hrf]
      simp only [if_true, if_neg (Ne.symm hne), Option.map_eq_map, Option.map_some, id_map', Option.bind_some, true_and]
      rw [if_neg (fun e : c.f = c.t ∧ k = rt.length => hne e.1)]
      rcases Nat.lt_trichotomy k rf.length with hk | hk | hk
      · rw [List.getElem?_append_left hk, if_neg (by omega)]
      · subst hk; simp
      · rw [if_neg (by omega), List.getElem?_eq_none (by simp; omega), List.getElem?_eq_none (by omega)]
    · rw [if_neg (fun e : x = c.f ∧ k = rf.length => h1 e.1.symm)]
      by_cases h2 : c.t = x
      · subst h2
        rw [hrt]
        simp only [if_true, if_neg h1, Option.map_eq_map, Option.map_some, id_map', Option.bind_some, true_and]
        rcases Nat.lt_trichotomy k rt.length with hk | hk | hk
        · rw [if_neg (by omega)]; simp [List.getElem?_append_left hk]
        · subst hk; simp
        · rw [if_neg (by omega), List.getElem?_eq_none (by simp; omega), List.getElem?_eq_none (by omega)]
      · rw [if_neg (fun e : x = c.t ∧ k = rt.length => h2 e.1.symm)]
        simp [h1, h2]

omit [LinearOrder T] in
theorem Added.wf {n : Nat} {net net' : Net T} {c : Chunk T} {i j : Nat} (hw : WF n net) (h : Added net net' c i j)
    (hf : c.f < n) (ht : c.t < n) (hne : c.f ≠ c.t)
    (h1 : ∀ k a, arcAt net c.f k = some a → a.dist ≠ c.t) (h2 : ∀ k a, arcAt net c.t k = some a → a.dist ≠ c.f) :
    WF n net' ∧ ∀ u v, res net' u v = res net u v + c.cap u v := by
  have hi : arcAt net c.f i = none := by
    by_contra hc; have := h.fst i hc; omega
  have hj : arcAt net c.t j = none := by
    by_contra hc; have := h.snd j hc; omega
  have key : ∀ {x k a}, arcAt net' x k = some a → (x = c.f ∧ k = i ∧ a = ⟨c.t, j, c.ca⟩) ∨ (x = c.t ∧ k = j ∧ a = ⟨c.f, i, c.cb⟩) ∨ arcAt net x k = some a := by
    intro x k a ha
    rw [h.arc] at ha
    split at ha
    · next e => cases ha; exact Or.inl ⟨e.1, e.2, rfl⟩
    · split at ha
      · next e => cases ha; exact Or.inr (Or.inl ⟨e.1, e.2, rfl⟩)
      · exact Or.inr (Or.inr ha)
  have old : ∀ {x k a}, arcAt net x k = some a → arcAt net' x k = some a := by
    intro x k a ha
    rw [h.arc, if_neg, if_neg, ha]
    · rintro ⟨rfl, rfl⟩; rw [hj] at ha; cases ha
    · rintro ⟨rfl, rfl⟩; rw [hi] at ha; cases ha
  have newF : arcAt net' c.f i = some ⟨c.t, j, c.ca⟩ := by rw [h.arc, if_pos ⟨rfl, rfl⟩]
  have newT : arcAt net' c.t j = some ⟨c.f, i, c.cb⟩ := by rw [h.arc, if_neg (fun e => hne e.1.symm), if_pos ⟨rfl, rfl⟩]
  have hw' : WF n net' := by
    refine ⟨h.len.trans hw.len, ?_, ?_, ?_, ?_⟩
    · intro x k l a b ha hb hab
      rcases key ha with ⟨rfl, rfl, rfl⟩ | ⟨rfl, rfl, rfl⟩ | ha
      · rcases key hb with ⟨_, rfl, _⟩ | ⟨e, _, _⟩ | hb
        · rfl
        · exact absurd e hne
        · exact absurd hab.symm (h1 l b hb)
      · rcases key hb with ⟨e, _, _⟩ | ⟨_, rfl, _⟩ | hb
        · exact absurd e hne.symm
        · rfl
        · exact absurd hab.symm (h2 l b hb)
      · rcases key hb with ⟨rfl, rfl, rfl⟩ | ⟨rfl, rfl, rfl⟩ | hb
        · exact absurd hab (h1 k a ha)
        · exact absurd hab (h2 k a ha)
        · exact hw.inj ha hb hab
    · intro x k a ha
      rcases key ha with ⟨rfl, rfl, rfl⟩ | ⟨rfl, rfl, rfl⟩ | ha
      · exact ht
      · exact hf
      · exact hw.lt ha
    · intro x k a ha
      rcases key ha with ⟨rfl, rfl, rfl⟩ | ⟨rfl, rfl, rfl⟩ | ha
      · exact hne.symm
      · exact hne
      · exact hw.ne ha
    · intro x k a ha
      rcases key ha with ⟨rfl, rfl, rfl⟩ | ⟨rfl, rfl, rfl⟩ | ha
      · exact ⟨_, newT, rfl, rfl⟩
      · exact ⟨_, newF, rfl, rfl⟩
      · obtain ⟨b, hb, hb2⟩ := hw.pair ha
        exact ⟨b, old hb, hb2⟩
  refine ⟨hw', fun u v => ?_⟩
  unfold Chunk.cap
  by_cases e1 : c.f = u ∧ c.t = v
  · obtain ⟨rfl, rfl⟩ := e1
    have := res_eq hw' newF
    simp only at this
    rw [this, res_zero h1, if_pos ⟨rfl, rfl⟩, if_neg (fun e => hne e.2), zero_add, add_zero]
  · rw [if_neg e1]
    by_cases e2 : c.t = u ∧ c.f = v
    · obtain ⟨rfl, rfl⟩ := e2
      have := res_eq hw' newT
      simp only at this
      rw [this, res_zero h2, if_pos ⟨rfl, rfl⟩, zero_add, zero_add]
    · rw [if_neg e2, zero_add, add_zero]
      by_cases h0 : ∃ k a, arcAt net u k = some a ∧ a.dist = v
      · obtain ⟨k, a, ha, rfl⟩ := h0
        rw [res_eq hw ha, res_eq hw' (old ha)]
      · rw [res_zero (fun k a ha e => h0 ⟨k, a, ha, e⟩), res_zero]
        intro k a ha e
        rcases key ha with ⟨rfl, rfl, rfl⟩ | ⟨rfl, rfl, rfl⟩ | ha
        · exact e1 ⟨rfl, e⟩
        · exact e2 ⟨rfl, e⟩
        · exact h0 ⟨k, a, ha, e⟩

omit [LinearOrder T] in
theorem buildNet_spec {n : Nat} : ∀ (l : List (Chunk T)) (net : Net T), WF n net → (∀ c ∈ l, c.f < n ∧ c.t < n ∧ c.f ≠ c.t) → l.Pairwise Apart →
    (∀ c ∈ l, (∀ k a, arcAt net c.f k = some a → a.dist ≠ c.t) ∧ (∀ k a, arcAt net c.t k = some a → a.dist ≠ c.f)) →
    ∃ net', buildNet net (flat l) = some net' ∧ WF n net' ∧ ∀ u v, res net' u v = res net u v + capOf l u v := by
  intro l
  induction l with
  | nil => intro net hw _ _ _; exact ⟨net, rfl, hw, fun u v => by simp [capOf]⟩
  | cons c l ih =>
    intro net hw hlt hp hno
    obtain ⟨h1, h2, h3⟩ := hlt c (by simp)
    obtain ⟨net1, i, j, g1, g2⟩ := added_spec (net := net) (by rw [hw.len]; exact h1) (by rw [hw.len]; exact h2) h3 (flat l)
    obtain ⟨hw1, hr1⟩ := g2.wf hw h1 h2 h3 (hno c (by simp)).1 (hno c (by simp)).2
    rw [List.pairwise_cons] at hp
    have hkey : ∀ {x k a}, arcAt net1 x k = some a → (x = c.f ∧ a.dist = c.t) ∨ (x = c.t ∧ a.dist = c.f) ∨ arcAt net x k = some a := by
      intro x k a ha
      rw [g2.arc] at ha
      split at ha
      · next e => cases ha; exact Or.inl ⟨e.1, rfl⟩
      · split at ha
        · next e => cases ha; exact Or.inr (Or.inl ⟨e.1, rfl⟩)
        · exact Or.inr (Or.inr ha)
    obtain ⟨net2, q1, q2, q3⟩ := ih net1 hw1 (fun d hd => hlt d (List.mem_cons_of_mem _ hd)) hp.2 (by
      intro d hd
      obtain ⟨a1, a2⟩ := hp.1 d hd
      obtain ⟨n1, n2⟩ := hno d (List.mem_cons_of_mem _ hd)
      constructor
      · intro k a ha e
        rcases hkey ha with ⟨e1, e2⟩ | ⟨e1, e2⟩ | ha
        · exact a1 ⟨e1.symm, e2.symm.trans e⟩
        · exact a2 ⟨e2.symm.trans e, e1.symm⟩
        · exact n1 k a ha e
      · intro k a ha e
        rcases hkey ha with ⟨e1, e2⟩ | ⟨e1, e2⟩ | ha
        · exact a2 ⟨e1.symm, e2.symm.trans e⟩
        · exact a1 ⟨e2.symm.trans e, e1.symm⟩
        · exact n2 k a ha e)
    refine ⟨net2, ?_, q2, fun u v => ?_⟩
    · exact g1.trans q1
    · rw [q3, hr1, capOf, capOf, List.map_cons, List.sum_cons, add_assoc]

omit [AddCommGroup T] [LinearOrder T] in
theorem arcAt_empty (n x k : Nat) : arcAt (List.replicate n ([] : List (Arc T))) x k = none := by
  unfold arcAt
  rw [List.getElem?_replicate]
  split <;> rfl

/-- The network of a list of arcs without loops. -/
theorem network_spec {n : Nat} {arcs : List (Nat × Nat × T)} (h : ∀ a ∈ arcs, a.1 < n ∧ a.2.1 < n ∧ a.1 ≠ a.2.1) :
    ∃ net, network arcs n = some net ∧ WF n net ∧ ∀ u v, res net u v = totalCap arcs u v := by
  have h0 : EInv n ([] : List (Nat × Nat × T)) ⟨[], List.replicate n []⟩ [] := by
    refine ⟨rfl, by simp, ?_, by simp, List.Pairwise.nil, fun _ _ => rfl⟩
    intro u row hrow v id
    have hrow : (List.replicate n [])[u]? = some row := hrow
    rw [List.getElem?_replicate] at hrow
    split at hrow
    · cases hrow; simp
    · cases hrow
  obtain ⟨s, l, h1, h2⟩ := mergeArcs_spec arcs [] _ [] h0 h
  have hw : WF n (List.replicate n ([] : List (Arc T))) := by
    refine ⟨by simp, ?_, ?_, ?_, ?_⟩ <;> intros <;> rename_i ha <;> first | (rw [arcAt_empty] at ha; cases ha) | skip
    rename_i _ _ _ _ h1 _
    rw [arcAt_empty] at h1; cases h1
  obtain ⟨net, g1, g2, g3⟩ := buildNet_spec l _ hw h2.lt h2.apart (by
    intro c _
    constructor <;> intro k a ha <;> rw [arcAt_empty] at ha <;> cases ha)
  refine ⟨net, ?_, g2, fun u v => ?_⟩
  · unfold network
    bstep h1
    rw [h2.edges]
    exact g1
  · rw [g3, h2.cap, res_zero (fun k a ha => by rw [arcAt_empty] at ha; cases ha), zero_add]
    rfl

end Verif.Flow
