import Verif.DisjointSet.Lemmas
/-!
# Properties C01-C04, C59: `DisjointSet`

All theorems quantify over every history of client calls; `fuel` is the recursion depth granted to `find_set`, and
`log2 n + 1` is always enough (which is C59).
-/
namespace Verif.DisjointSet

/-- C01: after any in-range history, two successive `find_set` queries agree iff the elements are connected by merges. -/
theorem c01_find_iff_connected (n fuel : Nat) (hf : Nat.log 2 n < fuel) (ops : List Op) (h : InRange n ops) :
    ∃ s, run fuel (new n) ops = some s ∧ ∀ x < n, ∀ y < n,
      ∃ s₁ r s₂ r', findSet fuel s x = some (s₁, r) ∧ findSet fuel s₁ y = some (s₂, r') ∧
        (r = r' ↔ Conn (mergedPairs ops) x y) := by
  obtain ⟨s, e, hi, hr⟩ := run_ok hf ops (new n) [] (new_inv n) (new_repr n) h
  rw [List.append_nil] at hr
  refine ⟨s, e, fun x hx y hy => ?_⟩
  obtain ⟨s1, r, e1, h1⟩ := findSet_ok fuel s x hi hx (by omega)
  obtain ⟨s2, r', e2, h2⟩ := findSet_ok fuel s1 y h1.inv hy (by omega)
  refine ⟨s1, r, s2, r', e1, e2, ?_⟩
  have hy' := (h1.same y r').1 h2.root
  rw [← hr x hx y hy]
  constructor
  · rintro rfl; exact ⟨r, h1.root, hy'⟩
  · rintro ⟨q, hq, hq'⟩
    rw [RootOf.unique h1.root hq, RootOf.unique hy' hq']

/-- C02: `n_groups` is the number of classes. -/
theorem c02_n_groups (n fuel : Nat) (hf : Nat.log 2 n < fuel) (ops : List Op) (h : InRange n ops) :
    ∃ s, run fuel (new n) ops = some s ∧ s.nGroups = numClasses n (mergedPairs ops) := by
  obtain ⟨s, e, hi, hr⟩ := run_ok hf ops (new n) [] (new_inv n) (new_repr n) h
  rw [List.append_nil] at hr
  exact ⟨s, e, by rw [hi.groups, card_roots hi hr]⟩

/-- C03: `output` is the list of classes: keys are distinct and belong to their class, every class is listed in
ascending order, a class contains with an element exactly the elements connected to it, and every element occurs in
exactly one class. -/
theorem c03_output_partition (n fuel : Nat) (hf : Nat.log 2 n < fuel) (ops : List Op) (h : InRange n ops) :
    ∃ s s' m, run fuel (new n) ops = some s ∧ output fuel s = some (s', m) ∧
      (m.map Prod.fst).Nodup ∧
      m.length = numClasses n (mergedPairs ops) ∧
      (∀ k v, (k, v) ∈ m → k ∈ v ∧ v.Pairwise (· < ·) ∧
        ∀ x ∈ v, x < n ∧ (∃ t, findSet fuel s' x = some (t, k)) ∧
          ∀ y < n, (y ∈ v ↔ Conn (mergedPairs ops) x y)) ∧
      (∀ x < n, ∃! kv, kv ∈ m ∧ x ∈ kv.2) := by
  classical
  obtain ⟨s, e, hi, hr⟩ := run_ok hf ops (new n) [] (new_inv n) (new_repr n) h
  rw [List.append_nil] at hr
  obtain ⟨s', m, e', hi', _, hsame, ho⟩ := output_ok hf hi
  have hmem : ∀ k v, (k, v) ∈ m → ∀ x, x ∈ v ↔ x < n ∧ RootOf s.pa x k := by
    intro k v hkv x
    obtain ⟨_, rfl⟩ := (ho.mem k v).1 hkv
    simp
  have hkeys : ∀ k, k ∈ m.map Prod.fst ↔ k ∈ roots n s.pa := by
    intro k
    rw [ho.key_mem]
    constructor
    · intro hk
      obtain ⟨x, hx⟩ := List.exists_mem_of_ne_nil _ hk
      simp only [List.mem_filter, List.mem_range, decide_eq_true_eq] at hx
      simp [roots, (rank_le_root hi hx.2 hx.1).1, hx.2.isRoot]
    · intro hk
      simp only [roots, Finset.mem_filter, Finset.mem_range] at hk
      exact List.ne_nil_of_mem (a := k) (by simp [hk.1, RootOf.root hk.2])
  refine ⟨s, s', m, e, e', ho.nodup, ?_, ?_, ?_⟩
  · rw [← card_roots hi hr]
    have : (m.map Prod.fst).toFinset = roots n s.pa := by ext k; rw [List.mem_toFinset, hkeys]
    rw [← this, List.toFinset_card_of_nodup ho.nodup, List.length_map]
  · intro k v hkv
    have hk := (hkeys k).1 (List.mem_map.2 ⟨_, hkv, rfl⟩)
    simp only [roots, Finset.mem_filter, Finset.mem_range] at hk
    refine ⟨(hmem k v hkv k).2 ⟨hk.1, .root hk.2⟩, ?_, ?_⟩
    · obtain ⟨_, rfl⟩ := (ho.mem k v).1 hkv
      exact List.Pairwise.filter _ List.pairwise_lt_range
    · intro x hx
      have hx' := (hmem k v hkv x).1 hx
      refine ⟨hx'.1, ?_, ?_⟩
      · obtain ⟨t, r, et, ht⟩ := findSet_ok fuel s' x hi' hx'.1 (by omega)
        have := RootOf.unique ((hsame x r).1 ht.root) hx'.2
        subst this; exact ⟨t, et⟩
      · intro y hy
        rw [hmem k v hkv y, ← hr x hx'.1 y hy]
        constructor
        · intro hy'; exact ⟨k, hx'.2, hy'.2⟩
        · rintro ⟨q, h1, h2⟩
          rw [RootOf.unique h1 hx'.2] at h2
          exact ⟨hy, h2⟩
  · intro x hx
    obtain ⟨r, _, hrr⟩ := hi.exists_root hx
    have hne : (List.range n).filter (fun y => RootOf s.pa y r) ≠ [] :=
      List.ne_nil_of_mem (a := x) (by simp [hx, hrr])
    refine ⟨(r, _), ⟨(ho.mem r _).2 ⟨hne, rfl⟩, by simp [hx, hrr]⟩, ?_⟩
    rintro ⟨k, v⟩ ⟨hkv, hxv⟩
    have := RootOf.unique ((hmem k v hkv x).1 hxv).2 hrr
    subst this
    obtain ⟨_, rfl⟩ := (ho.mem k v).1 hkv
    rfl

/-- C04: queries are transparent.  A query terminates, answers a fixed point, and removing all queries from a history
leaves the same number of groups and the same answers to every comparison. -/
theorem c04_queries_transparent (n fuel : Nat) (hf : Nat.log 2 n < fuel) (ops : List Op) (h : InRange n ops) :
    ∃ s t, run fuel (new n) ops = some s ∧
      run fuel (new n) (ops.filter (fun o => o matches .merge _ _)) = some t ∧
      s.nGroups = t.nGroups ∧
      (∀ x < n, ∃ s' r s'', findSet fuel s x = some (s', r) ∧ findSet fuel s' r = some (s'', r)) ∧
      (∀ x < n, ∀ y < n, ∀ s₁ r₁ s₂ r₂ t₁ q₁ t₂ q₂,
        findSet fuel s x = some (s₁, r₁) → findSet fuel s₁ y = some (s₂, r₂) →
        findSet fuel t x = some (t₁, q₁) → findSet fuel t₁ y = some (t₂, q₂) → (r₁ = r₂ ↔ q₁ = q₂)) := by
  have hmp : mergedPairs (ops.filter (fun o => o matches .merge _ _)) = mergedPairs ops := by
    clear h
    induction ops with
    | nil => rfl
    | cons o ops ih => cases o <;> simp [mergedPairs, ih]
  have hin : InRange n (ops.filter (fun o => o matches .merge _ _)) :=
    fun o ho => h o (List.mem_filter.1 ho).1
  obtain ⟨s, e, hi, hr⟩ := run_ok hf ops (new n) [] (new_inv n) (new_repr n) h
  obtain ⟨t, e', hi', hr'⟩ := run_ok hf _ (new n) [] (new_inv n) (new_repr n) hin
  rw [List.append_nil] at hr hr'
  rw [hmp] at hr'
  refine ⟨s, t, e, e', by rw [hi.groups, hi'.groups, card_roots hi hr, card_roots hi' hr'], ?_, ?_⟩
  · intro x hx
    obtain ⟨s1, r, e1, h1⟩ := findSet_ok fuel s x hi hx (by omega)
    have hrn := (rank_le_root hi h1.root hx).1
    obtain ⟨s2, r', e2, h2⟩ := findSet_ok fuel s1 r h1.inv hrn (by omega)
    have : r' = r := RootOf.of_isRoot (((h1.same r r).2 (.root h1.root.isRoot)).isRoot) h2.root
    subst this
    exact ⟨s1, _, s2, e1, e2⟩
  · have key : ∀ {u : DS}, Inv n u → Repr n u (mergedPairs ops) → ∀ x < n, ∀ y < n, ∀ u₁ r₁ u₂ r₂,
        findSet fuel u x = some (u₁, r₁) → findSet fuel u₁ y = some (u₂, r₂) → (r₁ = r₂ ↔ Conn (mergedPairs ops) x y) := by
      intro u hu hru x hx y hy u1 r1 u2 r2 f1 f2
      obtain ⟨s1, r, e1, h1⟩ := findSet_ok fuel u x hu hx (by omega)
      rw [e1] at f1; cases f1
      obtain ⟨s2, r', e2, h2⟩ := findSet_ok fuel _ y h1.inv hy (by omega)
      rw [e2] at f2; cases f2
      have hy' := (h1.same y r2).1 h2.root
      rw [← hru x hx y hy]
      constructor
      · rintro rfl; exact ⟨_, h1.root, hy'⟩
      · rintro ⟨q, hq, hq'⟩
        rw [RootOf.unique h1.root hq, RootOf.unique hy' hq']
    intro x hx y hy s₁ r₁ s₂ r₂ t₁ q₁ t₂ q₂ f1 f2 g1 g2
    rw [key hi hr x hx y hy _ _ _ _ f1 f2, key hi' hr' x hx y hy _ _ _ _ g1 g2]

/-- C59: union by rank bounds the recursion: with depth `log2 n + 1` no call of any in-range history fails. -/
theorem c59_recursion_depth_log (n : Nat) (ops : List Op) (h : InRange n ops) :
    (run (Nat.log 2 n + 1) (new n) ops).isSome := by
  obtain ⟨s, e, _⟩ := run_ok (Nat.lt_succ_self _) ops (new n) [] (new_inv n) (new_repr n) h
  simp [e]

/-! Concrete cases: five elements, three merges (one redundant), interleaved queries. -/

/-- A history meeting the hypotheses. -/
def exampleOps : List Op := [.merge 0 1, .find 1, .merge 3 4, .output, .merge 1 0, .merge 4 1]

example : InRange 5 exampleOps := by
  intro op hop; simp [exampleOps] at hop; rcases hop with rfl | rfl | rfl | rfl | rfl | rfl <;> simp

example : (run (Nat.log 2 5 + 1) (new 5) exampleOps).map (·.nGroups) = some 2 := by decide +kernel

example : ((run (Nat.log 2 5 + 1) (new 5) exampleOps).bind (output (Nat.log 2 5 + 1))).map (·.2) =
    some [(1, [0, 1, 3, 4]), (2, [2])] := by decide +kernel

example : Conn (mergedPairs exampleOps) 0 3 :=
  .trans (.pair (by decide)) (.trans (.symm (.pair (y := 1) (x := 4) (by decide))) (.symm (.pair (by decide))))

end Verif.DisjointSet
