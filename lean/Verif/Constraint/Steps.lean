import Verif.Constraint.Line
/-!
# One step of the walk along a side
-/
namespace Verif.Constraint
open InSphere (Pt orient3d)
open Tet (Mesh TriFace)
open Delaunay (Comb SolidTet IsDelaunay pt get_pt)
open Geom

variable {K : Type} [Field K] [LinearOrder K] [IsStrictOrderedRing K] {m : Mesh} {pts : List (Pt K)}

omit [IsStrictOrderedRing K] [Field K] [LinearOrder K] in
theorem firstM_spec {α β : Type} {f : α → Option (Option β)} {l : List α} {G : β → Prop} (h : ∀ a ∈ l, ∃ r, f a = some r ∧ ∀ b, r = some b → G b) :
    ∃ r, firstM f l = some r ∧ (∀ b, r = some b → G b) ∧ ((∃ a ∈ l, ∃ b, f a = some (some b)) → ∃ b, r = some b) := by
  induction l with
  | nil => exact ⟨none, rfl, by simp, by simp⟩
  | cons a l ih =>
    obtain ⟨r, e, hr⟩ := h a (by simp)
    cases r with
    | some b => exact ⟨some b, by simp [firstM, e], by simpa using hr, fun _ => ⟨b, rfl⟩⟩
    | none =>
      obtain ⟨r, e', h1, h2⟩ := ih fun a ha => h a (by simp [ha])
      refine ⟨r, by simp [firstM, e, e'], h1, ?_⟩
      rintro ⟨c, hc, b, hb⟩
      rcases List.mem_cons.1 hc with rfl | hc
      · rw [e] at hb; cases hb
      · exact h2 ⟨c, hc, b, hb⟩

theorem of_decide {o : Option Bool} {Q : Prop} {_ : Decidable Q} (h : o = some (decide Q)) : ∃ r, o = some r ∧ (r = true ↔ Q) := ⟨_, h, decide_eq_true_iff⟩

/-- The segment from `a` to `b` leaves the tetrahedron `t` at the parameter `s`, in the open face spanned by `l`. -/
structure Leaves (pts : List (Pt K)) (m : Mesh) (a b t : Nat) (x : Tet.Tet) (l : List Nat) (s : K) : Prop where
  sol : Sol pts m t x
  nodup : l.Nodup
  short : l.length ≤ 3
  le1 : s ≤ 1
  carry : ∀ v, v ∈ l ↔ 0 < wt pts x v (lerp (pt pts a) (pt pts b) s)
  inn : In pts x (lerp (pt pts a) (pt pts b) s)
  beyond : ∀ u, s < u → u ≤ 1 → ¬ In pts x (lerp (pt pts a) (pt pts b) u)

/-- What a step from the parameter `s` has to find. -/
def Goal (pts : List (Pt K)) (m : Mesh) (a b : Nat) (s : K) (o : Nat × List Nat) : Prop :=
  ∃ x r, s < r ∧ Leaves pts m a b o.1 x o.2 r ∧ In pts x (lerp (pt pts a) (pt pts b) s)

/-- The tetrahedron contains the next piece of the segment. -/
def Ahead (pts : List (Pt K)) (a b : Nat) (x : Tet.Tet) (s : K) : Prop :=
  ∃ r, s < r ∧ r ≤ 1 ∧ In pts x (lerp (pt pts a) (pt pts b) r) ∧ (r < 1 → ∃ k, wt pts x k (lerp (pt pts a) (pt pts b) r) = 0 ∧ 0 < wt pts x k (lerp (pt pts a) (pt pts b) s))

section
variable {a b : Nat}
local notation "P" => lerp (pt pts a) (pt pts b)

section
variable (hD : IsDelaunay pts m) {t : Nat} {x : Tet.Tet} {p q u k : Nat} {s r : K}
include hD

theorem good_of (S : Sol pts m t x) {l : List Nat} (hn : l.Nodup) (hlen : l.length ≤ 3) (hs : In pts x (P s)) (hsr : s < r) (hr : r ≤ 1) (hl : ∀ v, v ∈ l ↔ 0 < wt pts x v (P r)) (hin : In pts x (P r))
    (hk : r = 1 ∨ 0 < wt pts x k (P s) ∧ wt pts x k (P r) = 0) : Goal pts m a b s (t, l) := by
  refine ⟨x, r, hsr, ⟨S, hn, hlen, hr, hl, hin, fun w hw hw1 h => ?_⟩, hs⟩
  rcases hk with rfl | ⟨k1, k2⟩
  · linarith
  · rw [S.aff hD] at k1 k2
    have := aff_neg_after hsr k1 k2 hw
    have h := h k
    rw [S.aff hD] at h
    linarith

omit [IsStrictOrderedRing K] in
theorem Four.in_of (F : Four x p q u k) {y : Pt K} (h1 : 0 ≤ wt pts x p y) (h2 : 0 ≤ wt pts x q y) (h3 : 0 ≤ wt pts x u y) (h4 : 0 ≤ wt pts x k y) : In pts x y := by
  intro v
  by_cases hv : ∃ i, x.data i = v
  · rcases (F.mem v).1 hv with rfl | rfl | rfl | rfl <;> assumption
  · push Not at hv
    rw [wt_none hv]

omit [IsStrictOrderedRing K] in
theorem Four.carrier (F : Four x p q u k) {v : Nat} {y : Pt K} (h : 0 < wt pts x v y) : v = p ∨ v = q ∨ v = u ∨ v = k := (F.mem v).1 (corner_of_wt h.ne')

theorem good3 (F : Four x p q u k) (S : Sol pts m t x) (hs : In pts x (P s)) (hsr : s < r) (hr : r ≤ 1) (h1 : 0 < wt pts x p (P r)) (h2 : 0 < wt pts x q (P r)) (h3 : 0 < wt pts x u (P r))
    (h4 : wt pts x k (P r) = 0) (hk : 0 < wt pts x k (P s)) : Goal pts m a b s (t, [p, q, u]) := by
  obtain ⟨n1, n2, n3, n4, n5, n6⟩ := F.ne hD S
  refine good_of hD S (by simp [n1, n2, n4]) (by simp) hs hsr hr (fun v => ⟨fun hv => ?_, fun hv => ?_⟩) (F.in_of hD h1.le h2.le h3.le h4.ge) (.inr ⟨hk, h4⟩)
  · simp only [List.mem_cons, List.not_mem_nil, or_false] at hv
    rcases hv with rfl | rfl | rfl <;> assumption
  · rcases F.carrier hD hv with rfl | rfl | rfl | rfl
    · simp
    · simp
    · simp
    · rw [h4] at hv; exact absurd hv (lt_irrefl _)

theorem good2 (F : Four x p q u k) (S : Sol pts m t x) (hs : In pts x (P s)) (hsr : s < r) (hr : r ≤ 1) (h1 : 0 < wt pts x p (P r)) (h2 : 0 < wt pts x q (P r)) (h3 : wt pts x u (P r) = 0)
    (h4 : wt pts x k (P r) = 0) (hk : 0 < wt pts x k (P s)) : Goal pts m a b s (t, [p, q]) := by
  obtain ⟨n1, n2, n3, n4, n5, n6⟩ := F.ne hD S
  refine good_of hD S (by simp [n1]) (by simp) hs hsr hr (fun v => ⟨fun hv => ?_, fun hv => ?_⟩) (F.in_of hD h1.le h2.le h3.ge h4.ge) (.inr ⟨hk, h4⟩)
  · simp only [List.mem_cons, List.not_mem_nil, or_false] at hv
    rcases hv with rfl | rfl <;> assumption
  · rcases F.carrier hD hv with rfl | rfl | rfl | rfl
    · simp
    · simp
    · rw [h3] at hv; exact absurd hv (lt_irrefl _)
    · rw [h4] at hv; exact absurd hv (lt_irrefl _)

theorem good1 (F : Four x p q u k) (S : Sol pts m t x) (hs : In pts x (P s)) (hsr : s < r) (hr : r ≤ 1) (h1 : pt pts p = P r) (hk : r = 1 ∨ 0 < wt pts x k (P s)) : Goal pts m a b s (t, [p]) := by
  obtain ⟨c1, c2, c3, c4⟩ := F.corner hD S
  rw [h1] at c1 c2 c3 c4
  refine good_of hD S (by simp) (by simp) hs hsr hr (fun v => ⟨fun hv => ?_, fun hv => ?_⟩) (F.in_of hD (by rw [c1]; exact zero_le_one) c2.ge c3.ge c4.ge) (hk.imp id fun h => ⟨h, c4⟩)
  · simp only [List.mem_singleton] at hv
    rw [hv, c1]; exact one_pos
  · rcases F.carrier hD hv with rfl | rfl | rfl | rfl
    · simp
    · rw [c2] at hv; exact absurd hv (lt_irrefl _)
    · rw [c3] at hv; exact absurd hv (lt_irrefl _)
    · rw [c4] at hv; exact absurd hv (lt_irrefl _)

theorem goodb (F : Four x b q u k) (S : Sol pts m t x) (hs : In pts x (P s)) (hsr : s < 1) : Goal pts m a b s (t, [b]) :=
  good1 hD F S hs hsr le_rfl (lerp_one _ _).symm (.inl rfl)

omit [IsStrictOrderedRing K] in
theorem Four.of_corners {i : Fin 4} {v : Nat} (S : Sol pts m t x) (hi : x.data i = v) : ∃ p q u, (corners x).filter (· ≠ v) = [p, q, u] ∧ Four x p q u v := by
  subst hi
  have inj : ∀ i j, x.data i = x.data j ↔ i = j := fun i j => (S.inj hD).eq_iff
  fin_cases i
  · exact ⟨x.data 1, x.data 2, x.data 3, by simp [corners, List.filter_cons, inj], by unfold Four corners; exact (List.perm_append_comm (l₁ := [x.data 1, x.data 2, x.data 3]) (l₂ := [x.data 0]))⟩
  · exact ⟨x.data 0, x.data 2, x.data 3, by simp [corners, List.filter_cons, inj], by unfold Four corners; exact (List.perm_append_comm (l₁ := [x.data 2, x.data 3]) (l₂ := [x.data 1])).cons _⟩
  · exact ⟨x.data 0, x.data 1, x.data 3, by simp [corners, List.filter_cons, inj], by unfold Four corners; exact ((List.Perm.swap _ _ _).cons _).cons _⟩
  · exact ⟨x.data 0, x.data 1, x.data 2, by simp [corners, List.filter_cons, inj], by unfold Four corners; exact .refl _⟩

omit [IsStrictOrderedRing K] in
theorem Four.exists (S : Sol pts m t x) {v : Nat} (hv : ∃ i, x.data i = v) : ∃ q u k, Four x v q u k := by
  obtain ⟨i, hi⟩ := hv
  obtain ⟨p, q, u, -, F⟩ := Four.of_corners hD S hi
  exact ⟨p, q, u, F.swap23.swap12.swap01⟩

/-! ### From a vertex -/

omit hD in
theorem lerp_lerp (A B : Pt K) (s w : K) : lerp (lerp A B s) B w = lerp A B (s + w * (1 - s)) := by
  apply pt_ext <;> simp only [lerp] <;> ring

omit hD in
/-- The parameter on the rest of the segment. -/
theorem rest_param {s r : K} (h1 : s < 1) : s + ((r - s) / (1 - s)) * (1 - s) = r := by
  have : 1 - s ≠ 0 := by intro h; linarith
  field_simp
  ring

/-- An edge opposite to the vertex. -/
theorem vertex_edge (F : Four x p q u k) (S : Sol pts m t x) (hb : b < pts.length) (hk : pt pts k = P s) (h1 : s < 1) :
    ∃ r, (do if ← vSegCross pts k b p q then return some [p, q] else return none : Option (Option (List Nat))) = some r ∧ (∀ l, r = some l → Goal pts m a b s (t, l)) ∧
      ((∃ r', s < r' ∧ r' < 1 ∧ 0 < wt pts x p (P r') ∧ 0 < wt pts x q (P r') ∧ wt pts x u (P r') = 0 ∧ wt pts x k (P r') = 0) → ∃ l, r = some l) := by
  obtain ⟨g1, g2, g3, g4⟩ := F.lt hD S
  have hc := F.swap23.swap12.swap01.corner hD S
  have hin : In pts x (P s) := by
    rw [← hk]
    exact F.in_of hD hc.2.1.ge hc.2.2.1.ge hc.2.2.2.ge (by rw [hc.1]; exact zero_le_one)
  obtain ⟨c, e, hcr⟩ := of_decide (segCross_eq hD F S g4 hb)
  simp only [hk, lerp_lerp] at hcr
  simp only [e, Option.bind_eq_bind, Option.bind_some, Option.pure_def]
  rw [hk] at hc
  split
  · next h =>
    rw [hcr] at h
    obtain ⟨-, w, w0, w1, z1, z2, z3, z4⟩ := h
    refine ⟨_, rfl, ?_, fun _ => ⟨_, rfl⟩⟩
    rintro l ⟨⟩
    have : 0 < w * (1 - s) := mul_pos w0 (by linarith)
    have : w * (1 - s) < 1 - s := mul_lt_of_lt_one_left (by linarith) w1
    exact good2 hD F S hin (by linarith) (by linarith) z1 z2 z3 z4 (by rw [hc.1]; exact one_pos)
  · next h =>
    rw [hcr] at h
    refine ⟨_, rfl, by simp, ?_⟩
    rintro ⟨r, r1, r2, z⟩
    refine absurd ⟨?_, (r - s) / (1 - s), div_pos (by linarith) (by linarith), by rw [div_lt_one (by linarith)]; linarith, ?_⟩ h
    · rw [hc.1]; exact fun h => one_ne_zero h.2
    · rw [rest_param h1]; exact z

omit [IsStrictOrderedRing K] in
theorem Four.sum_one (F : Four x p q u k) (S : Sol pts m t x) (y : Pt K) : wt pts x p y + wt pts x q y + wt pts x u y + wt pts x k y = 1 := (F.expand hD S y).1

omit [IsStrictOrderedRing K] in
/-- A point with one coordinate is that corner. -/
theorem Four.at_corner (F : Four x p q u k) (S : Sol pts m t x) {y : Pt K} (h1 : wt pts x q y = 0) (h2 : wt pts x u y = 0) (h3 : wt pts x k y = 0) : pt pts p = y := by
  obtain ⟨hs, hx, hy, hz⟩ := F.expand hD S y
  rw [h1, h2, h3] at hs hx hy hz
  have hp : wt pts x p y = 1 := by linear_combination hs
  rw [hp] at hx hy hz
  cases y
  simp only at hx hy hz
  rw [hx, hy, hz]
  cases pt pts p
  simp

theorem not_b (ha : a < pts.length) (hb : b < pts.length) (hab : a ≠ b) {v : Nat} (hv : pt pts v = P s) (h1 : s < 1) : v ≠ b := by
  rintro rfl
  apply hab
  refine pt_inj hD ha hb ?_
  have hs : 1 - s ≠ 0 := by intro h; linarith
  have hx := congrArg Pt.x hv
  have hy := congrArg Pt.y hv
  have hz := congrArg Pt.z hv
  simp only [lerp] at hx hy hz
  refine pt_ext (mul_left_cancel₀ hs ?_) (mul_left_cancel₀ hs ?_) (mul_left_cancel₀ hs ?_) <;> linarith

/-- A step from a vertex. -/
theorem vertexStep_spec (ha : a < pts.length) (hb : b < pts.length) (hab : a ≠ b) (S : Sol pts m t x) {v : Nat} (hv : ∃ i, x.data i = v) (hvP : pt pts v = P s) (h1 : s < 1) (prev : Option Nat) :
    ∃ o, vertexStep m pts v b prev t = some o ∧ (∀ o', o = some o' → Goal pts m a b s o') ∧ (some t ≠ prev → Ahead pts a b x s → ∃ o', o = some o') := by
  unfold vertexStep
  split
  · next h => exact ⟨none, rfl, by simp, fun h' => absurd h h'⟩
  rw [S.get]
  simp only [Option.bind_eq_bind, Option.bind_some, Option.pure_def]
  have hvn : v < pts.length := by obtain ⟨i, rfl⟩ := hv; exact S.lt hD i
  have hvb := not_b hD ha hb hab hvP h1
  have hin : In pts x (P s) := by
    intro w
    rw [← hvP, S.wt_corner hD hv]; split <;> simp
  split
  · next hi =>
    refine ⟨_, rfl, ?_, fun _ _ => ⟨_, rfl⟩⟩
    rintro o ⟨⟩
    have hbx : ∃ i, x.data i = b := by
      unfold Tet.Tet.index at hi
      split_ifs at hi with c0 c1 c2 c3
      exacts [⟨0, c0⟩, ⟨1, c1⟩, ⟨2, c2⟩, ⟨3, c3⟩, absurd hi (by simp)]
    obtain ⟨q, u, k, F⟩ := Four.exists hD S hbx
    exact goodb hD F S hin h1
  next hi =>
  have hbx : ¬ ∃ i, x.data i = b := by
    intro h
    obtain ⟨p, hp, -⟩ := Tet.Mesh.index_spec h
    rw [hp] at hi; exact hi rfl
  obtain ⟨i, hi'⟩ := hv
  obtain ⟨p, q, u, hfil, F⟩ := Four.of_corners hD S hi'
  obtain ⟨g1, g2, g3, g4⟩ := F.lt hD S
  rw [hfil]
  simp only
  have hc := F.swap23.swap12.swap01.corner hD S
  rw [hvP] at hc
  have hpos : 0 < wt pts x v (P s) := by rw [hc.1]; exact one_pos
  obtain ⟨c1, e1, hc1⟩ := of_decide (segInnerTri_eq hD F S g4 hb)
  simp only [hvP, lerp_lerp] at hc1
  rw [e1]
  simp only [Option.bind_some]
  have hpar : ∀ w : K, 0 < w → w < 1 → s < s + w * (1 - s) ∧ s + w * (1 - s) ≤ 1 := by
    intro w w0 w1
    have h1 : 0 < w * (1 - s) := mul_pos w0 (by linarith)
    have h2 : w * (1 - s) < 1 - s := mul_lt_of_lt_one_left (by linarith) w1
    exact ⟨by linarith, by linarith⟩
  have hback : ∀ r : K, s < r → r < 1 → 0 < (r - s) / (1 - s) ∧ (r - s) / (1 - s) < 1 := by
    intro r r0 r1
    exact ⟨div_pos (by linarith) (by linarith), by rw [div_lt_one (by linarith)]; linarith⟩
  split
  · next h =>
    obtain ⟨-, w, w0, w1, z1, z2, z3, z4⟩ := hc1.1 h
    refine ⟨_, rfl, ?_, fun _ _ => ⟨_, rfl⟩⟩
    rintro o ⟨⟩
    exact good3 hD F S hin (hpar w w0 w1).1 (hpar w w0 w1).2 z1 z2 z3 z4 hpos
  next hno1 =>
  rw [hc1] at hno1
  obtain ⟨d1, f1, s1, k1⟩ := vertex_edge hD F S hb hvP h1
  obtain ⟨d2, f2, s2, k2⟩ := vertex_edge hD F.swap01.swap12 S hb hvP h1
  obtain ⟨d3, f3, s3, k3⟩ := vertex_edge hD F.swap12.swap01 S hb hvP h1
  obtain ⟨rE, eE, hE, cE⟩ := firstM_spec (f := fun (e : Nat × Nat) => do if ← vSegCross pts v b e.1 e.2 then return some [e.1, e.2] else return none) (l := [(p, q), (q, u), (u, p)])
    (G := fun l => Goal pts m a b s (t, l)) (by
      intro e he
      simp only [List.mem_cons, List.not_mem_nil, or_false] at he
      rcases he with rfl | rfl | rfl
      exacts [⟨d1, f1, s1⟩, ⟨d2, f2, s2⟩, ⟨d3, f3, s3⟩])
  simp only [Option.bind_eq_bind, Option.pure_def] at eE
  rw [eE]
  simp only [Option.bind_some]
  cases rE with
  | some l =>
    refine ⟨_, rfl, ?_, fun _ _ => ⟨_, rfl⟩⟩
    rintro o ⟨⟩
    exact hE _ rfl
  | none =>
  have key : ∀ {o q u : Nat}, Four x o q u v → ∃ r, (do if ← vInInnerSeg pts o v b then return some [o] else return none : Option (Option (List Nat))) = some r ∧
      (∀ l, r = some l → Goal pts m a b s (t, l)) ∧ ((∃ r', s < r' ∧ r' < 1 ∧ wt pts x q (P r') = 0 ∧ wt pts x u (P r') = 0 ∧ wt pts x v (P r') = 0) → ∃ l, r = some l) := by
    intro o q u F
    obtain ⟨c, e, hc⟩ := of_decide (inInnerSeg_eq hD (F.lt hD S).1 hvn hb hvb)
    simp only [hvP, lerp_lerp] at hc
    simp only [e, Option.bind_eq_bind, Option.bind_some, Option.pure_def]
    split
    · next h =>
      obtain ⟨w, w0, w1, z⟩ := hc.1 h
      refine ⟨_, rfl, ?_, fun _ => ⟨_, rfl⟩⟩
      rintro l ⟨⟩
      exact good1 hD F S hin (hpar w w0 w1).1 (hpar w w0 w1).2 z (.inr hpos)
    · next h =>
      refine ⟨_, rfl, by simp, ?_⟩
      rintro ⟨r, r0, r1, z1, z2, z3⟩
      exact absurd (hc.2 ⟨(r - s) / (1 - s), (hback r r0 r1).1, (hback r r0 r1).2, by rw [rest_param h1]; exact F.at_corner hD S z1 z2 z3⟩) h
  obtain ⟨m1, i1, t1, l1⟩ := key F
  obtain ⟨m2, i2, t2, l2⟩ := key F.swap01
  obtain ⟨m3, i3, t3, l3⟩ := key F.swap12.swap01
  obtain ⟨rV, eV, hV, cV⟩ := firstM_spec (f := fun o => do if ← vInInnerSeg pts o v b then return some [o] else return none) (l := [p, q, u])
    (G := fun l => Goal pts m a b s (t, l)) (by
      intro e he
      simp only [List.mem_cons, List.not_mem_nil, or_false] at he
      rcases he with rfl | rfl | rfl
      exacts [⟨m1, i1, t1⟩, ⟨m2, i2, t2⟩, ⟨m3, i3, t3⟩])
  simp only [Option.bind_eq_bind, Option.pure_def] at eV
  rw [eV]
  simp only [Option.bind_some]
  cases rV with
  | some l =>
    refine ⟨_, rfl, ?_, fun _ _ => ⟨_, rfl⟩⟩
    rintro o ⟨⟩
    exact hV _ rfl
  | none =>
  refine ⟨none, rfl, by simp, ?_⟩
  rintro - ⟨r, r0, r1, hr, hk⟩
  exfalso
  rcases lt_or_eq_of_le r1 with r1' | rfl
  swap
  · rw [lerp_one] at hr
    exact hbx (S.corner_of_in hD hb hr)
  obtain ⟨k, hk1, hk2⟩ := hk r1'
  have hkv : k = v := by
    rcases F.carrier hD hk2 with rfl | rfl | rfl | rfl
    · rw [hc.2.1] at hk2; exact absurd hk2 (lt_irrefl _)
    · rw [hc.2.2.1] at hk2; exact absurd hk2 (lt_irrefl _)
    · rw [hc.2.2.2] at hk2; exact absurd hk2 (lt_irrefl _)
    · rfl
  subst hkv
  have hsum := F.sum_one hD S (P r)
  have nE : ∀ e ∈ [(p, q), (q, u), (u, p)], ∀ l, (do if ← vSegCross pts k b e.1 e.2 then return some [e.1, e.2] else return none : Option (Option (List Nat))) ≠ some (some l) := by
    intro e he l hl
    obtain ⟨b, hb⟩ := cE ⟨e, he, l, hl⟩
    cases hb
  have nV : ∀ o ∈ [p, q, u], ∀ l, (do if ← vInInnerSeg pts o k b then return some [o] else return none : Option (Option (List Nat))) ≠ some (some l) := by
    intro e he l hl
    obtain ⟨b, hb⟩ := cV ⟨e, he, l, hl⟩
    cases hb
  rcases lt_or_eq_of_le (hr p) with z1 | z1 <;> rcases lt_or_eq_of_le (hr q) with z2 | z2 <;> rcases lt_or_eq_of_le (hr u) with z3 | z3
  · exact hno1 ⟨by rw [hc.1]; exact one_ne_zero, (r - s) / (1 - s), (hback r r0 r1').1, (hback r r0 r1').2, by rw [rest_param h1]; exact ⟨z1, z2, z3, hk1⟩⟩
  · obtain ⟨l, rfl⟩ := k1 ⟨r, r0, r1', z1, z2, z3.symm, hk1⟩
    exact nE (p, q) (by simp) l f1
  · obtain ⟨l, rfl⟩ := k3 ⟨r, r0, r1', z3, z1, z2.symm, hk1⟩
    exact nE (u, p) (by simp) l f3
  · obtain ⟨l, rfl⟩ := l1 ⟨r, r0, r1', z2.symm, z3.symm, hk1⟩
    exact nV p (by simp) l i1
  · obtain ⟨l, rfl⟩ := k2 ⟨r, r0, r1', z2, z3, z1.symm, hk1⟩
    exact nE (q, u) (by simp) l f2
  · obtain ⟨l, rfl⟩ := l2 ⟨r, r0, r1', z1.symm, z3.symm, hk1⟩
    exact nV q (by simp) l i2
  · obtain ⟨l, rfl⟩ := l3 ⟨r, r0, r1', z1.symm, z2.symm, hk1⟩
    exact nV u (by simp) l i3
  · rw [← z1, ← z2, ← z3, hk1] at hsum
    simp at hsum

/-! ### From an edge -/

/-- A face opposite to a corner of the edge. -/
theorem edge_face (F : Four x p q u k) (S : Sol pts m t x) (ha : a < pts.length) (hb : b < pts.length) (hin : In pts x (P s)) (hk : 0 < wt pts x k (P s)) :
    ∃ r1 r2, vSegInnerTri pts a b p q u = some r1 ∧ vSameSpace pts k a p q u = some r2 ∧ ((r1 && r2) = true → Goal pts m a b s (t, [p, q, u])) ∧
      ((∃ r, s < r ∧ 0 ≤ s ∧ r < 1 ∧ 0 < wt pts x p (P r) ∧ 0 < wt pts x q (P r) ∧ 0 < wt pts x u (P r) ∧ wt pts x k (P r) = 0) → (r1 && r2) = true) := by
  obtain ⟨r1, e1, h1⟩ := of_decide (segInnerTri_eq hD F S ha hb)
  obtain ⟨r2, e2, h2⟩ := of_decide (sameSpace_eq hD F S ha).2
  have hA : Constraint.aff (wt pts x k (pt pts a)) (wt pts x k (pt pts b)) 0 = wt pts x k (pt pts a) := by simp [Constraint.aff]
  refine ⟨r1, r2, e1, e2, fun h => ?_, ?_⟩
  · rw [Bool.and_eq_true, h1, h2] at h
    obtain ⟨⟨-, w, w0, w1, z1, z2, z3, z4⟩, hpos⟩ := h
    have hsw : s < w := by
      rw [S.aff hD] at z4 hk
      exact aff_lt_of_pos (by rw [hA]; exact hpos) hk z4 w0
    exact good3 hD F S hin hsw w1.le z1 z2 z3 z4 hk
  · rintro ⟨r, r0, s0, r1, z1, z2, z3, z4⟩
    have hpos : 0 < wt pts x k (pt pts a) := by
      have z5 := z4
      rw [S.aff hD] at z5 hk
      rw [← hA]
      exact aff_pos_before r0 hk z5 (by linarith)
    rw [Bool.and_eq_true, h1, h2]
    exact ⟨⟨hpos.ne', r, by linarith, r1, z1, z2, z3, z4⟩, hpos⟩

/-- The opposite edge. -/
theorem edge_opp (F : Four x p q u k) (S : Sol pts m t x) (ha : a < pts.length) (hb : b < pts.length) (hin : In pts x (P s)) (hk : 0 < wt pts x k (P s)) :
    ∃ r1 r2, vSegCross pts a b p q = some r1 ∧ vSameSpace pts a k p q u = some r2 ∧ ((r1 && r2) = true → Goal pts m a b s (t, [p, q])) ∧
      ((∃ r, s < r ∧ 0 ≤ s ∧ r < 1 ∧ 0 < wt pts x p (P r) ∧ 0 < wt pts x q (P r) ∧ wt pts x u (P r) = 0 ∧ wt pts x k (P r) = 0) → (r1 && r2) = true) := by
  obtain ⟨r1, e1, h1⟩ := of_decide (segCross_eq hD F S ha hb)
  obtain ⟨r2, e2, h2⟩ := of_decide (sameSpace_eq hD F S ha).1
  have hA : Constraint.aff (wt pts x k (pt pts a)) (wt pts x k (pt pts b)) 0 = wt pts x k (pt pts a) := by simp [Constraint.aff]
  refine ⟨r1, r2, e1, e2, fun h => ?_, ?_⟩
  · rw [Bool.and_eq_true, h1, h2] at h
    obtain ⟨⟨-, w, w0, w1, z1, z2, z3, z4⟩, hpos⟩ := h
    have hsw : s < w := by
      rw [S.aff hD] at z4 hk
      exact aff_lt_of_pos (by rw [hA]; exact hpos) hk z4 w0
    exact good2 hD F S hin hsw w1.le z1 z2 z3 z4 hk
  · rintro ⟨r, r0, s0, r1, z1, z2, z3, z4⟩
    have hpos : 0 < wt pts x k (pt pts a) := by
      have z5 := z4
      rw [S.aff hD] at z5 hk
      rw [← hA]
      exact aff_pos_before r0 hk z5 (by linarith)
    rw [Bool.and_eq_true, h1, h2]
    exact ⟨⟨fun h => hpos.ne' h.2, r, by linarith, r1, z1, z2, z3, z4⟩, hpos⟩

theorem samePlane_total {u1 u2 v1 v2 : Nat} (h1 : u1 < pts.length) (h2 : u2 < pts.length) (h3 : v1 < pts.length) (h4 : v2 < pts.length) : ∃ r, vSamePlane pts u1 u2 v1 v2 = some r := by
  unfold vSamePlane
  split
  · exact ⟨_, rfl⟩
  · simp [h1, h2, h3, h4]

/-- One of the two other corners. -/
theorem edge_vertex (F : Four x p q u k) (S : Sol pts m t x) (ha : a < pts.length) (hb : b < pts.length) (hab : a ≠ b) (h1 : s < 1) (hin : In pts x (P s)) (hp : 0 < wt pts x p (P s))
    (hu : wt pts x u (P s) = 0) (hk : wt pts x k (P s) = 0) :
    ∃ r1 r2, vInInnerSeg pts u a b = some r1 ∧ vSamePlane pts u b p q = some r2 ∧ ((r1 && r2) = true → Goal pts m a b s (t, [u])) ∧
      ((∃ r, s < r ∧ 0 ≤ s ∧ r < 1 ∧ wt pts x p (P r) = 0 ∧ wt pts x q (P r) = 0 ∧ wt pts x k (P r) = 0) → (r1 && r2) = true) := by
  obtain ⟨g1, g2, g3, g4⟩ := F.lt hD S
  obtain ⟨r1, e1, h1'⟩ := of_decide (inInnerSeg_eq hD g3 ha hb hab)
  obtain ⟨r2, e2⟩ := samePlane_total hD g3 hb g1 g2
  have hB : ∀ v, Constraint.aff (wt pts x v (pt pts a)) (wt pts x v (pt pts b)) 1 = wt pts x v (pt pts b) := fun v => by simp [Constraint.aff]
  -- in the plane of the face
  have plane : ∀ w, s ≠ w → wt pts x k (P w) = 0 → wt pts x k (pt pts b) = 0 := by
    intro w hw h0
    rw [← hB k]
    rw [S.aff hD] at h0 hk
    exact aff_zero hw hk h0 1
  have hiff : ∀ w, s ≠ w → wt pts x k (P w) = 0 → (r2 = true ↔ 0 < wt pts x u (pt pts b)) := by
    intro w hw h0
    obtain ⟨r, e, hr⟩ := of_decide (samePlane_eq hD F S hb (plane w hw h0))
    rw [e2] at e
    cases e
    exact hr
  refine ⟨r1, r2, e1, e2, fun h => ?_, ?_⟩
  · rw [Bool.and_eq_true, h1'] at h
    obtain ⟨⟨w, w0, w1, z⟩, h2⟩ := h
    have hc := F.swap12.swap01.corner hD S
    rw [z] at hc
    have hsw : s ≠ w := by rintro rfl; rw [hu] at hc; exact zero_ne_one hc.1
    rw [hiff w hsw hc.2.2.2] at h2
    have hlt : s < w := by
      have z1 := hc.1
      rw [S.aff hD] at z1 hu
      exact aff_lt_of_inc hu h1 (by rw [hB]; exact h2) (by rw [z1]; exact one_pos)
    exact good1 hD (F.swap12.swap01.swap12.swap23.perm (.refl _) : Four x u q k p) S hin hlt w1.le z (.inr hp)
  · rintro ⟨r, r0, s0, r1, z1, z2, z3⟩
    have hP : pt pts u = P r := F.swap12.swap01.at_corner hD S z1 z2 z3
    rw [Bool.and_eq_true, h1', hiff r r0.ne z3]
    refine ⟨⟨r, by linarith, r1, hP⟩, ?_⟩
    have z4 := (F.swap12.swap01.corner hD S).1
    rw [hP] at z4
    rw [S.aff hD] at z4 hu
    rw [← hB]
    exact aff_pos_after r0 hu (by rw [z4]; exact one_pos) h1

/-- An edge next to the edge: from `p` to `u`, with `q` the other end and `k` the other corner. -/
theorem edge_edge (F : Four x p q u k) (S : Sol pts m t x) (ha : a < pts.length) (hb : b < pts.length) (h1 : s < 1) (hin : In pts x (P s)) (hq : 0 < wt pts x q (P s))
    (hu : wt pts x u (P s) = 0) (hk : wt pts x k (P s) = 0) {p' q' : Nat} (hpq : p' = p ∧ q' = q ∨ p' = q ∧ q' = p) :
    ∃ r1 r2, vSegCross pts a b p u = some r1 ∧ vSamePlane pts u b p' q' = some r2 ∧ ((r1 && r2) = true → Goal pts m a b s (t, [p, u])) ∧
      ((∃ r, s < r ∧ 0 ≤ s ∧ r < 1 ∧ 0 < wt pts x p (P r) ∧ wt pts x q (P r) = 0 ∧ 0 < wt pts x u (P r) ∧ wt pts x k (P r) = 0) → (r1 && r2) = true) := by
  obtain ⟨g1, g2, g3, g4⟩ := F.lt hD S
  obtain ⟨r1, e1, h1'⟩ := of_decide (segCross_eq hD F.swap12.swap23 S ha hb)
  obtain ⟨r2, e2⟩ : ∃ r, vSamePlane pts u b p' q' = some r := by
    rcases hpq with ⟨rfl, rfl⟩ | ⟨rfl, rfl⟩
    · exact samePlane_total hD g3 hb g1 g2
    · exact samePlane_total hD g3 hb g2 g1
  have hB : ∀ v, Constraint.aff (wt pts x v (pt pts a)) (wt pts x v (pt pts b)) 1 = wt pts x v (pt pts b) := fun v => by simp [Constraint.aff]
  have hA : ∀ v, Constraint.aff (wt pts x v (pt pts a)) (wt pts x v (pt pts b)) 0 = wt pts x v (pt pts a) := fun v => by simp [Constraint.aff]
  have plane : ∀ w, s ≠ w → wt pts x k (P w) = 0 → wt pts x k (pt pts b) = 0 := by
    intro w hw h0
    rw [← hB k]
    rw [S.aff hD] at h0 hk
    exact aff_zero hw hk h0 1
  have hiff : ∀ w, s ≠ w → wt pts x k (P w) = 0 → (r2 = true ↔ 0 < wt pts x u (pt pts b)) := by
    intro w hw h0
    rcases hpq with ⟨rfl, rfl⟩ | ⟨rfl, rfl⟩
    · obtain ⟨r, e, hr⟩ := of_decide (samePlane_eq hD F S hb (plane w hw h0))
      rw [e2] at e
      cases e
      exact hr
    · obtain ⟨r, e, hr⟩ := of_decide (samePlane_eq hD F.swap01 S hb (plane w hw h0))
      rw [e2] at e
      cases e
      exact hr
  refine ⟨r1, r2, e1, e2, fun h => ?_, ?_⟩
  · rw [Bool.and_eq_true, h1'] at h
    obtain ⟨⟨-, w, w0, w1, z1, z2, z3, z4⟩, h2⟩ := h
    have hsw : s ≠ w := by rintro rfl; rw [hu] at z2; exact lt_irrefl _ z2
    rw [hiff w hsw z3] at h2
    have hlt : s < w := by
      have z5 := z2
      rw [S.aff hD] at z5 hu
      exact aff_lt_of_inc hu h1 (by rw [hB]; exact h2) z5
    exact good2 hD F.swap12.swap23 S hin hlt w1.le z1 z2 z3 z4 hq
  · rintro ⟨r, r0, s0, r1, z1, z2, z3, z4⟩
    rw [Bool.and_eq_true, h1', hiff r r0.ne z4]
    have hpos : 0 < wt pts x q (pt pts a) := by
      have z5 := z2
      rw [S.aff hD] at z5 hq
      rw [← hA]
      exact aff_pos_before r0 hq z5 (by linarith)
    refine ⟨⟨fun h => hpos.ne' h.2, r, by linarith, r1, z1, z3, z4, z2⟩, ?_⟩
    rw [S.aff hD] at z3 hu
    rw [← hB]
    exact aff_pos_after r0 hu z3 h1

end
end
end Verif.Constraint
