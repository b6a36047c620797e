import Verif.Interval.Props
/-!
# C34: the interval stage of the predicates on implicit points
-/
namespace Verif.Interval
open Verif.Pred InSphere

variable {A : Arith}

/-! The computation stays away from the arms 0 and 8 of `mul` (with which `c20_negated` deals): one definition for each predicate.
These are checks on the run, decidable for given points. -/

def ieeeClean (A : Arith) (pa : Imp ℚ) (pb pc pd : Pt ℚ) : Prop :=
  ∀ a, dynamicFilter A pa = some (some a) → a.d.clean = true ∧ (ieeeImpl a (toI A pb) (toI A pc) (toI A pd)).clean = true
def iieeClean (A : Arith) (pa pb : Imp ℚ) (pc pd : Pt ℚ) : Prop :=
  ∀ a b, dynamicFilter A pa = some (some a) → dynamicFilter A pb = some (some b) → a.d.clean = true ∧ b.d.clean = true ∧
    (iieeImpl a b (toI A pc) (toI A pd)).clean = true
def iiieClean (A : Arith) (pa pb pc : Imp ℚ) (pd : Pt ℚ) : Prop :=
  ∀ a b c, dynamicFilter A pa = some (some a) → dynamicFilter A pb = some (some b) → dynamicFilter A pc = some (some c) →
    a.d.clean = true ∧ b.d.clean = true ∧ c.d.clean = true ∧ (iiieImpl a b c (toI A pd)).clean = true
def iiiiClean (A : Arith) (pa pb pc pd : Imp ℚ) : Prop :=
  ∀ a b c d, dynamicFilter A pa = some (some a) → dynamicFilter A pb = some (some b) → dynamicFilter A pc = some (some c) →
    dynamicFilter A pd = some (some d) →
    a.d.clean = true ∧ b.d.clean = true ∧ c.d.clean = true ∧ d.d.clean = true ∧ (iiiiImpl a b c d).clean = true
def ieeClean (A : Arith) (axis : Nat) (p1 : Imp ℚ) (p2 p3 : Pt ℚ) : Prop :=
  ∀ a, dynamicFilter A p1 = some (some a) → a.d.clean = true ∧
    (ieeImpl (ax2 axis a.x a.y a.z).1 (ax2 axis a.x a.y a.z).2 a.d (.of A (ax2 axis p2.x p2.y p2.z).1)
      (.of A (ax2 axis p2.x p2.y p2.z).2) (.of A (ax2 axis p3.x p3.y p3.z).1) (.of A (ax2 axis p3.x p3.y p3.z).2)).clean = true
def iieClean (A : Arith) (axis : Nat) (p1 p2 : Imp ℚ) (p3 : Pt ℚ) : Prop :=
  ∀ a b, dynamicFilter A p1 = some (some a) → dynamicFilter A p2 = some (some b) → a.d.clean = true ∧ b.d.clean = true ∧
    (iieImpl (ax2 axis a.x a.y a.z).1 (ax2 axis a.x a.y a.z).2 a.d (ax2 axis b.x b.y b.z).1 (ax2 axis b.x b.y b.z).2 b.d
      (.of A (ax2 axis p3.x p3.y p3.z).1) (.of A (ax2 axis p3.x p3.y p3.z).2)).clean = true
def iiiClean (A : Arith) (axis : Nat) (p1 p2 p3 : Imp ℚ) : Prop :=
  ∀ a b c, dynamicFilter A p1 = some (some a) → dynamicFilter A p2 = some (some b) → dynamicFilter A p3 = some (some c) →
    a.d.clean = true ∧ b.d.clean = true ∧ c.d.clean = true ∧
    (iiiImpl (ax2 axis a.x a.y a.z).1 (ax2 axis a.x a.y a.z).2 a.d (ax2 axis b.x b.y b.z).1 (ax2 axis b.x b.y b.z).2 b.d
      (ax2 axis c.x c.y c.z).1 (ax2 axis c.x c.y c.z).2 c.d).clean = true
def ltIeClean (A : Arith) (axis : Nat) (pa : Imp ℚ) (pb : Pt ℚ) : Prop :=
  ∀ a, dynamicFilter A pa = some (some a) → a.d.clean = true ∧
    (ltIeImpl (ax1 axis a.x a.y a.z) a.d (.of A (ax1 axis pb.x pb.y pb.z))).clean = true
def ltIiClean (A : Arith) (axis : Nat) (pa pb : Imp ℚ) : Prop :=
  ∀ a b, dynamicFilter A pa = some (some a) → dynamicFilter A pb = some (some b) → a.d.clean = true ∧ b.d.clean = true ∧
    (ltIiImpl (ax1 axis a.x a.y a.z) a.d b.x b.d).clean = true

/-- The statement of C34. -/
structure C34 (A : Arith) : Prop where
  ieee : ∀ pa pb pc pd o, ieeeD A pa pb pc pd = some (some o) → ∀ W, RepI pa W → o = side W pb pc pd
  iiee : ∀ pa pb pc pd o, iieeD A pa pb pc pd = some (some o) → ∀ W X, RepI pa W → RepI pb X → o = side W X pc pd
  iiie : ∀ pa pb pc pd o, iiieD A pa pb pc pd = some (some o) → ∀ W X Y, RepI pa W → RepI pb X → RepI pc Y → o = side W X Y pd
  iiii : ∀ pa pb pc pd o, iiiiD A pa pb pc pd = some (some o) → ∀ W X Y Z, RepI pa W → RepI pb X → RepI pc Y → RepI pd Z →
    o = side W X Y Z
  iee : ∀ axis < 3, ∀ pa pb pc o, ieeD A axis pa pb pc = some (some o) → ∀ X, RepI pa X → o = turn axis X pb pc
  iie : ∀ axis < 3, ∀ pa pb pc o, iieD A axis pa pb pc = some (some o) → ∀ X Y, RepI pa X → RepI pb Y → o = turn axis X Y pc
  iii : ∀ axis < 3, ∀ pa pb pc o, iiiD A axis pa pb pc = some (some o) → ∀ X Y Z, RepI pa X → RepI pb Y → RepI pc Z →
    o = turn axis X Y Z
  ltIe : ∀ axis < 3, ∀ pa pb o, ltIeD A axis pa pb = some (some o) → ∀ X, RepI pa X → o = Pred.cmp (coord axis X) (coord axis pb)
  ltIi : ∀ axis < 3, ∀ pa pb o, ltIiD A axis pa pb = some (some o) → ∀ X Y, RepI pa X → RepI pb Y →
    o = Pred.cmp (coord axis X) (coord axis Y)

/-! ### No panic -/

theorem ieeeImpl_irep (hA : A.Sound) {a : Hom (INum A)} {a' : Hom ℚ} (ra : RelH IRep a a') (pb pc pd : Pt ℚ) :
    IRep (ieeeImpl a (toI A pb) (toI A pc) (toI A pd)) (ieeeImpl a' pb pc pd) :=
  haveI := irep_closed hA
  ieeeImpl_rel ra (toI_rel _) (toI_rel _) (toI_rel _)

theorem iieeImpl_irep (hA : A.Sound) {a b : Hom (INum A)} {a' b' : Hom ℚ} (ra : RelH IRep a a') (rb : RelH IRep b b') (pc pd : Pt ℚ) :
    IRep (iieeImpl a b (toI A pc) (toI A pd)) (iieeImpl a' b' pc pd) :=
  haveI := irep_closed hA
  iieeImpl_rel ra rb (toI_rel _) (toI_rel _)

theorem iiieImpl_irep (hA : A.Sound) {a b c : Hom (INum A)} {a' b' c' : Hom ℚ} (ra : RelH IRep a a') (rb : RelH IRep b b')
    (rc : RelH IRep c c') (pd : Pt ℚ) : IRep (iiieImpl a b c (toI A pd)) (iiieImpl a' b' c' pd) :=
  haveI := irep_closed hA
  iiieImpl_rel ra rb rc (toI_rel _)

theorem iiiiImpl_irep (hA : A.Sound) {a b c d : Hom (INum A)} {a' b' c' d' : Hom ℚ} (ra : RelH IRep a a') (rb : RelH IRep b b')
    (rc : RelH IRep c c') (rd : RelH IRep d d') : IRep (iiiiImpl a b c d) (iiiiImpl a' b' c' d') :=
  haveI := irep_closed hA
  iiiiImpl_rel ra rb rc rd

theorem ieeImpl_irep (hA : A.Sound) {x y d s t u v : INum A} {x' y' d' s' t' u' v' : ℚ} (h1 : IRep x x') (h2 : IRep y y') (h3 : IRep d d')
    (h4 : IRep s s') (h5 : IRep t t') (h6 : IRep u u') (h7 : IRep v v') : IRep (ieeImpl x y d s t u v) (ieeImpl x' y' d' s' t' u' v') := by
  haveI := irep_closed hA
  change Rl IRep _ _ at h1 h2 h3 h4 h5 h6 h7
  change Rl IRep _ _
  simp only [ieeImpl]; rlt

theorem iieImpl_irep (hA : A.Sound) {x y d s t u v w : INum A} {x' y' d' s' t' u' v' w' : ℚ} (h1 : IRep x x') (h2 : IRep y y') (h3 : IRep d d')
    (h4 : IRep s s') (h5 : IRep t t') (h6 : IRep u u') (h7 : IRep v v') (h8 : IRep w w') :
    IRep (iieImpl x y d s t u v w) (iieImpl x' y' d' s' t' u' v' w') := by
  haveI := irep_closed hA
  change Rl IRep _ _ at h1 h2 h3 h4 h5 h6 h7 h8
  change Rl IRep _ _
  simp only [iieImpl]; rlt

theorem iiiImpl_irep (hA : A.Sound) {x y d s t u v w z : INum A} {x' y' d' s' t' u' v' w' z' : ℚ} (h1 : IRep x x') (h2 : IRep y y')
    (h3 : IRep d d') (h4 : IRep s s') (h5 : IRep t t') (h6 : IRep u u') (h7 : IRep v v') (h8 : IRep w w') (h9 : IRep z z') :
    IRep (iiiImpl x y d s t u v w z) (iiiImpl x' y' d' s' t' u' v' w' z') := by
  haveI := irep_closed hA
  change Rl IRep _ _ at h1 h2 h3 h4 h5 h6 h7 h8 h9
  change Rl IRep _ _
  simp only [iiiImpl]; rlt

theorem ltIeImpl_irep (hA : A.Sound) {x d s : INum A} {x' d' s' : ℚ} (h1 : IRep x x') (h2 : IRep d d') (h3 : IRep s s') :
    IRep (ltIeImpl x d s) (ltIeImpl x' d' s') := by
  haveI := irep_closed hA
  change Rl IRep _ _ at h1 h2 h3
  change Rl IRep _ _
  simp only [ltIeImpl]; rlt

theorem ltIiImpl_irep (hA : A.Sound) {x d s e : INum A} {x' d' s' e' : ℚ} (h1 : IRep x x') (h2 : IRep d d') (h3 : IRep s s')
    (h4 : IRep e e') : IRep (ltIiImpl x d s e) (ltIiImpl x' d' s' e') := by
  haveI := irep_closed hA
  change Rl IRep _ _ at h1 h2 h3 h4
  change Rl IRep _ _
  simp only [ltIiImpl]; rlt

/-! ### One lemma for each predicate: no panic, and what the answer means -/

theorem ieeeD_spec (hA : A.Sound) (pa : Imp ℚ) (pb pc pd : Pt ℚ) : ∃ r, ieeeD A pa pb pc pd = some r ∧ ∀ o, r = some o →
    ieeeClean A pa pb pc pd → ∀ W, RepI pa W → o = side W pb pc pd := by
  obtain ⟨ra, ea, ha⟩ := filter_spec hA pa
  cases ra with
  | none => exact ⟨none, by simp [ieeeD, ea], by simp⟩
  | some a =>
    obtain ⟨a', r1, d1, x1⟩ := ha a rfl
    obtain ⟨r, hr, hs⟩ := decide_spec (ieeeImpl_irep hA r1 pb pc pd)
    refine ⟨r, by simp [ieeeD, ea, hr], fun o ho hc W hW => ?_⟩
    obtain ⟨c1, c2⟩ := hc a ea
    rw [hs o ho c2, c31_ieee (x1 W hW), sign_mul_neg (d1 c1), side]

theorem iieeD_spec (hA : A.Sound) (pa pb : Imp ℚ) (pc pd : Pt ℚ) : ∃ r, iieeD A pa pb pc pd = some r ∧ ∀ o, r = some o →
    iieeClean A pa pb pc pd → ∀ W X, RepI pa W → RepI pb X → o = (side W X pc pd).reverse := by
  obtain ⟨ra, ea, ha⟩ := filter_spec hA pa
  obtain ⟨rb, eb, hb⟩ := filter_spec hA pb
  rcases ra with _ | a <;> rcases rb with _ | b
  case some.some =>
    obtain ⟨a', r1, d1, x1⟩ := ha a rfl
    obtain ⟨b', r2, d2, x2⟩ := hb b rfl
    obtain ⟨r, hr, hs⟩ := decide_spec (iieeImpl_irep hA r1 r2 pc pd)
    refine ⟨r, by simp [iieeD, ea, eb, hr], fun o ho hc W X hW hX => ?_⟩
    obtain ⟨c1, c2, c3⟩ := hc a b ea eb
    rw [hs o ho c3, c31_iiee (x1 W hW) (x2 X hX), sign_mul_pos' (mul_pos_of_neg_of_neg (d1 c1) (d2 c2)), side]
  all_goals exact ⟨none, by simp [iieeD, ea, eb], by simp⟩

theorem iiieD_spec (hA : A.Sound) (pa pb pc : Imp ℚ) (pd : Pt ℚ) : ∃ r, iiieD A pa pb pc pd = some r ∧ ∀ o, r = some o →
    iiieClean A pa pb pc pd → ∀ W X Y, RepI pa W → RepI pb X → RepI pc Y → o = side W X Y pd := by
  obtain ⟨ra, ea, ha⟩ := filter_spec hA pa
  obtain ⟨rb, eb, hb⟩ := filter_spec hA pb
  obtain ⟨rc, ec, hc⟩ := filter_spec hA pc
  rcases ra with _ | a <;> rcases rb with _ | b <;> rcases rc with _ | c
  case some.some.some =>
    obtain ⟨a', r1, d1, x1⟩ := ha a rfl
    obtain ⟨b', r2, d2, x2⟩ := hb b rfl
    obtain ⟨c', r3, d3, x3⟩ := hc c rfl
    obtain ⟨r, hr, hs⟩ := decide_spec (iiieImpl_irep hA r1 r2 r3 pd)
    refine ⟨r, by simp [iiieD, ea, eb, ec, hr], fun o ho hcl W X Y hW hX hY => ?_⟩
    obtain ⟨c1, c2, c3, c4⟩ := hcl a b c ea eb ec
    rw [hs o ho c4, c31_iiie (x1 W hW) (x2 X hX) (x3 Y hY),
      sign_mul_neg (mul_neg_of_pos_of_neg (mul_pos_of_neg_of_neg (d1 c1) (d2 c2)) (d3 c3)), side]
  all_goals exact ⟨none, by simp [iiieD, ea, eb, ec], by simp⟩

theorem iiiiD_spec (hA : A.Sound) (pa pb pc pd : Imp ℚ) : ∃ r, iiiiD A pa pb pc pd = some r ∧ ∀ o, r = some o →
    iiiiClean A pa pb pc pd → ∀ W X Y Z, RepI pa W → RepI pb X → RepI pc Y → RepI pd Z → o = (side W X Y Z).reverse := by
  obtain ⟨ra, ea, ha⟩ := filter_spec hA pa
  obtain ⟨rb, eb, hb⟩ := filter_spec hA pb
  obtain ⟨rc, ec, hc⟩ := filter_spec hA pc
  obtain ⟨rd, ed, hd⟩ := filter_spec hA pd
  rcases ra with _ | a <;> rcases rb with _ | b <;> rcases rc with _ | c <;> rcases rd with _ | d
  case some.some.some.some =>
    obtain ⟨a', r1, d1, x1⟩ := ha a rfl
    obtain ⟨b', r2, d2, x2⟩ := hb b rfl
    obtain ⟨c', r3, d3, x3⟩ := hc c rfl
    obtain ⟨d', r4, d4, x4⟩ := hd d rfl
    obtain ⟨r, hr, hs⟩ := decide_spec (iiiiImpl_irep hA r1 r2 r3 r4)
    refine ⟨r, by simp [iiiiD, ea, eb, ec, ed, hr], fun o ho hcl W X Y Z hW hX hY hZ => ?_⟩
    obtain ⟨c1, c2, c3, c4, c5⟩ := hcl a b c d ea eb ec ed
    have h4 : d'.d ^ 3 < 0 := Odd.pow_neg (by decide) (d4 c4)
    rw [hs o ho c5, c31_iiii (x1 W hW) (x2 X hX) (x3 Y hY) (x4 Z hZ),
      sign_mul_pos' (mul_pos_of_neg_of_neg (mul_neg_of_pos_of_neg (mul_pos_of_neg_of_neg (d1 c1) (d2 c2)) (d3 c3)) h4), side]
  all_goals exact ⟨none, by simp [iiiiD, ea, eb, ec, ed], by simp⟩

theorem ieeD_spec (hA : A.Sound) {axis : Nat} (hx : axis < 3) (pa : Imp ℚ) (pb pc : Pt ℚ) : ∃ r, ieeD A axis pa pb pc = some r ∧ ∀ o, r = some o →
    ieeClean A axis pa pb pc → ∀ X, RepI pa X → o = turn axis X pb pc := by
  obtain ⟨ra, ea, ha⟩ := filter_spec hA pa
  cases ra with
  | none => exact ⟨none, by simp [ieeD, ea], by simp⟩
  | some a =>
    obtain ⟨a', r1, d1, x1⟩ := ha a rfl
    obtain ⟨s1, s2⟩ := ax2_rel r1.x r1.y r1.z axis
    obtain ⟨r, hr, hs⟩ := decide_spec (ieeImpl_irep hA s1 s2 r1.d (.of (ax2 axis pb.x pb.y pb.z).1) (.of (ax2 axis pb.x pb.y pb.z).2)
      (.of (ax2 axis pc.x pc.y pc.z).1) (.of (ax2 axis pc.x pc.y pc.z).2))
    refine ⟨r, by simp [ieeD, ea, hr], fun o ho hc X hX => ?_⟩
    obtain ⟨c1, c2⟩ := hc a ea
    rw [hs o ho c2, ax2_hom hx (x1 X hX), ax2_pt hx, ax2_pt hx, c31_iee, sign_mul_neg (d1 c1), turn]

theorem iieD_spec (hA : A.Sound) {axis : Nat} (hx : axis < 3) (pa pb : Imp ℚ) (pc : Pt ℚ) : ∃ r, iieD A axis pa pb pc = some r ∧ ∀ o, r = some o →
    iieClean A axis pa pb pc → ∀ X Y, RepI pa X → RepI pb Y → o = turn axis X Y pc := by
  obtain ⟨ra, ea, ha⟩ := filter_spec hA pa
  obtain ⟨rb, eb, hb⟩ := filter_spec hA pb
  rcases ra with _ | a <;> rcases rb with _ | b
  case some.some =>
    obtain ⟨a', r1, d1, x1⟩ := ha a rfl
    obtain ⟨b', r2, d2, x2⟩ := hb b rfl
    obtain ⟨s1, s2⟩ := ax2_rel r1.x r1.y r1.z axis
    obtain ⟨s3, s4⟩ := ax2_rel r2.x r2.y r2.z axis
    obtain ⟨r, hr, hs⟩ := decide_spec (iieImpl_irep hA s1 s2 r1.d s3 s4 r2.d (.of (ax2 axis pc.x pc.y pc.z).1) (.of (ax2 axis pc.x pc.y pc.z).2))
    refine ⟨r, by simp [iieD, ea, eb, hr], fun o ho hc X Y hX hY => ?_⟩
    obtain ⟨c1, c2, c3⟩ := hc a b ea eb
    rw [hs o ho c3, ax2_hom hx (x1 X hX), ax2_hom hx (x2 Y hY), ax2_pt hx, c31_iie,
      sign_mul_neg (mul_neg_of_pos_of_neg (pow_pos_of_neg_even (d1 c1)) (d2 c2)), turn]
  all_goals exact ⟨none, by simp [iieD, ea, eb], by simp⟩

theorem iiiD_spec (hA : A.Sound) {axis : Nat} (hx : axis < 3) (pa pb pc : Imp ℚ) : ∃ r, iiiD A axis pa pb pc = some r ∧ ∀ o, r = some o →
    iiiClean A axis pa pb pc → ∀ X Y Z, RepI pa X → RepI pb Y → RepI pc Z → o = (turn axis X Y Z).reverse := by
  obtain ⟨ra, ea, ha⟩ := filter_spec hA pa
  obtain ⟨rb, eb, hb⟩ := filter_spec hA pb
  obtain ⟨rc, ec, hc⟩ := filter_spec hA pc
  rcases ra with _ | a <;> rcases rb with _ | b <;> rcases rc with _ | c
  case some.some.some =>
    obtain ⟨a', r1, d1, x1⟩ := ha a rfl
    obtain ⟨b', r2, d2, x2⟩ := hb b rfl
    obtain ⟨c', r3, d3, x3⟩ := hc c rfl
    obtain ⟨s1, s2⟩ := ax2_rel r1.x r1.y r1.z axis
    obtain ⟨s3, s4⟩ := ax2_rel r2.x r2.y r2.z axis
    obtain ⟨s5, s6⟩ := ax2_rel r3.x r3.y r3.z axis
    obtain ⟨r, hr, hs⟩ := decide_spec (iiiImpl_irep hA s1 s2 r1.d s3 s4 r2.d s5 s6 r3.d)
    refine ⟨r, by simp [iiiD, ea, eb, ec, hr], fun o ho hcl X Y Z hX hY hZ => ?_⟩
    obtain ⟨c1, c2, c3, c4⟩ := hcl a b c ea eb ec
    rw [hs o ho c4, ax2_hom hx (x1 X hX), ax2_hom hx (x2 Y hY), ax2_hom hx (x3 Z hZ), c31_iii,
      sign_mul_pos' (mul_pos_of_neg_of_neg (mul_neg_of_pos_of_neg (pow_pos_of_neg_even (d1 c1)) (d2 c2)) (d3 c3)), turn]
  all_goals exact ⟨none, by simp [iiiD, ea, eb, ec], by simp⟩

theorem ltIeD_spec (hA : A.Sound) {axis : Nat} (hx : axis < 3) (pa : Imp ℚ) (pb : Pt ℚ) : ∃ r, ltIeD A axis pa pb = some r ∧ ∀ o, r = some o →
    ltIeClean A axis pa pb → ∀ X, RepI pa X → o = Pred.cmp (coord axis X) (coord axis pb) := by
  obtain ⟨ra, ea, ha⟩ := filter_spec hA pa
  cases ra with
  | none => exact ⟨none, by simp [ltIeD, ea], by simp⟩
  | some a =>
    obtain ⟨a', r1, d1, x1⟩ := ha a rfl
    obtain ⟨r, hr, hs⟩ := decide_spec (ltIeImpl_irep hA (ax1_rel r1.x r1.y r1.z axis) r1.d (.of (ax1 axis pb.x pb.y pb.z)))
    refine ⟨r, by simp [ltIeD, ea, hr], fun o ho hc X hX => ?_⟩
    obtain ⟨c1, c2⟩ := hc a ea
    rw [hs o ho c2, ax1_hom hx (x1 X hX), ax1_pt hx, (c31_lt _ _ 0 0 _).1, sign_mul_neg (d1 c1), sign_sub]

/-- The code compares a coordinate of the first point with the *x* coordinate of the second one. -/
theorem ltIiD_spec (hA : A.Sound) {axis : Nat} (hx : axis < 3) (pa pb : Imp ℚ) : ∃ r, ltIiD A axis pa pb = some r ∧ ∀ o, r = some o →
    ltIiClean A axis pa pb → ∀ X Y, RepI pa X → RepI pb Y → o = (Pred.cmp (coord axis X) Y.x).reverse := by
  obtain ⟨ra, ea, ha⟩ := filter_spec hA pa
  obtain ⟨rb, eb, hb⟩ := filter_spec hA pb
  rcases ra with _ | a <;> rcases rb with _ | b
  case some.some =>
    obtain ⟨a', r1, d1, x1⟩ := ha a rfl
    obtain ⟨b', r2, d2, x2⟩ := hb b rfl
    obtain ⟨r, hr, hs⟩ := decide_spec (ltIiImpl_irep hA (ax1_rel r1.x r1.y r1.z axis) r1.d r2.x r2.d)
    refine ⟨r, by simp [ltIiD, ea, eb, hr], fun o ho hc X Y hX hY => ?_⟩
    obtain ⟨c1, c2, c3⟩ := hc a b ea eb
    rw [hs o ho c3, ax1_hom hx (x1 X hX), (x2 Y hY).1, (c31_lt _ _ _ _ 0).2,
      sign_mul_pos' (mul_pos_of_neg_of_neg (d1 c1) (d2 c2)), sign_sub]
  all_goals exact ⟨none, by simp [ltIiD, ea, eb], by simp⟩

/-! ### C34 -/

/-- The interval stages never panic. -/
theorem c34_no_panic (hA : A.Sound) (i j k m : Imp ℚ) (p q r : Pt ℚ) (axis : Nat) (hx : axis < 3) :
    ieeeD A i p q r ≠ none ∧ iieeD A i j p q ≠ none ∧ iiieD A i j k p ≠ none ∧ iiiiD A i j k m ≠ none ∧ ieeD A axis i p q ≠ none ∧
    iieD A axis i j p ≠ none ∧ iiiD A axis i j k ≠ none ∧ ltIeD A axis i p ≠ none ∧ ltIiD A axis i j ≠ none := by
  obtain ⟨_, h1, -⟩ := ieeeD_spec hA i p q r
  obtain ⟨_, h2, -⟩ := iieeD_spec hA i j p q
  obtain ⟨_, h3, -⟩ := iiieD_spec hA i j k p
  obtain ⟨_, h4, -⟩ := iiiiD_spec hA i j k m
  obtain ⟨_, h5, -⟩ := ieeD_spec hA hx i p q
  obtain ⟨_, h6, -⟩ := iieD_spec hA hx i j p
  obtain ⟨_, h7, -⟩ := iiiD_spec hA hx i j k
  obtain ⟨_, h8, -⟩ := ltIeD_spec hA hx i p
  obtain ⟨_, h9, -⟩ := ltIiD_spec hA hx i j
  simp [h1, h2, h3, h4, h5, h6, h7, h8, h9]

/-- **C34** for the five predicates whose polynomial has an odd degree in the denominators, on computations that avoid the two
faulty arms of `mul`: an answer of the interval stage is right. (The filter makes the denominators negative and the sign test is
reversed.) Missing: the runs through the faulty arms, see `c34_refuted_arms`, and the other four predicates, see
`c34_reversed`. -/
theorem c34_odd_partial (hA : A.Sound) :
    (∀ pa pb pc pd o, ieeeD A pa pb pc pd = some (some o) → ieeeClean A pa pb pc pd → ∀ W, RepI pa W → o = side W pb pc pd) ∧
    (∀ pa pb pc pd o, iiieD A pa pb pc pd = some (some o) → iiieClean A pa pb pc pd → ∀ W X Y, RepI pa W → RepI pb X → RepI pc Y →
      o = side W X Y pd) ∧
    (∀ axis < 3, ∀ pa pb pc o, ieeD A axis pa pb pc = some (some o) → ieeClean A axis pa pb pc → ∀ X, RepI pa X → o = turn axis X pb pc) ∧
    (∀ axis < 3, ∀ pa pb pc o, iieD A axis pa pb pc = some (some o) → iieClean A axis pa pb pc → ∀ X Y, RepI pa X → RepI pb Y →
      o = turn axis X Y pc) ∧
    (∀ axis < 3, ∀ pa pb o, ltIeD A axis pa pb = some (some o) → ltIeClean A axis pa pb → ∀ X, RepI pa X →
      o = Pred.cmp (coord axis X) (coord axis pb)) := by
  refine ⟨fun pa pb pc pd o h => ?_, fun pa pb pc pd o h => ?_, fun axis hx pa pb pc o h => ?_, fun axis hx pa pb pc o h => ?_,
    fun axis hx pa pb o h => ?_⟩
  · obtain ⟨r, h1, h2⟩ := ieeeD_spec hA pa pb pc pd
    rw [h] at h1; cases h1; exact h2 o rfl
  · obtain ⟨r, h1, h2⟩ := iiieD_spec hA pa pb pc pd
    rw [h] at h1; cases h1; exact h2 o rfl
  · obtain ⟨r, h1, h2⟩ := ieeD_spec hA hx pa pb pc
    rw [h] at h1; cases h1; exact h2 o rfl
  · obtain ⟨r, h1, h2⟩ := iieD_spec hA hx pa pb pc
    rw [h] at h1; cases h1; exact h2 o rfl
  · obtain ⟨r, h1, h2⟩ := ltIeD_spec hA hx pa pb
    rw [h] at h1; cases h1; exact h2 o rfl

/-- The four predicates of even degree answer with the *reversed* sign; `less_than_ii` moreover compares with the x coordinate
of the second point on every axis. -/
theorem c34_reversed (hA : A.Sound) :
    (∀ pa pb pc pd o, iieeD A pa pb pc pd = some (some o) → iieeClean A pa pb pc pd → ∀ W X, RepI pa W → RepI pb X →
      o = (side W X pc pd).reverse) ∧
    (∀ pa pb pc pd o, iiiiD A pa pb pc pd = some (some o) → iiiiClean A pa pb pc pd → ∀ W X Y Z, RepI pa W → RepI pb X → RepI pc Y →
      RepI pd Z → o = (side W X Y Z).reverse) ∧
    (∀ axis < 3, ∀ pa pb pc o, iiiD A axis pa pb pc = some (some o) → iiiClean A axis pa pb pc → ∀ X Y Z, RepI pa X → RepI pb Y →
      RepI pc Z → o = (turn axis X Y Z).reverse) ∧
    (∀ axis < 3, ∀ pa pb o, ltIiD A axis pa pb = some (some o) → ltIiClean A axis pa pb → ∀ X Y, RepI pa X → RepI pb Y →
      o = (Pred.cmp (coord axis X) Y.x).reverse) := by
  refine ⟨fun pa pb pc pd o h => ?_, fun pa pb pc pd o h => ?_, fun axis hx pa pb pc o h => ?_, fun axis hx pa pb o h => ?_⟩
  · obtain ⟨r, h1, h2⟩ := iieeD_spec hA pa pb pc pd
    rw [h] at h1; cases h1; exact h2 o rfl
  · obtain ⟨r, h1, h2⟩ := iiiiD_spec hA pa pb pc pd
    rw [h] at h1; cases h1; exact h2 o rfl
  · obtain ⟨r, h1, h2⟩ := iiiD_spec hA hx pa pb pc
    rw [h] at h1; cases h1; exact h2 o rfl
  · obtain ⟨r, h1, h2⟩ := ltIiD_spec hA hx pa pb
    rw [h] at h1; cases h1; exact h2 o rfl

/-! Four implicit points in general position, with small integer coordinates. -/

def w1 : Imp ℚ := .lpi ⟨⟨16, -2, 1⟩, ⟨10, -13, 6⟩, ⟨-6, -19, 17⟩, ⟨-16, -8, 2⟩, ⟨-2, -14, -16⟩⟩
def w2 : Imp ℚ := .lpi ⟨⟨-1, 17, 18⟩, ⟨20, -14, -17⟩, ⟨-15, 3, 15⟩, ⟨8, -13, -13⟩, ⟨-11, -9, -2⟩⟩
def w3 : Imp ℚ := .lpi ⟨⟨12, -13, 5⟩, ⟨6, 6, 15⟩, ⟨2, 12, 14⟩, ⟨1, -15, -1⟩, ⟨-14, 11, -17⟩⟩
def w4 : Imp ℚ := .tpi ⟨⟨7, 0, 1⟩, ⟨1, 11, 2⟩, ⟨2, 3, 17⟩, ⟨-4, 1, 20⟩, ⟨9, -3, 1⟩, ⟨0, 5, -8⟩, ⟨3, 1, 2⟩, ⟨-9, 6, 4⟩, ⟨5, -20, 3⟩⟩

def x1 : Pt ℚ := ⟨4999 / 1387, -68589 / 2774, 31429 / 2774⟩
def x2 : Pt ℚ := ⟨47281 / 2573, -963 / 83, -36776 / 2573⟩
def x3 : Pt ℚ := ⟨1048 / 251, 8869 / 753, 13585 / 753⟩
def x4 : Pt ℚ := ⟨1444489 / 173417, -452694 / 173417, 208729 / 173417⟩

theorem w_rep : RepI w1 x1 ∧ RepI w2 x2 ∧ RepI w3 x3 ∧ RepI w4 x4 := by
  refine ⟨(repI_iff _ _).2 ⟨?_, ?_⟩, (repI_iff _ _).2 ⟨?_, ?_⟩, (repI_iff _ _).2 ⟨?_, ?_⟩, (repI_iff _ _).2 ⟨?_, ?_⟩⟩ <;> decide +kernel

/-- The four predicates of even degree are wrong on these points. -/
theorem c34_witness :
    (iieeD f64 w1 w2 ⟨1, 2, 3⟩ ⟨-5, 4, 13⟩ = some (some .negative) ∧ side x1 x2 ⟨1, 2, 3⟩ ⟨-5, 4, 13⟩ = .positive) ∧
    (iiiiD f64 w1 w2 w3 w4 = some (some .positive) ∧ side x1 x2 x3 x4 = .negative) ∧
    (iiiD f64 0 w1 w2 w3 = some (some .negative) ∧ turn 0 x1 x2 x3 = .positive) ∧
    (ltIiD f64 0 w1 w2 = some (some .positive) ∧ Pred.cmp (coord 0 x1) (coord 0 x2) = .negative) := by
  decide +kernel

/-- **C34** fails for the predicates of even degree. -/
theorem c34_refuted : ¬ C34 f64 := by
  intro h
  have := h.iiee _ _ _ _ _ c34_witness.1.1 x1 x2 w_rep.1 w_rep.2.1
  rw [c34_witness.1.2] at this
  cases this

/-- On the axes y and z the wrong coordinate makes a right answer possible: here the reversed comparison of z with x. -/
theorem c34_wrong_coordinate : ltIiD f64 2 w1 w2 = some (some .positive) ∧ Pred.cmp (coord 2 x1) x2.x = .negative ∧
    Pred.cmp (coord 2 x1) (coord 2 x2) = .positive := by decide +kernel

/-- A line through the origin that meets a plane very near to it. -/
def w5 : Imp ℚ := .lpi ⟨⟨0, 0, 0⟩, ⟨-83, -167, 179⟩, ⟨-5, 453, 496⟩, ⟨55, 284, 403⟩,
  ⟨-3108308750040049 / 2 ^ 46, 292398494262813 / 2 ^ 39, 2294530198675731 / 2 ^ 42⟩⟩

/-- **C34** also fails for the predicates of odd degree, because of the faulty arms of `mul`: the stage says that the x
coordinate of the point `w5` is greater than the given double, but it is less. -/
theorem c34_refuted_arms : ltIeD f64 0 w5 ⟨-511607063598209 / 2 ^ 91, 0, 0⟩ = some (some .positive) ∧ RepI w5 w5.lambda.pt ∧
    Pred.cmp w5.lambda.pt.x (-511607063598209 / 2 ^ 91) = .negative := by
  refine ⟨by decide +kernel, (repI_iff _ _).2 ⟨by decide +kernel, rfl⟩, by decide +kernel⟩

/-- Clean runs with answers exist. -/
example : ieeeD f64 w1 ⟨1, 2, 3⟩ ⟨-5, 4, 13⟩ ⟨9, 7, -11⟩ = some (some .positive) ∧ ieeeClean f64 w1 ⟨1, 2, 3⟩ ⟨-5, 4, 13⟩ ⟨9, 7, -11⟩ := by
  refine ⟨by decide +kernel, fun a ha => ?_⟩
  have e : (dynamicFilter f64 w1).all (fun r => r.all fun a => a.d.clean &&
    (ieeeImpl a (toI f64 ⟨1, 2, 3⟩) (toI f64 ⟨-5, 4, 13⟩) (toI f64 ⟨9, 7, -11⟩)).clean) = true := by decide +kernel
  rw [ha] at e
  simpa using e

example : iieeClean f64 w1 w2 ⟨1, 2, 3⟩ ⟨-5, 4, 13⟩ := by
  intro a b ha hb
  have e : (dynamicFilter f64 w1).all (fun r => r.all fun a => (dynamicFilter f64 w2).all (fun r => r.all fun b => a.d.clean &&
    b.d.clean && (iieeImpl a b (toI f64 ⟨1, 2, 3⟩) (toI f64 ⟨-5, 4, 13⟩)).clean)) = true := by decide +kernel
  rw [ha, hb] at e
  simpa [and_assoc] using e

end Verif.Interval
