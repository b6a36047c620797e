import Verif.Bsp.Vec
/-!
# The directed segments in which a plane meets the faces of a convex cell

A cell is the set where the functions `A i` of its faces are not negative. The plane `h = 0` meets face `i` in a segment, which is directed such that the
cell is to the left as seen from the positive side of the plane. This file shows that such segments do not overlap, and what they look like at a vertex
that comes first in lexicographic order.
-/
namespace Verif.Bsp
open InSphere (Pt)
open Geom (lerp)

variable {K : Type} [Field K] [LinearOrder K] [IsStrictOrderedRing K]

def Aff.smul (r : K) (A : Aff K) : Aff K := ⟨⟨r * A.n.x, r * A.n.y, r * A.n.z⟩, r * A.d⟩
def Aff.add (A B : Aff K) : Aff K := ⟨⟨A.n.x + B.n.x, A.n.y + B.n.y, A.n.z + B.n.z⟩, A.d + B.d⟩

theorem Aff.smul_ev (r : K) (A : Aff K) (p : Pt K) : (A.smul r).ev p = r * A.ev p := by simp only [Aff.ev, Aff.smul, vdot]; ring
theorem Aff.add_ev (A B : Aff K) (p : Pt K) : (A.add B).ev p = A.ev p + B.ev p := by simp only [Aff.ev, Aff.add, vdot]; ring

/-- A function that vanishes on a plane is a multiple of the function of the plane. -/
theorem plane_mul {h F : Aff K} (hn : vdot h.n h.n ≠ 0) (hF : ∀ q, h.ev q = 0 → F.ev q = 0) : ∃ μ, ∀ q, F.ev q = μ * h.ev q := by
  refine ⟨vdot F.n h.n / vdot h.n h.n, fun q => ?_⟩
  have e := hF ⟨q.x - h.ev q / vdot h.n h.n * h.n.x, q.y - h.ev q / vdot h.n h.n * h.n.y, q.z - h.ev q / vdot h.n h.n * h.n.z⟩ (by
    have : h.ev ⟨q.x - h.ev q / vdot h.n h.n * h.n.x, q.y - h.ev q / vdot h.n h.n * h.n.y, q.z - h.ev q / vdot h.n h.n * h.n.z⟩ = h.ev q - h.ev q / vdot h.n h.n * vdot h.n h.n := by
      generalize h.ev q / vdot h.n h.n = r
      simp only [Aff.ev, vdot]; ring
    rw [this, div_mul_cancel₀ _ hn, sub_self])
  have e2 : F.ev ⟨q.x - h.ev q / vdot h.n h.n * h.n.x, q.y - h.ev q / vdot h.n h.n * h.n.y, q.z - h.ev q / vdot h.n h.n * h.n.z⟩ = F.ev q - h.ev q / vdot h.n h.n * vdot F.n h.n := by
    generalize h.ev q / vdot h.n h.n = r
    simp only [Aff.ev, vdot]; ring
  rw [e2] at e
  rw [sub_eq_zero.1 e]; ring

theorem turn_line (n a b q : Pt K) (t r : K) : area n (lerp a b t) (lerp a b r) q = (r - t) * area n a b q := by
  simp only [area, vdet, vsub, lerp]; ring

/-- A function that vanishes at three points of a plane that are not on a line vanishes on the plane. -/
theorem three_points {A G : Aff K} {a b x : Pt K} (ha : A.ev a = 0) (hb : A.ev b = 0) (hx : A.ev x = 0) (ht : area A.n a b x ≠ 0) (ga : G.ev a = 0) (gb : G.ev b = 0) (gx : G.ev x = 0) :
    ∃ μ, ∀ q, G.ev q = μ * A.ev q := by
  have hn := normal_of_turn ht
  refine plane_mul hn fun q hq => ?_
  have := ev_ratio (G := G) hn ha hb hx hq ga gb
  rw [gx, zero_mul, eq_comm] at this
  exact (mul_eq_zero.1 this).resolve_right ht

/-! ### The cell -/

/-- A convex cell with its faces, and the plane `h = 0`. `F i` says that `i` is one of its faces, `V` are its vertices and `fv i` those of face `i`. -/
structure CellGeo (h : Aff K) (A : Nat → Aff K) (V : Pt K → Prop) (F : Nat → Prop) (fv : Nat → Pt K → Prop) : Prop where
  normal : vdot h.n h.n ≠ 0
  up : ∃ p, V p ∧ 0 < h.ev p
  down : ∃ p, V p ∧ h.ev p < 0
  side : ∀ i, F i → ∀ p, V p → 0 ≤ (A i).ev p
  strict : ∀ i, F i → ∃ p, V p ∧ (A i).ev p ≠ 0
  plane : ∀ i, F i → ∀ p, fv i p → (A i).ev p = 0
  sub : ∀ i, F i → ∀ p, fv i p → V p
  apart : ∀ i, F i → ∀ j, F j → i ≠ j → ∃ ψ : Aff K, (∀ p, fv i p → ψ.ev p ≤ 0) ∧ (∀ p, fv j p → 0 ≤ ψ.ev p) ∧ ((∃ p, fv i p ∧ ψ.ev p < 0) ∨ ∃ p, fv j p ∧ 0 < ψ.ev p)

/-- The segment from `a` to `b` in which the plane meets face `i`. -/
structure Dir (h : Aff K) (A : Nat → Aff K) (F : Nat → Prop) (fv : Nat → Pt K → Prop) (i : Nat) (a b : Pt K) : Prop where
  face : F i
  ha : h.ev a = 0
  hb : h.ev b = 0
  fa : fv i a
  fb : fv i b
  ne : a ≠ b
  left : ∃ κ, 0 < κ ∧ ∀ q, h.ev q = 0 → area h.n a b q = κ * (A i).ev q
  top : ∃ p, fv i p ∧ 0 < h.ev p

section
variable {h : Aff K} {A : Nat → Aff K} {V : Pt K → Prop} {F : Nat → Prop} {fv : Nat → Pt K → Prop} {i j : Nat} {a b a' b' : Pt K}

/-- A face is not contained in the plane. -/
theorem CellGeo.not_mul (g : CellGeo h A V F fv) (hi : F i) (μ : K) (e : ∀ q, (A i).ev q = μ * h.ev q) : False := by
  obtain ⟨p, hp, hp'⟩ := g.up
  obtain ⟨q, hq, hq'⟩ := g.down
  have h1 := g.side i hi p hp
  have h2 := g.side i hi q hq
  rw [e] at h1 h2
  have m0 : μ = 0 := by
    apply le_antisymm
    · by_contra hc
      rw [not_le] at hc
      have := mul_neg_of_pos_of_neg hc hq'
      linarith
    · by_contra hc
      rw [not_le] at hc
      have := mul_neg_of_neg_of_pos hc hp'
      linarith
  obtain ⟨r, hr, hr'⟩ := g.strict i hi
  rw [e, m0, zero_mul] at hr'
  exact hr' rfl

theorem CellGeo.left (g : CellGeo h A V F fv) (d : Dir h A F fv i a b) {q : Pt K} (hq : h.ev q = 0) (hv : V q) : 0 ≤ area h.n a b q := by
  obtain ⟨κ, hκ, e⟩ := d.left
  rw [e q hq]
  exact mul_nonneg hκ.le (g.side i d.face q hv)

/-- No two segments lie on a line in opposite directions. -/
theorem CellGeo.anti (g : CellGeo h A V F fv) (d : Dir h A F fv i a b) (d' : Dir h A F fv j a' b') {r : K} (hr : r < 0) (e : ∀ q, h.ev q = 0 → area h.n a' b' q = r * area h.n a b q) : False := by
  obtain ⟨κ, hκ, e1⟩ := d.left
  obtain ⟨κ', hκ', e2⟩ := d'.left
  have hrk : 0 < -r * κ := mul_pos (by linarith) hκ
  obtain ⟨μ, hμ⟩ := plane_mul (h := h) (F := ((A j).smul κ').add ((A i).smul (-r * κ))) g.normal fun q hq => by
    have := e q hq
    rw [e1 q hq, e2 q hq] at this
    rw [Aff.add_ev, Aff.smul_ev, Aff.smul_ev, this]; ring
  have hμ' : ∀ q, κ' * (A j).ev q + -r * κ * (A i).ev q = μ * h.ev q := fun q => by rw [← hμ, Aff.add_ev, Aff.smul_ev, Aff.smul_ev]
  have nn : ∀ q, V q → 0 ≤ μ * h.ev q := fun q hq => by
    rw [← hμ']
    exact add_nonneg (mul_nonneg hκ'.le (g.side j d'.face q hq)) (mul_nonneg hrk.le (g.side i d.face q hq))
  obtain ⟨p, hp, hp'⟩ := g.up
  obtain ⟨q, hq, hq'⟩ := g.down
  have m0 : μ = 0 := by
    apply le_antisymm
    · by_contra hc
      rw [not_le] at hc
      have := mul_neg_of_pos_of_neg hc hq'
      have := nn q hq
      linarith
    · by_contra hc
      rw [not_le] at hc
      have := mul_neg_of_neg_of_pos hc hp'
      have := nn p hp
      linarith
  obtain ⟨s, hs, hs'⟩ := g.strict i d.face
  have h1 := hμ' s
  rw [m0, zero_mul] at h1
  have h2 := mul_nonneg hκ'.le (g.side j d'.face s hs)
  have h3 : 0 < -r * κ * (A i).ev s := mul_pos hrk (lt_of_le_of_ne (g.side i d.face s hs) (Ne.symm hs'))
  linarith

/-- Faces that the plane meets along a line in the same direction lie in one plane. -/
theorem CellGeo.para (g : CellGeo h A V F fv) (d : Dir h A F fv i a b) (d' : Dir h A F fv j a' b') {r : K} (hr : 0 < r) (e : ∀ q, h.ev q = 0 → area h.n a' b' q = r * area h.n a b q) :
    ∀ q, (A i).ev q = 0 ↔ (A j).ev q = 0 := by
  obtain ⟨κ, hκ, e1⟩ := d.left
  obtain ⟨κ', hκ', e2⟩ := d'.left
  have hrk : 0 < r * κ := mul_pos hr hκ
  obtain ⟨μ, hμ⟩ := plane_mul (h := h) (F := ((A j).smul κ').add ((A i).smul (-(r * κ)))) g.normal fun q hq => by
    have := e q hq
    rw [e1 q hq, e2 q hq] at this
    rw [Aff.add_ev, Aff.smul_ev, Aff.smul_ev, this]; ring
  have hμ' : ∀ q, κ' * (A j).ev q - r * κ * (A i).ev q = μ * h.ev q := fun q => by rw [← hμ, Aff.add_ev, Aff.smul_ev, Aff.smul_ev]; ring
  obtain ⟨p, hp, hp'⟩ := d.top
  obtain ⟨p2, hp2, hp2'⟩ := d'.top
  have m0 : μ = 0 := by
    apply le_antisymm
    · by_contra hc
      rw [not_le] at hc
      have h1 := hμ' p2
      rw [g.plane j d'.face p2 hp2] at h1
      have h2 := mul_pos hc hp2'
      have h3 := mul_nonneg hrk.le (g.side i d.face p2 (g.sub j d'.face p2 hp2))
      linarith
    · by_contra hc
      rw [not_le] at hc
      have h1 := hμ' p
      rw [g.plane i d.face p hp] at h1
      have h2 := mul_neg_of_neg_of_pos hc hp'
      have h3 := mul_nonneg hκ'.le (g.side j d'.face p (g.sub i d.face p hp))
      linarith
  intro q
  have := hμ' q
  rw [m0, zero_mul] at this
  constructor
  · intro h0
    rw [h0] at this
    have : κ' * (A j).ev q = 0 := by linarith
    exact (mul_eq_zero.1 this).resolve_left hκ'.ne'
  · intro h0
    rw [h0] at this
    have : r * κ * (A i).ev q = 0 := by linarith
    exact (mul_eq_zero.1 this).resolve_left hrk.ne'

/-- **No segment begins on the segment of another face**, except at its end. -/
theorem CellGeo.start (g : CellGeo h A V F fv) (d : Dir h A F fv i a b) (d' : Dir h A F fv j a' b') (hij : i ≠ j) {t : K} (t0 : 0 ≤ t) (t1 : t < 1) (e : a' = lerp a b t) : False := by
  have va := g.sub i d.face a d.fa
  have vb := g.sub i d.face b d.fb
  have vb' := g.sub j d'.face b' d'.fb
  have h1 := g.left d d'.hb vb'
  have h2 := g.left d' d.hb vb
  have z : area h.n a b b' = 0 := by
    have e1 : area h.n a' b' b = - ((1 - t) * area h.n a b b') := by
      rw [← turn_from, ← e, ← turn_rot h.n a' b' b, turn_swap, turn_rot]
    rw [e1] at h2
    have : (1 - t) * area h.n a b b' ≤ 0 := by linarith
    exact le_antisymm (nonpos_of_mul_nonpos_right this (by linarith)) h1
  obtain ⟨r, er⟩ := on_line g.normal d.ha d.hb d'.hb d.ne z
  have hrt : r ≠ t := fun h' => d'.ne (by rw [e, er, h'])
  have hturn : ∀ q, h.ev q = 0 → area h.n a' b' q = (r - t) * area h.n a b q := fun q _ => by rw [e, er, turn_line]
  rcases lt_or_gt_of_ne hrt with hlt | hgt
  · exact g.anti d d' (by linarith) hturn
  · have hpl := g.para d d' (by linarith) hturn
    obtain ⟨ψ, p1, p2, p3⟩ := g.apart i d.face j d'.face hij
    have pa := p1 a d.fa
    have pb := p1 b d.fb
    have pa' := p2 a' d'.fa
    have pb' := p2 b' d'.fb
    rw [e, ev_lerp] at pa'
    rw [er, ev_lerp] at pb'
    have ha0 : ψ.ev a = 0 := by
      have := mul_nonpos_of_nonneg_of_nonpos t0 pb
      have h3 : (1 - t) * ψ.ev a ≤ 0 := mul_nonpos_of_nonneg_of_nonpos (by linarith) pa
      have h4 : (1 - t) * ψ.ev a = 0 := by linarith
      exact (mul_eq_zero.1 h4).resolve_left (by linarith)
    have hb0 : ψ.ev b = 0 := by
      rw [ha0, mul_zero, zero_add] at pb'
      have r0 : 0 < r := by linarith
      exact le_antisymm pb (nonneg_of_mul_nonneg_right pb' r0)
    -- the plane of the two faces
    have hAn : vdot (A i).n (A i).n ≠ 0 := by
      intro h0
      obtain ⟨s, hs, hs'⟩ := g.strict i d.face
      have hz : (A i).n = ⟨0, 0, 0⟩ := by
        by_contra hc
        exact (vdot_pos hc).ne' h0
      have e1 : (A i).ev s = (A i).ev a := by simp [Aff.ev, hz, vdot]
      rw [g.plane i d.face a d.fa] at e1
      exact hs' e1
    obtain ⟨p, hp, hp'⟩ := d.top
    obtain ⟨q, hq, hq'⟩ := d'.top
    have fa0 := g.plane i d.face a d.fa
    have fb0 := g.plane i d.face b d.fb
    have fp0 := g.plane i d.face p hp
    have fq0 := (hpl q).2 (g.plane j d'.face q hq)
    have hT : area (A i).n a b p ≠ 0 := by
      intro h0
      obtain ⟨u, eu⟩ := on_line hAn fa0 fb0 fp0 d.ne h0
      rw [eu, ev_lerp, d.ha, d.hb] at hp'
      simp at hp'
    have r1 := ev_ratio (G := ψ) hAn fa0 fb0 fp0 fq0 ha0 hb0
    have r2 := ev_ratio (G := h) hAn fa0 fb0 fp0 fq0 d.ha d.hb
    have hψp : ψ.ev p = 0 := by
      have q1 := p1 p hp
      have q2 := p2 q hq
      have e3 : (h.ev p * ψ.ev q - h.ev q * ψ.ev p) * area (A i).n a b p = 0 := by linear_combination (-h.ev p) * r1 + (ψ.ev p) * r2
      have e4 := (mul_eq_zero.1 e3).resolve_right hT
      have e5 := mul_nonneg hp'.le q2
      have e6 : h.ev q * ψ.ev p = 0 := le_antisymm (mul_nonpos_of_nonneg_of_nonpos hq'.le q1) (by linarith)
      exact (mul_eq_zero.1 e6).resolve_left hq'.ne'
    have hall : ∀ z, (A i).ev z = 0 → ψ.ev z = 0 := by
      intro z hz
      have := ev_ratio (G := ψ) hAn fa0 fb0 fp0 hz ha0 hb0
      rw [hψp, zero_mul, eq_comm] at this
      exact (mul_eq_zero.1 this).resolve_right hT
    rcases p3 with ⟨z, hz, hz'⟩ | ⟨z, hz, hz'⟩
    · rw [hall z (g.plane i d.face z hz)] at hz'
      exact lt_irrefl _ hz'
    · rw [hall z ((hpl z).2 (g.plane j d'.face z hz))] at hz'
      exact lt_irrefl _ hz'

end

/-! ### Lexicographic order -/

def LexPos (u : Pt K) : Prop := 0 < u.x ∨ (u.x = 0 ∧ (0 < u.y ∨ (u.y = 0 ∧ 0 < u.z)))

theorem lex_trichotomy (p q : Pt K) : p = q ∨ LexPos (vsub p q) ∨ LexPos (vsub q p) := by
  obtain ⟨a, b, c⟩ := p
  obtain ⟨a', b', c'⟩ := q
  simp only [LexPos, vsub, Pt.mk.injEq, sub_pos, sub_eq_zero]
  rcases lt_trichotomy a a' with h | h | h
  · exact Or.inr (Or.inr (Or.inl h))
  · rcases lt_trichotomy b b' with h' | h' | h'
    · exact Or.inr (Or.inr (Or.inr ⟨h.symm, Or.inl h'⟩))
    · rcases lt_trichotomy c c' with h2 | h2 | h2
      · exact Or.inr (Or.inr (Or.inr ⟨h.symm, Or.inr ⟨h'.symm, h2⟩⟩))
      · exact Or.inl ⟨h, h', h2⟩
      · exact Or.inr (Or.inl (Or.inr ⟨h, Or.inr ⟨h', h2⟩⟩))
    · exact Or.inr (Or.inl (Or.inr ⟨h, Or.inl h'⟩))
  · exact Or.inr (Or.inl (Or.inl h))

theorem lex_comb {u v : Pt K} (hu : LexPos u) (hv : LexPos v) {α β : K} (ha : 0 ≤ α) (hb : 0 ≤ β) (hab : α ≠ 0 ∨ β ≠ 0) :
    LexPos ⟨α * u.x + β * v.x, α * u.y + β * v.y, α * u.z + β * v.z⟩ := by
  have key : ∀ {a b : K}, 0 < a → 0 < b → 0 < α * a + β * b := by
    intro a b h1 h2
    rcases hab with h | h
    · have := mul_pos (lt_of_le_of_ne ha (Ne.symm h)) h1
      have := mul_nonneg hb h2.le
      linarith
    · have := mul_pos (lt_of_le_of_ne hb (Ne.symm h)) h2
      have := mul_nonneg ha h1.le
      linarith
  rcases eq_or_lt_of_le ha with ha0 | ha0
  · have hb0 : 0 < β := lt_of_le_of_ne hb (Ne.symm (hab.resolve_left (by rw [← ha0]; simp)))
    subst ha0
    rcases hv with h | ⟨h, h' | ⟨h', h2⟩⟩
    · exact Or.inl (by simpa using mul_pos hb0 h)
    · exact Or.inr ⟨by simp [h], Or.inl (by simpa using mul_pos hb0 h')⟩
    · exact Or.inr ⟨by simp [h], Or.inr ⟨by simp [h'], by simpa using mul_pos hb0 h2⟩⟩
  rcases eq_or_lt_of_le hb with hb0 | hb0
  · subst hb0
    rcases hu with h | ⟨h, h' | ⟨h', h2⟩⟩
    · exact Or.inl (by simpa using mul_pos ha0 h)
    · exact Or.inr ⟨by simp [h], Or.inl (by simpa using mul_pos ha0 h')⟩
    · exact Or.inr ⟨by simp [h], Or.inr ⟨by simp [h'], by simpa using mul_pos ha0 h2⟩⟩
  rcases hu with h | ⟨h, h' | ⟨h', h2⟩⟩ <;> rcases hv with k | ⟨k, k' | ⟨k', k2⟩⟩
  · exact Or.inl (key h k)
  · exact Or.inl (by simpa [k] using mul_pos ha0 h)
  · exact Or.inl (by simpa [k] using mul_pos ha0 h)
  · exact Or.inl (by simpa [h] using mul_pos hb0 k)
  · exact Or.inr ⟨by simp [h, k], Or.inl (key h' k')⟩
  · exact Or.inr ⟨by simp [h, k], Or.inl (by simpa [k'] using mul_pos ha0 h')⟩
  · exact Or.inl (by simpa [h] using mul_pos hb0 k)
  · exact Or.inr ⟨by simp [h, k], Or.inl (by simpa [h'] using mul_pos hb0 k')⟩
  · exact Or.inr ⟨by simp [h, k], Or.inr ⟨by simp [h', k'], key h2 k2⟩⟩

theorem lex_irrefl {u v : Pt K} (hu : LexPos u) (hv : LexPos v) (hx : u.x = - v.x) (hy : u.y = - v.y) (hz : u.z = - v.z) : False := by
  have := lex_comb hu hv (α := 1) (β := 1) zero_le_one zero_le_one (Or.inl one_ne_zero)
  simp [LexPos, hx, hy, hz] at this

theorem lex_trans {p q r : Pt K} (h1 : LexPos (vsub p q)) (h2 : LexPos (vsub q r)) : LexPos (vsub p r) := by
  have := lex_comb h1 h2 (α := 1) (β := 1) zero_le_one zero_le_one (Or.inl one_ne_zero)
  simpa [vsub] using this

theorem lex_asymm {p q : Pt K} (h1 : LexPos (vsub p q)) (h2 : LexPos (vsub q p)) : False :=
  lex_irrefl h1 h2 (by simp [vsub]) (by simp [vsub]) (by simp [vsub])

/-- There is a first point. -/
theorem lex_min {α : Type} (f : α → Pt K) : ∀ (l : List α), l ≠ [] → ∃ m ∈ l, ∀ x ∈ l, f x = f m ∨ LexPos (vsub (f x) (f m))
  | [], h => absurd rfl h
  | [a], _ => ⟨a, by simp, by simp⟩
  | a :: b :: l, _ => by
    obtain ⟨m, hm, h⟩ := lex_min f (b :: l) (by simp)
    rcases lex_trichotomy (f a) (f m) with e | e | e
    · exact ⟨m, by simp [List.mem_cons.1 hm], fun x hx => by
        rcases List.mem_cons.1 hx with rfl | hx
        · exact Or.inl e
        · exact h x hx⟩
    · exact ⟨m, List.mem_cons_of_mem _ hm, fun x hx => by
        rcases List.mem_cons.1 hx with rfl | hx
        · exact Or.inr e
        · exact h x hx⟩
    · refine ⟨a, by simp, fun x hx => ?_⟩
      rcases List.mem_cons.1 hx with rfl | hx
      · exact Or.inl rfl
      · rcases h x hx with e' | e'
        · rw [e']; exact Or.inr e
        · exact Or.inr (lex_trans e' e)

section
variable {h : Aff K} {A : Nat → Aff K} {V : Pt K → Prop} {F : Nat → Prop} {fv : Nat → Pt K → Prop} {i j : Nat} {a b c : Pt K}

/-- At a first vertex the segments area to the left. -/
theorem CellGeo.corner (g : CellGeo h A V F fv) (d : Dir h A F fv i a b) (d' : Dir h A F fv j b c) (ha : LexPos (vsub a b)) (hc : LexPos (vsub c b)) : 0 < area h.n a b c := by
  have h0 := g.left d d'.hb (g.sub j d'.face c d'.fb)
  refine lt_of_le_of_ne h0 fun e => ?_
  have z : area h.n b a c = 0 := by rw [turn_swap, ← e, neg_zero]
  obtain ⟨r, er⟩ := on_line g.normal d.hb d.ha d'.hb d.ne.symm z
  have hturn : ∀ q, h.ev q = 0 → area h.n b c q = (-r) * area h.n a b q := fun q _ => by
    have := turn_line h.n b a q 0 r
    rw [lerp_zero, ← er, sub_zero, turn_swap h.n a b q] at this
    rw [this]; ring
  rcases lt_trichotomy r 0 with hr | hr | hr
  · have := lex_comb ha hc (α := -r) (β := 1) (by linarith) zero_le_one (Or.inr one_ne_zero)
    have e1 : vsub c b = ⟨r * (vsub a b).x, r * (vsub a b).y, r * (vsub a b).z⟩ := by rw [er]; simp only [vsub, lerp, Pt.mk.injEq]; refine ⟨?_, ?_, ?_⟩ <;> ring
    rw [e1] at this
    simp [LexPos] at this
  · rw [hr, lerp_zero] at er
    exact d'.ne er.symm
  · exact g.anti d d' (by linarith) hturn

/-- Such a vertex comes before all points of the plane that are on the inner sides of its two segments. -/
theorem CellGeo.first (g : CellGeo h A V F fv) (d : Dir h A F fv i a b) (d' : Dir h A F fv j b c) (ha : LexPos (vsub a b)) (hc : LexPos (vsub c b)) {q : Pt K} (hq : h.ev q = 0) (hv : V q) :
    q = b ∨ LexPos (vsub q b) := by
  have D := g.corner d d' ha hc
  have h1 := g.left d hq hv
  have h2 := g.left d' hq hv
  generalize hα : area h.n b c q / area h.n a b c = α
  generalize hβ : area h.n a b q / area h.n a b c = β
  have a0 : 0 ≤ α := by rw [← hα]; exact div_nonneg h2 D.le
  have b0 : 0 ≤ β := by rw [← hβ]; exact div_nonneg h1 D.le
  have p1 : vdot h.n (vsub q b) = 0 := by rw [vdot_vsub, hq, d.hb, sub_zero]
  have p2 : vdot h.n (vsub c b) = 0 := by rw [vdot_vsub, d'.hb, d.hb, sub_zero]
  have p3 : vdot h.n (vsub a b) = 0 := by rw [vdot_vsub, d.ha, d.hb, sub_zero]
  have det := vdet_plane g.normal p1 p2 p3
  have e : vsub q b = ⟨α * (vsub a b).x + β * (vsub c b).x, α * (vsub a b).y + β * (vsub c b).y, α * (vsub a b).z + β * (vsub c b).z⟩ := by
    rw [← hα, ← hβ]
    have D' := D.ne'
    generalize hD : area h.n a b c = D0 at *
    simp only [area, vdet, vsub] at hD det ⊢
    rw [Pt.mk.injEq]
    refine ⟨?_, ?_, ?_⟩
    · field_simp
      linear_combination (-(q.x - b.x)) * hD + h.n.x * det
    · field_simp
      linear_combination (-(q.y - b.y)) * hD + h.n.y * det
    · field_simp
      linear_combination (-(q.z - b.z)) * hD + h.n.z * det
  by_cases hz : α ≠ 0 ∨ β ≠ 0
  · right
    rw [e]
    exact lex_comb ha hc a0 b0 hz
  · left
    push Not at hz
    rw [hz.1, hz.2] at e
    obtain ⟨x, y, z⟩ := q
    obtain ⟨x', y', z'⟩ := b
    simp only [vsub, zero_mul, add_zero, Pt.mk.injEq, sub_eq_zero] at e
    rw [e.1, e.2.1, e.2.2]

end

end Verif.Bsp
