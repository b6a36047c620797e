import Verif.Delaunay.Main
import Verif.Tet.Whole
import Verif.Hilbert.Props
/-!
# The choice of the first four points
-/
namespace Verif.Delaunay
open Tet
open InSphere (Pt orient3d)
open Hilbert (scanUp swap scanUp_spec)

variable {K : Type} [Field K] [LinearOrder K]

theorem bring_spec {l : List Nat} {k : Nat} (hk : k < l.length) {stop : Nat → Option Bool} {P : Nat → Bool} (hs : ∀ x ∈ l, stop x = some (!P x)) :
    ∃ i, scanUp stop l (l.length + 1) k = some i ∧
      ((bring l k i = some none ∧ ∀ a (h : a < l.length), k ≤ a → P l[a] = true) ∨
        ∃ l', bring l k i = some (some l') ∧ l'.Perm l ∧ (∀ a, a < k → l'[a]? = l[a]?) ∧ ∃ j, l'[k]? = some j ∧ P j = false) := by
  obtain ⟨i, e, h1, h2, h3, h4⟩ := scanUp_spec hs (l.length + 1) k (by omega) hk.le
  refine ⟨i, e, ?_⟩
  unfold bring
  by_cases hki : k < i
  · rw [if_pos hki]
    by_cases hi : i = l.length
    · rw [if_pos hi]
      left
      exact ⟨rfl, fun a h hka => h3 a h hka (by omega)⟩
    · rw [if_neg hi]
      right
      have hil : i < l.length := by omega
      obtain ⟨es, hp⟩ := Hilbert.swap_spec hk hil
      rw [es]
      refine ⟨_, rfl, hp, ?_, l[i], ?_, h4 hil⟩
      · intro a ha
        rw [List.getElem?_set_ne (by omega), List.getElem?_set_ne (by omega)]
      · rw [List.getElem?_set_ne (by omega), List.getElem?_set_self hk]
  · rw [if_neg hki]
    right
    have : i = k := by omega
    subst this
    exact ⟨l, rfl, List.Perm.refl _, fun _ _ => rfl, l[i], List.getElem?_eq_getElem hk, h4 hk⟩

/-- The points are flat in the sense of the three tests, which depend on the choice of the points `a`, `b`, `c`; `s` is the square of the diagonal of the bounding box. -/
def FlatPts (pts : List (Pt K)) (s : K) : Prop :=
  ∃ a ∈ pts, (∀ p ∈ pts, nearPoint s a p = true) ∨
    ∃ b ∈ pts, nearPoint s a b = false ∧ ((∀ p ∈ pts, nearLine s a b p = true) ∨ ∃ c ∈ pts, nearLine s a b c = false ∧ ∀ p ∈ pts, nearPlane s a b c p = true)

variable [IsStrictOrderedRing K]

theorem eps2_pos : 0 < (eps2 : K) := by unfold eps2; positivity

theorem pt_mem {pts : List (Pt K)} {i : Nat} (h : i < pts.length) : pt pts i ∈ pts := by
  have := get_pt h
  exact List.mem_of_getElem? this

theorem firstFour_spec {pts : List (Pt K)} {s : K} (hs : 0 < s) {l : List Nat} (hl : l.Perm (List.range pts.length)) (h4 : 4 ≤ pts.length) :
    (firstFour pts s l = some none ∧ FlatPts pts s) ∨
    ∃ p0 p1 p2 p3 rest, firstFour pts s l = some (some (p0 :: p1 :: p2 :: p3 :: rest)) ∧ (p0 :: p1 :: p2 :: p3 :: rest).Perm (List.range pts.length) ∧
      orient3d (pt pts p0) (pt pts p1) (pt pts p2) (pt pts p3) < 0 := by
  have key : ∀ {l : List Nat}, l.Perm (List.range pts.length) → l.length = pts.length ∧ (∀ x, x ∈ l ↔ x < pts.length) := by
    intro l hl
    exact ⟨by rw [hl.length_eq, List.length_range], fun x => by rw [hl.mem_iff, List.mem_range]⟩
  have all : ∀ {l : List Nat} (hl : l.Perm (List.range pts.length)) {P : Pt K → Prop} (_ : ∀ a (h : a < l.length), P (pt pts l[a])), ∀ p ∈ pts, P p := by
    intro l hl P h p hp
    obtain ⟨q, hq, rfl⟩ := List.getElem_of_mem hp
    have := ((key hl).2 q).2 hq
    obtain ⟨a, ha, e⟩ := List.getElem_of_mem this
    have := h a ha
    rw [e] at this
    have hpt : pts[q] = pt pts q := by simp [pt, hq]
    rw [hpt]
    exact this
  have he := eps2_pos (K := K)
  obtain ⟨hlen, hmem⟩ := key hl
  have stopOk : ∀ (f : Pt K → Bool) {l : List Nat}, l.Perm (List.range pts.length) → ∀ x ∈ l, (do return !f (← pts[x]?) : Option Bool) = some (!f (pt pts x)) := by
    intro f l hl x hx
    rw [get_pt (((key hl).2 x).1 hx)]
    rfl
  -- first point
  obtain ⟨p0, e0⟩ : ∃ j, l[0]? = some j := ⟨_, List.getElem?_eq_getElem (by omega)⟩
  have b0 : p0 < pts.length := (hmem _).1 (List.mem_of_getElem? e0)
  have a0 : pointAt pts l 0 = some (pt pts p0) := by simp [pointAt, e0, get_pt b0]
  -- second point
  obtain ⟨i, es, hb⟩ := bring_spec (k := 1) (by omega : 1 < l.length) (P := fun j => nearPoint s (pt pts p0) (pt pts j)) (stopOk (fun p => nearPoint s (pt pts p0) p) hl)
  simp only [Option.bind_eq_bind] at es
  unfold firstFour
  simp only [a0, es, Option.bind_eq_bind, Option.bind_some]
  rcases hb with ⟨eb, hflat⟩ | ⟨l1, eb, hp1, hk1, p1, e1, n1⟩
  · left
    refine ⟨by rw [eb]; rfl, pt pts p0, pt_mem b0, Or.inl ?_⟩
    refine all hl (P := fun p => nearPoint s (pt pts p0) p = true) ?_
    intro a ha
    by_cases h : 1 ≤ a
    · exact hflat a ha h
    · have : a = 0 := by omega
      subst this
      rw [List.getElem?_eq_getElem ha] at e0
      cases e0
      have : (0 : K) < eps2 * s := by positivity
      simpa [nearPoint, norm2, diff] using this
  · replace hp1 := hp1.trans hl
    obtain ⟨hlen1, hmem1⟩ := key hp1
    have e01 : l1[0]? = some p0 := by rw [hk1 0 (by omega), e0]
    have b1 : p1 < pts.length := (hmem1 _).1 (List.mem_of_getElem? e1)
    have a1 : pointAt pts l1 1 = some (pt pts p1) := by simp [pointAt, e1, get_pt b1]
    obtain ⟨i, es, hb⟩ := bring_spec (k := 2) (by omega : 2 < l1.length) (P := fun j => nearLine s (pt pts p0) (pt pts p1) (pt pts j))
      (stopOk (fun p => nearLine s (pt pts p0) (pt pts p1) p) hp1)
    simp only [Option.bind_eq_bind] at es
    simp only [eb, a1, es, Option.bind_some]
    rcases hb with ⟨eb, hflat⟩ | ⟨l2, eb, hp2, hk2, p2, e2, n2⟩
    · left
      refine ⟨by rw [eb]; rfl, pt pts p0, pt_mem b0, Or.inr ⟨pt pts p1, pt_mem b1, n1, Or.inl ?_⟩⟩
      refine all hp1 (P := fun p => nearLine s (pt pts p0) (pt pts p1) p = true) ?_
      intro a ha
      have : (0 : K) < eps2 * (s * s) := by positivity
      by_cases h : 2 ≤ a
      · exact hflat a ha h
      · obtain rfl | rfl : a = 0 ∨ a = 1 := by omega
        · rw [List.getElem?_eq_getElem ha] at e01
          cases e01
          simpa [nearLine, norm2, diff, crossP] using this
        · rw [List.getElem?_eq_getElem ha] at e1
          cases e1
          simp only [nearLine, norm2, diff, crossP, decide_eq_true_eq]
          ring_nf at this ⊢
          exact decide_eq_true this
    · replace hp2 := hp2.trans hp1
      obtain ⟨hlen2, hmem2⟩ := key hp2
      have e02 : l2[0]? = some p0 := by rw [hk2 0 (by omega), e01]
      have e12 : l2[1]? = some p1 := by rw [hk2 1 (by omega), e1]
      have b2 : p2 < pts.length := (hmem2 _).1 (List.mem_of_getElem? e2)
      have a2 : pointAt pts l2 2 = some (pt pts p2) := by simp [pointAt, e2, get_pt b2]
      obtain ⟨i, es, hb⟩ := bring_spec (k := 3) (by omega : 3 < l2.length) (P := fun j => nearPlane s (pt pts p0) (pt pts p1) (pt pts p2) (pt pts j))
        (stopOk (fun p => nearPlane s (pt pts p0) (pt pts p1) (pt pts p2) p) hp2)
      simp only [Option.bind_eq_bind] at es
      simp only [eb, a2, es, Option.bind_some]
      rcases hb with ⟨eb, hflat⟩ | ⟨l3, eb, hp3, hk3, p3, e3, n3⟩
      · left
        refine ⟨by rw [eb]; rfl, pt pts p0, pt_mem b0, Or.inr ⟨pt pts p1, pt_mem b1, n1, Or.inr ⟨pt pts p2, pt_mem b2, n2, ?_⟩⟩⟩
        refine all hp2 (P := fun p => nearPlane s (pt pts p0) (pt pts p1) (pt pts p2) p = true) ?_
        intro a ha
        have : (0 : K) < eps2 * (s * s * s) := by positivity
        by_cases h : 3 ≤ a
        · exact hflat a ha h
        · obtain rfl | rfl | rfl : a = 0 ∨ a = 1 ∨ a = 2 := by omega
          · rw [List.getElem?_eq_getElem ha] at e02
            cases e02
            simp only [nearPlane, orient3d, decide_eq_true_eq]
            ring_nf at this ⊢
            exact decide_eq_true this
          · rw [List.getElem?_eq_getElem ha] at e12
            cases e12
            simp only [nearPlane, orient3d, decide_eq_true_eq]
            ring_nf at this ⊢
            exact decide_eq_true this
          · rw [List.getElem?_eq_getElem ha] at e2
            cases e2
            simp only [nearPlane, orient3d, decide_eq_true_eq]
            ring_nf at this ⊢
            exact decide_eq_true this
      · right
        replace hp3 := hp3.trans hp2
        obtain ⟨hlen3, hmem3⟩ := key hp3
        have e03 : l3[0]? = some p0 := by rw [hk3 0 (by omega), e02]
        have e13 : l3[1]? = some p1 := by rw [hk3 1 (by omega), e12]
        have e23 : l3[2]? = some p2 := by rw [hk3 2 (by omega), e2]
        have b3 : p3 < pts.length := (hmem3 _).1 (List.mem_of_getElem? e3)
        have a3 : pointAt pts l3 3 = some (pt pts p3) := by simp [pointAt, e3, get_pt b3]
        simp only [eb, a3, Option.bind_some]
        have hne : orient3d (pt pts p0) (pt pts p1) (pt pts p2) (pt pts p3) ≠ 0 := by
          intro h
          have : (0 : K) < eps2 * (s * s * s) := by positivity
          simp [nearPlane, h, not_le.2 this] at n3
        obtain ⟨rest, rfl⟩ : ∃ rest, l3 = p0 :: p1 :: p2 :: p3 :: rest := by
          match l3, hlen3 with
          | a :: b :: c :: d :: rest, _ =>
            simp at e03 e13 e23 e3
            subst e03 e13 e23 e3
            exact ⟨rest, rfl⟩
          | [], h => simp at h; omega
          | [_], h => simp at h; omega
          | [_, _], h => simp at h; omega
          | [_, _, _], h => simp at h; omega
        by_cases hpos : orient3d (pt pts p0) (pt pts p1) (pt pts p2) (pt pts p3) > 0
        · rw [if_pos hpos]
          refine ⟨p1, p0, p2, p3, rest, rfl, (List.Perm.swap _ _ _).trans hp3, ?_⟩
          have : orient3d (pt pts p1) (pt pts p0) (pt pts p2) (pt pts p3) = - orient3d (pt pts p0) (pt pts p1) (pt pts p2) (pt pts p3) := by
            simp only [orient3d]; ring
          rw [this]
          linarith
        · rw [if_neg hpos]
          exact ⟨p0, p1, p2, p3, rest, rfl, hp3, lt_of_le_of_ne (not_lt.1 hpos) hne⟩

theorem foldl_min_le : ∀ (l : List K) (a : K), l.foldl min a ≤ a ∧ ∀ b ∈ l, l.foldl min a ≤ b
  | [], a => ⟨le_rfl, by simp⟩
  | c :: l, a => by
    obtain ⟨h1, h2⟩ := foldl_min_le l (min a c)
    refine ⟨h1.trans (min_le_left _ _), ?_⟩
    intro b hb
    rcases List.mem_cons.1 hb with rfl | hb
    · exact h1.trans (min_le_right _ _)
    · exact h2 b hb

theorem le_foldl_max : ∀ (l : List K) (a : K), a ≤ l.foldl max a ∧ ∀ b ∈ l, b ≤ l.foldl max a
  | [], a => ⟨le_rfl, by simp⟩
  | c :: l, a => by
    obtain ⟨h1, h2⟩ := le_foldl_max l (max a c)
    refine ⟨(le_max_left _ _).trans h1, ?_⟩
    intro b hb
    rcases List.mem_cons.1 hb with rfl | hb
    · exact (le_max_right _ _).trans h1
    · exact h2 b hb

theorem minOf_spec {l : List K} (h : l ≠ []) : ∃ a, minOf l = some a ∧ ∀ b ∈ l, a ≤ b := by
  cases l with
  | nil => exact absurd rfl h
  | cons c l =>
    obtain ⟨h1, h2⟩ := foldl_min_le l c
    exact ⟨_, rfl, fun b hb => by rcases List.mem_cons.1 hb with rfl | hb; exacts [h1, h2 b hb]⟩

theorem maxOf_spec {l : List K} (h : l ≠ []) : ∃ a, maxOf l = some a ∧ ∀ b ∈ l, b ≤ a := by
  cases l with
  | nil => exact absurd rfl h
  | cons c l =>
    obtain ⟨h1, h2⟩ := le_foldl_max l c
    exact ⟨_, rfl, fun b hb => by rcases List.mem_cons.1 hb with rfl | hb; exacts [h1, h2 b hb]⟩

/-- The bounding box of points of which two differ has a positive diagonal. -/
theorem boxOf_spec {pts : List (Pt K)} (h : pts ≠ []) : ∃ box s, boxOf pts = some box ∧ box.length = 6 ∧ boxSize box = some s ∧
    ∀ p ∈ pts, ∀ q ∈ pts, norm2 (diff p q) ≤ s := by
  have hne : ∀ f : Pt K → K, pts.map f ≠ [] := fun f hf => h (List.map_eq_nil_iff.1 hf)
  obtain ⟨x0, ex0, hx0⟩ := minOf_spec (hne (·.x))
  obtain ⟨y0, ey0, hy0⟩ := minOf_spec (hne (·.y))
  obtain ⟨z0, ez0, hz0⟩ := minOf_spec (hne (·.z))
  obtain ⟨x1, ex1, hx1⟩ := maxOf_spec (hne (·.x))
  obtain ⟨y1, ey1, hy1⟩ := maxOf_spec (hne (·.y))
  obtain ⟨z1, ez1, hz1⟩ := maxOf_spec (hne (·.z))
  refine ⟨[x0, y0, z0, x1, y1, z1], _, by simp [boxOf, ex0, ey0, ez0, ex1, ey1, ez1], rfl, rfl, ?_⟩
  intro p hp q hq
  have key : ∀ (f : Pt K → K) (a b : K), (∀ c ∈ pts.map f, a ≤ c) → (∀ c ∈ pts.map f, c ≤ b) → (f p - f q) * (f p - f q) ≤ (b - a) * (b - a) := by
    intro f a b ha hb
    have h1 := ha _ (List.mem_map_of_mem hp)
    have h2 := ha _ (List.mem_map_of_mem hq)
    have h3 := hb _ (List.mem_map_of_mem hp)
    have h4 := hb _ (List.mem_map_of_mem hq)
    rw [← abs_le_iff_mul_self_le, abs_le]
    rw [abs_of_nonneg (by linarith)]
    constructor <;> linarith
  have := key (·.x) x0 x1 hx0 hx1
  have := key (·.y) y0 y1 hy0 hy1
  have := key (·.z) z0 z1 hz0 hz1
  simp only [norm2, diff]
  linarith

end Verif.Delaunay
