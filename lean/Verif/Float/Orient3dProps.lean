import Verif.Float.Orient3dFilter
/-!
# Properties of `orient3d`
-/
namespace Verif.Float

/-- Without the spurious term the sign is exact. -/
theorem c29_no_spurious_partial {a b c d : P3} (ha : a.IsF) (hb : b.IsF) (hc : c.IsF) (hd : d.IsF) (h : o3Spurious a b c d = 0) :
    ∃ r, orient3d a b c d = some r ∧ SameSign r (vol6 a b c d) := by
  obtain ⟨r, h1, h2⟩ := c29_orient3d_partial ha hb hc hd
  rw [h, add_zero, or_self] at h2
  exact ⟨r, h1, h2⟩

theorem lost_of_isF {x : ℚ} (h : IsF x) : lost x = 0 := by rw [lost, rn_of_isF h, sub_self]

/-- The sign is exact when the differences in `x` and `z` of the last two points are doubles, or those in `y` of the first two points to the last. -/
theorem c29_exact_differences_partial {a b c d : P3} (ha : a.IsF) (hb : b.IsF) (hc : c.IsF) (hd : d.IsF)
    (h : (IsF (c.x - d.x) ∧ IsF (c.z - d.z)) ∨ (IsF (a.y - d.y) ∧ IsF (b.y - d.y))) :
    ∃ r, orient3d a b c d = some r ∧ SameSign r (vol6 a b c d) := by
  refine c29_no_spurious_partial ha hb hc hd ?_
  rcases h with ⟨h1, h2⟩ | ⟨h1, h2⟩ <;> simp [o3Spurious, lost_of_isF h1, lost_of_isF h2]

theorem isF_int_le {n : ℤ} (h : |n| ≤ 2 ^ 53) : IsF n := by
  refine isF_of_le (e := 0) ⟨n, by simp⟩ ?_
  have : ((|n| : ℤ) : ℚ) ≤ ((2 ^ 53 : ℤ) : ℚ) := by exact_mod_cast h
  rw [Int.cast_abs] at this
  refine this.trans (le_of_eq ?_)
  norm_num

/-- On a grid of integers of at most 52 bits the sign is always exact. -/
theorem c29_integers_partial (a b c d : ℤ × ℤ × ℤ)
    (h : ∀ p ∈ [a, b, c, d], |p.1| ≤ 2 ^ 52 ∧ |p.2.1| ≤ 2 ^ 52 ∧ |p.2.2| ≤ 2 ^ 52) :
    ∃ r, orient3d ⟨a.1, a.2.1, a.2.2⟩ ⟨b.1, b.2.1, b.2.2⟩ ⟨c.1, c.2.1, c.2.2⟩ ⟨d.1, d.2.1, d.2.2⟩ = some r ∧
      SameSign r (vol6 ⟨a.1, a.2.1, a.2.2⟩ ⟨b.1, b.2.1, b.2.2⟩ ⟨c.1, c.2.1, c.2.2⟩ ⟨d.1, d.2.1, d.2.2⟩) := by
  have pt : ∀ p ∈ [a, b, c, d], P3.IsF ⟨p.1, p.2.1, p.2.2⟩ := by
    intro p hp
    obtain ⟨h1, h2, h3⟩ := h p hp
    exact ⟨isF_int_le (by omega), isF_int_le (by omega), isF_int_le (by omega)⟩
  have dif : ∀ {m n : ℤ}, |m| ≤ 2 ^ 52 → |n| ≤ 2 ^ 52 → IsF ((m : ℚ) - n) := by
    intro m n hm hn
    rw [← Int.cast_sub]
    exact isF_int_le ((abs_sub m n).trans (by omega))
  obtain ⟨c1, c2, c3⟩ := h c (by simp)
  obtain ⟨d1, d2, d3⟩ := h d (by simp)
  exact c29_exact_differences_partial (pt a (by simp)) (pt b (by simp)) (pt c (by simp)) (pt d (by simp)) (Or.inl ⟨dif c1 d1, dif c3 d3⟩)

/-- Points of the grid which the first filter cannot decide. -/
example : orient3d ⟨0, 0, 0⟩ ⟨1, 1, 1⟩ ⟨2, 2, 2⟩ ⟨3, 5, 7⟩ = some 0 ∧ orient3d ⟨1, 0, 0⟩ ⟨0, 1, 0⟩ ⟨0, 0, 1⟩ ⟨0, 0, 0⟩ = some 1 := by decide +kernel

/-- The sign is also found exactly far beyond double precision: the points lie in a plane up to `2⁻¹¹²`, the spurious term vanishes since two tails agree. -/
example : orient3d ⟨1, 1, 1⟩ ⟨1, 1, 3⟩ ⟨2, 2, 1⟩ ⟨1 / 2 ^ 60 + 1 / 2 ^ 112, 1 / 2 ^ 60, 1 / 2 ^ 60 + 1 / 2 ^ 112⟩ = some (1 / 2 ^ 111) ∧
    vol6 ⟨1, 1, 1⟩ ⟨1, 1, 3⟩ ⟨2, 2, 1⟩ ⟨1 / 2 ^ 60 + 1 / 2 ^ 112, 1 / 2 ^ 60, 1 / 2 ^ 60 + 1 / 2 ^ 112⟩ = 1 / 2 ^ 111 := by decide +kernel

/-! ### The defect -/

/-- The four points are all in the plane `x = y`. -/
def flatA : P3 := ⟨1, 1, 64⟩
@[inherit_doc flatA] def flatB : P3 := ⟨1, 1, 80⟩
@[inherit_doc flatA] def flatC : P3 := ⟨2, 2, 64⟩
@[inherit_doc flatA] def flatD : P3 := ⟨1 / 2 ^ 55, 1 / 2 ^ 55, -1 / 2 ^ 48⟩
/-- A point beside that plane. -/
def besideD : P3 := ⟨1 / 2 ^ 55 + 1 / 2 ^ 107, 1 / 2 ^ 55, -1 / 2 ^ 48⟩

theorem flat_isF : flatA.IsF ∧ flatB.IsF ∧ flatC.IsF ∧ flatD.IsF ∧ besideD.IsF := by
  refine ⟨⟨⟨1, 0, ?_, ?_⟩, ⟨1, 0, ?_, ?_⟩, ⟨1, 6, ?_, ?_⟩⟩, ⟨⟨1, 0, ?_, ?_⟩, ⟨1, 0, ?_, ?_⟩, ⟨80, 0, ?_, ?_⟩⟩,
    ⟨⟨2, 0, ?_, ?_⟩, ⟨2, 0, ?_, ?_⟩, ⟨1, 6, ?_, ?_⟩⟩, ⟨⟨1, -55, ?_, ?_⟩, ⟨1, -55, ?_, ?_⟩, ⟨-1, -48, ?_, ?_⟩⟩,
    ⟨⟨4503599627370497, -107, ?_, ?_⟩, ⟨1, -55, ?_, ?_⟩, ⟨-1, -48, ?_, ?_⟩⟩⟩ <;> norm_num [flatA, flatB, flatC, flatD, besideD]

/-- **The defect**: the full claim (`orient3d` has the sign of the determinant) fails. Four points on different sides are reported the wrong way round. -/
theorem c29_refuted : ∃ a b c d : P3, a.IsF ∧ b.IsF ∧ c.IsF ∧ d.IsF ∧ ∃ r, orient3d a b c d = some r ∧ r < 0 ∧ 0 < vol6 a b c d := by
  obtain ⟨h1, h2, h3, -, h5⟩ := flat_isF
  exact ⟨flatA, flatB, flatC, besideD, h1, h2, h3, h5, -121 / 81129638414606681695789005144064, by decide +kernel, by norm_num, by decide +kernel⟩

/-- Four points in a common plane are reported as a proper tetrahedron. -/
theorem c29_coplanar_refuted : ∃ a b c d : P3, a.IsF ∧ b.IsF ∧ c.IsF ∧ d.IsF ∧ vol6 a b c d = 0 ∧ ∃ r, orient3d a b c d = some r ∧ r ≠ 0 := by
  obtain ⟨h1, h2, h3, h4, -⟩ := flat_isF
  exact ⟨flatA, flatB, flatC, flatD, h1, h2, h3, h4, by decide +kernel, -129 / 81129638414606681695789005144064, by decide +kernel, by norm_num⟩

/-- The answer depends on the order of the points by more than its sign: after exchanging the last two points the same four points are found to be coplanar. -/
theorem c29_order_refuted : orient3d flatA flatB flatD flatC = some 0 ∧ orient3d flatA flatB flatC flatD ≠ some 0 := by decide +kernel

end Verif.Float
