import Verif.Delaunay.Step
/-!
# The first five tetrahedra
-/
namespace Verif.Delaunay
open Tet
open InSphere (Pt orient3d)

variable {K : Type} [Field K] [LinearOrder K] [IsStrictOrderedRing K]

omit [LinearOrder K] [IsStrictOrderedRing K] in
theorem br_perm (f : Fin 5 → Vec K) (τ : Equiv.Perm (Fin 5)) (hs : Equiv.Perm.sign τ = 1) :
    br (f (τ 0)) (f (τ 1)) (f (τ 2)) (f (τ 3)) (f (τ 4)) = br (f 0) (f 1) (f 2) (f 3) (f 4) := by
  have h := Matrix.det_permute τ (Matrix.of ![f 0, f 1, f 2, f 3, f 4])
  rw [hs] at h
  have key : ∀ i : Fin 5, ![f 0, f 1, f 2, f 3, f 4] i = f i := by intro i; fin_cases i <;> rfl
  have e : (Matrix.of ![f 0, f 1, f 2, f 3, f 4]).submatrix τ id = Matrix.of ![f (τ 0), f (τ 1), f (τ 2), f (τ 3), f (τ 4)] := by
    ext i j
    fin_cases i
    · show ![f 0, f 1, f 2, f 3, f 4] (τ 0) j = _; rw [key]; rfl
    · show ![f 0, f 1, f 2, f 3, f 4] (τ 1) j = _; rw [key]; rfl
    · show ![f 0, f 1, f 2, f 3, f 4] (τ 2) j = _; rw [key]; rfl
    · show ![f 0, f 1, f 2, f 3, f 4] (τ 3) j = _; rw [key]; rfl
    · show ![f 0, f 1, f 2, f 3, f 4] (τ 4) j = _; rw [key]; rfl
  rw [e] at h
  simpa [br] using h

theorem initial_even : ∀ t : Fin 5, ∃ τ : Equiv.Perm (Fin 5), Equiv.Perm.sign τ = 1 ∧ τ 0 = initialLabel t 0 ∧ τ 1 = initialLabel t 1 ∧
    τ 2 = initialLabel t 2 ∧ τ 3 = initialLabel t 3 ∧ ∀ j, (∀ i, initialLabel t i ≠ j) → τ 4 = j := by decide +kernel

theorem initial_sub : ∀ s t : Fin 5, (∀ i, ∃ j, initialLabel s i = initialLabel t j) → s = t := by decide +kernel

theorem setP2t_keep {m m' : Mesh} {i t : Nat} (h : m.setP2t i t = some m') : m'.tets = m.tets ∧ m'.nPoints = m.nPoints ∧ m'.p2t.length = m.p2t.length := by
  unfold Mesh.setP2t at h
  split at h
  · cases h; exact ⟨rfl, rfl, by simp⟩
  · cases h

set_option maxHeartbeats 2000000 in
theorem initial_flags (n a b c d : Nat) (p : List (Option Nat)) (m' : Mesh) (s : TriFace) (h : initialDelaunay ⟨n, [], p⟩ a b c d = some (m', s)) :
    m'.p2t.length = p.length ∧ ∀ t : Fin 5, ∃ x, m'.tets[t.val]? = some x ∧ x.infected = false ∧ x.marked = false ∧
      ∀ i, x.data i = (![a, b, c, d, n] : Fin 5 → Nat) (initialLabel t i) := by
  obtain ⟨T, e, hfl, hd⟩ : ∃ T : List Tet.Tet, (initialDelaunay ⟨n, [], p⟩ a b c d = (do
        let m ← (Mesh.mk n T p).setP2t a 0
        let m ← m.setP2t b 0
        let m ← m.setP2t c 0
        let m ← m.setP2t d 0
        let m ← m.setP2t m.nPoints 1
        return (m, ⟨0, 11⟩))) ∧ (∀ t : Fin 5, (T[t.val]?).map (fun x => (x.infected, x.marked)) = some (false, false)) ∧
        (∀ t : Fin 5, (T[t.val]?).map (·.data) = some fun i => (![a, b, c, d, n] : Fin 5 → Nat) (initialLabel t i)) := by
    refine ⟨_, rfl, ?_, ?_⟩
    · intro t
      match t with
      | 0 => rfl
      | 1 => rfl
      | 2 => rfl
      | 3 => rfl
      | 4 => rfl
    · intro t
      match t with
      | 0 => exact congrArg some (funext fun i => by fin_cases i <;> rfl)
      | 1 => exact congrArg some (funext fun i => by fin_cases i <;> rfl)
      | 2 => exact congrArg some (funext fun i => by fin_cases i <;> rfl)
      | 3 => exact congrArg some (funext fun i => by fin_cases i <;> rfl)
      | 4 => exact congrArg some (funext fun i => by fin_cases i <;> rfl)
  rw [e] at h
  simp only [Option.bind_eq_bind, Option.bind_eq_some_iff, Option.pure_def, Option.some.injEq, Prod.mk.injEq] at h
  obtain ⟨m1, h1, m2, h2, m3, h3, m4, h4, m5, h5, rfl, -⟩ := h
  obtain ⟨t1, -, l1⟩ := setP2t_keep h1
  obtain ⟨t2, -, l2⟩ := setP2t_keep h2
  obtain ⟨t3, -, l3⟩ := setP2t_keep h3
  obtain ⟨t4, -, l4⟩ := setP2t_keep h4
  obtain ⟨t5, -, l5⟩ := setP2t_keep h5
  refine ⟨by rw [l5, l4, l3, l2, l1], ?_⟩
  intro t
  rw [t5, t4, t3, t2, t1]
  simp only
  have f1 := hfl t
  have f2 := hd t
  rw [Option.map_eq_some_iff] at f1 f2
  obtain ⟨x, hx, h1⟩ := f1
  obtain ⟨y, hy, h2⟩ := f2
  rw [hx] at hy; cases hy
  simp only [Prod.mk.injEq] at h1
  exact ⟨x, hx, h1.1, h1.2, fun i => by rw [h2]⟩

variable {pts : List (Pt K)} {V : Nat → Vec K} {p0 p1 p2 p3 : Nat}

theorem initial_state (hd : ∀ i < pts.length, ∀ j < pts.length, i ≠ j → pt pts i ≠ pt pts j) (L : Lift (pt pts) pts.length p0 p1 p2 p3 V)
    (h0 : p0 < pts.length) (h1 : p1 < pts.length) (h2 : p2 < pts.length) (h3 : p3 < pts.length)
    (n01 : p0 ≠ p1) (n02 : p0 ≠ p2) (n03 : p0 ≠ p3) (n12 : p1 ≠ p2) (n13 : p1 ≠ p3) (n23 : p2 ≠ p3)
    (ho : orient3d (pt pts p0) (pt pts p1) (pt pts p2) (pt pts p3) < 0) :
    ∃ m, initialDelaunay (Mesh.new pts.length) p0 p1 p2 p3 = some (m, ⟨0, 11⟩) ∧ m.tets.length = 5 ∧
      State pts V p0 p1 p2 p3 m (· < 5) {p0, p1, p2, p3, pts.length} ⟨0, 11⟩ := by
  obtain ⟨m, e, hl, hn, hc, hg, -, -, la, lb, lc, ld, lg, -⟩ := c41_initial_delaunay pts.length p0 p1 p2 p3 (List.replicate (pts.length + 1) none) (by simp)
    h0 h1 h2 h3 n01 n02 n03 n12 n13 n23
  obtain ⟨hpl, hx⟩ := initial_flags _ _ _ _ _ _ _ _ e
  set val : Fin 5 → Nat := ![p0, p1, p2, p3, pts.length] with hval
  have vinj : Function.Injective val := by
    intro i j h
    fin_cases i <;> fin_cases j <;> simp [val] at h ⊢ <;> omega
  have hF : ∀ q, q ∈ ({p0, p1, p2, p3, pts.length} : Finset Nat) ↔ ∃ j, q = val j := by
    intro q
    simp only [Finset.mem_insert, Finset.mem_singleton]
    constructor
    · rintro (h | h | h | h | h)
      exacts [⟨0, h⟩, ⟨1, h⟩, ⟨2, h⟩, ⟨3, h⟩, ⟨4, h⟩]
    · rintro ⟨j, rfl⟩
      fin_cases j <;> simp [val]
  have hget : ∀ t x, t < 5 → m.tets[t]? = some x → ∃ k : Fin 5, k.val = t ∧ (x.infected = false ∧ x.marked = false) ∧ ∀ i, x.data i = val (initialLabel k i) := by
    intro t x ht hxx
    obtain ⟨y, hy, f1, f2, f3⟩ := hx ⟨t, ht⟩
    rw [hxx] at hy; cases hy
    exact ⟨⟨t, ht⟩, rfl, ⟨f1, f2⟩, f3⟩
  have hB : 0 < br (V p0) (V p1) (V p2) (V p3) (V pts.length) := by
    have := L.far p0 p1 p2 p3 h0 h1 h2 h3 ho.ne
    by_contra hcon
    push Not at hcon
    have := mul_nonneg_of_nonpos_of_nonpos hcon ho.le
    linarith
  refine ⟨m, e, hl, ?_⟩
  have hreg : Reg V m (· < 5) (· ∈ ({p0, p1, p2, p3, pts.length} : Finset Nat)) := by
    refine ⟨hc, ?_, ?_, ?_⟩
    · intro t x i ht hxx
      obtain ⟨k, -, -, hk⟩ := hget t x ht hxx
      exact (hF _).2 ⟨_, hk i⟩
    · intro t x q ht hxx hq hne
      obtain ⟨k, -, -, hk⟩ := hget t x ht hxx
      obtain ⟨j, rfl⟩ := (hF q).1 hq
      obtain ⟨τ, hs, e0, e1, e2, e3, e4⟩ := initial_even k
      have ej := e4 j (fun i h => hne i (by rw [hk, h]))
      have := br_perm (fun i => V (val i)) τ hs
      rw [e0, e1, e2, e3, ej, ← hk, ← hk, ← hk, ← hk] at this
      rw [phi, brL_apply, this]
      exact hB
    · intro s t x y hs ht hxx hyy hsub
      obtain ⟨k, rfl, -, hk⟩ := hget s x hs hxx
      obtain ⟨k', rfl, -, hk'⟩ := hget t y ht hyy
      rw [initial_sub k k' (fun i => by
        obtain ⟨j, hj⟩ := hsub i
        rw [hk, hk'] at hj
        exact ⟨j, vinj hj⟩)]
  refine
    { dt := { reg := hreg, lift := L, dist := hd, num := hn, le := ?_, base0 := ⟨by simp, h0⟩, base1 := ⟨by simp, h1⟩, base2 := ⟨by simp, h2⟩,
              base3 := ⟨by simp, h3⟩, base := ho.ne, last := hg, solid := ?_ }
      ghost := by simp, clean := ?_, ghostLink := ?_, link := ?_, plen := by rw [hpl]; simp, only := ?_, gone := ?_, search := by decide }
  · intro q hq
    simp only [Finset.mem_insert, Finset.mem_singleton] at hq
    omega
  · intro t x ht hxx h3'
    obtain ⟨k, rfl, -, hk⟩ := hget t x ht hxx
    have hk0 : k = 0 := by
      by_contra hne
      have : ∀ k : Fin 5, k ≠ 0 → initialLabel k 3 = 4 := by decide +kernel
      apply h3'
      rw [hk, this k hne]; rfl
    subst hk0
    rw [phi, brL_apply, hk, hk, hk, hk]
    have := L.br_up h0 h1 h2 h3
    show 0 < br (V p0) (V p1) (V p2) (V p3) up
    rw [this]; linarith
  · intro j x hj hxx
    obtain ⟨k, -, hk, -⟩ := hget j x hj hxx
    exact hk
  · obtain ⟨t, x, g1, -, g2, -⟩ := lg
    exact ⟨t, x, g1, g2⟩
  · intro v hv hvn
    simp only [Finset.mem_insert, Finset.mem_singleton] at hv
    rcases hv with rfl | rfl | rfl | rfl | rfl
    exacts [la, lb, lc, ld, absurd hvn (lt_irrefl _)]
  · intro j x i hxx
    obtain ⟨k, -, -, hk⟩ := hget j x (by rw [← hl]; exact (List.getElem?_eq_some_iff.1 hxx).1) hxx
    exact (hF _).2 ⟨_, hk i⟩
  · intro j hj hn
    exact absurd (hl ▸ hj) hn

end Verif.Delaunay
