import Verif.Float.Scale
import Verif.Float.NumModel
import Verif.Pred.Props
/-!
# Expansion products, and expansions as exact numbers
-/
namespace Verif.Float
open Verif.Pred InSphere

/-- The expansions built by the arithmetic: nonoverlapping, not empty, without zeros except for the number zero itself. -/
structure Proper (e : List ℚ) : Prop where
  exp : Expansion e
  ne : e ≠ []
  nz : (∀ y ∈ e, y ≠ 0) ∨ e = [0]

theorem Expansion.single {x : ℚ} (hx : IsF x) : Expansion [x] := by
  obtain ⟨w, hw, -⟩ := isF_iff.1 hx
  have := pw_pos w
  exact ⟨hx, ⟨w, hw, by rw [abs_zero]; linarith, by rwa [abs_zero]⟩, trivial⟩

theorem Proper.single {x : ℚ} (hx : IsF x) : Proper [x] := by
  refine ⟨Expansion.single hx, by simp, ?_⟩
  by_cases h : x = 0
  · right; rw [h]
  · left; simpa using h

theorem Proper.length {e : List ℚ} (h : Proper e) : 1 ≤ e.length := List.length_pos_of_ne_nil h.ne

theorem Proper.add {e f : List ℚ} (he : Proper e) (hf : Proper f) :
    ∃ r, fastExpansionSumZeroelim e f = some r ∧ Proper r ∧ r.sum = e.sum + f.sum := by
  have h1 := he.length
  have h2 := hf.length
  obtain ⟨r, hr, h3, h4, h5, h6⟩ := fastExpansionSum_spec he.exp hf.exp (by omega)
  exact ⟨r, hr, ⟨h3, h5, h6⟩, h4⟩

theorem Proper.neg {e : List ℚ} (he : Proper e) : Proper (e.map (- ·)) := by
  refine ⟨he.exp.neg, by simpa using he.ne, ?_⟩
  rcases he.nz with h | h
  · left; intro y hy
    obtain ⟨x, hx, rfl⟩ := List.mem_map.1 hy
    exact neg_ne_zero.2 (h x hx)
  · right; simp [h]

theorem Proper.sub {e f : List ℚ} (he : Proper e) (hf : Proper f) :
    ∃ r, fastExpansionDiffZeroelim e f = some r ∧ Proper r ∧ r.sum = e.sum - f.sum := by
  obtain ⟨r, hr, h1, h2⟩ := he.add hf.neg
  exact ⟨r, hr, h1, by rw [h2, sum_map_neg]; ring⟩

/-- `mul_expansion_zeroelim_imp` adds up the scaled copies. -/
theorem mulImp_spec {e f : List ℚ} (hf : Expansion f) (hfn : f ≠ []) (he : ∀ y ∈ e, IsF y) (hen : e ≠ []) :
    ∃ r, mulExpansionZeroelimImp e f = some r ∧ Proper r ∧ r.sum = e.sum * f.sum := by
  have loop : ∀ (l : List ℚ) (a : List ℚ), (∀ y ∈ l, IsF y) → Proper a → ∃ r, l.foldlM (fun a s => do
      let b ← scaleExpansionZeroelim f s
      fastExpansionSumZeroelim a b) a = some r ∧ Proper r ∧ r.sum = a.sum + l.sum * f.sum := by
    intro l
    induction l with
    | nil => intro a _ ha; exact ⟨a, rfl, ha, by simp⟩
    | cons s l ih =>
      intro a hl ha
      obtain ⟨b, hb, b1, b2, b3, b4⟩ := scaleExpansion_spec hf (hl s List.mem_cons_self) hfn
      obtain ⟨c, hc, c1, c2⟩ := ha.add ⟨b1, b3, b4⟩
      obtain ⟨r, hr, r1, r2⟩ := ih c (fun y hy => hl y (List.mem_cons_of_mem _ hy)) c1
      refine ⟨r, ?_, r1, ?_⟩
      · rw [List.foldlM_cons]
        simp only [hb, Option.bind_eq_bind, Option.bind_some, hc]
        exact hr
      · rw [r2, c2, b2, List.sum_cons]; ring
  cases e with
  | nil => exact absurd rfl hen
  | cons s e =>
    obtain ⟨b, hb, b1, b2, b3, b4⟩ := scaleExpansion_spec hf (he s List.mem_cons_self) hfn
    obtain ⟨r, hr, r1, r2⟩ := loop e b (fun y hy => he y (List.mem_cons_of_mem _ hy)) ⟨b1, b3, b4⟩
    refine ⟨r, ?_, r1, ?_⟩
    · simp only [mulExpansionZeroelimImp, hb, Option.bind_eq_bind, Option.bind_some]
      exact hr
    · rw [r2, b2, List.sum_cons]; ring

theorem mulExpansion_spec {e f : List ℚ} (he : Expansion e) (hf : Expansion f) (hen : e ≠ []) (hfn : f ≠ []) :
    ∃ r, mulExpansionZeroelim e f = some r ∧ Proper r ∧ r.sum = e.sum * f.sum := by
  have scale : ∀ {e : List ℚ} {b : ℚ}, Expansion e → IsF b → e ≠ [] →
      ∃ r, scaleExpansionZeroelim e b = some r ∧ Proper r ∧ r.sum = b * e.sum := by
    intro e b h1 h2 h3
    obtain ⟨r, hr, r1, r2, r3, r4⟩ := scaleExpansion_spec h1 h2 h3
    exact ⟨r, hr, ⟨r1, r3, r4⟩, r2⟩
  unfold mulExpansionZeroelim
  split
  · obtain ⟨r, hr, r1, r2⟩ := scale hf he.1 hfn
    exact ⟨r, hr, r1, by rw [r2]; simp⟩
  · obtain ⟨r, hr, r1, r2⟩ := scale he hf.1 hen
    exact ⟨r, hr, r1, by rw [r2]; simp [mul_comm]⟩
  · split_ifs
    · exact mulImp_spec hf hfn (fun y hy => he.isF y hy) hen
    · obtain ⟨r, hr, r1, r2⟩ := mulImp_spec he hen (fun y hy => hf.isF y hy) hfn
      exact ⟨r, hr, r1, by rw [r2, mul_comm]⟩

/-- Scaling by a power of two. -/
theorem Nonov.scale {s t : ℚ} {l : List ℚ} (h : Nonov s t l) (k : ℤ) :
    Nonov (s * 2 ^ k) (t * 2 ^ k) (l.map fun x => fmul x (2 ^ k)) := by
  induction l generalizing s t with
  | nil => trivial
  | cons x xs ih =>
    obtain ⟨hx, ⟨w, h1, h2, h3⟩, hn⟩ := h
    have hk := pw_pos k
    have e : fmul x (2 ^ k) = x * 2 ^ k := rn_of_isF (hx.scale k)
    rw [List.map_cons, e]
    refine ⟨hx.scale k, ⟨w + k, h1.scale k, ?_, ?_⟩, ?_⟩
    · rw [abs_mul, abs_of_pos hk, pw_add, ← mul_assoc]
      exact mul_lt_mul_of_pos_right h2 hk
    · rw [abs_mul, abs_of_pos hk, pw_add]
      exact mul_lt_mul_of_pos_right h3 hk
    · have := ih hn
      rw [add_mul] at this
      by_cases h0 : x = 0
      · simpa [h0] using this
      · rw [if_neg h0] at this
        rwa [if_neg (mul_ne_zero h0 hk.ne')]

theorem Proper.scale {e : List ℚ} (he : Proper e) (k : ℤ) :
    Proper (e.map fun x => fmul x (2 ^ k)) ∧ (e.map fun x => fmul x (2 ^ k)).sum = e.sum * 2 ^ k := by
  have hm : e.map (fun x => fmul x (2 ^ k)) = e.map (fun x => x * 2 ^ k) :=
    List.map_congr_left fun x hx => rn_of_isF ((he.exp.isF x hx).scale k)
  refine ⟨⟨?_, by simpa using he.ne, ?_⟩, ?_⟩
  · have := Nonov.scale he.exp k
    simpa [Expansion] using this
  · rw [hm]
    rcases he.nz with h | h
    · left; intro y hy
      obtain ⟨x, hx, rfl⟩ := List.mem_map.1 hy
      exact mul_ne_zero (h x hx) (pw_pos k).ne'
    · right; simp [h]
  · rw [hm, List.sum_map_mul_right]; simp

/-- The last component of a proper expansion has the sign of the value. -/
theorem Proper.last {e : List ℚ} (he : Proper e) : ∃ z, e.getLast? = some z ∧ (0 < e.sum ↔ 0 < z) ∧ (e.sum < 0 ↔ z < 0) ∧
    (e.sum = 0 ↔ z = 0) := by
  rcases he.nz with h | h
  · obtain ⟨z, hz⟩ : ∃ z, e.getLast? = some z := ⟨e.getLast he.ne, List.getLast?_eq_some_getLast he.ne⟩
    have h0 := h z (List.mem_of_getLast? hz)
    obtain ⟨h1, h2, h3⟩ := he.exp.sign hz h0
    exact ⟨z, hz, h1, h2, ⟨fun h => absurd h h3, fun h => absurd h h0⟩⟩
  · exact ⟨0, by simp [h], by simp [h]⟩

/-! ### `ExpansionNum` -/

/-- The expansion number `x` stands for the number `a`. -/
def ENum.Rep (x : ENum) (a : ℚ) : Prop := ∃ e, x.v = some e ∧ Proper e ∧ e.sum = a

theorem ENum.Rep.of {x : ℚ} (hx : IsF x) : (ENum.of x).Rep x := ⟨[x], rfl, Proper.single hx, by simp⟩

theorem ENum.Rep.add {x y : ENum} {a b : ℚ} (h1 : x.Rep a) (h2 : y.Rep b) : (x + y).Rep (a + b) := by
  obtain ⟨e, he, pe, rfl⟩ := h1
  obtain ⟨f, hf, pf, rfl⟩ := h2
  obtain ⟨r, hr, pr, er⟩ := pe.add pf
  refine ⟨r, ?_, pr, er⟩
  change (do fastExpansionSumZeroelim (← x.v) (← y.v)) = some r
  simp only [he, hf, Option.bind_eq_bind, Option.bind_some, hr]

theorem ENum.Rep.sub {x y : ENum} {a b : ℚ} (h1 : x.Rep a) (h2 : y.Rep b) : (x - y).Rep (a - b) := by
  obtain ⟨e, he, pe, rfl⟩ := h1
  obtain ⟨f, hf, pf, rfl⟩ := h2
  obtain ⟨r, hr, pr, er⟩ := pe.sub pf
  refine ⟨r, ?_, pr, er⟩
  change (do fastExpansionDiffZeroelim (← x.v) (← y.v)) = some r
  simp only [he, hf, Option.bind_eq_bind, Option.bind_some, hr]

theorem ENum.Rep.mul {x y : ENum} {a b : ℚ} (h1 : x.Rep a) (h2 : y.Rep b) : (x * y).Rep (a * b) := by
  obtain ⟨e, he, pe, rfl⟩ := h1
  obtain ⟨f, hf, pf, rfl⟩ := h2
  obtain ⟨r, hr, pr, er⟩ := mulExpansion_spec pe.exp pf.exp pe.ne pf.ne
  refine ⟨r, ?_, pr, er⟩
  change (do mulExpansionZeroelim (← x.v) (← y.v)) = some r
  simp only [he, hf, Option.bind_eq_bind, Option.bind_some, hr]

theorem ENum.Rep.neg {x : ENum} {a : ℚ} (h1 : x.Rep a) : x.neg.Rep (-a) := by
  obtain ⟨e, he, pe, rfl⟩ := h1
  exact ⟨_, by rw [ENum.neg, he]; rfl, pe.neg, sum_map_neg e⟩

theorem ENum.Rep.scale {x : ENum} {a : ℚ} (h1 : x.Rep a) (k : ℤ) : (x.scale k).Rep (a * 2 ^ (-k)) := by
  obtain ⟨e, he, pe, rfl⟩ := h1
  exact ⟨_, by rw [ENum.scale, he]; rfl, (pe.scale (-k)).1, (pe.scale (-k)).2⟩

theorem ENum.Rep.last {x : ENum} {a : ℚ} (h1 : x.Rep a) : ∃ z, x.last = some z ∧ (0 < a ↔ 0 < z) ∧ (a < 0 ↔ z < 0) ∧ (a = 0 ↔ z = 0) := by
  obtain ⟨e, he, pe, rfl⟩ := h1
  obtain ⟨z, hz, h⟩ := pe.last
  exact ⟨z, by rw [ENum.last, he]; exact hz, h⟩

theorem ENum.Rep.notZero {x : ENum} {a : ℚ} (h : x.Rep a) : x.notZero = some (decide (a ≠ 0)) := by
  obtain ⟨z, hz, -, -, h⟩ := h.last
  simp [ENum.notZero, hz, h]

theorem ENum.Rep.negative {x : ENum} {a : ℚ} (h : x.Rep a) : x.negative = some (decide (a < 0)) := by
  obtain ⟨z, hz, -, h, -⟩ := h.last
  simp [ENum.negative, hz, h]

theorem lastSign_rep {x : ENum} {a : ℚ} (h : x.Rep a) : lastSign x = some (some (doubleToSign a)) := by
  obtain ⟨z, hz, h1, h2, -⟩ := h.last
  simp only [lastSign, hz, Option.bind_eq_bind, Option.bind_some, Option.pure_def, doubleToSign, gt_iff_lt, h1, h2]

/-- Coordinates represented by expansion numbers. -/
structure RepP (p : Pt ENum) (q : Pt ℚ) : Prop where
  x : p.x.Rep q.x
  y : p.y.Rep q.y
  z : p.z.Rep q.z

structure RepH (p : Hom ENum) (q : Hom ℚ) : Prop where
  x : p.x.Rep q.x
  y : p.y.Rep q.y
  z : p.z.Rep q.z
  d : p.d.Rep q.d

/-- A point with double coordinates. -/
structure PtF (p : Pt ℚ) : Prop where
  x : IsF p.x
  y : IsF p.y
  z : IsF p.z

/-- An implicit point defined by points with double coordinates. -/
def ImpF : Imp ℚ → Prop
  | .lpi l => PtF l.p ∧ PtF l.q ∧ PtF l.r ∧ PtF l.s ∧ PtF l.t
  | .tpi t => PtF t.v1 ∧ PtF t.v2 ∧ PtF t.v3 ∧ PtF t.w1 ∧ PtF t.w2 ∧ PtF t.w3 ∧ PtF t.u1 ∧ PtF t.u2 ∧ PtF t.u3

theorem toE_rep {p : Pt ℚ} (h : PtF p) : RepP (toE p) p := ⟨.of h.x, .of h.y, .of h.z⟩

/-- Polynomials of represented numbers are represented. -/
macro "rep" : tactic => `(tactic| repeat' first | assumption | apply ENum.Rep.sub | apply ENum.Rep.add | apply ENum.Rep.mul)

theorem lpiLambda_rep {l : LPI ENum} {m : LPI ℚ} (hp : RepP l.p m.p) (hq : RepP l.q m.q) (hr : RepP l.r m.r) (hs : RepP l.s m.s)
    (ht : RepP l.t m.t) : RepH (lpiLambda l) (lpiLambda m) := by
  obtain ⟨a1, a2, a3⟩ := hp
  obtain ⟨b1, b2, b3⟩ := hq
  obtain ⟨c1, c2, c3⟩ := hr
  obtain ⟨d1, d2, d3⟩ := hs
  obtain ⟨e1, e2, e3⟩ := ht
  constructor <;> simp only [lpiLambda] <;> rep

theorem tpiLambda_rep {l : TPI ENum} {m : TPI ℚ} (h1 : RepP l.v1 m.v1) (h2 : RepP l.v2 m.v2) (h3 : RepP l.v3 m.v3) (h4 : RepP l.w1 m.w1)
    (h5 : RepP l.w2 m.w2) (h6 : RepP l.w3 m.w3) (h7 : RepP l.u1 m.u1) (h8 : RepP l.u2 m.u2) (h9 : RepP l.u3 m.u3) :
    RepH (tpiLambda l) (tpiLambda m) := by
  have r_v3x := h3.x.sub h2.x
  have r_v3y := h3.y.sub h2.y
  have r_v3z := h3.z.sub h2.z
  have r_v2x := h2.x.sub h1.x
  have r_v2y := h2.y.sub h1.y
  have r_v2z := h2.z.sub h1.z
  have r_w3x := h6.x.sub h5.x
  have r_w3y := h6.y.sub h5.y
  have r_w3z := h6.z.sub h5.z
  have r_w2x := h5.x.sub h4.x
  have r_w2y := h5.y.sub h4.y
  have r_w2z := h5.z.sub h4.z
  have r_u3x := h9.x.sub h8.x
  have r_u3y := h9.y.sub h8.y
  have r_u3z := h9.z.sub h8.z
  have r_u2x := h8.x.sub h7.x
  have r_u2y := h8.y.sub h7.y
  have r_u2z := h8.z.sub h7.z
  have r_nvx := (r_v2y.mul r_v3z).sub (r_v2z.mul r_v3y)
  have r_nvy := (r_v3x.mul r_v2z).sub (r_v3z.mul r_v2x)
  have r_nvz := (r_v2x.mul r_v3y).sub (r_v2y.mul r_v3x)
  have r_nwx := (r_w2y.mul r_w3z).sub (r_w2z.mul r_w3y)
  have r_nwy := (r_w3x.mul r_w2z).sub (r_w3z.mul r_w2x)
  have r_nwz := (r_w2x.mul r_w3y).sub (r_w2y.mul r_w3x)
  have r_nux := (r_u2y.mul r_u3z).sub (r_u2z.mul r_u3y)
  have r_nuy := (r_u3x.mul r_u2z).sub (r_u3z.mul r_u2x)
  have r_nuz := (r_u2x.mul r_u3y).sub (r_u2y.mul r_u3x)
  have r_nwyuz := (r_nwy.mul r_nuz).sub (r_nwz.mul r_nuy)
  have r_nwxuz := (r_nwx.mul r_nuz).sub (r_nwz.mul r_nux)
  have r_nwxuy := (r_nwx.mul r_nuy).sub (r_nwy.mul r_nux)
  have r_nvyuz := (r_nvy.mul r_nuz).sub (r_nvz.mul r_nuy)
  have r_nvxuz := (r_nvx.mul r_nuz).sub (r_nvz.mul r_nux)
  have r_nvxuy := (r_nvx.mul r_nuy).sub (r_nvy.mul r_nux)
  have r_nvywz := (r_nvy.mul r_nwz).sub (r_nvz.mul r_nwy)
  have r_nvxwz := (r_nvx.mul r_nwz).sub (r_nvz.mul r_nwx)
  have r_nvxwy := (r_nvx.mul r_nwy).sub (r_nvy.mul r_nwx)
  have r_p1 := ((r_nvx.mul h1.x).add (r_nvy.mul h1.y)).add (r_nvz.mul h1.z)
  have r_p2 := ((r_nwx.mul h4.x).add (r_nwy.mul h4.y)).add (r_nwz.mul h4.z)
  have r_p3 := ((r_nux.mul h7.x).add (r_nuy.mul h7.y)).add (r_nuz.mul h7.z)
  have r_lxa := r_p1.mul r_nwyuz
  have r_lxb := r_p3.mul r_nvywz
  have r_lxc := r_p2.mul r_nvyuz
  have r_lxab := r_lxa.add r_lxb
  have r_lya := r_p2.mul r_nvxuz
  have r_lyb := r_p3.mul r_nvxwz
  have r_lyc := r_p1.mul r_nwxuz
  have r_lybc := r_lyc.add r_lyb
  have r_lza := r_p3.mul r_nvxwy
  have r_lzb := r_p1.mul r_nwxuy
  have r_lzc := r_p2.mul r_nvxuy
  have r_lzab := r_lza.add r_lzb
  have r_da := r_nvx.mul r_nwyuz
  have r_db := r_nvz.mul r_nwxuy
  have r_dc := r_nvy.mul r_nwxuz
  have r_dab := r_da.add r_db
  exact ⟨(r_lxab.sub r_lxc), (r_lya.sub r_lybc), (r_lzab.sub r_lzc), (r_dab.sub r_dc)⟩

theorem lambda_rep {i : Imp ℚ} (h : ImpF i) : RepH (toEI i).lambda i.lambda := by
  cases i with
  | lpi l =>
    obtain ⟨h1, h2, h3, h4, h5⟩ := h
    exact lpiLambda_rep (toE_rep h1) (toE_rep h2) (toE_rep h3) (toE_rep h4) (toE_rep h5)
  | tpi t =>
    obtain ⟨h1, h2, h3, h4, h5, h6, h7, h8, h9⟩ := h
    exact tpiLambda_rep (toE_rep h1) (toE_rep h2) (toE_rep h3) (toE_rep h4) (toE_rep h5) (toE_rep h6) (toE_rep h7) (toE_rep h8)
      (toE_rep h9)

theorem ieeeImpl_rep {a : Hom ENum} {a' : Hom ℚ} {b c d : Pt ENum} {b' c' d' : Pt ℚ} (ha : RepH a a') (hb : RepP b b') (hc : RepP c c')
    (hd : RepP d d') : (ieeeImpl a b c d).Rep (ieeeImpl a' b' c' d') := by
  obtain ⟨a1, a2, a3, a4⟩ := ha
  obtain ⟨b1, b2, b3⟩ := hb
  obtain ⟨c1, c2, c3⟩ := hc
  obtain ⟨d1, d2, d3⟩ := hd
  simp only [ieeeImpl]; rep

theorem iieeImpl_rep {a b : Hom ENum} {a' b' : Hom ℚ} {c d : Pt ENum} {c' d' : Pt ℚ} (ha : RepH a a') (hb : RepH b b') (hc : RepP c c')
    (hd : RepP d d') : (iieeImpl a b c d).Rep (iieeImpl a' b' c' d') := by
  obtain ⟨a1, a2, a3, a4⟩ := ha
  obtain ⟨b1, b2, b3, b4⟩ := hb
  obtain ⟨c1, c2, c3⟩ := hc
  obtain ⟨d1, d2, d3⟩ := hd
  simp only [iieeImpl]; rep

theorem iiieImpl_rep {a b c : Hom ENum} {a' b' c' : Hom ℚ} {d : Pt ENum} {d' : Pt ℚ} (ha : RepH a a') (hb : RepH b b') (hc : RepH c c')
    (hd : RepP d d') : (iiieImpl a b c d).Rep (iiieImpl a' b' c' d') := by
  obtain ⟨a1, a2, a3, a4⟩ := ha
  obtain ⟨b1, b2, b3, b4⟩ := hb
  obtain ⟨c1, c2, c3, c4⟩ := hc
  obtain ⟨d1, d2, d3⟩ := hd
  simp only [iiieImpl]; rep

theorem iiiiImpl_rep {a b c d : Hom ENum} {a' b' c' d' : Hom ℚ} (ha : RepH a a') (hb : RepH b b') (hc : RepH c c')
    (hd : RepH d d') : (iiiiImpl a b c d).Rep (iiiiImpl a' b' c' d') := by
  obtain ⟨a1, a2, a3, a4⟩ := ha
  obtain ⟨b1, b2, b3, b4⟩ := hb
  obtain ⟨c1, c2, c3, c4⟩ := hc
  obtain ⟨d1, d2, d3, d4⟩ := hd
  simp only [iiiiImpl]; rep

theorem ax2_rep {x y z : ENum} {a b c : ℚ} (h1 : x.Rep a) (h2 : y.Rep b) (h3 : z.Rep c) (axis : Nat) :
    (ax2 axis x y z).1.Rep (ax2 axis a b c).1 ∧ (ax2 axis x y z).2.Rep (ax2 axis a b c).2 := by
  unfold ax2
  split_ifs
  · exact ⟨h1, h2⟩
  · exact ⟨h3, h1⟩
  · exact ⟨h2, h3⟩

theorem ax1_rep {x y z : ENum} {a b c : ℚ} (h1 : x.Rep a) (h2 : y.Rep b) (h3 : z.Rep c) (axis : Nat) :
    (ax1 axis x y z).Rep (ax1 axis a b c) := by
  unfold ax1
  split_ifs <;> assumption

theorem ax2_isF {p : Pt ℚ} (h : PtF p) (axis : Nat) : IsF (ax2 axis p.x p.y p.z).1 ∧ IsF (ax2 axis p.x p.y p.z).2 := by
  unfold ax2
  split_ifs
  · exact ⟨h.x, h.y⟩
  · exact ⟨h.z, h.x⟩
  · exact ⟨h.y, h.z⟩

theorem ax1_isF {p : Pt ℚ} (h : PtF p) (axis : Nat) : IsF (ax1 axis p.x p.y p.z) := by
  unfold ax1
  split_ifs
  · exact h.x
  · exact h.y
  · exact h.z

/-! ### The exact stage -/

/-- The power of two by which `exact` scales the coordinates. -/
def scaleOf (i : Imp ℚ) : ℚ :=
  match (exactSigned i).bind normExponent with
  | some e => 2 ^ (-e)
  | none => 1

/-- The exact stage alone. -/
def expEnv : Env ℚ :=
  { scale := scaleOf, early3 := fun _ _ _ _ => none, early2 := fun _ _ _ _ => none, early1 := fun _ _ _ => none }

theorem scaleOf_pos (i : Imp ℚ) : 0 < scaleOf i := by
  unfold scaleOf
  split
  · exact pw_pos _
  · norm_num

theorem expEnv_sound : expEnv.Sound :=
  ⟨scaleOf_pos, fun _ _ _ _ _ h => by simp [expEnv] at h, fun _ _ _ _ _ h => by simp [expEnv] at h,
    fun _ _ _ _ h => by simp [expEnv] at h⟩

/-- `exact` computes with expansions what the exact arithmetic of `Verif.Pred.exact` does. -/
theorem exactE_spec {i : Imp ℚ} (h : ImpF i) :
    (exactE i = some none ∧ Pred.exact expEnv i = none) ∨ ∃ a b, exactE i = some (some a) ∧ Pred.exact expEnv i = some b ∧ RepH a b := by
  have hl := lambda_rep h
  have hsg : ∃ g, exactSigned i = some g ∧ RepH g (if i.lambda.d < 0 then
      { x := -i.lambda.x, y := -i.lambda.y, z := -i.lambda.z, d := -i.lambda.d } else i.lambda) := by
    simp only [exactSigned, hl.d.negative, Option.bind_eq_bind, Option.bind_some, Option.pure_def]
    refine ⟨_, rfl, ?_⟩
    by_cases hd : i.lambda.d < 0
    · simp only [hd, decide_true, if_true]
      exact ⟨hl.x.neg, hl.y.neg, hl.z.neg, hl.d.neg⟩
    · simp only [hd, decide_false, if_false]
      exact hl
  obtain ⟨g, hg, rg⟩ := hsg
  have hne : ∃ e, normExponent g = some e := by
    obtain ⟨_, e1, -⟩ := rg.x
    obtain ⟨_, e2, -⟩ := rg.y
    obtain ⟨_, e3, -⟩ := rg.z
    obtain ⟨_, e4, -⟩ := rg.d
    simp only [normExponent, e1, e2, e3, e4, Option.bind_eq_bind, Option.bind_some, maxAbs, Option.pure_def]
    exact ⟨_, rfl⟩
  obtain ⟨e, he⟩ := hne
  have hsc : scaleOf i = 2 ^ (-e) := by simp only [scaleOf, hg, Option.bind_some, he]
  have hnorm : ∃ k, normalizeLambda g = some k ∧ ∀ g', RepH g g' →
      RepH k { x := g'.x * 2 ^ (-e), y := g'.y * 2 ^ (-e), z := g'.z * 2 ^ (-e), d := g'.d * 2 ^ (-e) } := by
    simp only [normalizeLambda, he, Option.bind_eq_bind, Option.bind_some, Option.pure_def]
    refine ⟨_, rfl, fun g' rg => ?_⟩
    by_cases h0 : e = 0
    · subst h0
      simp only [neg_zero, zpow_zero, mul_one]
      simpa using rg
    · rw [if_pos h0]
      exact ⟨rg.x.scale e, rg.y.scale e, rg.z.scale e, rg.d.scale e⟩
  obtain ⟨k, hk, rk⟩ := hnorm
  have rk := rk _ rg
  simp only [exactE, hg, hk, rk.d.notZero, Option.bind_eq_bind, Option.bind_some, Option.pure_def]
  generalize hm : (if i.lambda.d < 0 then
      ({ x := -i.lambda.x, y := -i.lambda.y, z := -i.lambda.z, d := -i.lambda.d } : Hom ℚ) else i.lambda) = m at rk
  have hx : Pred.exact expEnv i = if m.d * 2 ^ (-e) ≠ 0 then
      some { x := m.x * 2 ^ (-e), y := m.y * 2 ^ (-e), z := m.z * 2 ^ (-e), d := m.d * 2 ^ (-e) } else none := by
    simp only [Pred.exact, expEnv, hsc, hm]
  rw [hx]
  by_cases h0 : m.d * 2 ^ (-e) ≠ 0
  · right
    rw [if_pos h0]
    exact ⟨k, _, by rw [decide_eq_true h0]; rfl, rfl, rk⟩
  · left
    rw [if_neg h0, decide_eq_false h0]
    exact ⟨rfl, rfl⟩

theorem ieeeE_eq {pa : Imp ℚ} {pb pc pd : Pt ℚ} (ha : ImpF pa) (hb : PtF pb) (hc : PtF pc) (hd : PtF pd) :
    ieeeE pa pb pc pd = some (ieee expEnv pa pb pc pd) := by
  simp only [ieeeE, ieee, show expEnv.early3 = fun _ _ _ _ => none from rfl]
  rcases exactE_spec ha with ⟨h1, h2⟩ | ⟨a, a', h1, h2, ra⟩
  · simp [h1, h2]
  · simp only [h1, h2, Option.bind_eq_bind, Option.bind_some, Option.pure_def]
    exact lastSign_rep (ieeeImpl_rep ra (toE_rep hb) (toE_rep hc) (toE_rep hd))

theorem iieeE_eq {pa pb : Imp ℚ} {pc pd : Pt ℚ} (ha : ImpF pa) (hb : ImpF pb) (hc : PtF pc) (hd : PtF pd) :
    iieeE pa pb pc pd = some (iiee expEnv pa pb pc pd) := by
  simp only [iieeE, iiee, show expEnv.early3 = fun _ _ _ _ => none from rfl]
  rcases exactE_spec ha with ⟨h1, h2⟩ | ⟨a, a', h1, h2, ra⟩ <;> rcases exactE_spec hb with ⟨h3, h4⟩ | ⟨b, b', h3, h4, rb⟩
  · simp [h1, h2, h3]
  · simp [h1, h2, h3]
  · simp [h1, h2, h3, h4]
  · simp only [h1, h2, h3, h4, Option.bind_eq_bind, Option.bind_some, Option.pure_def]
    exact lastSign_rep (iieeImpl_rep ra rb (toE_rep hc) (toE_rep hd))

theorem iiieE_eq {pa pb pc : Imp ℚ} {pd : Pt ℚ} (ha : ImpF pa) (hb : ImpF pb) (hc : ImpF pc) (hd : PtF pd) :
    iiieE pa pb pc pd = some (iiie expEnv pa pb pc pd) := by
  simp only [iiieE, iiie, show expEnv.early3 = fun _ _ _ _ => none from rfl]
  rcases exactE_spec ha with ⟨h1, h2⟩ | ⟨a, a', h1, h2, ra⟩ <;> rcases exactE_spec hb with ⟨h3, h4⟩ | ⟨b, b', h3, h4, rb⟩ <;>
    rcases exactE_spec hc with ⟨h5, h6⟩ | ⟨c, c', h5, h6, rc⟩
  case inr.inr.inr =>
    simp only [h1, h2, h3, h4, h5, h6, Option.bind_eq_bind, Option.bind_some, Option.pure_def]
    exact lastSign_rep (iiieImpl_rep ra rb rc (toE_rep hd))
  all_goals simp [h1, h2, h3, h4, h5, h6]

theorem iiiiE_eq {pa pb pc pd : Imp ℚ} (ha : ImpF pa) (hb : ImpF pb) (hc : ImpF pc) (hd : ImpF pd) :
    iiiiE pa pb pc pd = some (iiii expEnv pa pb pc pd) := by
  simp only [iiiiE, iiii, show expEnv.early3 = fun _ _ _ _ => none from rfl]
  rcases exactE_spec ha with ⟨h1, h2⟩ | ⟨a, a', h1, h2, ra⟩ <;> rcases exactE_spec hb with ⟨h3, h4⟩ | ⟨b, b', h3, h4, rb⟩ <;>
    rcases exactE_spec hc with ⟨h5, h6⟩ | ⟨c, c', h5, h6, rc⟩ <;> rcases exactE_spec hd with ⟨h7, h8⟩ | ⟨d, d', h7, h8, rd⟩
  case inr.inr.inr.inr =>
    simp only [h1, h2, h3, h4, h5, h6, h7, h8, Option.bind_eq_bind, Option.bind_some, Option.pure_def]
    exact lastSign_rep (iiiiImpl_rep ra rb rc rd)
  all_goals simp [h1, h2, h3, h4, h5, h6, h7, h8]

theorem ieeE_eq {p1 : Imp ℚ} {p2 p3 : Pt ℚ} (axis : Nat) (h1 : ImpF p1) (h2 : PtF p2) (h3 : PtF p3) :
    ieeE axis p1 p2 p3 = some (iee expEnv axis p1 p2 p3) := by
  simp only [ieeE, iee, show expEnv.early2 = fun _ _ _ _ => none from rfl]
  rcases exactE_spec h1 with ⟨e1, e2⟩ | ⟨a, a', e1, e2, ra⟩
  · simp [e1, e2]
  · simp only [e1, e2, Option.bind_eq_bind, Option.bind_some, Option.pure_def]
    obtain ⟨a1, a2⟩ := ax2_rep ra.x ra.y ra.z axis
    have a3 := ra.d
    have b1 := ENum.Rep.of (ax2_isF h2 axis).1
    have b2 := ENum.Rep.of (ax2_isF h2 axis).2
    have c1 := ENum.Rep.of (ax2_isF h3 axis).1
    have c2 := ENum.Rep.of (ax2_isF h3 axis).2
    refine lastSign_rep ?_
    simp only [ieeImpl]; rep

theorem iieE_eq {p1 p2 : Imp ℚ} {p3 : Pt ℚ} (axis : Nat) (h1 : ImpF p1) (h2 : ImpF p2) (h3 : PtF p3) :
    iieE axis p1 p2 p3 = some (iie expEnv axis p1 p2 p3) := by
  simp only [iieE, iie, show expEnv.early2 = fun _ _ _ _ => none from rfl]
  rcases exactE_spec h1 with ⟨e1, e2⟩ | ⟨a, a', e1, e2, ra⟩ <;> rcases exactE_spec h2 with ⟨e3, e4⟩ | ⟨b, b', e3, e4, rb⟩
  case inr.inr =>
    simp only [e1, e2, e3, e4, Option.bind_eq_bind, Option.bind_some, Option.pure_def]
    obtain ⟨a1, a2⟩ := ax2_rep ra.x ra.y ra.z axis
    have a3 := ra.d
    obtain ⟨b1, b2⟩ := ax2_rep rb.x rb.y rb.z axis
    have b3 := rb.d
    have c1 := ENum.Rep.of (ax2_isF h3 axis).1
    have c2 := ENum.Rep.of (ax2_isF h3 axis).2
    refine lastSign_rep ?_
    simp only [iieImpl]; rep
  all_goals simp [e1, e2, e3, e4]

theorem iiiE_eq {p1 p2 p3 : Imp ℚ} (axis : Nat) (h1 : ImpF p1) (h2 : ImpF p2) (h3 : ImpF p3) :
    iiiE axis p1 p2 p3 = some (iii expEnv axis p1 p2 p3) := by
  simp only [iiiE, iii, show expEnv.early2 = fun _ _ _ _ => none from rfl]
  rcases exactE_spec h1 with ⟨e1, e2⟩ | ⟨a, a', e1, e2, ra⟩ <;> rcases exactE_spec h2 with ⟨e3, e4⟩ | ⟨b, b', e3, e4, rb⟩ <;>
    rcases exactE_spec h3 with ⟨e5, e6⟩ | ⟨c, c', e5, e6, rc⟩
  case inr.inr.inr =>
    simp only [e1, e2, e3, e4, e5, e6, Option.bind_eq_bind, Option.bind_some, Option.pure_def]
    obtain ⟨a1, a2⟩ := ax2_rep ra.x ra.y ra.z axis
    have a3 := ra.d
    obtain ⟨b1, b2⟩ := ax2_rep rb.x rb.y rb.z axis
    have b3 := rb.d
    obtain ⟨c1, c2⟩ := ax2_rep rc.x rc.y rc.z axis
    have c3 := rc.d
    refine lastSign_rep ?_
    simp only [iiiImpl]; rep
  all_goals simp [e1, e2, e3, e4, e5, e6]

theorem ltIeE_eq {pa : Imp ℚ} {pb : Pt ℚ} (axis : Nat) (h1 : ImpF pa) (h2 : PtF pb) :
    ltIeE axis pa pb = some (ltIe expEnv axis pa pb) := by
  simp only [ltIeE, ltIe, show expEnv.early1 = fun _ _ _ => none from rfl]
  rcases exactE_spec h1 with ⟨e1, e2⟩ | ⟨a, a', e1, e2, ra⟩
  · simp [e1, e2]
  · simp only [e1, e2, Option.bind_eq_bind, Option.bind_some, Option.pure_def]
    have a1 := ax1_rep ra.x ra.y ra.z axis
    have a3 := ra.d
    have b1 := ENum.Rep.of (ax1_isF h2 axis)
    refine lastSign_rep ?_
    simp only [ltIeImpl]; rep

theorem ltIiE_eq {pa pb : Imp ℚ} (axis : Nat) (h1 : ImpF pa) (h2 : ImpF pb) :
    ltIiE axis pa pb = some (ltIi expEnv axis pa pb) := by
  simp only [ltIiE, ltIi, show expEnv.early1 = fun _ _ _ => none from rfl]
  rcases exactE_spec h1 with ⟨e1, e2⟩ | ⟨a, a', e1, e2, ra⟩ <;> rcases exactE_spec h2 with ⟨e3, e4⟩ | ⟨b, b', e3, e4, rb⟩
  case inr.inr =>
    simp only [e1, e2, e3, e4, Option.bind_eq_bind, Option.bind_some, Option.pure_def]
    have a1 := ax1_rep ra.x ra.y ra.z axis
    have a3 := ra.d
    have b1 := ax1_rep rb.x rb.y rb.z axis
    have b3 := rb.d
    refine lastSign_rep ?_
    simp only [ltIiImpl]; rep
  all_goals simp [e1, e2, e3, e4]

end Verif.Float
