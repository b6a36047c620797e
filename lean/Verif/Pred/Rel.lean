import Verif.Pred.Model
/-!
# The polynomials of the predicates under a relation

If a relation between two kinds of numbers is kept by `+`, `-` and `*`, then it is kept by the polynomials of the predicates.
-/
namespace Verif.Pred
open InSphere

variable {S T : Type} [Add S] [Sub S] [Mul S] [Add T] [Sub T] [Mul T]

/-- A relation kept by the operations. -/
class Closed (R : S → T → Prop) : Prop where
  add : ∀ {x y a b}, R x a → R y b → R (x + y) (a + b)
  sub : ∀ {x y a b}, R x a → R y b → R (x - y) (a - b)
  mul : ∀ {x y a b}, R x a → R y b → R (x * y) (a * b)

/-- `R x a`. -/
def Rl {S T : Type} (R : S → T → Prop) (x : S) (a : T) : Prop := R x a

variable {R : S → T → Prop} [Closed R]

theorem Rl.add {x y : S} {a b : T} (h : Rl R x a) (h' : Rl R y b) : Rl R (x + y) (a + b) := Closed.add (R := R) h h'
theorem Rl.sub {x y : S} {a b : T} (h : Rl R x a) (h' : Rl R y b) : Rl R (x - y) (a - b) := Closed.sub (R := R) h h'
theorem Rl.mul {x y : S} {a b : T} (h : Rl R x a) (h' : Rl R y b) : Rl R (x * y) (a * b) := Closed.mul (R := R) h h'

structure RelP {S T : Type} (R : S → T → Prop) (p : Pt S) (q : Pt T) : Prop where
  x : Rl R p.x q.x
  y : Rl R p.y q.y
  z : Rl R p.z q.z

structure RelH {S T : Type} (R : S → T → Prop) (p : Hom S) (q : Hom T) : Prop where
  x : Rl R p.x q.x
  y : Rl R p.y q.y
  z : Rl R p.z q.z
  d : Rl R p.d q.d

/-- Polynomials of related numbers are related. -/
macro "rlt" : tactic => `(tactic| repeat' first | assumption | apply Rl.sub | apply Rl.add | apply Rl.mul)

theorem lpiLambda_rel {l : LPI S} {m : LPI T} (hp : RelP R l.p m.p) (hq : RelP R l.q m.q) (hr : RelP R l.r m.r) (hs : RelP R l.s m.s)
    (ht : RelP R l.t m.t) : RelH R (lpiLambda l) (lpiLambda m) := by
  obtain ⟨a1, a2, a3⟩ := hp
  obtain ⟨b1, b2, b3⟩ := hq
  obtain ⟨c1, c2, c3⟩ := hr
  obtain ⟨d1, d2, d3⟩ := hs
  obtain ⟨e1, e2, e3⟩ := ht
  constructor <;> simp only [lpiLambda] <;> rlt

theorem tpiLambda_rel {l : TPI S} {m : TPI T} (h1 : RelP R l.v1 m.v1) (h2 : RelP R l.v2 m.v2) (h3 : RelP R l.v3 m.v3) (h4 : RelP R l.w1 m.w1)
    (h5 : RelP R l.w2 m.w2) (h6 : RelP R l.w3 m.w3) (h7 : RelP R l.u1 m.u1) (h8 : RelP R l.u2 m.u2) (h9 : RelP R l.u3 m.u3) :
    RelH R (tpiLambda l) (tpiLambda m) := by
  have r_v3x := h3.x.sub h2.x
  have r_v3y := h3.y.sub h2.y
  have r_v3z := h3.z.sub h2.z
  have r_v2x := h2.x.sub h1.x
  have r_v2y := h2.y.sub h1.y
  have r_v2z := h2.z.sub h1.z
  have r_w3x := h6.x.sub h5.x
  have r_w3y := h6.y.sub h5.y
  have r_w3z := h6.z.sub h5.z
  have r_w2x := h5.x.sub h4.x
  have r_w2y := h5.y.sub h4.y
  have r_w2z := h5.z.sub h4.z
  have r_u3x := h9.x.sub h8.x
  have r_u3y := h9.y.sub h8.y
  have r_u3z := h9.z.sub h8.z
  have r_u2x := h8.x.sub h7.x
  have r_u2y := h8.y.sub h7.y
  have r_u2z := h8.z.sub h7.z
  have r_nvx := (r_v2y.mul r_v3z).sub (r_v2z.mul r_v3y)
  have r_nvy := (r_v3x.mul r_v2z).sub (r_v3z.mul r_v2x)
  have r_nvz := (r_v2x.mul r_v3y).sub (r_v2y.mul r_v3x)
  have r_nwx := (r_w2y.mul r_w3z).sub (r_w2z.mul r_w3y)
  have r_nwy := (r_w3x.mul r_w2z).sub (r_w3z.mul r_w2x)
  have r_nwz := (r_w2x.mul r_w3y).sub (r_w2y.mul r_w3x)
  have r_nux := (r_u2y.mul r_u3z).sub (r_u2z.mul r_u3y)
  have r_nuy := (r_u3x.mul r_u2z).sub (r_u3z.mul r_u2x)
  have r_nuz := (r_u2x.mul r_u3y).sub (r_u2y.mul r_u3x)
  have r_nwyuz := (r_nwy.mul r_nuz).sub (r_nwz.mul r_nuy)
  have r_nwxuz := (r_nwx.mul r_nuz).sub (r_nwz.mul r_nux)
  have r_nwxuy := (r_nwx.mul r_nuy).sub (r_nwy.mul r_nux)
  have r_nvyuz := (r_nvy.mul r_nuz).sub (r_nvz.mul r_nuy)
  have r_nvxuz := (r_nvx.mul r_nuz).sub (r_nvz.mul r_nux)
  have r_nvxuy := (r_nvx.mul r_nuy).sub (r_nvy.mul r_nux)
  have r_nvywz := (r_nvy.mul r_nwz).sub (r_nvz.mul r_nwy)
  have r_nvxwz := (r_nvx.mul r_nwz).sub (r_nvz.mul r_nwx)
  have r_nvxwy := (r_nvx.mul r_nwy).sub (r_nvy.mul r_nwx)
  have r_p1 := ((r_nvx.mul h1.x).add (r_nvy.mul h1.y)).add (r_nvz.mul h1.z)
  have r_p2 := ((r_nwx.mul h4.x).add (r_nwy.mul h4.y)).add (r_nwz.mul h4.z)
  have r_p3 := ((r_nux.mul h7.x).add (r_nuy.mul h7.y)).add (r_nuz.mul h7.z)
  have r_lxa := r_p1.mul r_nwyuz
  have r_lxb := r_p3.mul r_nvywz
  have r_lxc := r_p2.mul r_nvyuz
  have r_lxab := r_lxa.add r_lxb
  have r_lya := r_p2.mul r_nvxuz
  have r_lyb := r_p3.mul r_nvxwz
  have r_lyc := r_p1.mul r_nwxuz
  have r_lybc := r_lyc.add r_lyb
  have r_lza := r_p3.mul r_nvxwy
  have r_lzb := r_p1.mul r_nwxuy
  have r_lzc := r_p2.mul r_nvxuy
  have r_lzab := r_lza.add r_lzb
  have r_da := r_nvx.mul r_nwyuz
  have r_db := r_nvz.mul r_nwxuy
  have r_dc := r_nvy.mul r_nwxuz
  have r_dab := r_da.add r_db
  exact ⟨(r_lxab.sub r_lxc), (r_lya.sub r_lybc), (r_lzab.sub r_lzc), (r_dab.sub r_dc)⟩

theorem ieeeImpl_rel {a : Hom S} {a' : Hom T} {b c d : Pt S} {b' c' d' : Pt T} (ha : RelH R a a') (hb : RelP R b b') (hc : RelP R c c')
    (hd : RelP R d d') : Rl R (ieeeImpl a b c d) (ieeeImpl a' b' c' d') := by
  obtain ⟨a1, a2, a3, a4⟩ := ha
  obtain ⟨b1, b2, b3⟩ := hb
  obtain ⟨c1, c2, c3⟩ := hc
  obtain ⟨d1, d2, d3⟩ := hd
  simp only [ieeeImpl]; rlt

theorem iieeImpl_rel {a b : Hom S} {a' b' : Hom T} {c d : Pt S} {c' d' : Pt T} (ha : RelH R a a') (hb : RelH R b b') (hc : RelP R c c')
    (hd : RelP R d d') : Rl R (iieeImpl a b c d) (iieeImpl a' b' c' d') := by
  obtain ⟨a1, a2, a3, a4⟩ := ha
  obtain ⟨b1, b2, b3, b4⟩ := hb
  obtain ⟨c1, c2, c3⟩ := hc
  obtain ⟨d1, d2, d3⟩ := hd
  simp only [iieeImpl]; rlt

theorem iiieImpl_rel {a b c : Hom S} {a' b' c' : Hom T} {d : Pt S} {d' : Pt T} (ha : RelH R a a') (hb : RelH R b b') (hc : RelH R c c')
    (hd : RelP R d d') : Rl R (iiieImpl a b c d) (iiieImpl a' b' c' d') := by
  obtain ⟨a1, a2, a3, a4⟩ := ha
  obtain ⟨b1, b2, b3, b4⟩ := hb
  obtain ⟨c1, c2, c3, c4⟩ := hc
  obtain ⟨d1, d2, d3⟩ := hd
  simp only [iiieImpl]; rlt

theorem iiiiImpl_rel {a b c d : Hom S} {a' b' c' d' : Hom T} (ha : RelH R a a') (hb : RelH R b b') (hc : RelH R c c')
    (hd : RelH R d d') : Rl R (iiiiImpl a b c d) (iiiiImpl a' b' c' d') := by
  obtain ⟨a1, a2, a3, a4⟩ := ha
  obtain ⟨b1, b2, b3, b4⟩ := hb
  obtain ⟨c1, c2, c3, c4⟩ := hc
  obtain ⟨d1, d2, d3, d4⟩ := hd
  simp only [iiiiImpl]; rlt

omit [Add S] [Sub S] [Mul S] [Add T] [Sub T] [Mul T] [Closed R] in
theorem ax2_rel {x y z : S} {a b c : T} (h1 : Rl R x a) (h2 : Rl R y b) (h3 : Rl R z c) (axis : Nat) :
    Rl R (ax2 axis x y z).1 (ax2 axis a b c).1 ∧ Rl R (ax2 axis x y z).2 (ax2 axis a b c).2 := by
  unfold ax2
  split_ifs
  · exact ⟨h1, h2⟩
  · exact ⟨h3, h1⟩
  · exact ⟨h2, h3⟩

omit [Add S] [Sub S] [Mul S] [Add T] [Sub T] [Mul T] [Closed R] in
theorem ax1_rel {x y z : S} {a b c : T} (h1 : Rl R x a) (h2 : Rl R y b) (h3 : Rl R z c) (axis : Nat) :
    Rl R (ax1 axis x y z) (ax1 axis a b c) := by
  unfold ax1
  split_ifs <;> assumption

end Verif.Pred
