import Verif.Bsp.InitGeo
/-!
# All cuts together

However often cells are cut, the pieces of a cell together are the cell, and different pieces are separated by a plane.
-/
namespace Verif.Bsp
open InSphere (Pt)
open Geom (lerp)

variable {K : Type} [Field K] [LinearOrder K] [IsStrictOrderedRing K]

/-- The planes of the faces after a call of `split_cell` on cell `C` that led from `s` to `s'`: if the cell was not cut, they are as before. -/
def planesAfter (h : Aff K) (sgn : Nat → SignType) (pl : Nat → Aff K) (s s' : St) (cid : Nat) (C : Poly.Cell) : Nat → Aff K :=
  if s'.cx.cells.length = s.cx.cells.length then pl else slicePl h sgn pl s cid C

/-- States reached from `s0` by calls of `split_cell` that return, each with the vertices of the cell compared with some plane `h = 0`, the positions of the vertices, and the planes of
the faces. -/
inductive Sliced (nOri : Nat) (s0 : St) (pos0 : Nat → Pt K) (pl0 : Nat → Aff K) : St → (Nat → Pt K) → (Nat → Aff K) → Prop
  | start : Sliced nOri s0 pos0 pl0 s0 pos0 pl0
  | cut {s s' : St} {pos : Nat → Pt K} {pl : Nat → Aff K} {G : Oracle} {sgn : Nat → SignType} {keep : Nat → Bool} {cid : Nat} {C : Poly.Cell} (h : Aff K) : Sliced nOri s0 pos0 pl0 s pos pl →
      (∀ t, G.coplanar t t = true) → s.cx.cells[cid]? = some C → (∀ v, OfCell s.cl s.mesh.faces cid v → sgn v = SignType.sign (h.ev (pos v))) →
      splitCell G sgn keep nOri s cid = some s' → Sliced nOri s0 pos0 pl0 s' (slicePos h sgn pos s C) (planesAfter h sgn pl s s' cid C)

/-- Specification: the sets `R k`, `k < n`, are parts of the sets `R0 j`, `j < n0`: the parts of `R0 j` cover it, lie in it, and are separated by planes. -/
structure Parts (R0 : Nat → Pt K → Prop) (n0 : Nat) (R : Nat → Pt K → Prop) (n : Nat) (par : Nat → Nat) : Prop where
  lt : ∀ k < n, par k < n0
  sub : ∀ k < n, ∀ q, R k q → R0 (par k) q
  cover : ∀ j < n0, ∀ q, R0 j q → ∃ k < n, par k = j ∧ R k q
  apart : ∀ k < n, ∀ l < n, k ≠ l → par k = par l → ∃ h : Aff K, (∃ p, 0 < h.ev p) ∧ (∃ p, h.ev p < 0) ∧ (∀ q, R k q → h.ev q ≤ 0) ∧ ∀ q, R l q → 0 ≤ h.ev q

theorem poly_proper {T : Poly.Tests} {nOri cid : Nat} {cx cx' : Poly.Complex} (e : Poly.splitCell T nOri cx cid = some cx') : T.proper = true := by
  unfold Poly.splitCell at e
  obtain ⟨C, -, e⟩ := Option.bind_eq_some_iff.1 e
  obtain ⟨pivot, -, e⟩ := Option.bind_eq_some_iff.1 e
  obtain ⟨y, -, e⟩ := Option.bind_eq_some_iff.1 e
  cases hp : T.proper with
  | true => rfl
  | false => rw [hp] at e; cases e

/-- A call that returns had vertices on both sides. -/
theorem across_of_some {G : Oracle} {sgn : Nat → SignType} {keep : Nat → Bool} {nOri : Nat} {s s' : St} {cid : Nat} {C : Poly.Cell} {pos : Nat → Pt K} {h : Aff K} (gd : Good s)
    (hC : s.cx.cells[cid]? = some C) (hs : ∀ v, OfCell s.cl s.mesh.faces cid v → sgn v = SignType.sign (h.ev (pos v))) (e : splitCell G sgn keep nOri s cid = some s') :
    C.inner ≠ [] ∧ Across pos h sgn s.cl s.mesh.faces cid := by
  unfold splitCell at e
  rw [hC, Option.bind_eq_bind, Option.bind_some] at e
  obtain ⟨cf, hcf, e⟩ := Option.bind_eq_some_iff.1 e
  obtain ⟨keys, -, e⟩ := Option.bind_eq_some_iff.1 e
  obtain ⟨ids, -, e⟩ := Option.bind_eq_some_iff.1 e
  obtain ⟨ord, -, e⟩ := Option.bind_eq_some_iff.1 e
  obtain ⟨pivot, hpv, e⟩ := Option.bind_eq_some_iff.1 e
  have hne : C.inner ≠ [] := by rintro h0; rw [h0] at hpv; cases hpv
  refine ⟨hne, ?_⟩
  have hmem : ∀ v ∈ cf.flatMap fun x => x.2.2.map Prod.fst, OfCell s.cl s.mesh.faces cid v := by
    intro v hv
    obtain ⟨x, hx, hv⟩ := List.mem_flatMap.1 hv
    obtain ⟨y, hy, rfl⟩ := List.mem_map.1 hv
    have h1 := (cellFaces_spec hcf).1 x hx
    exact (ofCell_iff gd hC).2 ⟨x.1, h1.1, x.2.2, h1.2.2, y, hy, rfl⟩
  have hud : ((cf.flatMap fun x => x.2.2.map Prod.fst).any (fun v => sgn v = 1) && (cf.flatMap fun x => x.2.2.map Prod.fst).any (fun v => sgn v = -1)) = true := by
    split at e
    · obtain ⟨cx, hcx, -⟩ := Option.bind_eq_some_iff.1 e
      exact poly_proper hcx
    · obtain ⟨m, -, e⟩ := Option.bind_eq_some_iff.1 e
      obtain ⟨a, -, e⟩ := Option.bind_eq_some_iff.1 e
      obtain ⟨cx, hcx, -⟩ := Option.bind_eq_some_iff.1 e
      exact poly_proper hcx
  rw [Bool.and_eq_true, List.any_eq_true, List.any_eq_true] at hud
  obtain ⟨⟨u, u1, u2⟩, w, w1, w2⟩ := hud
  replace u2 := of_decide_eq_true u2
  replace w2 := of_decide_eq_true w2
  refine ⟨hs, ⟨u, hmem u u1, ?_⟩, w, hmem w w1, ?_⟩
  · rw [hs u (hmem u u1)] at u2; exact sign_eq_one_iff.1 u2
  · rw [hs w (hmem w w1)] at w2; exact sign_eq_neg_one_iff.1 w2

/-- All cuts. -/
theorem sliced_parts {nOri : Nat} {s0 s : St} {pos0 pos : Nat → Pt K} {pl0 pl : Nat → Aff K} (gd0 : Good s0) (g0 : Geo pos0 pl0 s0.cl s0.mesh.faces) (h : Sliced nOri s0 pos0 pl0 s pos pl) :
    Good s ∧ Geo pos pl s.cl s.mesh.faces ∧ ∃ par, Parts (Region pl0 s0.cl) s0.cx.cells.length (Region pl s.cl) s.cx.cells.length par := by
  induction h with
  | start => exact ⟨gd0, g0, id, fun k hk => hk, fun k _ q hq => hq, fun j hj q hq => ⟨j, hj, rfl, hq⟩, fun k _ l _ hne e => absurd e hne⟩
  | @cut s s' pos pl G sgn keep cid C h hS hG hC hs e ih =>
    obtain ⟨gd, g, par, P⟩ := ih
    obtain ⟨hne, ha⟩ := across_of_some gd hC hs e
    obtain ⟨s2, e2, gd', hcase⟩ := c95_split_cell G sgn keep nOri s cid C gd hG hC hne pos pl h g ha
    rw [e] at e2; cases e2
    refine ⟨gd', ?_⟩
    have hcid : cid < s.cx.cells.length := (List.getElem?_eq_some_iff.1 hC).1
    rcases hcase with ⟨-, e2, e3, g'⟩ | ⟨hlen, g', hR, -⟩
    · have hl : s'.cx.cells.length = s.cx.cells.length := by simpa using congrArg List.length e3
      have hR : ∀ k q, Region pl s'.cl k q ↔ Region pl s.cl k q := fun k q => by rw [St.cl, e2]; rfl
      rw [planesAfter, if_pos hl]
      refine ⟨g', par, ?_⟩
      rw [hl]
      refine ⟨P.lt, fun k hk q hq => P.sub k hk q ((hR k q).1 hq), fun j hj q hq => ?_, fun k hk l hl hkl ep => ?_⟩
      · obtain ⟨k, k1, k2, k3⟩ := P.cover j hj q hq
        exact ⟨k, k1, k2, (hR k q).2 k3⟩
      · obtain ⟨B, b1, b2, b3, b4⟩ := P.apart k hk l hl hkl ep
        exact ⟨B, b1, b2, fun q hq => b3 q ((hR k q).1 hq), fun q hq => b4 q ((hR l q).1 hq)⟩
    · -- the new cell has the parent of the old one
      rw [planesAfter, if_neg (by omega)]
      refine ⟨g', ?_⟩
      set n := s.cx.cells.length with hn
      let src : Nat → Nat := fun k => if k = n then cid else k
      have hsrc : ∀ k, k < n + 1 → src k < n := by
        intro k hk
        by_cases h1 : k = n
        · simp only [src, if_pos h1]; exact hcid
        · simp only [src, if_neg h1]; omega
      have hsub : ∀ k q, Region (slicePl h sgn pl s cid C) s'.cl k q → Region pl s.cl (src k) q := by
        intro k q hq
        by_cases h1 : k = n
        · subst h1; simp only [src, if_pos rfl]; exact ((hR q).2.1.1 hq).1
        · simp only [src, if_neg h1]
          by_cases h2 : k = cid
          · subst h2; exact ((hR q).1.1 hq).1
          · exact ((hR q).2.2 k h2 h1).1 hq
      obtain ⟨up, hup, hup'⟩ := ha.up
      obtain ⟨dn, hdn, hdn'⟩ := ha.down
      refine ⟨fun k => par (src k), ?_⟩
      rw [hlen]
      refine ⟨fun k hk => P.lt _ (hsrc k hk), fun k hk q hq => P.sub _ (hsrc k hk) q (hsub k q hq), fun j hj q hq => ?_, fun k hk l hl hkl ep => ?_⟩
      · obtain ⟨k, k1, k2, k3⟩ := P.cover j hj q hq
        have hkn : k ≠ n := by omega
        by_cases h2 : k = cid
        · subst h2
          rcases le_total (h.ev q) 0 with h3 | h3
          · exact ⟨k, by omega, by simp only [src, if_neg hkn]; exact k2, (hR q).1.2 ⟨k3, h3⟩⟩
          · exact ⟨n, by omega, by simp only [src, if_pos rfl]; exact k2, (hR q).2.1.2 ⟨k3, h3⟩⟩
        · exact ⟨k, by omega, by simp only [src, if_neg hkn]; exact k2, ((hR q).2.2 k h2 hkn).2 k3⟩
      · by_cases hss : src k = src l
        · -- the two halves
          have : (k = cid ∧ l = n) ∨ (k = n ∧ l = cid) := by
            simp only [src] at hss
            split at hss <;> split at hss <;> omega
          rcases this with ⟨rfl, rfl⟩ | ⟨rfl, rfl⟩
          · exact ⟨h, ⟨_, hup'⟩, ⟨_, hdn'⟩, fun q hq => ((hR q).1.1 hq).2, fun q hq => ((hR q).2.1.1 hq).2⟩
          · refine ⟨h.neg, ⟨pos dn, ?_⟩, ⟨pos up, ?_⟩, fun q hq => ?_, fun q hq => ?_⟩
            · rw [Aff.neg_ev]; linarith
            · rw [Aff.neg_ev]; linarith
            · rw [Aff.neg_ev]; have := ((hR q).2.1.1 hq).2; linarith
            · rw [Aff.neg_ev]; have := ((hR q).1.1 hq).2; linarith
        · obtain ⟨B, b1, b2, b3, b4⟩ := P.apart _ (hsrc k hk) _ (hsrc l hl) hss ep
          exact ⟨B, b1, b2, fun q hq => b3 q (hsub k q hq), fun q hq => b4 q (hsub l q hq)⟩

end Verif.Bsp
