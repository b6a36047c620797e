import Verif.Bsp.FaceTrace
import Verif.Bsp.Solid
/-!
# The triangles listed at the faces
-/
namespace Verif.Bsp
open InSphere (Pt)
open Geom (lerp orient2dByAxis)

variable {K : Type} [Field K] [LinearOrder K] [IsStrictOrderedRing K]

/-- Specification: every triangle with a number below `nOri` that lies in the plane of a face and has a point inside the face is listed at the face; a listed triangle has such a number and lies in the plane. -/
structure Listed (tri : Nat → Tri3 K) (nOri : Nat) (g : GSt K) : Prop where
  flat : ∀ (i : Nat) (F : Poly.Face), g.s.cx.faces[i]? = some F → ∀ t ∈ F.tris, t < nOri ∧ ∀ x ∈ (tri t).corners, (g.pl i).ev x = 0
  all : ∀ (i : Nat) (F : Poly.Face) (c : Cycle), g.s.cx.faces[i]? = some F → g.s.mesh.faces[i]? = some c → ∀ t < nOri, (∀ x ∈ (tri t).corners, (g.pl i).ev x = 0) →
    (∃ q, InsideFace g.pos (g.pl i) c q ∧ InTri (tri t) q) → t ∈ F.tris

/-- Specification: the points lie on the inner side of the faces that have a cell on one side only. -/
def Outer (X : Pt K → Prop) (g : GSt K) : Prop := ∀ (i : Nat) (F : Poly.Face), g.s.cx.faces[i]? = some F → F.cells.2 = none → ∀ p, X p → 0 ≤ (g.pl i).ev p

/-- The inside of a part of a face is inside the face. -/
theorem InsideFace.of_part {pos pos' : Nat → Pt K} {A : Aff K} {c c' : Cycle} (f : FaceOk pos A c) (f' : FaceOk pos' A c') (h : PartOf pos pos' c' c) {q : Pt K} (hq : InsideFace pos' A c' q) : InsideFace pos A c q := by
  refine ⟨hq.1, fun k hk => ?_⟩
  rw [← areaAff_ev]
  refine hq.pos f' (fun x hx => ?_) ?_
  · obtain ⟨a, ha, b, hb, t, t0, t1, e⟩ := h x hx
    rw [e, ev_lerp, areaAff_ev, areaAff_ev]
    exact add_nonneg (mul_nonneg (by linarith) (f.left k hk a ha)) (mul_nonneg t0 (f.left k hk b hb))
  · obtain ⟨z, hz, h0⟩ := f'.not_flat (f.ev_tail hk) (f.ev_tip hk) (f.pos_ne hk)
    exact ⟨z, hz, by rw [areaAff_ev]; exact h0⟩

/-- What `geoSplit` computes. -/
theorem geoSplit_some {tri : Nat → Tri3 K} {axis : Nat → Nat} {keep : Nat → Bool} {nOri : Nat} {g g' : GSt K} {cid : Nat} {C : Poly.Cell} (hC : g.s.cx.cells[cid]? = some C) (e : geoSplit tri axis keep nOri g cid = some g') :
    ∃ p vs ip iq, C.inner.getLast? = some p ∧ sectionVerts (triSgn g.pos (tri p)) g.s cid C = some vs ∧
      splitCell (geoOracle tri axis p (vs.map (slicePos (tri p).plane (triSgn g.pos (tri p)) g.pos g.s C)) ip iq) (triSgn g.pos (tri p)) keep nOri g.s cid = some g'.s ∧
      g'.pos = slicePos (tri p).plane (triSgn g.pos (tri p)) g.pos g.s C ∧ g'.pl = planesAfter (tri p).plane (triSgn g.pos (tri p)) g.pl g.s g'.s cid C := by
  unfold geoSplit at e
  obtain ⟨C', hC', e⟩ := Option.bind_eq_some_iff.1 e
  rw [hC] at hC'; cases hC'
  obtain ⟨p, hp, e⟩ := Option.bind_eq_some_iff.1 e
  obtain ⟨cf, hcf, e⟩ := Option.bind_eq_some_iff.1 e
  obtain ⟨vs, hvs, e⟩ := Option.bind_eq_some_iff.1 e
  obtain ⟨s1, hs1, e⟩ := Option.bind_eq_some_iff.1 e
  obtain ⟨s2, hs2, e⟩ := Option.bind_eq_some_iff.1 e
  cases e
  exact ⟨p, vs, _, _, hp, hvs, hs2, rfl, rfl⟩

theorem geoSplit_outer {tri : Nat → Tri3 K} {axis : Nat → Nat} {keep : Nat → Bool} {nOri : Nat} {g g' : GSt K} {cid : Nat} {C : Poly.Cell} (gd : Good g.s) (gg : Geo g.pos g.pl g.s.cl g.s.mesh.faces)
    (hcut : Cutting tri g) (hC : g.s.cx.cells[cid]? = some C) (hne : C.inner ≠ []) (gd' : Good g'.s) (e : geoSplit tri axis keep nOri g cid = some g') {X : Pt K → Prop} (hO : Outer X g) : Outer X g' := by
  obtain ⟨p, vs, ip, iq, hp, hvs, e2, e3, e4⟩ := geoSplit_some hC e
  have hcp := hcut cid p (by rw [innerOf_some hC]; exact List.mem_of_getLast? hp)
  have ha : Across g.pos (tri p).plane (triSgn g.pos (tri p)) g.s.cl g.s.mesh.faces cid := ⟨fun _ _ => rfl, hcp.1, hcp.2⟩
  intro i F hF h0 x hx
  rw [e4]
  rcases splitCell_trace _ _ keep nOri g.s g'.s cid C gd (geoOracle_self _ _ _ _ _ _) hC hne g.pos g.pl (tri p).plane gg ha e2 with ⟨f1, f2, f3⟩ | ⟨f1, f2⟩
  · rw [planesAfter, if_pos f3]
    rw [f2] at hF
    exact hO i F hF h0 x hx
  · rw [planesAfter, if_neg (by omega)]
    have hlen : i < g'.s.mesh.faces.length := by
      rw [← gd'.mesh.len]; simpa [St.cl] using (List.getElem?_eq_some_iff.1 hF).1
    rcases f2 i F _ hF (List.getElem?_eq_getElem hlen) with ⟨p', -, hc, -⟩ | ⟨j, F0, c, h1, h2, h3, h4, -⟩
    · rw [hc] at h0; cases h0
    · rw [h3]; exact hO j F0 h1 (h4.1 h0) x hx

theorem geoSplit_listed {tri : Nat → Tri3 K} {axis : Nat → Nat} {keep : Nat → Bool} {nOri n : Nat} {g g' : GSt K} {cid : Nat} {C : Poly.Cell} (gd : Good g.s) (gg : Geo g.pos g.pl g.s.cl g.s.mesh.faces)
    (hcut : Cutting tri g) (hC : g.s.cx.cells[cid]? = some C) (hne : C.inner ≠ []) (e : geoSplit tri axis keep nOri g cid = some g') (hn : ∀ k, ∀ t ∈ innerOf g.s k, t < n) (hle : nOri ≤ n)
    (hax : ∀ t < n, orient2dByAxis (tri t).a (tri t).b (tri t).c (axis t) ≠ .zero) (hal : Aligned tri n) (hrec : Recorded tri n g) (hL : Listed tri nOri g) : Listed tri nOri g' := by
  obtain ⟨p, vs, ip, iq, hp, hvs, e2, e3, e4⟩ := geoSplit_some hC e
  have hpm : p ∈ C.inner := List.mem_of_getLast? hp
  have hpi : p ∈ innerOf g.s cid := by rw [innerOf_some hC]; exact hpm
  have hcp := hcut cid p hpi
  have hcid : cid < g.s.cx.cells.length := (List.getElem?_eq_some_iff.1 hC).1
  set h := (tri p).plane with hh
  set sgn := triSgn g.pos (tri p) with hsgn
  have ha : Across g.pos h sgn g.s.cl g.s.mesh.faces cid := ⟨fun _ _ => rfl, hcp.1, hcp.2⟩
  set pos' := slicePos h sgn g.pos g.s C with hpos'
  obtain ⟨vs', hvs', hok⟩ := gg.sectionOk gd hC hne ha
  rw [hvs] at hvs'; cases hvs'
  set G := geoOracle tri axis p (vs.map pos') ip iq with hG
  obtain ⟨s2, e2', gd2, -, c2⟩ := splitCell_geo G sgn keep nOri g.s cid C gd (geoOracle_self _ _ _ _ _ _) hC hne g.pos g.pl h gg ha
  rw [e2] at e2'; cases e2'
  have htr := splitCell_trace G sgn keep nOri g.s g'.s cid C gd (geoOracle_self _ _ _ _ _ _) hC hne g.pos g.pl h gg ha e2
  -- positive for the triangle means positive for a corner
  have hcor : ∀ t q, InTri (tri t) q → (0 < h.ev q → G.hasPos t = true) ∧ (h.ev q < 0 → G.hasNeg t = true) := by
    intro t q hq
    refine ⟨fun h0 => ?_, fun h0 => ?_⟩
    · obtain ⟨x, hx, hx0⟩ := InTri.pos hq (A := h) h0
      simp only [hG, geoOracle, List.any_eq_true, decide_eq_true_eq]
      exact ⟨x, hx, sign_pos hx0⟩
    · obtain ⟨x, hx, hx0⟩ := InTri.pos hq (A := h.neg) (by rw [Aff.neg_ev]; linarith)
      rw [Aff.neg_ev] at hx0
      simp only [hG, geoOracle, List.any_eq_true, decide_eq_true_eq]
      exact ⟨x, hx, sign_neg (by linarith)⟩
  rw [← hpos'] at c2
  rcases c2 with ⟨f1, f2, f3, hsame, g2⟩ | H
  · have hl : g'.s.cx.cells.length = g.s.cx.cells.length := by simpa using congrArg List.length f3
    rw [planesAfter, if_pos hl] at e4
    refine ⟨fun i F hF t ht => ?_, fun i F c hF hc t ht hx hq => ?_⟩
    · rw [f2] at hF
      rw [e4]; exact hL.flat i F hF t ht
    · rw [f2] at hF
      rw [f1] at hc
      rw [e4] at hx
      refine hL.all i F c hF hc t ht hx ?_
      obtain ⟨q, hq, hqt⟩ := hq
      refine ⟨q, ⟨by rw [e4] at hq; exact hq.1, fun k hk => ?_⟩, hqt⟩
      have := hq.2 k hk
      have hlt := fun x hx => (gd.mesh.lt c (List.mem_of_getElem? hc) x hx).1
      obtain ⟨w, hw, ew⟩ := hes_tip hk
      rw [e3, e4, hsame k.tail (hlt _ (hes_tail hk)), ← ew, hsame _ (hlt w hw), ew] at this
      exact this
  · rcases htr with ⟨-, -, f3⟩ | ⟨f1, f2⟩
    · have := H.len; omega
    rw [planesAfter, if_neg (by omega)] at e4
    have hg' : Geo g'.pos g'.pl g'.s.cl g'.s.mesh.faces := by rw [e3, e4]; exact H.geo
    refine ⟨fun i F hF t ht => ?_, fun i F c hF hc t ht hx hq => ?_⟩
    · have hlen : i < g'.s.mesh.faces.length := by
        rw [← gd2.mesh.len]; simpa [St.cl] using (List.getElem?_eq_some_iff.1 hF).1
      rw [e4]
      rcases f2 i F _ hF (List.getElem?_eq_getElem hlen) with ⟨p', h1, h2, h3, h4⟩ | ⟨j, F0, c, h1, h2, h3, h4, h5, h6⟩
      · rw [hp] at h3; cases h3
        rw [h4] at ht
        obtain ⟨ht, ht1⟩ := List.mem_filter.1 ht
        obtain ⟨ht, -⟩ := List.mem_filter.1 ht
        obtain ⟨-, ht2⟩ := List.mem_filter.1 ht
        rw [h1]
        exact ⟨by simpa using ht1, (coplanar_iff tri axis p _ ip iq p t).1 ht2⟩
      · rw [h3]
        refine hL.flat j F0 h1 t ?_
        rcases h6 with h6 | ⟨-, ⟨h6, -⟩ | ⟨h6, -⟩⟩ <;> rw [h6] at ht
        · exact ht
        · exact (List.mem_filter.1 ht).1
        · exact (List.mem_filter.1 ht).1
    · have hf' := hg'.face i c hc
      obtain ⟨q, hq, hqt⟩ := hq
      have f2i := f2 i F c hF hc
      rw [← e4, ← hpos', ← e3] at f2i
      rcases f2i with ⟨p', h1, h2, h3, h4⟩ | ⟨j, F0, c0, h1, h2, h3, h4, h5, h6⟩
      · rw [hp] at h3; cases h3
        have hcl : g'.s.cl[i]? = some (g.s.cx.cells.length, some cid) := by simp [St.cl, hF, h2]
        have hncid : g.s.cx.cells.length ≠ cid := by omega
        have s1 : sg (g.s.cx.cells.length, some cid) g.s.cx.cells.length = 1 := by simp [sg, hncid.symm]
        have s2 : sg (g.s.cx.cells.length, some cid) cid = -1 := by simp [sg, hncid]
        obtain ⟨x, -, hx1⟩ := side_vertex hg' hcl (k := g.s.cx.cells.length) (by rw [s1]; decide)
        rw [s1, Int.cast_one, one_mul] at hx1
        obtain ⟨a, a0, a1, hA⟩ := enter hg' hcl (k := g.s.cx.cells.length) (by rw [s1]; decide) hc hq (W := g'.pos x) (by rw [s1, Int.cast_one, one_mul]; exact hx1)
        obtain ⟨b, b0, b1, hB⟩ := enter hg' hcl (k := cid) (by rw [s2]; decide) hc hq (W := lerp q (g'.pos x) (-1)) (by rw [s2, lerp_neg_ev _ hq.1]; push_cast; linarith)
        have hm0 := lt_min a0 b0
        have hP := hA (min a b) hm0 (min_le_left _ _)
        have hM := hB (min a b) hm0 (min_le_right _ _)
        have hcore : Core (Region g.pl g.s.cl cid) q := by
          refine core_of_walls fun A hA' => ?_
          have w1 := (hP.mono (S := Region g.pl g.s.cl cid) fun q' hq' => by rw [e4] at hq'; exact ((H.above q').1 hq').1).walls gg A hA'
          have w2 := (hM.mono (S := Region g.pl g.s.cl cid) fun q' hq' => by rw [e4] at hq'; exact ((H.below q').1 hq').1).walls gg A hA'
          simp only [ev_lerp] at w1 w2
          nlinarith
        have hin : t ∈ C.inner := by
          have := hrec cid hcid t (by omega) ⟨q, hqt, hcore⟩
          rwa [innerOf_some hC] at this
        have hpl : ∀ x ∈ (tri t).corners, h.ev x = 0 := by rw [← h1]; exact hx
        rw [h4]
        refine List.mem_filter.2 ⟨List.mem_filter.2 ⟨List.mem_filter.2 ⟨hin, (coplanar_iff tri axis p _ ip iq p t).2 hpl⟩, ?_⟩, by simpa using ht⟩
        exact c98_tri_poly_partial gg hok (tri_normal (hax p (hn cid p hpi))) (tri t) hpl (hal p (hn cid p hpi) t (by omega) hpl) (axis t) (hax t (by omega)) ⟨q, hqt, hcore⟩
      · rw [h3] at hx hq hf'
        have hq0 := hq.of_part (gg.face j c0 h2) hf' h5
        have hmem := hL.all j F0 c0 h1 h2 t ht hx ⟨q, hq0, hqt⟩
        rcases h6 with h6 | ⟨⟨a, ha1, ha0⟩, h6⟩
        · rw [h6]; exact hmem
        have hnz : ∃ x ∈ c, h.ev (g'.pos x.1) ≠ 0 := by
          by_contra hno
          push Not at hno
          obtain ⟨μ, hμ⟩ := hf'.vanish hno
          exact ha0 (by rw [hμ, (gg.face j c0 h2).plane a ha1, mul_zero])
        rcases h6 with ⟨h6, h7⟩ | ⟨h6, h7⟩
        · rw [h6]
          exact List.mem_filter.2 ⟨hmem, (hcor t q hqt).1 (hq.pos hf' h7 hnz)⟩
        · rw [h6]
          have := hq.pos hf' (B := h.neg) (fun x hx => by rw [Aff.neg_ev]; have := h7 x hx; linarith) (by
            obtain ⟨x, hx, h0⟩ := hnz
            exact ⟨x, hx, by rw [Aff.neg_ev]; exact neg_ne_zero.2 h0⟩)
          rw [Aff.neg_ev] at this
          exact List.mem_filter.2 ⟨hmem, (hcor t q hqt).2 (by linarith)⟩

/-- The whole loop. -/
theorem c103_loop_lists {tri : Nat → Tri3 K} {axis : Nat → Nat} {keep : Nat → Nat → Bool} {nOri n : Nat} (hle : nOri ≤ n) (hax : ∀ t < n, orient2dByAxis (tri t).a (tri t).b (tri t).c (axis t) ≠ .zero)
    (hal : Aligned tri n) {X : Pt K → Prop} : ∀ (fuel cid : Nat) (g g' : GSt K), Good g.s → Geo g.pos g.pl g.s.cl g.s.mesh.faces → Cutting tri g → (∀ k, ∀ t ∈ innerOf g.s k, t < n) → Recorded tri n g → Listed tri nOri g →
    Outer X g → geoLoop tri axis keep nOri fuel cid g = .done g' → Listed tri nOri g' ∧ Outer X g'
  | 0, _, _, _, _, _, _, _, _, _, _, e => by cases e
  | fuel + 1, cid, g, g', gd, gg, hcut, hn, hrec, hL, hO, e => by
    unfold geoLoop at e
    cases hC : g.s.cx.cells[cid]? with
    | none => rw [hC] at e; cases e; exact ⟨hL, hO⟩
    | some C =>
      rw [hC] at e
      simp only at e
      by_cases he : C.inner = []
      · rw [if_pos (by simp [he])] at e
        exact c103_loop_lists hle hax hal fuel (cid + 1) g g' gd gg hcut hn hrec hL hO e
      · rw [if_neg (by simpa using he)] at e
        obtain ⟨g1, e1, -, gd1, gg1, hcut1, -, -, hsub, hr⟩ := geoSplit_spec (axis := axis) (keep := keep fuel) (nOri := nOri) gd gg hcut hC he
        rw [e1] at e
        refine c103_loop_lists hle hax hal fuel cid g1 g' gd1 gg1 hcut1 (fun k t ht => ?_) (hr n hn hax hal hrec) (geoSplit_listed gd gg hcut hC he e1 hn hle hax hal hrec hL) (geoSplit_outer gd gg hcut hC he gd1 e1 hO) e
        obtain ⟨k', hk'⟩ := hsub k t ht
        exact hn k' t hk'

end Verif.Bsp
