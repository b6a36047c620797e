import Verif.Bsp.GeoLoop
/-!
# Where the faces come from
-/
namespace Verif.Bsp
open InSphere (Pt)
open Geom (lerp)

variable {K : Type} [Field K] [LinearOrder K] [IsStrictOrderedRing K]

theorem Origin.unique {N : Nat} {fl : List Nat} {i j j' : Nat} (h : Origin N fl i j) (h' : Origin N fl i j') : j = j' := by
  rcases h with ⟨h1, rfl⟩ | ⟨h1, h2⟩ <;> rcases h' with ⟨h3, rfl⟩ | ⟨h3, h4⟩
  · rfl
  · omega
  · omega
  · rw [h2] at h4; exact Option.some.inj h4

theorem FaceCuts.trace {σ : Nat → SignType} {cid : Nat} {cl cl' : List (Nat × Option Nat)} {fs fs' : List Cycle} {fl : List Nat} (hf : FaceCuts σ cid cl fs fl cl' fs') :
    (∀ f ∈ fl, f < fs.length) → fs'.length = fs.length + fl.length ∧ ∀ (i : Nat) (c' : Cycle), fs'[i]? = some c' → ∃ (j : Nat) (c : Cycle), Origin fs.length fl i j ∧ fs[j]? = some c ∧ ∀ y ∈ c', ∃ x ∈ c, x.1 = y.1 := by
  induction hf with
  | refl cl fs => exact fun _ => ⟨by simp, fun i c' hc' => ⟨i, c', Or.inl ⟨(List.getElem?_eq_some_iff.1 hc').1, rfl⟩, hc', fun y hy => ⟨y, hy, rfl⟩⟩⟩
  | step hP hs hc hshape _ ih =>
    rename_i cl cl' fs fs' fl f P c co cn _
    intro hlt
    have hfl : f < fs.length := hlt f (by simp)
    obtain ⟨l1, tr⟩ := ih fun x hx => by have := hlt x (by simp [hx]); simp; omega
    simp only [List.length_append, List.length_set, List.length_cons, List.length_nil, Nat.zero_add] at l1 tr
    refine ⟨by rw [l1, List.length_cons]; omega, fun i c' hc' => ?_⟩
    obtain ⟨j, c1, ho, hc1, hv⟩ := tr i c' hc'
    -- the face before
    have hold : j < fs.length → ∃ c2, fs[j]? = some c2 ∧ ∀ y ∈ c', ∃ x ∈ c2, x.1 = y.1 := by
      intro hj
      rw [List.getElem?_append_left (by simpa using hj)] at hc1
      by_cases hjf : j = f
      · subst hjf
        rw [List.getElem?_set_self hfl] at hc1
        cases hc1
        exact ⟨c, hc, fun y hy => (hshape.verts y.1).2 (Or.inl (hv y hy))⟩
      · rw [List.getElem?_set_ne (Ne.symm hjf)] at hc1
        exact ⟨c1, hc1, hv⟩
    rcases ho with ⟨hi, rfl⟩ | ⟨hi, hj⟩
    · by_cases hjN : j < fs.length
      · obtain ⟨c2, h1, h2⟩ := hold hjN
        exact ⟨j, c2, Or.inl ⟨hjN, rfl⟩, h1, h2⟩
      · have hjN' : j = fs.length := by omega
        subst hjN'
        rw [List.getElem?_append_right (by simp)] at hc1
        simp at hc1
        subst hc1
        exact ⟨f, c, Or.inr ⟨le_refl _, by simp⟩, hc, fun y hy => (hshape.verts y.1).2 (Or.inr (hv y hy))⟩
    · have hjm : j ∈ fl := List.mem_of_getElem? hj
      obtain ⟨c2, h1, h2⟩ := hold (hlt j (by simp [hjm]))
      refine ⟨j, c2, Or.inr ⟨by omega, ?_⟩, h1, h2⟩
      rw [show i - fs.length = (i - (fs.length + 1)) + 1 by omega, List.getElem?_cons_succ]; exact hj

theorem cutPlanes_origin {i j : Nat} : ∀ (fl : List Nat) (N : Nat) (pl : Nat → Aff K), (∀ f ∈ fl, f < N) → Origin N fl i j → cutPlanes pl N fl i = pl j
  | [], N, pl, _, ho => by
    rcases ho with ⟨-, rfl⟩ | ⟨-, h⟩
    · rfl
    · simp at h
  | f :: fl, N, pl, hlt, ho => by
    have hf : f < N := hlt f (by simp)
    have hlt' : ∀ x ∈ fl, x < N + 1 := fun x hx => by have := hlt x (by simp [hx]); omega
    rw [cutPlanes]
    rcases ho with ⟨h1, rfl⟩ | ⟨h1, h2⟩
    · rw [cutPlanes_origin fl (N + 1) _ hlt' (Or.inl ⟨by omega, rfl⟩), Function.update_of_ne (by omega)]
    · by_cases hi : i = N
      · subst hi
        simp at h2
        subst h2
        rw [cutPlanes_origin fl (i + 1) _ hlt' (Or.inl ⟨by omega, rfl⟩), Function.update_self]
      · rw [show i - N = (i - (N + 1)) + 1 by omega, List.getElem?_cons_succ] at h2
        have hj := hlt j (by simp [List.mem_of_getElem? h2])
        rw [cutPlanes_origin fl (N + 1) _ hlt' (Or.inr ⟨by omega, h2⟩), Function.update_of_ne (by omega)]

/-- What becomes of a face: it is a part of the face `c`, in the same plane. -/
def PartOf (pos pos' : Nat → Pt K) (c' c : Cycle) : Prop := ∀ x ∈ c', ∃ a ∈ c, ∃ b ∈ c, ∃ t : K, 0 ≤ t ∧ t ≤ 1 ∧ pos' x.1 = lerp (pos a.1) (pos b.1) t

/-- Face `i` with cycle `c'` after a cut by the plane `h = 0`: the separating face, or a part of an old face. -/
inductive FaceTrace (G : Oracle) (nOri : Nat) (h : Aff K) (pos pos' : Nat → Pt K) (pl pl' : Nat → Aff K) (s : St) (cid : Nat) (C : Poly.Cell) (i : Nat) (F' : Poly.Face) (c' : Cycle) : Prop
  | sep (p : Nat) : pl' i = h → F'.cells = (s.cx.cells.length, some cid) → C.inner.getLast? = some p → F'.tris = ((C.inner.filter (G.coplanar p)).filter G.meets).filter (· < nOri) → FaceTrace G nOri h pos pos' pl pl' s cid C i F' c'
  | part (j : Nat) (F : Poly.Face) (c : Cycle) : s.cx.faces[j]? = some F → s.mesh.faces[j]? = some c → pl' i = pl j → (F'.cells.2 = none ↔ F.cells.2 = none) → PartOf pos pos' c' c →
      (F'.tris = F.tris ∨ ((∃ a ∈ c, h.ev (pos a.1) ≠ 0) ∧ ((F'.tris = F.tris.filter G.hasPos ∧ ∀ y ∈ c', 0 ≤ h.ev (pos' y.1)) ∨ (F'.tris = F.tris.filter G.hasNeg ∧ ∀ y ∈ c', h.ev (pos' y.1) ≤ 0)))) → FaceTrace G nOri h pos pos' pl pl' s cid C i F' c'

theorem splitCell_trace (G : Oracle) (sgn : Nat → SignType) (keep : Nat → Bool) (nOri : Nat) (s s' : St) (cid : Nat) (C : Poly.Cell) (gd : Good s) (hG : ∀ t, G.coplanar t t = true)
    (hC : s.cx.cells[cid]? = some C) (hne : C.inner ≠ []) (pos : Nat → Pt K) (pl : Nat → Aff K) (h : Aff K) (g : Geo pos pl s.cl s.mesh.faces) (ha : Across pos h sgn s.cl s.mesh.faces cid)
    (e : splitCell G sgn keep nOri s cid = some s') :
    (s'.mesh = s.mesh ∧ s'.cx.faces = s.cx.faces ∧ s'.cx.cells.length = s.cx.cells.length) ∨
      (s'.cx.cells.length = s.cx.cells.length + 1 ∧ ∀ (i : Nat) (F' : Poly.Face) (c' : Cycle), s'.cx.faces[i]? = some F' → s'.mesh.faces[i]? = some c' →
        FaceTrace G nOri h pos (slicePos h sgn pos s C) pl (slicePl h sgn pl s cid C) s cid C i F' c') := by
  obtain ⟨s2, h1, h2, hinn, h3⟩ := splitCell_full G sgn keep nOri s cid C gd hG hC hne (g.cutOk gd hC ha)
  rw [e] at h1; cases h1
  rcases h3 with ⟨e1, e2, e3⟩ | ⟨⟨neg, ps, hlen', hneg, hps, -, -⟩, cf, m1, m', cl2, ord, segs, posL, negL, H⟩
  · exact Or.inl ⟨e1, e2, by simpa using congrArg List.length e3⟩
  · refine Or.inr ⟨hlen', fun i F' c' hF' hc' => ?_⟩
    obtain ⟨cf', L, m1', E, hcf', hL, hLnd, hLf, hm, gm1, v1, fE, ex, hsp, hpiece⟩ := cell_pieces keep gd hC (g.convexFaces gd hC ha)
    have := H.hcf
    rw [hcf'] at this; cases this
    have he := H.edges
    rw [hL, hm] at he; cases he
    have gm : MGood s.cl s.mesh := gd.mesh
    obtain ⟨pos', hpos', hold, hnew0, g1, a1, hbet⟩ := g.splitEdges gd hC ha hLnd hLf hm fE ex v1 gm1
    have hsl : slicePos h sgn pos s C = pos' := by rw [slicePos, hcf', Option.getD_some, hL, hpos']
    rw [hsl]
    obtain ⟨-, hnew⟩ := new_points (pos := pos) (h := h) gm L (fun e he => by
      obtain ⟨f, hf, c, hc, k, hk, e1, e2⟩ := hLf e he
      have hof : ∀ x ∈ c, OfCell s.cl s.mesh.faces cid x.1 := fun x hx => (ofCell_iff gd hC).2 ⟨f, hf, c, hc, x, hx, rfl⟩
      have t1 := ha.sgn _ (hof _ (hes_tail hk))
      obtain ⟨y, hy, ey⟩ := hes_tip hk
      have t2 := ha.sgn _ (hof y hy)
      rw [ey] at t2
      refine ⟨k, mem_all.2 ⟨c, List.mem_of_getElem? hc, hk⟩, e1, ?_⟩
      simp only at t1
      rcases crosses_iff e2 with ⟨q1, q2⟩ | ⟨q1, q2⟩
      · rw [t1] at q1; rw [t2] at q2
        exact Or.inl ⟨sign_eq_one_iff.1 q1, sign_eq_neg_one_iff.1 q2⟩
      · rw [t2] at q1; rw [t1] at q2
        exact Or.inr ⟨sign_eq_one_iff.1 q1, sign_eq_neg_one_iff.1 q2⟩)
    rw [← hpos'] at hnew
    have hs2 := H.hsegs
    rw [hL] at hs2
    obtain ⟨⟨g2, hr2⟩, hlen2, hlen3, a2, hv2⟩ := H.cuts.geo (h := h) g1 gm1.len a1
    have hfl : (ord.filter fun p => p.2.isTwo).map Prod.fst = slicedFaces sgn s cid C := by rw [slicedFaces, H.pieces, Option.getD_some]
    have hflen : s.cl.length = m1.faces.length := gm1.len
    have hcls : s.cl.length = s.cx.faces.length := by simp [St.cl]
    have hlt : ∀ f ∈ slicedFaces sgn s cid C, f < s.cl.length := by
      rw [← hfl]
      intro f hf
      obtain ⟨p, hp, rfl⟩ := List.mem_map.1 hf
      obtain ⟨P, c, hP, -⟩ := hpiece p (H.hord p (List.mem_of_mem_filter hp)).1
      exact (List.getElem?_eq_some_iff.1 hP).1
    have hcuts := H.cuts
    have htr := H.traced
    rw [hfl] at hcuts htr hlen3
    change cl2.length = s.cl.length + _ at hlen3
    have efs : s'.mesh.faces = m'.faces ++ [segs.flatten.map fun k => (k.tail, k.edge)] := by rw [H.mesh]; rfl
    have hi : i < cl2.length + 1 := by
      have := (List.getElem?_eq_some_iff.1 hc').1
      rw [efs] at this; simpa [hlen2] using this
    by_cases hil : i = cl2.length
    · subst hil
      obtain ⟨p, hp, hnf⟩ := H.newFace
      rw [hnf] at hF'; cases hF'
      exact .sep p (by rw [slicePl, hlen3, Function.update_self]) rfl hp rfl
    · have hi : i < cl2.length := by omega
      obtain ⟨j, F, ho, hF, hcn, ht⟩ := htr i F' hF' hi
      rw [efs, List.getElem?_append_left (by rw [← hlen2]; exact hi)] at hc'
      obtain ⟨j', c1, ho', hc1, hv⟩ := (hcuts.trace (by rw [← hflen]; exact hlt)).2 i c' hc'
      rw [← hflen] at ho'
      rw [← hcls] at ho
      obtain rfl := ho.unique ho'
      have hpl : slicePl h sgn pl s cid C i = pl j := by
        rw [slicePl, Function.update_of_ne (by rw [← hlen3]; exact hil), cutPlanes_origin _ _ _ hlt ho]
      rw [fE, List.getElem?_map] at hc1
      obtain ⟨c, hc, rfl⟩ := Option.map_eq_some_iff.1 hc1
      have hclt : ∀ x ∈ c, x.1 < s.mesh.nV := fun x hx => (gm.lt c (List.mem_of_getElem? hc) x hx).1
      have hpart : PartOf pos pos' c' c := by
        intro y hy
        obtain ⟨x, hx, e⟩ := hv y hy
        rcases expand_mem ex hx with ⟨z, hz, ez⟩ | ⟨z, hz, hzL, ez⟩
        · exact ⟨z, hz, z, hz, 0, le_rfl, zero_le_one, by rw [lerp_zero, ← e, ← ez, hold _ (hclt z hz)]⟩
        · obtain ⟨k, hk, k1, k2⟩ := mem_hes hz
          obtain ⟨-, t, t0, t1, et⟩ := hnew z.2 hzL k (mem_all.2 ⟨c, List.mem_of_getElem? hc, hk⟩) k2
          obtain ⟨w, hw, ew⟩ := hes_tip hk
          refine ⟨z, hz, w, hw, t, t0.le, t1.le, ?_⟩
          rw [← e, ez, et, k1, ← ew, hold _ (hclt z hz), hold _ (hclt w hw)]
      have hsg : sg (cl2.getD i (0, none)) cid ≠ 0 → ∀ y ∈ c', newSgn sgn s.mesh.nV y.1 = SignType.sign (h.ev (pos' y.1)) := by
        intro hs y hy
        refine a2.sgn y.1 ⟨i, cl2.getD i (0, none), c', ?_, hs, hc', y, hy, rfl⟩
        rw [List.getD_eq_getElem?_getD, List.getElem?_eq_getElem hi]; rfl
      have hget : cl2[i]? = some (cl2.getD i (0, none)) := by rw [List.getD_eq_getElem?_getD, List.getElem?_eq_getElem hi]; rfl
      refine .part j F c hF hc hpl hcn hpart ?_
      rcases ht with ht | ⟨hjm, ht⟩
      · exact Or.inl ht
      refine Or.inr ⟨?_, ?_⟩
      · rw [← hfl] at hjm
        obtain ⟨p, hp, rfl⟩ := List.mem_map.1 hjm
        obtain ⟨hp, htwo⟩ := List.mem_filter.1 hp
        obtain ⟨P, c2, hP, hs, hc2, hok, -⟩ := hpiece p (H.hord p hp).1
        rw [fE, List.getElem?_map, hc] at hc2
        cases hc2
        rcases p with ⟨f, _ | _ | _⟩
        · obtain ⟨x, Ps, y, Ns, hr, hP0, hN0, hPs, hNs, -⟩ := hok
          obtain ⟨z, hz⟩ := List.exists_mem_of_ne_nil Ps hP0
          have hz1 := hPs z hz
          have hzc : z ∈ c.flatMap E := hr.perm.mem_iff.2 (by simp [hz])
          have hzlt : z.1 < s.mesh.nV := by
            by_contra hge
            rw [newSgn, if_neg hge] at hz1
            cases hz1
          rcases expand_mem ex hzc with ⟨a, hac, ea⟩ | ⟨a, -, -, ea⟩
          · refine ⟨a, hac, fun h0 => ?_⟩
            rw [newSgn, if_pos hzlt, ← ea, ha.sgn a.1 ⟨f, P, c, hP, hs, hc, a, hac, rfl⟩, h0, sign_zero] at hz1
            cases hz1
          · omega
        · cases htwo
        · cases htwo
      rcases ht with ⟨hp, ht⟩ | ⟨hp, ht⟩
      · refine Or.inl ⟨ht, fun y hy => ?_⟩
        obtain ⟨d, hd, hx⟩ := H.hpos i hp
        rw [hc'] at hd; cases hd
        have := hx y hy
        rw [hsg ((H.mem i _ hget).1 (by simp [hp])) y hy] at this
        exact not_lt.1 fun hlt => this (by rw [sign_neg hlt])
      · refine Or.inr ⟨ht, fun y hy => ?_⟩
        obtain ⟨d, hd, hx⟩ := H.hneg i hp
        rw [hc'] at hd; cases hd
        have := hx y hy
        rw [hsg ((H.mem i _ hget).1 (by simp [hp])) y hy] at this
        exact not_lt.1 fun hlt => this (by rw [sign_pos hlt]; rfl)

end Verif.Bsp
