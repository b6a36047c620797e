import Verif.Bsp.Hull
/-!
# A plane cuts a convex cell into two convex cells

If the cells of the complex are convex and a plane has vertices of a cell on both sides, `split_cell` cuts the cell into its parts on the two sides of the plane, both convex,
and leaves the regions of all other cells as they are.
-/
namespace Verif.Bsp
open InSphere (Pt)
open Geom (lerp)

variable {K : Type} [Field K] [LinearOrder K] [IsStrictOrderedRing K]

theorem ofCell_given {pos : Nat → Pt K} {cl : List (Nat × Option Nat)} {fs : List Cycle} {posL negL : List Nat} {cid n : Nat} (hlen : cl.length = fs.length) (hne : n ≠ cid) (hown : (posL ++ negL).Nodup)
    (hmem : ∀ (i : Nat) (P : Nat × Option Nat), cl[i]? = some P → (i ∈ posL ++ negL ↔ sg P cid ≠ 0)) (hfresh : ∀ P ∈ cl, P.1 ≠ n ∧ P.2 ≠ some n) {Z : Cycle}
    (hZv : ∀ z ∈ Z, ∃ x, OfCell cl fs cid x ∧ pos x = pos z.1) {k v : Nat} (h : OfCell (given cl posL cid n) (fs ++ [Z]) k v) :
    (∃ x, OfCell cl fs (if k = n then cid else k) x ∧ pos x = pos v) ∧ ((∃ k', OfCell cl fs k' v) ∨ ∃ z ∈ Z, z.1 = v) := by
  obtain ⟨i, P', d, hP', hs, hd, y, hy, rfl⟩ := h
  rcases given_cases hne hown hmem hfresh hP' hs with ⟨P, hP, e, e1, e2⟩ | ⟨rfl, e⟩
  · rw [List.getElem?_append_left (by rw [← hlen]; exact (List.getElem?_eq_some_iff.1 hP).1)] at hd
    rw [e] at hs
    exact ⟨⟨y.1, ⟨i, P, d, hP, hs, hd, y, hy, rfl⟩, rfl⟩, Or.inl ⟨_, i, P, d, hP, hs, hd, y, hy, rfl⟩⟩
  · rw [hlen, List.getElem?_append_right le_rfl] at hd
    simp at hd
    subst hd
    refine ⟨?_, Or.inr ⟨y, hy, rfl⟩⟩
    rcases e with ⟨rfl, -⟩ | ⟨rfl, -⟩
    · rw [if_pos rfl]; exact hZv y hy
    · rw [if_neg (Ne.symm hne)]; exact hZv y hy

/-- The positions after a cut of cell `C` by the plane `h = 0`. -/
def slicePos (h : Aff K) (sgn : Nat → SignType) (pos : Nat → Pt K) (s : St) (C : Poly.Cell) : Nat → Pt K :=
  cutPos h pos s.mesh (crossing sgn (((cellFaces s C).getD []).flatMap fun x => hes x.2.2))

/-- The faces of the cell that the plane cuts, in the order of `make_loop`. -/
def slicedFaces (sgn : Nat → SignType) (s : St) (cid : Nat) (C : Poly.Cell) : List Nat := (((sectionPieces sgn s cid C).getD []).filter fun p => p.2.isTwo).map Prod.fst

/-- The planes of the faces after a cut of cell `C` by the plane `h = 0`: the new part of a face that was cut has the plane of this face, and the separating face lies in the cutting plane
(`[tri[0], tri[1], tri[2]]`, line 519). -/
def slicePl (h : Aff K) (sgn : Nat → SignType) (pl : Nat → Aff K) (s : St) (cid : Nat) (C : Poly.Cell) : Nat → Aff K :=
  Function.update (cutPlanes pl s.cl.length (slicedFaces sgn s cid C)) (s.cl.length + (slicedFaces sgn s cid C).length) h

/-- What a cut of cell `cid` by the plane `h = 0` leads to: the regions, and the vertices of the cells. `n` is the new cell. -/
structure CutGeo (h : Aff K) (pos pos' : Nat → Pt K) (pl pl' : Nat → Aff K) (s s' : St) (cid n : Nat) : Prop where
  len : s'.cx.cells.length = s.cx.cells.length + 1
  geo : Geo pos' pl' s'.cl s'.mesh.faces
  below : ∀ q, Region pl' s'.cl cid q ↔ Region pl s.cl cid q ∧ h.ev q ≤ 0
  above : ∀ q, Region pl' s'.cl n q ↔ Region pl s.cl cid q ∧ 0 ≤ h.ev q
  rest : ∀ q k, k ≠ cid → k ≠ n → (Region pl' s'.cl k q ↔ Region pl s.cl k q)
  new : ∀ k v, OfCell s'.cl s'.mesh.faces k v → s.mesh.nV ≤ v → h.ev (pos' v) = 0
  same : ∀ v < s.mesh.nV, pos' v = pos v
  old : ∀ k v, k ≠ cid → OfCell s.cl s.mesh.faces k v → OfCell s'.cl s'.mesh.faces k v
  up : ∀ v, OfCell s.cl s.mesh.faces cid v → 0 < h.ev (pos v) → OfCell s'.cl s'.mesh.faces n v
  down : ∀ v, OfCell s.cl s.mesh.faces cid v → h.ev (pos v) < 0 → OfCell s'.cl s'.mesh.faces cid v
  upOf : ∀ v, OfCell s'.cl s'.mesh.faces n v → 0 < h.ev (pos' v) → ∃ x, OfCell s.cl s.mesh.faces cid x ∧ pos x = pos' v
  downOf : ∀ v, OfCell s'.cl s'.mesh.faces cid v → h.ev (pos' v) < 0 → ∃ x, OfCell s.cl s.mesh.faces cid x ∧ pos x = pos' v
  sep : ∃ Z, s'.mesh.faces.getLast? = some Z ∧ (∀ z ∈ Z, OfCell s'.cl s'.mesh.faces n z.1 ∧ OfCell s'.cl s'.mesh.faces cid z.1) ∧
    ∀ q, h.ev q = 0 → Region pl s.cl cid q → ∀ B : Aff K, (∀ z ∈ Z, 0 ≤ B.ev (pos' z.1)) → 0 ≤ B.ev q

theorem splitCell_geo (G : Oracle) (sgn : Nat → SignType) (keep : Nat → Bool) (nOri : Nat) (s : St) (cid : Nat) (C : Poly.Cell) (gd : Good s) (hG : ∀ t, G.coplanar t t = true)
    (hC : s.cx.cells[cid]? = some C) (hne : C.inner ≠ []) (pos : Nat → Pt K) (pl : Nat → Aff K) (h : Aff K) (g : Geo pos pl s.cl s.mesh.faces) (ha : Across pos h sgn s.cl s.mesh.faces cid) :
    ∃ s', splitCell G sgn keep nOri s cid = some s' ∧ Good s' ∧
      (∀ p, C.inner.getLast? = some p → s'.cx.cells.map Poly.Cell.inner = Poly.innersAfter (tests G true [] [] []) cid p C (s.cx.cells.map Poly.Cell.inner)) ∧
      ((s'.mesh = s.mesh ∧ s'.cx.faces = s.cx.faces ∧ s'.cx.cells.map Poly.Cell.faces = s.cx.cells.map Poly.Cell.faces ∧ (∀ v < s.mesh.nV, slicePos h sgn pos s C v = pos v) ∧
          Geo (slicePos h sgn pos s C) pl s'.cl s'.mesh.faces) ∨
        CutGeo h pos (slicePos h sgn pos s C) pl (slicePl h sgn pl s cid C) s s' cid s.cx.cells.length) := by
  obtain ⟨s', h1, h2, hinn, h3⟩ := splitCell_full G sgn keep nOri s cid C gd hG hC hne (g.cutOk gd hC ha)
  refine ⟨s', h1, h2, hinn, ?_⟩
  rcases h3 with ⟨e1, e2, e3⟩ | ⟨⟨neg, ps, hlen', hneg, hps, -, -⟩, cf, m1, m', cl2, ord, segs, posL, negL, H⟩
  · have ecl : s'.cl = s.cl := by rw [St.cl, St.cl, e2]
    exact Or.inl ⟨e1, e2, e3, fun v hv => by rw [slicePos, cutPos, if_pos hv], by
      rw [ecl, e1]
      exact g.congr fun c hc x hx => by rw [slicePos, cutPos, if_pos (gd.mesh.lt c hc x hx).1]⟩
  · obtain ⟨cf', L, m1', E, hcf', hL, hLnd, hLf, hm, gm1, v1, fE, ex, hsp, hpiece⟩ := cell_pieces keep gd hC (g.convexFaces gd hC ha)
    have := H.hcf
    rw [hcf'] at this; cases this
    have he := H.edges
    rw [hL, hm] at he; cases he
    obtain ⟨pos', hpos', hold, hnew, g1, a1, hbet⟩ := g.splitEdges gd hC ha hLnd hLf hm fE ex v1 gm1
    have hsl : slicePos h sgn pos s C = pos' := by rw [slicePos, hcf', Option.getD_some, hL, hpos']
    rw [hsl]
    have cg := g1.cell gm1.len a1.up a1.down
    have hpc := Geo.pieces (L := L) (nV := s.mesh.nV) (A := m1.all) (sp := ord) g1 cg.normal a1.sgn H.nodup fun p hp => ⟨(H.hord p hp).2, hpiece p (H.hord p hp).1⟩
    have hs2 := H.hsegs
    rw [hL] at hs2
    have hZ := hpc.face cg (segs := segs) (by rw [List.forall₂_map_left_iff]; exact hs2) H.loop (by simpa using H.ne)
    obtain ⟨⟨g2, hr2⟩, hlen2, hlen3, a2, hv2⟩ := H.cuts.geo (h := h) g1 gm1.len a1
    have hfl : (ord.filter fun p => p.2.isTwo).map Prod.fst = slicedFaces sgn s cid C := by rw [slicedFaces, H.pieces, Option.getD_some]
    rw [hfl] at g2 hr2 hlen3
    have hpl : Function.update (cutPlanes pl s.cl.length (slicedFaces sgn s cid C)) cl2.length h = slicePl h sgn pl s cid C := by rw [slicePl, hlen3]; rfl
    change Geo pos' (cutPlanes pl s.cl.length (slicedFaces sgn s cid C)) _ _ at g2
    change ∀ k q, Region (cutPlanes pl s.cl.length (slicedFaces sgn s cid C)) _ k q ↔ _ at hr2
    have hcidlt : cid < s.cx.cells.length := (List.getElem?_eq_some_iff.1 hC).1
    have hncid : s.cx.cells.length ≠ cid := by omega
    have hZv : ∀ z ∈ segs.flatten.map (fun k => (k.tail, k.edge)), ∃ x, OfCell cl2 m'.faces cid x ∧ pos' x = pos' z.1 := by
      intro z hz
      obtain ⟨k, hk, rfl⟩ := List.mem_map.1 hz
      obtain ⟨l, hl, hk⟩ := List.mem_flatten.1 hk
      obtain ⟨p, hp, e⟩ := forall₂_mem_right hs2 l hl
      have hk2 : (k.tail, k.tip) ∈ p.2.arcs L s.mesh.nV := by rw [← e]; exact List.mem_map_of_mem hk
      have d := hpc.dir _ (List.mem_map_of_mem hp) _ hk2
      obtain ⟨P, hP, hs⟩ := sgOf_ne d.face
      obtain ⟨c, hc, x, hx, ex⟩ := d.fa
      exact ⟨x.1, (hv2 _ _).2 ⟨p.1, P, c, hP, hs, hc, x, hx, rfl⟩, ex⟩
    have g3 := g2.separate hlen2 a2 hncid H.own H.mem H.fresh H.hpos H.hneg hZ hZv
    have ecl : s'.cl = given cl2 posL cid s.cx.cells.length := H.cells
    have efs : s'.mesh.faces = m'.faces ++ [segs.flatten.map fun k => (k.tail, k.edge)] := by rw [H.mesh]; rfl
    have reg := fun q => region_given (pl := cutPlanes pl s.cl.length (slicedFaces sgn s cid C)) (h := h) hncid H.own H.mem H.fresh q
    rw [← ecl, ← efs] at g3
    rw [← hlen2, hpl] at g3
    rw [← ecl, hpl] at reg
    have hreg : ∀ q, (Region (slicePl h sgn pl s cid C) s'.cl cid q ↔ Region pl s.cl cid q ∧ h.ev q ≤ 0) ∧ (Region (slicePl h sgn pl s cid C) s'.cl s.cx.cells.length q ↔ Region pl s.cl cid q ∧ 0 ≤ h.ev q) ∧
        ∀ k, k ≠ cid → k ≠ s.cx.cells.length → (Region (slicePl h sgn pl s cid C) s'.cl k q ↔ Region pl s.cl k q) := by
      intro q
      obtain ⟨r1, r2, r3, r4, r5⟩ := reg q
      -- all points of the halves are points of the cell
      have back : ∀ k D, s'.cx.cells[k]? = some D → (if k = s.cx.cells.length then cid else k) = cid → (∃ (i : Nat) (P : Nat × Option Nat), s'.cl[i]? = some P ∧ sg P k ≠ 0) →
          Region (slicePl h sgn pl s cid C) s'.cl k q → Region pl s.cl cid q := by
        intro k D hD hk hf hr i P hP hs
        have := g3.hull h2 hD hf hr (B := (pl i).smul (sg P cid : K)) (fun x hx => by
          rw [ecl, efs] at hx
          obtain ⟨⟨x', hx', e⟩, -⟩ := ofCell_given (pos := pos') hlen2 hncid H.own H.mem H.fresh hZv hx
          rw [hk] at hx'
          rw [Aff.smul_ev, ← e]
          exact g1.side cid i P hP hs x' ((hv2 _ _).1 hx'))
        rwa [Aff.smul_ev] at this
      have hnewf : s'.cl[cl2.length]? = some (s.cx.cells.length, some cid) := by rw [ecl]; exact given_new
      refine ⟨⟨fun hr => ⟨back cid neg hneg (by split <;> rfl) ⟨_, _, hnewf, by simp [sg, hncid]⟩ hr, r3 hr⟩, fun ⟨hr, hh⟩ => r1 ((hr2 _ _).2 hr) hh⟩,
        ⟨fun hr => ⟨back _ ps hps (if_pos rfl) ⟨_, _, hnewf, by simp [sg, hncid.symm]⟩ hr, r4 hr⟩, fun ⟨hr, hh⟩ => r2 ((hr2 _ _).2 hr) hh⟩, fun k k1 k2 => (r5 k k1 k2).trans (hr2 k q)⟩
    have hfl2 : ∀ {i : Nat} {d : Cycle}, m'.faces[i]? = some d → s'.mesh.faces[i]? = some d := fun {i d} hd => by
      rw [efs, List.getElem?_append_left (List.getElem?_eq_some_iff.1 hd).1]; exact hd
    have hk1 : ∀ k v, OfCell s.cl s.mesh.faces k v → OfCell cl2 m'.faces k v := by
      rintro k v ⟨i, P, d, hP, hs, hd, y, hy, rfl⟩
      obtain ⟨x, hx, e⟩ := expand_keep ex hy
      exact (hv2 _ _).2 ⟨i, P, d.flatMap E, hP, hs, by rw [fE, List.getElem?_map, hd]; rfl, x, hx, e⟩
    have hk2 : ∀ {k i P y} {d : Cycle}, cl2[i]? = some P → sg P k ≠ 0 → m'.faces[i]? = some d → y ∈ d → (k ≠ cid → OfCell s'.cl s'.mesh.faces k y.1) ∧
        (k = cid → i ∈ posL → OfCell s'.cl s'.mesh.faces s.cx.cells.length y.1) ∧ (k = cid → i ∈ negL → OfCell s'.cl s'.mesh.faces cid y.1) := by
      intro k i P y d hP hs hd hy
      obtain ⟨f1, f2⟩ := H.fresh P (List.mem_of_getElem? hP)
      have hget := given_old (posL := posL) (cid := cid) (n := s.cx.cells.length) hP
      rw [← ecl] at hget
      refine ⟨fun hk => ⟨i, _, d, hget, ?_, hfl2 hd, y, hy, rfl⟩, fun hk hi => ⟨i, _, d, hget, ?_, hfl2 hd, y, hy, rfl⟩, fun hk hi => ⟨i, _, d, hget, ?_, hfl2 hd, y, hy, rfl⟩⟩
      · have hkn : k ≠ s.cx.cells.length := by
          rintro rfl
          exact hs (by simp [sg, f1, f2])
        by_cases hi : i ∈ posL
        · rw [if_pos hi, sg_rename_other hk hkn]; exact hs
        · rw [if_neg hi]; exact hs
      · subst hk
        rw [if_pos hi, sg_rename_new f1 f2]; exact hs
      · subst hk
        rw [if_neg fun hp => (List.nodup_append.1 H.own).2.2 i hp i hi rfl]; exact hs
    have hsgn : ∀ v, OfCell s.cl s.mesh.faces cid v → newSgn sgn s.mesh.nV v = SignType.sign (h.ev (pos v)) ∧ v < s.mesh.nV := by
      intro v hv
      have hlt : v < s.mesh.nV := by
        obtain ⟨i, P, d, hP, hs, hd, y, hy, rfl⟩ := hv
        exact (gd.mesh.lt d (List.mem_of_getElem? hd) y hy).1
      exact ⟨by rw [newSgn, if_pos hlt, ha.sgn v hv], hlt⟩
    have hside : ∀ v, OfCell s.cl s.mesh.faces cid v → (0 < h.ev (pos v) → OfCell s'.cl s'.mesh.faces s.cx.cells.length v) ∧ (h.ev (pos v) < 0 → OfCell s'.cl s'.mesh.faces cid v) := by
      intro v hv
      obtain ⟨e, -⟩ := hsgn v hv
      obtain ⟨i, P, d, hP, hs, hd, y, hy, rfl⟩ := hk1 _ _ hv
      have hi := (H.mem i P hP).2 hs
      rw [List.mem_append] at hi
      refine ⟨fun h0 => ?_, fun h0 => ?_⟩
      · refine (hk2 hP hs hd hy).2.1 rfl (hi.resolve_right fun hi => ?_)
        obtain ⟨c, hc, hx⟩ := H.hneg i hi
        rw [hd] at hc; cases hc
        exact hx y hy (by rw [e, sign_pos h0]; rfl)
      · refine (hk2 hP hs hd hy).2.2 rfl (hi.resolve_left fun hi => ?_)
        obtain ⟨c, hc, hx⟩ := H.hpos i hi
        rw [hd] at hc; cases hc
        exact hx y hy (by rw [e, sign_neg h0])
    have hback : ∀ k v, (k = s.cx.cells.length ∨ k = cid) → OfCell s'.cl s'.mesh.faces k v → h.ev (pos' v) ≠ 0 → ∃ x, OfCell s.cl s.mesh.faces cid x ∧ pos x = pos' v := by
      intro k v hk hv h0
      rw [ecl, efs] at hv
      obtain ⟨⟨x, hx, e⟩, -⟩ := ofCell_given (pos := pos') hlen2 hncid H.own H.mem H.fresh hZv hv
      rw [show (if k = s.cx.cells.length then cid else k) = cid by rcases hk with rfl | rfl <;> simp] at hx
      obtain ⟨j, Q, d, hQ, hs, hd, y, hy, rfl⟩ := (hv2 _ _).1 hx
      have hlt := (gm1.lt d (List.mem_of_getElem? hd) y hy).1
      have hlt2 : y.1 < s.mesh.nV := by
        by_contra hge
        exact h0 (by rw [← e]; exact hnew _ (by omega) hlt)
      rw [fE, List.getElem?_map] at hd
      obtain ⟨d0, hd0, rfl⟩ := Option.map_eq_some_iff.1 hd
      rcases expand_mem ex hy with ⟨z, hz, ez⟩ | ⟨z, -, -, ez⟩
      · exact ⟨y.1, ⟨j, Q, d0, hQ, hs, hd0, z, hz, ez⟩, by rw [← e, hold _ hlt2]⟩
      · omega
    have hnewf : s'.cl[cl2.length]? = some (s.cx.cells.length, some cid) := by rw [ecl]; exact given_new
    have hlast : s'.mesh.faces[cl2.length]? = some (segs.flatten.map fun k => (k.tail, k.edge)) := by rw [efs, hlen2]; simp
    refine Or.inr ⟨hlen', g3, fun q => (hreg q).1, fun q => (hreg q).2.1, fun q => (hreg q).2.2, ?_, hold, ?_, fun v hv => (hside v hv).1, fun v hv => (hside v hv).2,
      fun v hv h0 => hback _ v (Or.inl rfl) hv h0.ne', fun v hv h0 => hback _ v (Or.inr rfl) hv h0.ne, segs.flatten.map (fun k => (k.tail, k.edge)), by rw [efs, List.getLast?_append]; simp, ?_, ?_⟩
    · intro k v hv hvn
      rw [ecl, efs] at hv
      rcases (ofCell_given (pos := pos') hlen2 hncid H.own H.mem H.fresh hZv hv).2 with ⟨k', hk'⟩ | ⟨z, hz, rfl⟩
      · obtain ⟨j, Q, d, -, -, hd, y, hy, rfl⟩ := (hv2 _ _).1 hk'
        exact hnew _ hvn (gm1.lt d (List.mem_of_getElem? hd) y hy).1
      · exact hZ.plane z hz
    · rintro k v hk hv
      obtain ⟨i, P, d, hP, hs, hd, y, hy, rfl⟩ := hk1 _ _ hv
      exact (hk2 hP hs hd hy).1 hk
    · exact fun z hz => ⟨⟨_, _, _, hnewf, by simp [sg, hncid.symm], hlast, z, hz, rfl⟩, ⟨_, _, _, hnewf, by simp [sg, hncid], hlast, z, hz, rfl⟩⟩
    · intro q hq hr B hB
      refine hZ.hull hq ?_ hB
      intro k hk
      rw [H.loop] at hk
      obtain ⟨l, hl, hk⟩ := List.mem_flatten.1 hk
      obtain ⟨p, hp, e⟩ := forall₂_mem_right hs2 l hl
      have hk2 : (k.tail, k.tip) ∈ p.2.arcs L s.mesh.nV := by rw [← e]; exact List.mem_map_of_mem hk
      have d := hpc.dir _ (List.mem_map_of_mem hp) _ hk2
      obtain ⟨κ, κ0, e1⟩ := d.left
      obtain ⟨P, hP, hs⟩ := sgOf_ne d.face
      rw [e1 q hq, cellA, Aff.smul_ev, sgOf_some hP]
      exact mul_nonneg κ0.le (hr _ P hP hs)

/-- **C95.** `split_cell` cuts a convex cell into two convex cells. Suppose that the vertices have positions such that every face is a convex polygon in its plane, and every cell lies
on the inner sides of the planes of its faces (`Geo`). If a plane has vertices of cell `cid` on both sides (`Across`), then `split_cell` does not panic. Afterwards, with the new
vertices where the edges meet the plane, all faces and cells are convex again. If the cell is cut, the points of the cell on the negative side are exactly the points of cell `cid`
afterwards, those on the positive side are exactly the points of the new cell, all other cells have the same points as before, and all new vertices lie in the plane. -/
theorem c95_split_cell (G : Oracle) (sgn : Nat → SignType) (keep : Nat → Bool) (nOri : Nat) (s : St) (cid : Nat) (C : Poly.Cell) (gd : Good s) (hG : ∀ t, G.coplanar t t = true)
    (hC : s.cx.cells[cid]? = some C) (hne : C.inner ≠ []) (pos : Nat → Pt K) (pl : Nat → Aff K) (h : Aff K) (g : Geo pos pl s.cl s.mesh.faces) (ha : Across pos h sgn s.cl s.mesh.faces cid) :
    ∃ s', splitCell G sgn keep nOri s cid = some s' ∧ Good s' ∧
      ((s'.mesh = s.mesh ∧ s'.cx.faces = s.cx.faces ∧ s'.cx.cells.map Poly.Cell.faces = s.cx.cells.map Poly.Cell.faces ∧ Geo (slicePos h sgn pos s C) pl s'.cl s'.mesh.faces) ∨
        (s'.cx.cells.length = s.cx.cells.length + 1 ∧ Geo (slicePos h sgn pos s C) (slicePl h sgn pl s cid C) s'.cl s'.mesh.faces ∧
          (∀ q, (Region (slicePl h sgn pl s cid C) s'.cl cid q ↔ Region pl s.cl cid q ∧ h.ev q ≤ 0) ∧ (Region (slicePl h sgn pl s cid C) s'.cl s.cx.cells.length q ↔ Region pl s.cl cid q ∧ 0 ≤ h.ev q) ∧
            ∀ k, k ≠ cid → k ≠ s.cx.cells.length → (Region (slicePl h sgn pl s cid C) s'.cl k q ↔ Region pl s.cl k q)) ∧
          ∀ k v, OfCell s'.cl s'.mesh.faces k v → s.mesh.nV ≤ v → h.ev (slicePos h sgn pos s C v) = 0)) := by
  obtain ⟨s', h1, h2, -, ⟨e1, e2, e3, -, g'⟩ | H⟩ := splitCell_geo G sgn keep nOri s cid C gd hG hC hne pos pl h g ha
  · exact ⟨s', h1, h2, Or.inl ⟨e1, e2, e3, g'⟩⟩
  · exact ⟨s', h1, h2, Or.inr ⟨H.len, H.geo, fun q => ⟨H.below q, H.above q, H.rest q⟩, H.new⟩⟩

end Verif.Bsp
