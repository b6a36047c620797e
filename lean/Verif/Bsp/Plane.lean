import Verif.Bsp.Cut
/-!
# What geometry provides for `split_cell`
-/
namespace Verif.Bsp
open InSphere (Pt)
open Geom (lerp)

variable {K : Type} [Field K] [LinearOrder K] [IsStrictOrderedRing K]

theorem FaceOk.congr {pos pos' : Nat → Pt K} {B : Aff K} {c : Cycle} (f : FaceOk pos B c) (hp : ∀ x ∈ c, pos' x.1 = pos x.1) : FaceOk pos' B c := by
  have ht : ∀ k ∈ hes c, pos' k.tail = pos k.tail := fun k hk => hp _ (hes_tail hk)
  have hi : ∀ k ∈ hes c, pos' k.tip = pos k.tip := fun k hk => by
    obtain ⟨x, hx, e⟩ := hes_tip hk
    rw [← e]; exact hp x hx
  refine ⟨f.simple, ?_, ?_, ?_, ?_, ?_⟩
  · intro x hx y hy; rw [hp x hx, hp y hy]; exact f.inj x hx y hy
  · intro x hx; rw [hp x hx]; exact f.plane x hx
  · intro k hk x hx; rw [ht k hk, hi k hk, hp x hx]; exact f.left k hk x hx
  · intro k hk x hx; rw [ht k hk, hi k hk, hp x hx]; exact f.nomid k hk x hx
  · obtain ⟨k, hk, x, hx, e⟩ := f.fat
    exact ⟨k, hk, x, hx, by rw [ht k hk, hi k hk, hp x hx]; exact e⟩

theorem Geo.congr {pos pos' : Nat → Pt K} {pl : Nat → Aff K} {cl : List (Nat × Option Nat)} {fs : List Cycle} (g : Geo pos pl cl fs) (hp : ∀ c ∈ fs, ∀ x ∈ c, pos' x.1 = pos x.1) : Geo pos' pl cl fs := by
  have hv : ∀ k x, OfCell cl fs k x → pos' x = pos x := by
    rintro k x ⟨j, Q, d, -, -, hd, y, hy, rfl⟩
    exact hp d (List.mem_of_getElem? hd) y hy
  refine ⟨fun i c hc => (g.face i c hc).congr (hp c (List.mem_of_getElem? hc)), ?_, ?_, ?_⟩
  · intro k i P hP hs x hx
    rw [hv k x hx]; exact g.side k i P hP hs x hx
  · intro k i P hP hs
    obtain ⟨x, hx, e⟩ := g.strict k i P hP hs
    exact ⟨x, hx, by rw [hv k x hx]; exact e⟩
  · intro k i P j Q c d h1 h2 h3 h4 h5 h6 h7
    obtain ⟨ψ, p1, p2, p3⟩ := g.apart k i P j Q c d h1 h2 h3 h4 h5 h6 h7
    have hc := hp c (List.mem_of_getElem? h6)
    have hd := hp d (List.mem_of_getElem? h7)
    refine ⟨ψ, fun x hx => by rw [hc x hx]; exact p1 x hx, fun x hx => by rw [hd x hx]; exact p2 x hx, ?_⟩
    rcases p3 with ⟨x, hx, e⟩ | ⟨x, hx, e⟩
    · exact Or.inl ⟨x, hx, by rw [hc x hx]; exact e⟩
    · exact Or.inr ⟨x, hx, by rw [hd x hx]; exact e⟩

/-- The cells of the faces. -/
def St.cl (s : St) : List (Nat × Option Nat) := s.cx.faces.map Poly.Face.cells

/-- The faces of cell `cid`, the pieces, and the mesh once the edges have been split. -/
theorem cell_pieces {sgn : Nat → SignType} (keep : Nat → Bool) {s : St} {cid : Nat} {C : Poly.Cell} (h : Good s) (hC : s.cx.cells[cid]? = some C)
    (hconv : ∀ f ∈ C.faces, ∀ c, s.mesh.faces[f]? = some c → Convex sgn c) :
    ∃ cf L m1 E, cellFaces s C = some cf ∧ crossing sgn (cf.flatMap fun x => hes x.2.2) = L ∧ L.Nodup ∧
      (∀ e ∈ L, ∃ f ∈ C.faces, ∃ c, s.mesh.faces[f]? = some c ∧ ∃ k ∈ hes c, k.edge = e ∧ crosses sgn k = true) ∧
      L.foldlM (fun m e => m.splitEdge (keep e) e) s.mesh = some m1 ∧ MGood s.cl m1 ∧ m1.nV = s.mesh.nV + L.length ∧ m1.faces = s.mesh.faces.map (fun c => c.flatMap E) ∧ Expands L s.mesh.nV E ∧
      (cellSplits sgn s.mesh cid cf).map Prod.fst = C.faces ∧
      ∀ p ∈ cellSplits sgn s.mesh cid cf, ∃ P c, s.cl[p.1]? = some P ∧ sg P cid ≠ 0 ∧ m1.faces[p.1]? = some c ∧ PieceOk (newSgn sgn s.mesh.nV) L s.mesh.nV m1.all (sg P cid) c p.2 ∧
        PieceZ (newSgn sgn s.mesh.nV) (sg P cid) c p.2 := by
  have hg := h.mesh
  have hlen : s.cx.faces.length = s.mesh.faces.length := by simpa using hg.len
  have hlink := h.linked.link cid C hC
  obtain ⟨cf, hcf, hf2⟩ : ∃ cf, cellFaces s C = some cf ∧ List.Forall₂ (fun f x => (do let F ← s.cx.faces[f]?; let c ← s.mesh.faces[f]?; some (f, F, c)) = some x) C.faces cf := by
    apply mapM_total
    intro f hf
    obtain ⟨F, hF, -⟩ := (hlink f).1 hf
    have hfl : f < s.mesh.faces.length := by rw [← hlen]; exact (List.getElem?_eq_some_iff.1 hF).1
    exact ⟨(f, F, s.mesh.faces[f]), by rw [hF, List.getElem?_eq_getElem hfl]; rfl⟩
  have hcfget : ∀ (f : Nat) (x : Nat × Poly.Face × Cycle), (do let F ← s.cx.faces[f]?; let c ← s.mesh.faces[f]?; some (f, F, c)) = some x →
      x.1 = f ∧ s.cx.faces[f]? = some x.2.1 ∧ s.mesh.faces[f]? = some x.2.2 := by
    intro f x hx
    obtain ⟨F, hF, hx⟩ := Option.bind_eq_some_iff.1 hx
    obtain ⟨c, hc, hx⟩ := Option.bind_eq_some_iff.1 hx
    cases hx
    exact ⟨rfl, hF, hc⟩
  have hcf1 : cf.map (fun x => x.1) = C.faces := forall₂_map_eq hf2 fun f x hx => (hcfget f x hx).1
  have hcfmem : ∀ x ∈ cf, x.1 ∈ C.faces ∧ s.cx.faces[x.1]? = some x.2.1 ∧ s.mesh.faces[x.1]? = some x.2.2 := by
    intro x hx
    obtain ⟨f, hf, e⟩ := forall₂_mem_right hf2 x hx
    obtain ⟨e1, e2, e3⟩ := hcfget f x e
    subst e1
    exact ⟨hf, e2, e3⟩
  have hsub : ∀ k ∈ (cf.flatMap fun x => hes x.2.2), k ∈ s.mesh.all := by
    intro k hh
    obtain ⟨x, hx, hh⟩ := List.mem_flatMap.1 hh
    exact mem_all.2 ⟨_, List.mem_of_getElem? (hcfmem x hx).2.2, hh⟩
  have hLf : ∀ e ∈ crossing sgn (cf.flatMap fun x => hes x.2.2), ∃ f ∈ C.faces, ∃ c, s.mesh.faces[f]? = some c ∧ ∃ k ∈ hes c, k.edge = e ∧ crosses sgn k = true := by
    intro e he
    obtain ⟨k, hk, e1, e2⟩ := mem_crossing.1 he
    obtain ⟨x, hx, hk'⟩ := List.mem_flatMap.1 hk
    exact ⟨x.1, (hcfmem x hx).1, _, (hcfmem x hx).2.2, k, hk', e1, e2⟩
  obtain ⟨m1, E, rE, g1, v1, fE, ex, al⟩ := splitAll_good keep _ hg (crossing_nodup sgn (cf.flatMap fun x => hes x.2.2)) (fun e he => by
    obtain ⟨k, hk, e1, -⟩ := mem_crossing.1 he
    exact ⟨k, hsub k hk, e1⟩)
  refine ⟨cf, _, m1, E, hcf, rfl, crossing_nodup _ _, hLf, rE, g1, v1, fE, ex, ?_, ?_⟩
  · rw [← hcf1, cellSplits, List.map_map]; rfl
  · intro p hp
    rw [cellSplits] at hp
    obtain ⟨x, hx, rfl⟩ := List.mem_map.1 hp
    obtain ⟨x1, x2, x3⟩ := hcfmem x hx
    obtain ⟨F, hF, hb⟩ := (hlink x.1).1 x1
    rw [x2] at hF; cases hF
    have es := sg_bounds (fun c hc => ((h.linked.cells x.1 _ x2).2 c hc).2) hb
    refine ⟨x.2.1.cells, x.2.2.flatMap E, by rw [St.cl, List.getElem?_map, x2]; rfl, ?_, by rw [fE, List.getElem?_map, x3]; rfl, ?_, ?_⟩
    · rw [es]; split <;> decide
    all_goals rw [es]
    · exact pieceOk hg hsub (List.mem_of_getElem? x3) (fun k hk => List.mem_flatMap.2 ⟨x, hx, hk⟩) (hconv x.1 x1 _ x3) ex al _
    · exact pieceZ hg hsub (List.mem_of_getElem? x3) (fun k hk => List.mem_flatMap.2 ⟨x, hx, hk⟩) (hconv x.1 x1 _ x3) ex _

theorem crosses_iff {sgn : Nat → SignType} {k : HE} (h : crosses sgn k = true) : (sgn k.tail = 1 ∧ sgn k.tip = -1) ∨ (sgn k.tip = 1 ∧ sgn k.tail = -1) := by
  simpa [crosses] using h

theorem ofCell_iff {s : St} (h : Good s) {cid : Nat} {C : Poly.Cell} (hC : s.cx.cells[cid]? = some C) {x : Nat} : OfCell s.cl s.mesh.faces cid x ↔ ∃ f ∈ C.faces, ∃ c, s.mesh.faces[f]? = some c ∧ ∃ y ∈ c, y.1 = x := by
  have hlink := h.linked.link cid C hC
  constructor
  · rintro ⟨j, Q, d, hQ, hs, hd, y⟩
    rw [St.cl, List.getElem?_map] at hQ
    obtain ⟨F, hF, rfl⟩ := Option.map_eq_some_iff.1 hQ
    refine ⟨j, (hlink j).2 ⟨F, hF, ?_⟩, d, hd, y⟩
    by_contra hb
    exact hs (sg_zero hb)
  · rintro ⟨f, hf, c, hc, y⟩
    obtain ⟨F, hF, hb⟩ := (hlink f).1 hf
    refine ⟨f, F.cells, c, by rw [St.cl, List.getElem?_map, hF]; rfl, ?_, hc, y⟩
    rw [sg_bounds (fun c hc => ((h.linked.cells f _ hF).2 c hc).2) hb]
    split <;> decide

/-- The point in which the line through `a` and `b` meets the plane. -/
def crossPt (h : Aff K) (a b : Pt K) : Pt K := lerp a b (h.ev a / (h.ev a - h.ev b))

/-- The positions once the edges `L` have been split where they meet the plane `h = 0`: old vertices stay, and the new vertices are the points where the edges meet the plane
(`get_ef_clip_pt`, lines 1269-1294, describes the new vertex as the intersection of the line of the edge with the plane). -/
def cutPos (h : Aff K) (pos : Nat → Pt K) (m : PMesh) (L : List Nat) (v : Nat) : Pt K :=
  if v < m.nV then pos v else
  match (L[v - m.nV]?).bind fun e => m.all.find? fun k => decide (k.edge = e) with
  | some k => crossPt h (pos k.tail) (pos k.tip)
  | none => pos v

theorem cross_point {h : Aff K} {a b : Pt K} (hab : (0 < h.ev a ∧ h.ev b < 0) ∨ (0 < h.ev b ∧ h.ev a < 0)) : ∃ t : K, 0 < t ∧ t < 1 ∧ crossPt h a b = lerp a b t ∧ h.ev (lerp a b t) = 0 := by
  have hd : h.ev a - h.ev b ≠ 0 := by rcases hab with ⟨h1, h2⟩ | ⟨h1, h2⟩ <;> intro e <;> linarith
  refine ⟨h.ev a / (h.ev a - h.ev b), ?_, ?_, rfl, ?_⟩
  · rcases hab with ⟨h1, h2⟩ | ⟨h1, h2⟩
    · exact div_pos h1 (by linarith)
    · exact div_pos_of_neg_of_neg h2 (by linarith)
  · rcases hab with ⟨h1, h2⟩ | ⟨h1, h2⟩
    · rw [div_lt_one (by linarith)]; linarith
    · rw [div_lt_one_of_neg (by linarith)]; linarith
  · rw [ev_lerp]
    field_simp
    ring

/-- Positions for the new vertices. -/
theorem new_points {pos : Nat → Pt K} {cl : List (Nat × Option Nat)} {m : PMesh} (g : MGood cl m) {h : Aff K} (L : List Nat)
    (hL : ∀ e ∈ L, ∃ k ∈ m.all, k.edge = e ∧ ((0 < h.ev (pos k.tail) ∧ h.ev (pos k.tip) < 0) ∨ (0 < h.ev (pos k.tip) ∧ h.ev (pos k.tail) < 0))) :
    (∀ v < m.nV, cutPos h pos m L v = pos v) ∧ ∀ e ∈ L, ∀ k ∈ m.all, k.edge = e → h.ev (cutPos h pos m L (m.nV + L.idxOf e)) = 0 ∧
      ∃ t : K, 0 < t ∧ t < 1 ∧ cutPos h pos m L (m.nV + L.idxOf e) = lerp (cutPos h pos m L k.tail) (cutPos h pos m L k.tip) t := by
  have hold : ∀ v < m.nV, cutPos h pos m L v = pos v := fun v hv => by rw [cutPos, if_pos hv]
  refine ⟨hold, ?_⟩
  intro e he k hk ek
  have h1 := all_lt g hk
  rw [hold _ h1.1, hold _ h1.2.2]
  obtain ⟨k0, hk0⟩ : ∃ k0, m.all.find? (fun k => decide (k.edge = e)) = some k0 := by
    cases hf : m.all.find? (fun k => decide (k.edge = e)) with
    | some k0 => exact ⟨k0, rfl⟩
    | none => exact absurd ek (by simpa using List.find?_eq_none.1 hf k hk)
  have e0 : k0.edge = e := by simpa using List.find?_some hk0
  have m0 := List.mem_of_find?_eq_some hk0
  have hv : cutPos h pos m L (m.nV + L.idxOf e) = crossPt h (pos k0.tail) (pos k0.tip) := by
    rw [cutPos, if_neg (by omega), Nat.add_sub_cancel_left, List.getElem?_eq_getElem (List.idxOf_lt_length_of_mem he), List.getElem_idxOf, Option.bind_some, hk0]
  have hs0 : (0 < h.ev (pos k0.tail) ∧ h.ev (pos k0.tip) < 0) ∨ (0 < h.ev (pos k0.tip) ∧ h.ev (pos k0.tail) < 0) := by
    obtain ⟨k1, m1, e1, hs⟩ := hL e he
    rcases g.ends k1 m1 k0 m0 (e1.trans e0.symm) with rfl | rfl
    · exact hs
    · exact hs.symm
  obtain ⟨t, t0, t1, e1, e2⟩ := cross_point hs0
  rw [hv, e1]
  refine ⟨e2, ?_⟩
  rcases g.ends k0 m0 k hk (e0.trans ek.symm) with rfl | rfl
  · exact ⟨t, t0, t1, rfl⟩
  · exact ⟨1 - t, by linarith, by linarith, by rw [lerp_symm]; rfl⟩

theorem expand_mem {L : List Nat} {nV : Nat} {E : Nat × Nat → Cycle} (ex : Expands L nV E) {c : Cycle} {x : Nat × Nat} (hx : x ∈ c.flatMap E) : (∃ y ∈ c, y.1 = x.1) ∨ ∃ y ∈ c, y.2 ∈ L ∧ x.1 = nV + L.idxOf y.2 := by
  obtain ⟨y, hy, hx⟩ := List.mem_flatMap.1 hx
  by_cases h : y.2 ∈ L
  · obtain ⟨p, q, e⟩ := ex.cut y h
    rw [e] at hx
    simp only [List.mem_cons, List.not_mem_nil, or_false] at hx
    rcases hx with rfl | rfl
    · exact Or.inl ⟨y, hy, rfl⟩
    · exact Or.inr ⟨y, hy, h, rfl⟩
  · rw [ex.out y h, List.mem_singleton] at hx
    exact Or.inl ⟨y, hy, by rw [hx]⟩

theorem expand_keep {L : List Nat} {nV : Nat} {E : Nat × Nat → Cycle} (ex : Expands L nV E) {c : Cycle} {y : Nat × Nat} (hy : y ∈ c) : ∃ x ∈ c.flatMap E, x.1 = y.1 := by
  by_cases h : y.2 ∈ L
  · obtain ⟨p, q, e⟩ := ex.cut y h
    exact ⟨(y.1, p), List.mem_flatMap.2 ⟨y, hy, by rw [e]; simp⟩, rfl⟩
  · exact ⟨y, List.mem_flatMap.2 ⟨y, hy, by rw [ex.out y h]; simp⟩, rfl⟩

/-- A plane with vertices of cell `cid` on both sides; `sgn` tells the sides. -/
structure Across (pos : Nat → Pt K) (h : Aff K) (sgn : Nat → SignType) (cl : List (Nat × Option Nat)) (fs : List Cycle) (cid : Nat) : Prop where
  sgn : ∀ x, OfCell cl fs cid x → sgn x = SignType.sign (h.ev (pos x))
  up : ∃ x, OfCell cl fs cid x ∧ 0 < h.ev (pos x)
  down : ∃ x, OfCell cl fs cid x ∧ h.ev (pos x) < 0

theorem Geo.convexFaces {pos : Nat → Pt K} {pl : Nat → Aff K} {h : Aff K} {sgn : Nat → SignType} {s : St} {cid : Nat} {C : Poly.Cell} (gd : Good s) (hC : s.cx.cells[cid]? = some C)
    (g : Geo pos pl s.cl s.mesh.faces) (ha : Across pos h sgn s.cl s.mesh.faces cid) : ∀ f ∈ C.faces, ∀ c, s.mesh.faces[f]? = some c → Convex sgn c := by
  intro f hf c hc
  have hof : ∀ x ∈ c, OfCell s.cl s.mesh.faces cid x.1 := fun x hx => (ofCell_iff gd hC).2 ⟨f, hf, c, hc, x, hx, rfl⟩
  refine (g.face f c hc).convex (fun x hx => ha.sgn x.1 (hof x hx)) ?_
  obtain ⟨F, hF, hb⟩ := (gd.linked.link cid C hC f).1 hf
  obtain ⟨x, hx, hne⟩ := g.face_ne gd.mesh.len ha.up ha.down (by rw [St.cl, List.getElem?_map, hF]; rfl : s.cl[f]? = some F.cells) (by
    rw [sg_bounds (fun c hc => ((gd.linked.cells f _ hF).2 c hc).2) hb]
    split <;> decide) hc
  refine ⟨x, hx, ?_⟩
  rw [ha.sgn x.1 (hof x hx)]
  exact fun e => hne (sign_eq_zero_iff.1 e)

/-- The situation once the edges have been split. -/
theorem Geo.splitEdges {pos : Nat → Pt K} {pl : Nat → Aff K} {h : Aff K} {sgn : Nat → SignType} {s : St} {cid : Nat} {C : Poly.Cell} (gd : Good s) (hC : s.cx.cells[cid]? = some C)
    (g : Geo pos pl s.cl s.mesh.faces) (ha : Across pos h sgn s.cl s.mesh.faces cid) {keep : Nat → Bool} {L : List Nat} {m1 : PMesh} {E : Nat × Nat → Cycle} (hnd : L.Nodup)
    (hL : ∀ e ∈ L, ∃ f ∈ C.faces, ∃ c, s.mesh.faces[f]? = some c ∧ ∃ k ∈ hes c, k.edge = e ∧ crosses sgn k = true)
    (hm : L.foldlM (fun m e => m.splitEdge (keep e) e) s.mesh = some m1) (fE : m1.faces = s.mesh.faces.map (fun c => c.flatMap E)) (ex : Expands L s.mesh.nV E) (v1 : m1.nV = s.mesh.nV + L.length) (gm1 : MGood s.cl m1) :
    ∃ pos' : Nat → Pt K, pos' = cutPos h pos s.mesh L ∧ (∀ v < s.mesh.nV, pos' v = pos v) ∧ (∀ v, s.mesh.nV ≤ v → v < m1.nV → h.ev (pos' v) = 0) ∧ Geo pos' pl s.cl m1.faces ∧ Across pos' h (newSgn sgn s.mesh.nV) s.cl m1.faces cid ∧
      ∀ x, OfCell s.cl m1.faces cid x → ∃ a b, OfCell s.cl s.mesh.faces cid a ∧ OfCell s.cl s.mesh.faces cid b ∧ ∃ t : K, 0 ≤ t ∧ t ≤ 1 ∧ pos' x = lerp (pos a) (pos b) t := by
  have hcl : s.cl = s.cx.faces.map Poly.Face.cells := rfl
  have gm : MGood s.cl s.mesh := gd.mesh
  obtain ⟨hold, hnew⟩ := new_points (pos := pos) (h := h) gm L (fun e he => by
    obtain ⟨f, hf, c, hc, k, hk, e1, e2⟩ := hL e he
    have hof : ∀ x ∈ c, OfCell s.cl s.mesh.faces cid x.1 := fun x hx => (ofCell_iff gd hC).2 ⟨f, hf, c, hc, x, hx, rfl⟩
    have t1 := ha.sgn _ (hof _ (hes_tail hk))
    obtain ⟨y, hy, ey⟩ := hes_tip hk
    have t2 := ha.sgn _ (hof y hy)
    rw [ey] at t2
    refine ⟨k, mem_all.2 ⟨c, List.mem_of_getElem? hc, hk⟩, e1, ?_⟩
    simp only at t1
    rcases crosses_iff e2 with ⟨q1, q2⟩ | ⟨q1, q2⟩
    · rw [t1] at q1; rw [t2] at q2
      exact Or.inl ⟨sign_eq_one_iff.1 q1, sign_eq_neg_one_iff.1 q2⟩
    · rw [t2] at q1; rw [t1] at q2
      exact Or.inr ⟨sign_eq_one_iff.1 q1, sign_eq_neg_one_iff.1 q2⟩)
  obtain ⟨pos', hpos'⟩ : ∃ pos', pos' = cutPos h pos s.mesh L := ⟨_, rfl⟩
  rw [← hpos'] at hold hnew
  have hLall : ∀ e ∈ L, ∃ k ∈ s.mesh.all, k.edge = e := fun e he => by
    obtain ⟨f, hf, c, hc, k, hk, e1, -⟩ := hL e he
    exact ⟨k, mem_all.2 ⟨c, List.mem_of_getElem? hc, hk⟩, e1⟩
  have hlt : ∀ c ∈ s.mesh.faces, ∀ x ∈ c, x.1 < s.mesh.nV := fun c hc x hx => (gm.lt c hc x hx).1
  have g0 : Geo pos' pl s.cl s.mesh.faces := g.congr fun c hc x hx => hold _ (hlt c hc x hx)
  have g1 := Geo.splitAll keep L gm g0 hnd hLall (fun e he k hk ek => (hnew e he k hk ek).2) hm
  -- old and new vertices of the cell
  have hof1 : ∀ x, OfCell s.cl m1.faces cid x → OfCell s.cl s.mesh.faces cid x ∨ ∃ e ∈ L, x = s.mesh.nV + L.idxOf e := by
    rintro x ⟨j, Q, d, hQ, hs, hd, y, hy, rfl⟩
    rw [fE, List.getElem?_map] at hd
    obtain ⟨d0, hd0, rfl⟩ := Option.map_eq_some_iff.1 hd
    rcases expand_mem ex hy with ⟨z, hz, e⟩ | ⟨z, hz, hzL, e⟩
    · exact Or.inl ⟨j, Q, d0, hQ, hs, hd0, z, hz, e⟩
    · exact Or.inr ⟨_, hzL, e⟩
  have hof2 : ∀ x, OfCell s.cl s.mesh.faces cid x → OfCell s.cl m1.faces cid x ∧ x < s.mesh.nV := by
    rintro x ⟨j, Q, d, hQ, hs, hd, y, hy, rfl⟩
    obtain ⟨z, hz, e⟩ := expand_keep ex hy
    exact ⟨⟨j, Q, d.flatMap E, hQ, hs, by rw [fE, List.getElem?_map, hd]; rfl, z, hz, e⟩, hlt d (List.mem_of_getElem? hd) y hy⟩
  have hnv : ∀ e ∈ L, h.ev (pos' (s.mesh.nV + L.idxOf e)) = 0 := fun e he => by
    obtain ⟨k, hk, e1⟩ := hLall e he
    exact (hnew e he k hk e1).1
  refine ⟨pos', hpos', hold, ?_, g1, ⟨?_, ?_, ?_⟩, ?_⟩
  · intro v h1 h2
    have hv : v - s.mesh.nV < L.length := by omega
    have := hnv _ (List.getElem_mem hv)
    rwa [hnd.idxOf_getElem, Nat.add_sub_cancel' h1] at this
  · intro x hx
    rcases hof1 x hx with h1 | ⟨e, he, rfl⟩
    · have h2 := (hof2 x h1).2
      rw [newSgn, if_pos h2, ha.sgn x h1, hold x h2]
    · rw [newSgn, if_neg (by omega), hnv e he, sign_zero]
  · obtain ⟨x, hx, e⟩ := ha.up
    exact ⟨x, (hof2 x hx).1, by rw [hold x (hof2 x hx).2]; exact e⟩
  · obtain ⟨x, hx, e⟩ := ha.down
    exact ⟨x, (hof2 x hx).1, by rw [hold x (hof2 x hx).2]; exact e⟩
  · intro x hx
    rcases hof1 x hx with h1 | ⟨e, he, rfl⟩
    · exact ⟨x, x, h1, h1, 0, le_rfl, zero_le_one, by rw [lerp_zero, hold x (hof2 x h1).2]⟩
    · obtain ⟨f, hf, c, hc, k, hk, e1, -⟩ := hL e he
      obtain ⟨-, t, t0, t1, et⟩ := hnew e he k (mem_all.2 ⟨c, List.mem_of_getElem? hc, hk⟩) e1
      obtain ⟨y, hy, ey⟩ := hes_tip hk
      have o1 : OfCell s.cl s.mesh.faces cid k.tail := (ofCell_iff gd hC).2 ⟨f, hf, c, hc, _, hes_tail hk, rfl⟩
      have o2 : OfCell s.cl s.mesh.faces cid k.tip := (ofCell_iff gd hC).2 ⟨f, hf, c, hc, y, hy, ey⟩
      exact ⟨k.tail, k.tip, o1, o2, t, t0.le, t1.le, by rw [et, hold _ (hof2 _ o1).2, hold _ (hof2 _ o2).2]⟩

end Verif.Bsp
