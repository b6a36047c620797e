import Verif.Bsp.InitListed
/-!
# C103: the tests of `complex_partition` on the faces

Model of `face_center` (`bsp_complex.rs` lines 1949-1958), `point_in_face` (lines 1348-1377), `face_intersects_tri` (lines 1296-1345), `find_uncoplanar_verts` (lines 1904-1925) and of the part of
`complex_partition` that uses them (lines 619-680), in exact arithmetic.
-/
namespace Verif.Bsp
open InSphere (Pt Ori)
open Geom (lerp orient2dByAxis vertInTri Collinear Coplanar InClosedTriangle)

variable {K : Type} [Field K] [LinearOrder K]

/-- `face_center` (lines 1949-1958). -/
def faceCenter (ps : List (Pt K)) : Pt K :=
  ps.foldl (fun r p => ⟨r.x + p.x / ps.length, r.y + p.y / ps.length, r.z + p.z / ps.length⟩) ⟨0, 0, 0⟩

/-- The loop of `point_in_face` (lines 1363-1375); `none` is `Orientation::Undefined`. -/
def pointInLoop (q : Pt K) (axis : Nat) : Option Ori → List (Pt K × Pt K) → Bool
  | _, [] => true
  | base, e :: l =>
    let o := orient2dByAxis e.1 e.2 q axis
    if o = .zero then false else match base with
      | none => pointInLoop q axis (some o) l
      | some b => if b ≠ o then false else pointInLoop q axis (some b) l

/-- `point_in_face` (lines 1348-1377). -/
def pointInFace (ps : List (Pt K)) (q : Pt K) (axis : Nat) : Bool := pointInLoop q axis none (circ ps)

/-- `sign_reversed`. -/
def signReversed (a b : Ori) : Bool := (a = .positive ∧ b = .negative) ∨ (a = .negative ∧ b = .positive)

/-- `face_intersects_tri` (lines 1296-1345). -/
def faceIntersectsTri (ps : List (Pt K)) (t : Tri3 K) (axis : Nat) : Bool :=
  let os := ps.map fun p => t.sides.map fun e => orient2dByAxis e.1 e.2 p axis
  (os.any fun o => o.all fun x => x = o.headD .zero) ||
    ((circ (ps.zip os)).any fun e => ((e.1.2.zip e.2.2).zip t.sides).any fun k =>
      signReversed k.1.1 k.1.2 && signReversed (orient2dByAxis e.1.1 e.2.1 k.2.1 axis) (orient2dByAxis e.1.1 e.2.1 k.2.2 axis))

/-- `find_uncoplanar_verts` (lines 1904-1925); `none` is the panic. -/
def findUncoplanar (sgn : Nat → SignType) (fs : List Cycle) (faces : List Nat) : Option Nat :=
  (faces.flatMap fun f => (fs[f]?.getD []).map Prod.fst).find? fun v => sgn v ≠ 0

/-- `face_intersects_tri` of lines 655-667: whether face `i` counts as lying on triangle `t`; `t0` is the first triangle of the face. -/
def hitsTri (tri : Nat → Tri3 K) (axis : Nat → Nat) (ps : List (Pt K)) (t0 t : Nat) : Bool :=
  let q := faceCenter ps
  if pointInFace ps q (axis t0) then
    vertInTri [orient2dByAxis (tri t).a (tri t).b q (axis t), orient2dByAxis (tri t).b (tri t).c q (axis t), orient2dByAxis (tri t).c (tri t).a q (axis t)]
  else faceIntersectsTri ps (tri t) (axis t)

/-- The vertex of lines 626-636 for face `i`. -/
def offVertex (tri : Nat → Tri3 K) (g : GSt K) (F : Poly.Face) (t0 : Nat) : Option Nat :=
  (g.s.cx.cells[F.cells.1]?).bind fun C => findUncoplanar (triSgn g.pos (tri t0)) g.s.mesh.faces C.faces

/-- What `complex_partition` computes from the geometry (lines 578-680), apart from the areas. -/
def shellsOf {T : Type} (tri : Nat → Tri3 K) (axis : Nat → Nat) (area : Nat → T) (shell : Nat → Nat) (nShells : Nat) (g : GSt K) : Shells T where
  area := area
  shell := shell
  nShells := nShells
  hits i t := match g.s.cx.faces[i]?, g.s.mesh.faces[i]? with
    | some F, some c => match F.tris with
      | t0 :: _ => hitsTri tri axis (c.map fun x => g.pos x.1) t0 t
      | [] => false
    | _, _ => false
  pos i t := match g.s.cx.faces[i]? with
    | some F => match F.tris with
      | t0 :: _ => match offVertex tri g F t0 with
        | some v => triSgn g.pos (tri t) v = 1
        | none => false
      | [] => false
    | none => false

variable [IsStrictOrderedRing K]

theorem circ_hes (c : Cycle) : circ (c.map Prod.fst) = (hes c).map fun h => (h.tail, h.tip) := by
  have key : ∀ (l : Cycle) (z : Nat), (l.map Prod.fst).zip ((l.map Prod.fst).tail ++ [z]) = (path l z).map fun h => (h.tail, h.tip) := by
    intro l
    induction l with
    | nil => intro z; rfl
    | cons a l ih =>
      intro z
      cases l with
      | nil => rfl
      | cons b l =>
        have := ih z
        simp only [List.map_cons, List.tail_cons, List.cons_append, List.zip_cons_cons, path] at this ⊢
        rw [this]; rfl
  cases c with
  | nil => rfl
  | cons a l => exact key (a :: l) a.1

theorem center_fold (A : Aff K) (n : K) : ∀ (ps : List (Pt K)) (r : Pt K), A.ev (ps.foldl (fun r p => ⟨r.x + p.x / n, r.y + p.y / n, r.z + p.z / n⟩) r) = A.ev r + (ps.map fun p => (A.ev p - A.d) / n).sum
  | [], r => by simp
  | p :: ps, r => by
    rw [List.foldl_cons, center_fold A n ps, List.map_cons, List.sum_cons]
    simp only [Aff.ev, vdot]; ring

/-- The center is the mean of the corners. -/
theorem center_ev (A : Aff K) {ps : List (Pt K)} (h : ps ≠ []) : (ps.length : K) * A.ev (faceCenter ps) = (ps.map A.ev).sum := by
  have hn : (ps.length : K) ≠ 0 := by
    have : ps.length ≠ 0 := by simpa using h
    exact_mod_cast this
  have h1 : ∀ l : List (Pt K), (ps.length : K) * (l.map fun p => (A.ev p - A.d) / (ps.length : K)).sum = (l.map A.ev).sum - l.length * A.d := by
    intro l
    induction l with
    | nil => simp
    | cons p l ih =>
      simp only [List.map_cons, List.sum_cons, List.length_cons, mul_add, ih]
      push_cast
      field_simp
      ring
  unfold faceCenter
  rw [center_fold, mul_add, h1]
  simp only [Aff.ev, vdot]; ring

theorem center_pos {A : Aff K} {ps : List (Pt K)} (h0 : ∀ p ∈ ps, 0 ≤ A.ev p) (h1 : ∃ p ∈ ps, 0 < A.ev p) : 0 < A.ev (faceCenter ps) := by
  obtain ⟨p, hp, hp0⟩ := h1
  have hne : ps ≠ [] := List.ne_nil_of_mem hp
  have hs : 0 < (ps.map A.ev).sum := by
    have key : ∀ l : List (Pt K), (∀ p ∈ l, 0 ≤ A.ev p) → 0 ≤ (l.map A.ev).sum ∧ (p ∈ l → 0 < (l.map A.ev).sum) := by
      intro l
      induction l with
      | nil => simp
      | cons q l ih =>
        intro h
        obtain ⟨i1, i2⟩ := ih fun p hp => h p (List.mem_cons_of_mem _ hp)
        have hq := h q (by simp)
        rw [List.map_cons, List.sum_cons]
        refine ⟨add_nonneg hq i1, fun hm => ?_⟩
        rcases List.mem_cons.1 hm with rfl | hm
        · exact add_pos_of_pos_of_nonneg hp0 i1
        · exact add_pos_of_nonneg_of_pos hq (i2 hm)
    exact (key ps h0).2 hp
  rw [← center_ev A hne] at hs
  exact (pos_iff_pos_of_mul_pos hs).1 (by have : 0 < ps.length := List.length_pos_of_ne_nil hne; exact_mod_cast this)
theorem center_zero {A : Aff K} {ps : List (Pt K)} (hne : ps ≠ []) (h0 : ∀ p ∈ ps, A.ev p = 0) : A.ev (faceCenter ps) = 0 := by
  have h := center_ev A hne
  have hs : (ps.map A.ev).sum = 0 := by
    refine List.sum_eq_zero fun x hx => ?_
    obtain ⟨p, hp, rfl⟩ := List.mem_map.1 hx
    exact h0 p hp
  rw [hs] at h
  refine (mul_eq_zero.1 h).resolve_left ?_
  have : ps.length ≠ 0 := by simpa using hne
  exact_mod_cast this

/-- The center of a convex face is inside the face. -/
theorem FaceOk.center {pos : Nat → Pt K} {A : Aff K} {c : Cycle} (f : FaceOk pos A c) : InsideFace pos A c (faceCenter (c.map fun x => pos x.1)) := by
  have hne : c.map (fun x => pos x.1) ≠ [] := by
    obtain ⟨-, -, x, hx, -⟩ := f.fat
    intro e
    rw [List.map_eq_nil_iff] at e
    rw [e] at hx; cases hx
  refine ⟨center_zero hne fun p hp => ?_, fun k hk => ?_⟩
  · obtain ⟨x, hx, rfl⟩ := List.mem_map.1 hp
    exact f.plane x hx
  · rw [← areaAff_ev]
    refine center_pos (fun p hp => ?_) ?_
    · obtain ⟨x, hx, rfl⟩ := List.mem_map.1 hp
      rw [areaAff_ev]; exact f.left k hk x hx
    · obtain ⟨z, hz, h0⟩ := f.not_flat (f.ev_tail hk) (f.ev_tip hk) (f.pos_ne hk)
      exact ⟨_, List.mem_map_of_mem hz, by rw [areaAff_ev]; exact lt_of_le_of_ne (f.left k hk z hz) h0.symm⟩

theorem pointInLoop_true {q : Pt K} {axis : Nat} {o : Ori} : ∀ {l : List (Pt K × Pt K)} {base : Option Ori}, (∀ e ∈ l, orient2dByAxis e.1 e.2 q axis ≠ .zero ∧ orient2dByAxis e.1 e.2 q axis = o) → (∀ b, base = some b → b = o) →
    pointInLoop q axis base l = true
  | [], _, _, _ => rfl
  | e :: l, base, h, hb => by
    obtain ⟨h1, h2⟩ := h e (by simp)
    have ih : ∀ {base : Option Ori}, (∀ b, base = some b → b = o) → pointInLoop q axis base l = true := fun hb => pointInLoop_true (fun e he => h e (List.mem_cons_of_mem _ he)) hb
    unfold pointInLoop
    simp only [if_neg h1]
    cases base with
    | none => exact ih (by rintro b ⟨⟩; exact h2)
    | some b =>
      simp only
      rw [if_neg (by rw [h2, hb b rfl]; simp)]
      exact ih (by rintro b' ⟨⟩; exact hb b rfl)

/-- `point_in_face` finds the center inside the face, whatever triangle in the plane of the face the axis is taken from. -/
theorem center_found {pos : Nat → Pt K} {A : Aff K} {c : Cycle} (f : FaceOk pos A c) {t : Tri3 K} (ht : ∀ x ∈ t.corners, A.ev x = 0) {axis : Nat} (hax : orient2dByAxis t.a t.b t.c axis ≠ .zero) :
    pointInFace (c.map fun x => pos x.1) (faceCenter (c.map fun x => pos x.1)) axis = true := by
  have hq := f.center
  -- a triangle with the orientation of the face
  obtain ⟨t', ht', hpos, hax'⟩ : ∃ t' : Tri3 K, (∀ x ∈ t'.corners, A.ev x = 0) ∧ 0 < area A.n t'.a t'.b t'.c ∧ orient2dByAxis t'.a t'.b t'.c axis ≠ .zero := by
    have h0 := axis_area (ht t.a (by simp [Tri3.corners])) (ht t.b (by simp [Tri3.corners])) (ht t.c (by simp [Tri3.corners])) axis
    have hN := normal_pos f.normal
    have hax0 := hax
    rw [Geom.byAxis_eq, Ne, Geom.sign_zero] at hax0
    have hne : area A.n t.a t.b t.c ≠ 0 := by
      intro e
      rw [e, zero_mul] at h0
      exact (mul_ne_zero hN.ne' hax0) h0
    rcases lt_or_gt_of_ne hne with h | h
    · refine ⟨⟨t.a, t.c, t.b⟩, fun x hx => ht x ?_, ?_, ?_⟩
      · simp only [Tri3.corners, List.mem_cons, List.not_mem_nil, or_false] at hx ⊢
        rcases hx with h | h | h <;> simp [h]
      · have : area A.n t.a t.c t.b = -area A.n t.a t.b t.c := by simp only [area, vdet, vsub]; ring
        simp only [this]; linarith
      · rw [Geom.byAxis_eq, Ne, Geom.sign_zero]
        intro e
        refine hax0 ?_
        unfold Geom.comp3 at e ⊢
        split_ifs at e ⊢ <;> simp only [Geom.nYZ, Geom.nXZ, Geom.nXY, Geom.orient2d, Geom.xy, Geom.yz, Geom.xz] at e ⊢ <;> linarith
    · exact ⟨t, ht, h, hax⟩
  unfold pointInFace
  refine pointInLoop_true (o := orient2dByAxis t'.a t'.b t'.c axis) (fun e he => ?_) (by simp)
  have e1 : c.map (fun x => pos x.1) = (c.map Prod.fst).map pos := by simp
  have he' : e ∈ (circ (c.map Prod.fst)).map fun p => (pos p.1, pos p.2) := by
    rw [e1, circ_map] at he; exact he
  rw [circ_hes, List.map_map] at he'
  obtain ⟨k, hk, rfl⟩ := List.mem_map.1 he'
  exact (axis_base f.normal ht' hpos hax' (f.ev_tail hk) (f.ev_tip hk) hq.1).2 (hq.2 k hk)

/-- The test on a face is whether its center is in the triangle. -/
theorem hitsTri_iff {tri : Nat → Tri3 K} {axis : Nat → Nat} {pos : Nat → Pt K} {A : Aff K} {c : Cycle} (f : FaceOk pos A c) {t0 t : Nat} (h0 : ∀ x ∈ (tri t0).corners, A.ev x = 0) (ht : ∀ x ∈ (tri t).corners, A.ev x = 0)
    (a0 : orient2dByAxis (tri t0).a (tri t0).b (tri t0).c (axis t0) ≠ .zero) (ax : orient2dByAxis (tri t).a (tri t).b (tri t).c (axis t) ≠ .zero) :
    hitsTri tri axis (c.map fun x => pos x.1) t0 t = true ↔ InTri (tri t) (faceCenter (c.map fun x => pos x.1)) := by
  unfold hitsTri
  simp only [center_found f h0 a0, if_true]
  have hn := tri_normal ax
  obtain ⟨μ, μ0, hμ⟩ := plane_of_tri f.normal hn ht
  have hz : (tri t).plane.ev (faceCenter (c.map fun x => pos x.1)) = 0 := by
    have := f.center.1
    rw [hμ] at this
    exact (mul_eq_zero.1 this).resolve_left μ0
  have hnc : ¬ Collinear (tri t).a (tri t).b (tri t).c := by
    intro h
    rw [Geom.collinear_iff_flat] at h
    refine hn ?_
    obtain ⟨h1, h2, h3⟩ := h
    simp only [Geom.nXY, Geom.nYZ, Geom.nXZ, Geom.orient2d, Geom.xy, Geom.yz, Geom.xz] at h1 h2 h3
    simp only [Tri3.plane, through, vdot, vsub]
    have e1 : ((tri t).b.y - (tri t).a.y) * ((tri t).c.z - (tri t).a.z) - ((tri t).b.z - (tri t).a.z) * ((tri t).c.y - (tri t).a.y) = 0 := by linarith
    have e2 : ((tri t).b.z - (tri t).a.z) * ((tri t).c.x - (tri t).a.x) - ((tri t).b.x - (tri t).a.x) * ((tri t).c.z - (tri t).a.z) = 0 := by linarith
    have e3 : ((tri t).b.x - (tri t).a.x) * ((tri t).c.y - (tri t).a.y) - ((tri t).b.y - (tri t).a.y) * ((tri t).c.x - (tri t).a.x) = 0 := by linarith
    rw [e1, e2, e3]; ring
  rw [Geom.vertInTri_axis ax hnc]
  · constructor
    · rintro ⟨u, v, w, hu, hv, hw, hs, e⟩
      rw [e]; exact ⟨u, v, w, hu, hv, hw, hs, rfl, rfl, rfl⟩
    · rintro ⟨u, v, w, hu, hv, hw, hs, e1, e2, e3⟩
      exact ⟨u, v, w, hu, hv, hw, hs, by
        generalize faceCenter (c.map fun x => pos x.1) = q at *
        cases q; simp only [Geom.comb, Pt.mk.injEq]; exact ⟨e1, e2, e3⟩⟩
  · rw [Geom.coplanar_iff (by rwa [← Geom.collinear_iff_flat]), ← ev_through]; exact hz

theorem findUncoplanar_spec {s : St} (gd : Good s) {pos : Nat → Pt K} {t : Tri3 K} {k : Nat} {C : Poly.Cell} (hC : s.cx.cells[k]? = some C) {v : Nat} (h : findUncoplanar (triSgn pos t) s.mesh.faces C.faces = some v) :
    OfCell s.cl s.mesh.faces k v ∧ t.plane.ev (pos v) ≠ 0 := by
  have h1 := List.find?_some h
  have h2 := List.mem_of_find?_eq_some h
  simp only [List.mem_flatMap, List.mem_map] at h2
  obtain ⟨f, hf, y, hy, e⟩ := h2
  refine ⟨(ofCell_iff gd hC).2 ⟨f, hf, ?_⟩, ?_⟩
  · cases hc : s.mesh.faces[f]? with
    | none => rw [hc] at hy; simp at hy
    | some c => rw [hc] at hy; exact ⟨c, rfl, y, hy, e⟩
  · have h3 : triSgn pos t v ≠ 0 := of_decide_eq_true h1
    exact sign_ne_zero.1 h3

theorem findUncoplanar_ex {s : St} (gd : Good s) {pos : Nat → Pt K} {t : Tri3 K} {k : Nat} {C : Poly.Cell} (hC : s.cx.cells[k]? = some C) {v : Nat} (hv : OfCell s.cl s.mesh.faces k v) (h0 : t.plane.ev (pos v) ≠ 0) :
    ∃ w, findUncoplanar (triSgn pos t) s.mesh.faces C.faces = some w := by
  rw [← Option.ne_none_iff_exists']
  intro e
  unfold findUncoplanar at e
  rw [List.find?_eq_none] at e
  obtain ⟨f, hf, c, hc, y, hy, rfl⟩ := (ofCell_iff gd hC).1 hv
  refine e y.1 (List.mem_flatMap.2 ⟨f, hf, ?_⟩) ?_
  · rw [hc]; exact List.mem_map_of_mem hy
  · have h3 : triSgn pos t y.1 ≠ 0 := sign_ne_zero.2 h0
    exact decide_eq_true h3

/-- **C103.** In exact arithmetic the tests of `complex_partition` on the faces are right if the faces list the original triangles lying on them: `find_uncoplanar_verts` does not panic, and a face counts as lying on a
triangle if and only if its center does. -/
theorem c103_face_tests {T : Type} {tri : Nat → Tri3 K} {axis : Nat → Nat} {area : Nat → T} {shell : Nat → Nat} {nShells nOri : Nat} {g : GSt K} (gd : Good g.s) (gg : Geo g.pos g.pl g.s.cl g.s.mesh.faces)
    (hax : ∀ t < nOri, orient2dByAxis (tri t).a (tri t).b (tri t).c (axis t) ≠ .zero) (hL : Listed tri nOri g) (i : Nat) (F : Poly.Face) (c : Cycle) (hF : g.s.cx.faces[i]? = some F) (hc : g.s.mesh.faces[i]? = some c) :
    (∀ t0 l, F.tris = t0 :: l → ∃ v, offVertex tri g F t0 = some v) ∧
      FaceTests (shellsOf tri axis area shell nShells g) tri nOri g.pos g.pl g.s.cl g.s.mesh.faces i F c := by
  have f := gg.face i c hc
  have hcl : g.s.cl[i]? = some F.cells := by simp [St.cl, hF]
  obtain ⟨l1, l2⟩ := gd.linked.cells i F hF
  have hs1 : sg F.cells F.cells.1 ≠ 0 := by
    unfold sg
    rw [if_pos rfl, if_neg fun e => (l2 _ e).2 rfl]; decide
  have hplane : ∀ t ∈ F.tris, ∃ μ, μ ≠ 0 ∧ ∀ q, (g.pl i).ev q = μ * (tri t).plane.ev q := fun t ht =>
    plane_of_tri f.normal (tri_normal (hax t (hL.flat i F hF t ht).1)) (hL.flat i F hF t ht).2
  have hC := List.getElem?_eq_getElem l1
  have hoff : ∀ t0 l, F.tris = t0 :: l → ∃ v, offVertex tri g F t0 = some v ∧ OfCell g.s.cl g.s.mesh.faces F.cells.1 v ∧ (tri t0).plane.ev (g.pos v) ≠ 0 := by
    intro t0 l e
    obtain ⟨μ, μ0, hμ⟩ := hplane t0 (by rw [e]; simp)
    obtain ⟨x, hx, hx0⟩ := gg.strict F.cells.1 i F.cells hcl hs1
    obtain ⟨v, hv⟩ := findUncoplanar_ex gd (t := tri t0) hC hx (by rw [hμ] at hx0; exact right_ne_zero_of_mul hx0)
    refine ⟨v, ?_, findUncoplanar_spec gd hC hv⟩
    unfold offVertex
    rw [hC]; exact hv
  have hhit : ∀ t ∈ F.tris, (shellsOf tri axis area shell nShells g).hits i t = true ↔ InTri (tri t) (faceCenter (c.map fun x => g.pos x.1)) := by
    intro t ht
    cases e : F.tris with
    | nil => rw [e] at ht; cases ht
    | cons t0 l =>
      have h0 := hL.flat i F hF t0 (by rw [e]; simp)
      have h1 := hL.flat i F hF t ht
      simp only [shellsOf, hF, hc, e]
      exact hitsTri_iff f h0.2 h1.2 (hax _ h0.1) (hax _ h1.1)
  refine ⟨fun t0 l e => ?_, fun t ht => (hL.flat i F hF t ht).1, fun t ht h => ⟨(hL.flat i F hF t ht).2, _, f.center, (hhit t ht).1 h⟩, fun t ht h => ?_, fun sh hsh => ⟨_, f.center, fun t ht hst hco hq => ?_⟩⟩
  · obtain ⟨v, hv, -⟩ := hoff t0 l e
    exact ⟨v, hv⟩
  · cases e : F.tris with
    | nil => rw [e] at ht; cases ht
    | cons t0 l =>
      obtain ⟨v, hv, h1, h2⟩ := hoff t0 l e
      obtain ⟨μ, μ0, hμ⟩ := hplane t0 (by rw [e]; simp)
      obtain ⟨ν, ν0, hν⟩ := hplane t ht
      refine ⟨v, h1, ?_, ?_⟩
      · have := mul_ne_zero μ0 h2
        rw [← hμ, hν] at this
        exact right_ne_zero_of_mul this
      · have h3 : triSgn g.pos (tri t) v = 1 ↔ 0 < (tri t).plane.ev (g.pos v) := sign_eq_one_iff
        simp only [shellsOf, hF, e, hv]
        exact decide_eq_true_iff.trans h3
  · have hm := hL.all i F c hF hc t ht hco ⟨_, f.center, hq⟩
    have := hsh t hm hst
    rw [(hhit t hm).2 hq] at this
    cases this

end Verif.Bsp
