import Verif.Bsp.Piece
/-!
# The loop over the outlines
-/
namespace Verif.Bsp

/-- The part of `term` that comes from half-edges in the plane. -/
def term0 (σ : Nat → SignType) (cl : List (Nat × Option Nat)) (fs : List Cycle) (k e u i : Nat) : Int :=
  match cl[i]?, fs[i]? with
  | some p, some c => sg p k * bd ((hes c).filter (inPlane σ)) e u
  | _, _ => 0

theorem term0_eq {σ : Nat → SignType} {cl : List (Nat × Option Nat)} {fs : List Cycle} {i : Nat} {p : Nat × Option Nat} {c : Cycle} (h1 : cl[i]? = some p) (h2 : fs[i]? = some c)
    (k e u : Nat) : term0 σ cl fs k e u i = sg p k * bd ((hes c).filter (inPlane σ)) e u := by
  unfold term0; rw [h1, h2]

theorem term_eq {cl : List (Nat × Option Nat)} {fs : List Cycle} {i : Nat} {p : Nat × Option Nat} {c : Cycle} (h1 : cl[i]? = some p) (h2 : fs[i]? = some c)
    (k e u : Nat) : term cl fs k e u i = sg p k * bd (hes c) e u := by
  unfold term; rw [h1, h2]

/-- The positive and the negative part of each face that is cut; the new parts are numbered from `n`. -/
def parts : Nat → List (Nat × Bool) → List (Nat × Nat)
  | _, [] => []
  | n, (f, b) :: l => (if b then (n, f) else (f, n)) :: parts (n + 1) l

/-- The half-edges lead from `k.1` to `k.2`. -/
def Seg (l : List HE) (k : Nat × Nat) : Prop :=
  l ≠ [] ∧ l.IsChain (fun h k => h.tip = k.tail) ∧ l.head?.map HE.tail = some k.1 ∧ l.getLast?.map HE.tip = some k.2

/-- Face `i` has no vertex on side `-s`. -/
def SideOk (σ : Nat → SignType) (fs : List Cycle) (i : Nat) (s : SignType) : Prop := ∃ c, fs[i]? = some c ∧ ∀ x ∈ c, σ x.1 ≠ -s

theorem inPlane_part {σ : Nat → SignType} {x y : Nat × Nat} {P : Cycle} {n : Nat} {s : SignType} (hs : s ≠ 0) (hP0 : P ≠ []) (hP : ∀ z ∈ P, σ z.1 = s) (hx : σ x.1 = 0) (hy : σ y.1 = 0) :
    (hes ((y.1, n) :: x :: P)).filter (inPlane σ) = [⟨y.1, n, x.1⟩] := by
  have h1 : inPlane σ ⟨y.1, n, x.1⟩ = true := by simp [inPlane, hx, hy]
  have h2 : inPlane σ ⟨x.1, x.2, firstTail P y.1⟩ = false := by
    have : σ (firstTail P y.1) ≠ 0 := by
      cases P with
      | nil => exact absurd rfl hP0
      | cons z P => show σ z.1 ≠ 0; rw [hP z (by simp)]; exact hs
    simp [inPlane, this]
  rw [hes_cutOld, List.filter_cons_of_pos h1, path, List.filter_cons_of_neg (by rw [h2]; exact Bool.false_ne_true),
    inPlane_none fun z hz => by rw [hP z hz]; exact hs]

/-- The segments of a piece. -/
def Split.arcs (L : List Nat) (nV : Nat) : Split → List (Nat × Nat)
  | .two a b => match a.id L nV, b.id L nV with
    | some x, some y => [(x, y)]
    | _, _ => []
  | .zero l => l.map fun k => (k.tail, k.tip)
  | .isPos _ => []

/-- The plane cuts `c` between two of its vertices into `co` and `cn`. -/
def CutShape (σ : Nat → SignType) (c co cn : Cycle) : Prop :=
  ∃ x P y N n, c ~r (x :: P) ++ (y :: N) ∧ P ≠ [] ∧ N ≠ [] ∧ (∀ z ∈ P, σ z.1 = 1) ∧ (∀ z ∈ N, σ z.1 = -1) ∧ σ x.1 = 0 ∧ σ y.1 = 0 ∧
    ((co = (y.1, n) :: x :: P ∧ cn = (x.1, n) :: y :: N) ∨ (co = (x.1, n) :: y :: N ∧ cn = (y.1, n) :: x :: P))

/-- Faces of cell `cid` are cut one after the other. -/
inductive FaceCuts (σ : Nat → SignType) (cid : Nat) : List (Nat × Option Nat) → List Cycle → List Nat → List (Nat × Option Nat) → List Cycle → Prop
  | refl (cl : List (Nat × Option Nat)) (fs : List Cycle) : FaceCuts σ cid cl fs [] cl fs
  | step {cl cl' : List (Nat × Option Nat)} {fs fs' : List Cycle} {fl : List Nat} {f : Nat} {P : Nat × Option Nat} {c co cn : Cycle} : cl[f]? = some P → sg P cid ≠ 0 → fs[f]? = some c → CutShape σ c co cn →
      FaceCuts σ cid (cl ++ [P]) (fs.set f co ++ [cn]) fl cl' fs' → FaceCuts σ cid cl fs (f :: fl) cl' fs'

/-- One face is cut. -/
theorem cutStep {σ : Nat → SignType} {L : List Nat} {nV cid : Nat} {A : List HE} {cl : List (Nat × Option Nat)} {a : Cut} (g : MGood cl a.mesh) {f : Nat} {P : Nat × Option Nat} {c : Cycle}
    {X Y : ZeroVert} (hcl : cl[f]? = some P) (hc : a.mesh.faces[f]? = some c) (ok : PieceOk σ L nV A (sg P cid) c (.two X Y)) :
    ∃ m' b z co cn, cutPiece σ L nV a (f, .two X Y) = some ⟨m', a.zs ++ [z], a.newPos ++ [(f, b)]⟩ ∧ MGood (cl ++ [P]) m' ∧ m'.faces = a.mesh.faces.set f co ++ [cn] ∧
      (∀ h ∈ a.mesh.all, h ∈ m'.all) ∧ z ∈ m'.all ∧ σ z.tail = 0 ∧ (∃ k, (Split.two X Y).key L nV = some k ∧ Seg [z] k ∧ [z].map (fun k => (k.tail, k.tip)) = (Split.two X Y).arcs L nV) ∧ CutShape σ c co cn ∧ sg P cid ≠ 0 ∧
      (∀ x ∈ (if b then cn else co), σ x.1 ≠ -1) ∧ (∀ x ∈ (if b then co else cn), σ x.1 ≠ 1) ∧
      ∀ e u, sg P cid * bd ((hes (if b then cn else co)).filter (inPlane σ)) e u + bd [z] e u = 0 := by
  obtain ⟨x, Ps, y, Ns, hr, hP0, hN0, hP, hN, sx, sy, hxy, hid⟩ := ok
  obtain ⟨p, q, r, u, v, ec, huv⟩ := cut_shape hr
  obtain ⟨va, vb, idX, idY, hva⟩ : ∃ va vb, X.id L nV = some va ∧ Y.id L nV = some vb ∧ ((sg P cid = 1 ∧ va = x.1 ∧ vb = y.1) ∨ (sg P cid = -1 ∧ va = y.1 ∧ vb = x.1)) := by
    rcases hid with ⟨h1, h2, h3⟩ | ⟨h1, h2, h3⟩
    · exact ⟨_, _, h2, h3, Or.inl ⟨h1, rfl, rfl⟩⟩
    · exact ⟨_, _, h2, h3, Or.inr ⟨h1, rfl, rfl⟩⟩
  -- the other vertices are not in the plane
  have hother : ∀ z, z ∈ p ++ q ++ r → z.1 ≠ va ∧ z.1 ≠ vb := by
    intro z hz
    have hz : z ∈ Ps ++ Ns := by
      rcases huv with ⟨-, -, rfl, rfl⟩ | ⟨-, -, rfl, rfl⟩ <;> simp only [List.mem_append] at hz ⊢ <;> tauto
    have hσ : σ z.1 ≠ 0 := by
      rcases List.mem_append.1 hz with hz | hz
      · rw [hP z hz]; decide
      · rw [hN z hz]; decide
    have h1 : z.1 ≠ x.1 := fun h => hσ (by rw [h]; exact sx)
    have h2 : z.1 ≠ y.1 := fun h => hσ (by rw [h]; exact sy)
    rcases hva with ⟨-, rfl, rfl⟩ | ⟨-, rfl, rfl⟩
    · exact ⟨h1, h2⟩
    · exact ⟨h2, h1⟩
  have hu : u.1 = va ∨ u.1 = vb := by
    rcases huv with ⟨rfl, rfl, -, -⟩ | ⟨rfl, rfl, -, -⟩ <;> rcases hva with ⟨-, rfl, rfl⟩ | ⟨-, rfl, rfl⟩ <;> simp
  have hv : v.1 = va ∨ v.1 = vb := by
    rcases huv with ⟨rfl, rfl, -, -⟩ | ⟨rfl, rfl, -, -⟩ <;> rcases hva with ⟨-, rfl, rfl⟩ | ⟨-, rfl, rfl⟩ <;> simp
  have hne : u.1 ≠ v.1 := by
    rcases huv with ⟨rfl, rfl, -, -⟩ | ⟨rfl, rfl, -, -⟩
    · exact hxy
    · exact hxy.symm
  subst ec
  have hcut := cutCycle_eq (n := a.mesh.nE) (p := p) (q := q) (r := r) (x := u) (y := v) (fun z hz => hother z (by simp [hz])) (fun z hz => hother z (by simp [hz])) hu hv
  obtain ⟨r1, hall, g1⟩ := splitFace_good g hc hcl hne hcut
  generalize hm' : ({ a.mesh with nE := a.mesh.nE + 1, faces := a.mesh.faces.set f ((v.1, a.mesh.nE) :: u :: q) ++ [(u.1, a.mesh.nE) :: v :: (r ++ p)] } : PMesh) = m' at *
  have hfaces : m'.faces = a.mesh.faces.set f ((v.1, a.mesh.nE) :: u :: q) ++ [(u.1, a.mesh.nE) :: v :: (r ++ p)] := by rw [← hm']
  -- the half-edge of the separating face
  have hz : (if u.1 = va then (⟨u.1, a.mesh.nE, v.1⟩ : HE) else HE.rev ⟨u.1, a.mesh.nE, v.1⟩) = ⟨va, a.mesh.nE, vb⟩ := by
    rcases huv with ⟨rfl, rfl, -, -⟩ | ⟨rfl, rfl, -, -⟩ <;> rcases hva with ⟨-, rfl, rfl⟩ | ⟨-, rfl, rfl⟩ <;> simp [HE.rev, hxy, hxy.symm]
  have hkey : (Split.two X Y).key L nV = some (va, vb) := by simp [Split.key, idX, idY]
  have hstep : cutPiece σ L nV a (f, .two X Y) = some ⟨m', a.zs ++ [⟨va, a.mesh.nE, vb⟩], a.newPos ++ [(f, decide (σ (firstTail (r ++ p) u.1) = 1))]⟩ := by
    unfold cutPiece
    simp only [idX, idY, Option.bind_eq_bind, Option.bind_some, r1, hfaces, List.getLast?_concat]
    rw [hes_cutOld, path]
    simp only [hz]
  have hzall : (⟨va, a.mesh.nE, vb⟩ : HE) ∈ m'.all := by
    rw [hall]
    rcases huv with ⟨rfl, rfl, -, -⟩ | ⟨rfl, rfl, -, -⟩ <;> rcases hva with ⟨-, rfl, rfl⟩ | ⟨-, rfl, rfl⟩ <;> simp
  have hpos : ∀ z ∈ (y.1, a.mesh.nE) :: x :: Ps, σ z.1 ≠ -1 := by
    intro z hz
    rcases List.mem_cons.1 hz with rfl | hz
    · simp only; rw [sy]; decide
    · rcases List.mem_cons.1 hz with rfl | hz
      · rw [sx]; decide
      · rw [hP z hz]; decide
  have hneg : ∀ z ∈ (x.1, a.mesh.nE) :: y :: Ns, σ z.1 ≠ 1 := by
    intro z hz
    rcases List.mem_cons.1 hz with rfl | hz
    · simp only; rw [sx]; decide
    · rcases List.mem_cons.1 hz with rfl | hz
      · rw [sy]; decide
      · rw [hN z hz]; decide
  have hK : ∀ e w, sg P cid * bd ((hes ((y.1, a.mesh.nE) :: x :: Ps)).filter (inPlane σ)) e w + bd [⟨va, a.mesh.nE, vb⟩] e w = 0 := by
    intro e w
    rw [inPlane_part (by decide) hP0 hP sx sy]
    rcases hva with ⟨h1, rfl, rfl⟩ | ⟨h1, rfl, rfl⟩
    · rw [h1, bd_cons, bd_nil, bd_cons, bd_nil, show inc ⟨x.1, a.mesh.nE, y.1⟩ e w = - inc ⟨y.1, a.mesh.nE, x.1⟩ e w from inc_rev ⟨y.1, a.mesh.nE, x.1⟩ e w]; ring
    · rw [h1]; ring
  refine ⟨m', decide (σ (firstTail (r ++ p) u.1) = 1), ⟨va, a.mesh.nE, vb⟩, (v.1, a.mesh.nE) :: u :: q, (u.1, a.mesh.nE) :: v :: (r ++ p), hstep, g1, hfaces,
    fun h hh => (hall h).2 (Or.inl hh), hzall, by rcases hva with ⟨-, rfl, -⟩ | ⟨-, rfl, -⟩ <;> assumption, ⟨_, hkey, by simp [Seg], by simp [Split.arcs, idX, idY]⟩, ?_, by
      rcases hid with ⟨h1, -⟩ | ⟨h1, -⟩ <;> rw [h1] <;> decide, ?_⟩
  · rcases huv with ⟨rfl, rfl, rfl, e4⟩ | ⟨rfl, rfl, rfl, e4⟩
    · exact ⟨u, q, v, Ns, a.mesh.nE, hr, hP0, hN0, hP, hN, sx, sy, Or.inl ⟨rfl, by rw [e4]⟩⟩
    · exact ⟨v, Ps, u, q, a.mesh.nE, hr, hP0, hN0, hP, hN, sx, sy, Or.inr ⟨rfl, by rw [e4]⟩⟩
  rcases huv with ⟨rfl, rfl, rfl, e4⟩ | ⟨rfl, rfl, rfl, e4⟩
  · have hb : σ (firstTail (r ++ p) u.1) = -1 := by
      rw [e4]
      cases Ns with
      | nil => exact absurd rfl hN0
      | cons z Ns => exact hN z (by simp)
    rw [hb, e4]
    exact ⟨hpos, hneg, hK⟩
  · have hb : σ (firstTail (r ++ p) u.1) = 1 := by
      rw [e4]
      cases Ps with
      | nil => exact absurd rfl hP0
      | cons z Ps => exact hP z (by simp)
    rw [hb, e4]
    exact ⟨hpos, hneg, hK⟩

theorem seg_of_chain {l : List HE} (h0 : l ≠ []) (hc : l.IsChain fun h k => h.tip = k.tail) : ∃ k, Split.key [] 0 (.zero l) = some k ∧ Seg l k := by
  obtain ⟨h, hh⟩ : ∃ h, l.head? = some h := ⟨_, List.head?_eq_some_head h0⟩
  obtain ⟨k, hk⟩ : ∃ k, l.getLast? = some k := ⟨_, List.getLast?_eq_some_getLast h0⟩
  exact ⟨(h.tail, k.tip), by simp [Split.key, hh, hk], h0, hc, by simp [hh], by simp [hk]⟩

/-- The whole loop. -/
theorem cutLoop {σ : Nat → SignType} {L : List Nat} {nV cid : Nat} {A : List HE} : ∀ (todo : List (Nat × Split)) (a : Cut) (cl : List (Nat × Option Nat)), MGood cl a.mesh →
    (todo.map Prod.fst).Nodup → (∀ p ∈ todo, ∃ P c, cl[p.1]? = some P ∧ a.mesh.faces[p.1]? = some c ∧ PieceOk σ L nV A (sg P cid) c p.2) → (∀ p ∈ todo, p.2.outline = true) →
    (∀ h ∈ A, h ∈ a.mesh.all) →
    ∃ (m' : PMesh) (bs : List (Nat × Bool)) (segs : List (List HE)), todo.foldlM (cutPiece σ L nV) a = some ⟨m', a.zs ++ segs.flatten, a.newPos ++ bs⟩ ∧
      bs.map Prod.fst = (todo.filter fun p => p.2.isTwo).map Prod.fst ∧
      MGood (cl ++ bs.map fun b => cl.getD b.1 (0, none)) m' ∧
      (∀ h ∈ a.mesh.all, h ∈ m'.all) ∧ (∀ z ∈ segs.flatten, z ∈ m'.all ∧ σ z.tail = 0) ∧
      (∀ i < a.mesh.faces.length, i ∉ bs.map Prod.fst → m'.faces[i]? = a.mesh.faces[i]?) ∧
      (∀ p ∈ parts a.mesh.faces.length bs, SideOk σ m'.faces p.1 1 ∧ SideOk σ m'.faces p.2 (-1)) ∧
      (∀ e u, ((parts a.mesh.faces.length bs).map fun p => term0 σ (cl ++ bs.map fun b => cl.getD b.1 (0, none)) m'.faces cid e u p.1).sum +
        ((todo.filter fun p => !p.2.isTwo).map fun p => term0 σ (cl ++ bs.map fun b => cl.getD b.1 (0, none)) m'.faces cid e u p.1).sum + bd segs.flatten e u = 0) ∧
      List.Forall₂ (fun p l => ∃ k, p.2.key L nV = some k ∧ Seg l k ∧ l.map (fun k => (k.tail, k.tip)) = p.2.arcs L nV) todo segs ∧
      FaceCuts σ cid cl a.mesh.faces (bs.map Prod.fst) (cl ++ bs.map fun b => cl.getD b.1 (0, none)) m'.faces
  | [], a, cl, g, _, _, _, _ => ⟨a.mesh, [], [], by simp, rfl, by simpa using g, fun _ h => h, by simp, fun _ _ _ => rfl, by simp [parts], by simp [parts, bd], List.Forall₂.nil, by simpa using FaceCuts.refl cl a.mesh.faces⟩
  | (f, s) :: todo, a, cl, g, hnd, hok, hout, hA => by
    obtain ⟨P, c, hcl, hc, ok⟩ := hok (f, s) (by simp)
    simp only at hcl hc ok
    rw [List.map_cons, List.nodup_cons] at hnd
    have hnd1 : ∀ p ∈ todo, p.1 ≠ f := fun p hp h => hnd.1 (by simp only; rw [← h]; exact List.mem_map_of_mem hp)
    have hfl : f < a.mesh.faces.length := (List.getElem?_eq_some_iff.1 hc).1
    have hlen := g.len
    match s, ok with
    | .isPos b, _ => exact absurd (hout (f, .isPos b) (by simp)) (by simp [Split.outline])
    | .zero l, ok =>
      obtain ⟨l0, lch, lneg, lbd, lA⟩ := ok
      obtain ⟨m', bs, segs, r, e1, g', hall, hz, hun, hside, hK, hf2, hcuts⟩ := cutLoop todo { a with zs := a.zs ++ l } cl g hnd.2
        (fun p hp => hok p (by simp [hp])) (fun p hp => hout p (by simp [hp])) hA
      have hkey : ∃ k, (Split.zero l).key L nV = some k ∧ Seg l k ∧ l.map (fun k => (k.tail, k.tip)) = (Split.zero l).arcs L nV := by
        obtain ⟨k, h1, h2⟩ := seg_of_chain l0 lch
        exact ⟨k, h1, h2, rfl⟩
      have hfb : f ∉ bs.map Prod.fst := by
        rw [e1]
        intro h
        obtain ⟨p, hp, e⟩ := List.mem_map.1 h
        exact hnd1 p (List.mem_filter.1 hp).1 e
      refine ⟨m', bs, l :: segs, ?_, ?_, g', hall, ?_, hun, hside, ?_, List.Forall₂.cons hkey hf2, hcuts⟩
      · rw [List.foldlM_cons]
        show (todo.foldlM (cutPiece σ L nV) { a with zs := a.zs ++ l }) = _
        rw [r]; simp
      · rw [e1]; simp [Split.isTwo]
      · intro z hz'
        rw [List.flatten_cons, List.mem_append] at hz'
        rcases hz' with h | h
        · exact ⟨hall z (hA z (lA z h).1), (lA z h).2⟩
        · exact hz z h
      · intro e u
        have := hK e u
        have ht : term0 σ (cl ++ bs.map fun b => cl.getD b.1 (0, none)) m'.faces cid e u f = sg P cid * bd ((hes c).filter (inPlane σ)) e u :=
          term0_eq (by rw [List.getElem?_append_left (by omega)]; exact hcl) (by rw [hun f hfl hfb]; exact hc) _ _ _
        rw [List.flatten_cons, bd_append]
        have e2 : ((f, Split.zero l) :: todo).filter (fun p => !p.2.isTwo) = (f, Split.zero l) :: todo.filter fun p => !p.2.isTwo := by simp [Split.isTwo]
        rw [e2, List.map_cons, List.sum_cons]
        have := lbd e u
        simp only at ht ⊢
        rw [ht]
        linarith
    | .two X Y, ok =>
      obtain ⟨m1, b, z, co, cn, r1, g1, f1, al1, z1, z1', k1, shp, hs0, hp1, hn1, K1⟩ := cutStep g hcl hc ok
      have hl1 : m1.faces.length = a.mesh.faces.length + 1 := by rw [f1]; simp
      have hother : ∀ i < a.mesh.faces.length, i ≠ f → m1.faces[i]? = a.mesh.faces[i]? := by
        intro i hi hif
        rw [f1, List.getElem?_append_left (by simpa using hi), List.getElem?_set_ne (Ne.symm hif)]
      have hold : m1.faces[f]? = some co := by
        rw [f1, List.getElem?_append_left (by simpa using hfl), List.getElem?_set_self hfl]
      have hnew : m1.faces[a.mesh.faces.length]? = some cn := by
        rw [f1, List.getElem?_append_right (by simp)]; simp
      obtain ⟨m', bs, segs, r, e1, g', hall, hz, hun, hside, hK, hf2, hcuts⟩ := cutLoop todo ⟨m1, a.zs ++ [z], a.newPos ++ [(f, b)]⟩ (cl ++ [P]) g1 hnd.2
        (fun p hp => by
          obtain ⟨P', c', q1, q2, q3⟩ := hok p (by simp [hp])
          have hpl := (List.getElem?_eq_some_iff.1 q2).1
          refine ⟨P', c', by rw [List.getElem?_append_left (by omega)]; exact q1, ?_, q3⟩
          rw [hother p.1 hpl (hnd1 p hp)]
          exact q2) (fun p hp => hout p (by simp [hp])) (fun h hh => al1 h (hA h hh))
      have hfb : f ∉ bs.map Prod.fst := by
        rw [e1]
        intro h
        obtain ⟨p, hp, e⟩ := List.mem_map.1 h
        exact hnd1 p (List.mem_filter.1 hp).1 e
      have hbl : ∀ p ∈ bs, p.1 < a.mesh.faces.length := by
        intro p hp
        have : p.1 ∈ bs.map Prod.fst := List.mem_map_of_mem hp
        rw [e1] at this
        obtain ⟨q, hq, e⟩ := List.mem_map.1 this
        obtain ⟨_, _, _, q2, _⟩ := hok q (by simp [(List.mem_filter.1 hq).1])
        rw [← e]
        exact (List.getElem?_eq_some_iff.1 q2).1
      have hnb : a.mesh.faces.length ∉ bs.map Prod.fst := by
        intro h
        obtain ⟨p, hp, e⟩ := List.mem_map.1 h
        have := hbl p hp; omega
      have hold' : m'.faces[f]? = some co := by
        rw [hun f (show f < m1.faces.length by omega) hfb]; exact hold
      have hnew' : m'.faces[a.mesh.faces.length]? = some cn := by
        rw [hun _ (show a.mesh.faces.length < m1.faces.length by omega) hnb]; exact hnew
      have hclist : (cl ++ [P]) ++ bs.map (fun b => (cl ++ [P]).getD b.1 (0, none)) = cl ++ ((f, b) :: bs).map fun b => cl.getD b.1 (0, none) := by
        rw [List.append_assoc, List.map_cons]
        congr 1
        have h1 : cl.getD f (0, none) = P := by simp [List.getD, hcl]
        simp only [h1, List.singleton_append, List.cons.injEq, true_and]
        apply List.map_congr_left
        intro p hp
        have := hbl p hp
        simp only [List.getD]
        rw [List.getElem?_append_left (by omega)]
      have hclf : (cl ++ ((f, b) :: bs).map fun b => cl.getD b.1 (0, none))[f]? = some P := by
        rw [List.getElem?_append_left (by omega)]; exact hcl
      have hcln : (cl ++ ((f, b) :: bs).map fun b => cl.getD b.1 (0, none))[a.mesh.faces.length]? = some P := by
        rw [← hclist, List.append_assoc, List.getElem?_append_right (by omega)]
        simp [hlen]
      simp only [hclist, hl1] at g' hside hK hun hcuts
      refine ⟨m', (f, b) :: bs, [z] :: segs, ?_, ?_, g', fun h hh => hall h (al1 h hh), ?_, ?_, ?_, ?_, List.Forall₂.cons k1 hf2, FaceCuts.step hcl hs0 hc shp (by rw [← f1]; exact hcuts)⟩
      · rw [List.foldlM_cons, r1]
        show (todo.foldlM (cutPiece σ L nV) ⟨m1, a.zs ++ [z], a.newPos ++ [(f, b)]⟩) = _
        rw [r]; simp
      · rw [List.map_cons, e1]; simp [Split.isTwo]
      · intro w hw
        rw [List.flatten_cons, List.mem_append, List.mem_singleton] at hw
        rcases hw with rfl | hw
        · exact ⟨hall _ z1, z1'⟩
        · exact hz w hw
      · intro i hi hib
        rw [List.map_cons, List.mem_cons, not_or] at hib
        rw [hun i (by omega) hib.2, hother i hi hib.1]
      · intro p hp
        rw [parts, List.mem_cons] at hp
        rcases hp with rfl | hp
        · cases b
          · exact ⟨⟨co, hold', by simpa using hp1⟩, ⟨cn, hnew', by simpa using hn1⟩⟩
          · exact ⟨⟨cn, hnew', by simpa using hp1⟩, ⟨co, hold', by simpa using hn1⟩⟩
        · exact hside p hp
      · intro e u
        have h1 := hK e u
        have h2 := K1 e u
        have ht : term0 σ (cl ++ ((f, b) :: bs).map fun b => cl.getD b.1 (0, none)) m'.faces cid e u (if b then (a.mesh.faces.length, f) else (f, a.mesh.faces.length)).1 =
            sg P cid * bd ((hes (if b then cn else co)).filter (inPlane σ)) e u := by
          cases b
          · exact term0_eq hclf hold' _ _ _
          · exact term0_eq hcln hnew' _ _ _
        have e2 : ((f, Split.two X Y) :: todo).filter (fun p => !p.2.isTwo) = todo.filter fun p => !p.2.isTwo := by simp [Split.isTwo]
        rw [e2, parts, List.map_cons, List.sum_cons, ht, List.flatten_cons, bd_append]
        linarith

end Verif.Bsp
