import Verif.Bsp.Meet
/-!
# The two halves of a convex cell are convex

The faces of the cell are cut along the plane, the separating face is added, and the faces on the positive side are given to the new cell. Everything `Geo` says is kept.
-/
namespace Verif.Bsp
open InSphere (Pt)
open Geom (lerp)

variable {K : Type} [Field K] [LinearOrder K] [IsStrictOrderedRing K]

/-- Cutting a face does not change which vertices a cell has. -/
theorem ofCell_cut {cl : List (Nat × Option Nat)} {fs : List Cycle} (hlen : cl.length = fs.length) {f : Nat} {P : Nat × Option Nat} {c co cn : Cycle} (hP : cl[f]? = some P) (hc : fs[f]? = some c)
    (hm : ∀ v, (∃ y ∈ c, y.1 = v) ↔ (∃ y ∈ co, y.1 = v) ∨ ∃ y ∈ cn, y.1 = v) {k v : Nat} : OfCell (cl ++ [P]) (fs.set f co ++ [cn]) k v ↔ OfCell cl fs k v := by
  have hfl : f < fs.length := (List.getElem?_eq_some_iff.1 hc).1
  constructor
  · rintro ⟨j, Q, d, hQ, hs, hd, hy⟩
    by_cases hj : j < cl.length
    · rw [List.getElem?_append_left hj] at hQ
      rw [List.getElem?_append_left (by rw [List.length_set]; omega)] at hd
      by_cases e : j = f
      · subst e
        rw [List.getElem?_set_self (by omega)] at hd
        cases hd
        exact ⟨j, Q, c, hQ, hs, hc, (hm v).2 (Or.inl hy)⟩
      · rw [List.getElem?_set_ne (Ne.symm e)] at hd
        exact ⟨j, Q, d, hQ, hs, hd, hy⟩
    · have hj' : j = cl.length := by
        have := (List.getElem?_eq_some_iff.1 hQ).1
        simp at this; omega
      subst hj'
      rw [List.getElem?_append_right le_rfl] at hQ
      rw [hlen, List.getElem?_append_right (by simp)] at hd
      simp at hQ hd
      subst hQ hd
      exact ⟨f, P, c, hP, hs, hc, (hm v).2 (Or.inr hy)⟩
  · rintro ⟨j, Q, d, hQ, hs, hd, hy⟩
    have hj : j < cl.length := (List.getElem?_eq_some_iff.1 hQ).1
    by_cases e : j = f
    · subst e
      rw [hP] at hQ; cases hQ
      rw [hc] at hd; cases hd
      rcases (hm v).1 hy with h | h
      · exact ⟨j, P, co, by rw [List.getElem?_append_left hj]; exact hP, hs, by rw [List.getElem?_append_left (by rw [List.length_set]; omega), List.getElem?_set_self (by omega)], h⟩
      · exact ⟨cl.length, P, cn, by simp, hs, by rw [hlen, List.getElem?_append_right (by simp)]; simp, h⟩
    · exact ⟨j, Q, d, by rw [List.getElem?_append_left hj]; exact hQ, hs, by rw [List.getElem?_append_left (by rw [List.length_set]; omega), List.getElem?_set_ne (Ne.symm e)]; exact hd, hy⟩

theorem CutShape.verts {σ : Nat → SignType} {c co cn : Cycle} (h : CutShape σ c co cn) (v : Nat) : (∃ y ∈ c, y.1 = v) ↔ (∃ y ∈ co, y.1 = v) ∨ ∃ y ∈ cn, y.1 = v := by
  obtain ⟨x, P, y, N, n, hr, -, -, -, -, -, -, h⟩ := h
  have hm : ∀ z, z ∈ c ↔ z ∈ (x :: P) ++ (y :: N) := fun z => hr.perm.mem_iff
  have key : (∃ y ∈ c, y.1 = v) ↔ (∃ z ∈ (y.1, n) :: x :: P, z.1 = v) ∨ ∃ z ∈ (x.1, n) :: y :: N, z.1 = v := by
    simp only [hm, List.mem_append, List.mem_cons, or_and_right, exists_or, exists_eq_left]
    grind
  rcases h with ⟨rfl, rfl⟩ | ⟨rfl, rfl⟩
  · exact key
  · rw [key]; exact or_comm

/-- The point `q` lies in cell `k`: on the inner side of the planes of all its faces. -/
def Region (pl : Nat → Aff K) (cl : List (Nat × Option Nat)) (k : Nat) (q : Pt K) : Prop := ∀ (i : Nat) (P : Nat × Option Nat), cl[i]? = some P → sg P k ≠ 0 → 0 ≤ (sg P k : K) * (pl i).ev q

theorem region_cut {pl : Nat → Aff K} {cl : List (Nat × Option Nat)} {f : Nat} {P : Nat × Option Nat} (hP : cl[f]? = some P) (k : Nat) (q : Pt K) :
    Region (Function.update pl cl.length (pl f)) (cl ++ [P]) k q ↔ Region pl cl k q := by
  constructor
  · intro h i Q hQ hs
    have hi := (List.getElem?_eq_some_iff.1 hQ).1
    have := h i Q (by rw [List.getElem?_append_left hi]; exact hQ) hs
    rwa [Function.update_of_ne (by omega)] at this
  · intro h i Q hQ hs
    by_cases hi : i < cl.length
    · rw [List.getElem?_append_left hi] at hQ
      rw [Function.update_of_ne (by omega)]
      exact h i Q hQ hs
    · have : i = cl.length := by
        have := (List.getElem?_eq_some_iff.1 hQ).1
        simp at this; omega
      subst this
      rw [List.getElem?_append_right le_rfl] at hQ
      simp at hQ
      subst hQ
      rw [Function.update_self]
      exact h f P hP hs

/-- The planes of the faces once the faces `fl` have been cut: each new face is appended and has the plane of the face it was cut from (`plane: old_face_data.plane`, `bsp_complex.rs` line 491). -/
def cutPlanes (pl : Nat → Aff K) : Nat → List Nat → Nat → Aff K
  | _, [] => pl
  | n, f :: fl => cutPlanes (Function.update pl n (pl f)) (n + 1) fl

/-- The faces stay as they should be when some are cut. -/
theorem FaceCuts.geo {σ : Nat → SignType} {cid : Nat} {cl cl' : List (Nat × Option Nat)} {fs fs' : List Cycle} {fl : List Nat} (hf : FaceCuts σ cid cl fs fl cl' fs') {pos : Nat → Pt K} {h : Aff K} :
    ∀ {pl : Nat → Aff K}, Geo pos pl cl fs → cl.length = fs.length → Across pos h σ cl fs cid →
      (Geo pos (cutPlanes pl cl.length fl) cl' fs' ∧ ∀ k q, Region (cutPlanes pl cl.length fl) cl' k q ↔ Region pl cl k q) ∧ cl'.length = fs'.length ∧ cl'.length = cl.length + fl.length ∧
        Across pos h σ cl' fs' cid ∧ ∀ k v, OfCell cl' fs' k v ↔ OfCell cl fs k v := by
  induction hf with
  | refl cl fs => exact fun {pl} g hl ha => ⟨⟨g, fun _ _ => Iff.rfl⟩, hl, rfl, ha, fun _ _ => Iff.rfl⟩
  | step hP hs hc hshape _ ih =>
    rename_i cl cl' fs fs' fl f P c co cn _
    intro pl g hl ha
    have hv : ∀ k v, OfCell (cl ++ [P]) (fs.set f co ++ [cn]) k v ↔ OfCell cl fs k v := fun k v => ofCell_cut hl hP hc hshape.verts
    have hof : ∀ z ∈ c, OfCell cl fs cid z.1 := fun z hz => ⟨f, P, c, hP, hs, hc, z, hz, rfl⟩
    obtain ⟨x, A, y, N, n, hr, hA0, hN0, hA, hN, hx, hy, hparts⟩ := hshape
    have hm : ∀ z, z ∈ c ↔ z ∈ (x :: A) ++ (y :: N) := fun z => hr.perm.mem_iff
    have hsg : ∀ z ∈ c, σ z.1 = SignType.sign (h.ev (pos z.1)) := fun z hz => ha.sgn _ (hof z hz)
    have g' := g.splitFace hl hP hc hr hA0 hN0 (h := h) (by
        have := hsg x ((hm x).2 (by simp)); rw [hx] at this; exact sign_eq_zero_iff.1 this.symm) (by
        have := hsg y ((hm y).2 (by simp)); rw [hy] at this; exact sign_eq_zero_iff.1 this.symm) (fun z hz => by
        have := hsg z ((hm z).2 (by simp [hz])); rw [hA z hz] at this; exact sign_eq_one_iff.1 this.symm) (fun z hz => by
        have := hsg z ((hm z).2 (by simp [hz])); rw [hN z hz] at this; exact sign_eq_neg_one_iff.1 this.symm) hparts
    obtain ⟨⟨h1, h1'⟩, h2, h2', h3, h4⟩ := ih g' (by simp [hl]) ⟨fun v hv' => ha.sgn v ((hv _ _).1 hv'), by
      obtain ⟨v, h1, h2⟩ := ha.up; exact ⟨v, (hv _ _).2 h1, h2⟩, by
      obtain ⟨v, h1, h2⟩ := ha.down; exact ⟨v, (hv _ _).2 h1, h2⟩⟩
    have e : cutPlanes (Function.update pl fs.length (pl f)) (cl ++ [P]).length fl = cutPlanes pl cl.length (f :: fl) := by rw [cutPlanes, hl, List.length_append, hl]; rfl
    rw [e] at h1 h1'
    exact ⟨⟨h1, fun k q => (h1' k q).trans (by rw [← hl]; exact region_cut hP k q)⟩, h2, by rw [h2']; simp; omega, h3, fun k v => (h4 k v).trans (hv k v)⟩

/-! ### The separating face -/

section
variable {cl : List (Nat × Option Nat)} {posL negL : List Nat} {cid n : Nat}

/-- The cells of the faces afterwards. -/
def given (cl : List (Nat × Option Nat)) (posL : List Nat) (cid n : Nat) : List (Nat × Option Nat) :=
  cl.mapIdx (fun i P => if i ∈ posL then renameCells cid n P else P) ++ [(n, some cid)]

theorem given_length : (given cl posL cid n).length = cl.length + 1 := by simp [given]

theorem given_old {i : Nat} {P : Nat × Option Nat} (h : cl[i]? = some P) : (given cl posL cid n)[i]? = some (if i ∈ posL then renameCells cid n P else P) := by
  have hi := (List.getElem?_eq_some_iff.1 h).1
  rw [given, List.getElem?_append_left (by simpa using hi), List.getElem?_mapIdx, h]; rfl

theorem given_new : (given cl posL cid n)[cl.length]? = some (n, some cid) := by
  rw [given, List.getElem?_append_right (by simp)]; simp

/-- Of which face of which cell before a face of a cell is a part. -/
theorem given_cases (hne : n ≠ cid) (hown : (posL ++ negL).Nodup) (hmem : ∀ (i : Nat) (P : Nat × Option Nat), cl[i]? = some P → (i ∈ posL ++ negL ↔ sg P cid ≠ 0))
    (hfresh : ∀ P ∈ cl, P.1 ≠ n ∧ P.2 ≠ some n) {k i : Nat} {P' : Nat × Option Nat} (h : (given cl posL cid n)[i]? = some P') (hs : sg P' k ≠ 0) :
    (∃ P, cl[i]? = some P ∧ sg P' k = sg P (if k = n then cid else k) ∧ (k = cid → i ∈ negL) ∧ (k = n → i ∈ posL)) ∨ (i = cl.length ∧ ((k = n ∧ sg P' k = 1) ∨ (k = cid ∧ sg P' k = -1))) := by
  by_cases hi : i < cl.length
  · left
    have hP := List.getElem?_eq_getElem hi
    rw [given_old hP] at h
    cases h
    refine ⟨_, hP, ?_⟩
    obtain ⟨f1, f2⟩ := hfresh _ (List.getElem_mem hi)
    by_cases hp : i ∈ posL
    · rw [if_pos hp] at hs ⊢
      by_cases h1 : k = n
      · subst h1
        rw [if_pos rfl, sg_rename_new f1 f2]
        exact ⟨rfl, fun e => absurd e hne, fun _ => hp⟩
      · rw [if_neg h1]
        by_cases h2 : k = cid
        · subst h2
          rw [sg_rename_old hne] at hs
          exact absurd rfl hs
        · exact ⟨sg_rename_other h2 h1, fun e => absurd e h2, fun e => absurd e h1⟩
    · rw [if_neg hp] at hs ⊢
      by_cases h1 : k = n
      · subst h1
        exact absurd (by simp [sg, f1, f2]) hs
      · rw [if_neg h1]
        refine ⟨rfl, fun e => ?_, fun e => absurd e h1⟩
        subst e
        exact (List.mem_append.1 ((hmem i _ hP).2 hs)).resolve_left hp
  · right
    have : i = cl.length := by
      have := (List.getElem?_eq_some_iff.1 h).1
      rw [given_length] at this; omega
    subst this
    rw [given_new] at h
    cases h
    refine ⟨rfl, ?_⟩
    by_cases h1 : k = n
    · subst h1
      exact Or.inl ⟨rfl, by simp [sg, hne.symm]⟩
    · by_cases h2 : k = cid
      · subst h2
        exact Or.inr ⟨rfl, by simp [sg, hne]⟩
      · exact absurd (by simp [sg, Ne.symm h1, Ne.symm h2]) hs

theorem given_pos {i : Nat} {P : Nat × Option Nat} (hfresh : ∀ P ∈ cl, P.1 ≠ n ∧ P.2 ≠ some n) (h : cl[i]? = some P) (hs : sg P cid ≠ 0) (hp : i ∈ posL) :
    ∃ P', (given cl posL cid n)[i]? = some P' ∧ sg P' n ≠ 0 := by
  obtain ⟨f1, f2⟩ := hfresh P (List.mem_of_getElem? h)
  exact ⟨_, given_old h, by rw [if_pos hp, sg_rename_new f1 f2]; exact hs⟩

theorem given_neg {i : Nat} {P : Nat × Option Nat} (h : cl[i]? = some P) (hs : sg P cid ≠ 0) (hp : i ∉ posL) : ∃ P', (given cl posL cid n)[i]? = some P' ∧ sg P' cid ≠ 0 :=
  ⟨_, given_old h, by rw [if_neg hp]; exact hs⟩

theorem given_other {k i : Nat} {P : Nat × Option Nat} (h : cl[i]? = some P) (hs : sg P k ≠ 0) (h1 : k ≠ cid) (h2 : k ≠ n) : ∃ P', (given cl posL cid n)[i]? = some P' ∧ sg P' k ≠ 0 := by
  refine ⟨_, given_old h, ?_⟩
  split
  · rw [sg_rename_other h1 h2]; exact hs
  · exact hs
end

/-- **The halves.** -/
theorem Geo.separate {pos : Nat → Pt K} {pl : Nat → Aff K} {h : Aff K} {σ : Nat → SignType} {cl : List (Nat × Option Nat)} {fs : List Cycle} {posL negL : List Nat} {cid n : Nat} (g : Geo pos pl cl fs)
    (hlen : cl.length = fs.length) (ha : Across pos h σ cl fs cid) (hne : n ≠ cid) (hown : (posL ++ negL).Nodup)
    (hmem : ∀ (i : Nat) (P : Nat × Option Nat), cl[i]? = some P → (i ∈ posL ++ negL ↔ sg P cid ≠ 0)) (hfresh : ∀ P ∈ cl, P.1 ≠ n ∧ P.2 ≠ some n)
    (hpos : ∀ i ∈ posL, SideOk σ fs i 1) (hneg : ∀ i ∈ negL, SideOk σ fs i (-1)) {Z : Cycle} (hZ : FaceOk pos h Z) (hZv : ∀ z ∈ Z, ∃ x, OfCell cl fs cid x ∧ pos x = pos z.1) :
    Geo pos (Function.update pl fs.length h) (given cl posL cid n) (fs ++ [Z]) := by
  have cell := g.cell hlen ha.up ha.down
  have hfs : ∀ {i : Nat}, i < fs.length → (fs ++ [Z])[i]? = fs[i]? := fun hi => List.getElem?_append_left hi
  have hlast : (fs ++ [Z])[fs.length]? = some Z := by simp
  have hpl : ∀ {i : Nat}, i < fs.length → Function.update pl fs.length h i = pl i := fun hi => Function.update_of_ne (by omega) _ _
  have hpl' : Function.update pl fs.length h fs.length = h := Function.update_self _ _ _
  have hsrcn : (if n = n then cid else n) = cid := if_pos rfl
  have hsrcc : (if cid = n then cid else cid) = cid := by split <;> rfl
  have hlt : ∀ {i : Nat} {P : Nat × Option Nat}, cl[i]? = some P → i < fs.length := fun hP => by rw [← hlen]; exact (List.getElem?_eq_some_iff.1 hP).1
  -- sides
  have hsign : ∀ {x : Nat}, OfCell cl fs cid x → (σ x ≠ -1 → 0 ≤ h.ev (pos x)) ∧ (σ x ≠ 1 → h.ev (pos x) ≤ 0) := by
    intro x hx
    have e := ha.sgn x hx
    constructor
    · intro h1
      by_contra h2
      exact h1 (by rw [e]; exact sign_eq_neg_one_iff.2 (not_le.1 h2))
    · intro h1
      by_contra h2
      exact h1 (by rw [e]; exact sign_eq_one_iff.2 (not_le.1 h2))
  have hposF : ∀ {i : Nat} {P : Nat × Option Nat} {c : Cycle}, cl[i]? = some P → sg P cid ≠ 0 → fs[i]? = some c → i ∈ posL → ∀ x ∈ c, 0 ≤ h.ev (pos x.1) := by
    intro i P c hP hs hc hi x hx
    obtain ⟨c', hc', h1⟩ := hpos i hi
    rw [hc] at hc'; cases hc'
    exact (hsign ⟨i, P, c, hP, hs, hc, x, hx, rfl⟩).1 (h1 x hx)
  have hnegF : ∀ {i : Nat} {P : Nat × Option Nat} {c : Cycle}, cl[i]? = some P → sg P cid ≠ 0 → fs[i]? = some c → i ∈ negL → ∀ x ∈ c, h.ev (pos x.1) ≤ 0 := by
    intro i P c hP hs hc hi x hx
    obtain ⟨c', hc', h1⟩ := hneg i hi
    rw [hc] at hc'; cases hc'
    exact (hsign ⟨i, P, c, hP, hs, hc, x, hx, rfl⟩).2 (by simpa using h1 x hx)
  have hof : ∀ k x, OfCell (given cl posL cid n) (fs ++ [Z]) k x →
      (∃ x', OfCell cl fs (if k = n then cid else k) x' ∧ pos x' = pos x) ∧ (k = n → 0 ≤ h.ev (pos x)) ∧ (k = cid → h.ev (pos x) ≤ 0) := by
    rintro k x ⟨i, P', d, hP', hs, hd, y, hy, rfl⟩
    rcases given_cases hne hown hmem hfresh hP' hs with ⟨P, hP, e, e1, e2⟩ | ⟨rfl, e⟩
    · have hi := hlt hP
      rw [hfs hi] at hd
      rw [e] at hs
      refine ⟨⟨y.1, ⟨i, P, d, hP, hs, hd, y, hy, rfl⟩, rfl⟩, ?_, ?_⟩
      · rintro rfl
        rw [hsrcn] at hs
        exact hposF hP hs hd (e2 rfl) y hy
      · rintro rfl
        rw [hsrcc] at hs
        exact hnegF hP hs hd (e1 rfl) y hy
    · rw [hlen, hlast] at hd
      cases hd
      have h0 := hZ.plane y hy
      refine ⟨?_, fun _ => h0.ge, fun _ => h0.le⟩
      rcases e with ⟨rfl, -⟩ | ⟨rfl, -⟩
      · rw [hsrcn]; exact hZv y hy
      · rw [hsrcc]; exact hZv y hy
  have hsepn : ∀ z ∈ Z, OfCell (given cl posL cid n) (fs ++ [Z]) n z.1 := fun z hz => ⟨cl.length, _, Z, given_new, by simp [sg, hne.symm], by rw [hlen]; exact hlast, z, hz, rfl⟩
  have hsepc : ∀ z ∈ Z, OfCell (given cl posL cid n) (fs ++ [Z]) cid z.1 := fun z hz => ⟨cl.length, _, Z, given_new, by simp [sg, hne], by rw [hlen]; exact hlast, z, hz, rfl⟩
  have hoff : ∀ {i : Nat} {P : Nat × Option Nat}, cl[i]? = some P → sg P cid ≠ 0 → ∃ z ∈ Z, (pl i).ev (pos z.1) ≠ 0 := by
    intro i P hP hs
    by_contra hcon
    push Not at hcon
    obtain ⟨μ, hμ⟩ := hZ.vanish hcon
    refine cell.not_mul (i := i) (by unfold cellF; rw [sgOf_some hP]; exact hs) ((sgOf cl cid i : K) * μ) fun q => ?_
    rw [cellA, Aff.smul_ev, hμ, mul_assoc]
  have hsepApart : ∀ {i : Nat} {P : Nat × Option Nat} {c : Cycle}, cl[i]? = some P → sg P cid ≠ 0 → fs[i]? = some c → (i ∈ posL ∨ i ∈ negL) → Apart pos c Z := by
    intro i P c hP hs hc hi
    obtain ⟨x, hx, hx0⟩ := g.face_ne hlen ha.up ha.down hP hs hc
    rcases hi with hi | hi
    · have h1 := hposF hP hs hc hi
      refine ⟨h.neg, fun y hy => ?_, fun y hy => ?_, Or.inl ⟨x, hx, ?_⟩⟩
      · rw [Aff.neg_ev]; have := h1 y hy; linarith
      · rw [Aff.neg_ev, hZ.plane y hy, neg_zero]
      · rw [Aff.neg_ev]
        have := lt_of_le_of_ne (h1 x hx) hx0.symm
        linarith
    · have h1 := hnegF hP hs hc hi
      exact ⟨h, h1, fun y hy => (hZ.plane y hy).ge, Or.inl ⟨x, hx, lt_of_le_of_ne (h1 x hx) hx0⟩⟩
  refine ⟨?_, ?_, ?_, ?_⟩
  · intro i c hc
    by_cases hi : i < fs.length
    · rw [hfs hi] at hc
      rw [hpl hi]
      exact g.face i c hc
    · have : i = fs.length := by
        have := (List.getElem?_eq_some_iff.1 hc).1
        simp at this; omega
      subst this
      rw [hlast] at hc; cases hc
      rw [hpl']; exact hZ
  · intro k i P' hP' hs x hx
    obtain ⟨⟨x', hx', ex⟩, s1, s2⟩ := hof k x hx
    rcases given_cases hne hown hmem hfresh hP' hs with ⟨P, hP, e, -⟩ | ⟨rfl, e⟩
    · rw [hpl (hlt hP), e, ← ex]
      exact g.side _ i P hP (by rw [← e]; exact hs) x' hx'
    · rw [hlen, hpl']
      rcases e with ⟨rfl, e⟩ | ⟨rfl, e⟩
      · rw [e]; simpa using s1 rfl
      · rw [e]; simpa using s2 rfl
  · intro k i P' hP' hs
    rcases given_cases hne hown hmem hfresh hP' hs with ⟨P, hP, e, -⟩ | ⟨rfl, e⟩
    · rw [hpl (hlt hP)]
      rw [e] at hs
      by_cases h1 : k = n
      · subst h1
        rw [hsrcn] at hs
        obtain ⟨z, hz, hz0⟩ := hoff hP hs
        exact ⟨z.1, hsepn z hz, hz0⟩
      · rw [if_neg h1] at hs
        by_cases h2 : k = cid
        · subst h2
          obtain ⟨z, hz, hz0⟩ := hoff hP hs
          exact ⟨z.1, hsepc z hz, hz0⟩
        · obtain ⟨x, ⟨j, Q, d, hQ, hsQ, hd, hy⟩, hx0⟩ := g.strict k i P hP hs
          obtain ⟨Q', hQ', hsQ'⟩ := given_other (posL := posL) hQ hsQ h2 h1
          exact ⟨x, ⟨j, Q', d, hQ', hsQ', by rw [hfs (hlt hQ)]; exact hd, hy⟩, hx0⟩
    · rw [hlen, hpl']
      rcases e with ⟨rfl, -⟩ | ⟨rfl, -⟩
      · obtain ⟨x, ⟨j, Q, d, hQ, hsQ, hd, y, hy, rfl⟩, hx0⟩ := ha.up
        have hj : j ∈ posL := by
          refine (List.mem_append.1 ((hmem j Q hQ).2 hsQ)).resolve_right fun hj => ?_
          have := hnegF hQ hsQ hd hj y hy
          linarith
        obtain ⟨Q', hQ', hsQ'⟩ := given_pos (posL := posL) hfresh hQ hsQ hj
        exact ⟨y.1, ⟨j, Q', d, hQ', hsQ', by rw [hfs (hlt hQ)]; exact hd, y, hy, rfl⟩, hx0.ne'⟩
      · obtain ⟨x, ⟨j, Q, d, hQ, hsQ, hd, y, hy, rfl⟩, hx0⟩ := ha.down
        have hj : j ∉ posL := fun hj => by
          have := hposF hQ hsQ hd hj y hy
          linarith
        obtain ⟨Q', hQ', hsQ'⟩ := given_neg (n := n) hQ hsQ hj
        exact ⟨y.1, ⟨j, Q', d, hQ', hsQ', by rw [hfs (hlt hQ)]; exact hd, y, hy, rfl⟩, hx0.ne⟩
  · intro k i P' j Q' c d hP' hs hQ' hs' hij hc hd
    have sep : ∀ {i : Nat} {P' : Nat × Option Nat} {P : Nat × Option Nat} {c : Cycle}, cl[i]? = some P → sg P' k = sg P (if k = n then cid else k) → sg P' k ≠ 0 → (k = cid → i ∈ negL) → (k = n → i ∈ posL) →
        (k = n ∨ k = cid) → fs[i]? = some c → Apart pos c Z := by
      intro i P' P c hP e hs e1 e2 hk hc
      rw [e] at hs
      rcases hk with rfl | rfl
      · rw [hsrcn] at hs
        exact hsepApart hP hs hc (Or.inl (e2 rfl))
      · rw [hsrcc] at hs
        exact hsepApart hP hs hc (Or.inr (e1 rfl))
    rcases given_cases hne hown hmem hfresh hP' hs with ⟨P, hP, e, e1, e2⟩ | ⟨rfl, e⟩
    · rw [hfs (hlt hP)] at hc
      rcases given_cases hne hown hmem hfresh hQ' hs' with ⟨Q, hQ, e', -⟩ | ⟨rfl, e'⟩
      · rw [hfs (hlt hQ)] at hd
        exact g.apart _ i P j Q c d hP (by rw [← e]; exact hs) hQ (by rw [← e']; exact hs') hij hc hd
      · rw [hlen, hlast] at hd; cases hd
        exact sep hP e hs e1 e2 (e'.imp And.left And.left) hc
    · rw [hlen, hlast] at hc; cases hc
      rcases given_cases hne hown hmem hfresh hQ' hs' with ⟨Q, hQ, e', e1, e2⟩ | ⟨rfl, e'⟩
      · rw [hfs (hlt hQ)] at hd
        exact (sep hQ e' hs' e1 e2 (e.imp And.left And.left) hd).symm
      · exact absurd rfl hij

/-- Points of the cell on one side of the plane lie in the half, and the other cells stay the same. -/
theorem region_given {pl : Nat → Aff K} {h : Aff K} {cl : List (Nat × Option Nat)} {posL negL : List Nat} {cid n : Nat} (hne : n ≠ cid) (hown : (posL ++ negL).Nodup)
    (hmem : ∀ (i : Nat) (P : Nat × Option Nat), cl[i]? = some P → (i ∈ posL ++ negL ↔ sg P cid ≠ 0)) (hfresh : ∀ P ∈ cl, P.1 ≠ n ∧ P.2 ≠ some n) (q : Pt K) :
    (Region pl cl cid q → h.ev q ≤ 0 → Region (Function.update pl cl.length h) (given cl posL cid n) cid q) ∧
      (Region pl cl cid q → 0 ≤ h.ev q → Region (Function.update pl cl.length h) (given cl posL cid n) n q) ∧
      (Region (Function.update pl cl.length h) (given cl posL cid n) cid q → h.ev q ≤ 0) ∧
      (Region (Function.update pl cl.length h) (given cl posL cid n) n q → 0 ≤ h.ev q) ∧
      ∀ k, k ≠ cid → k ≠ n → (Region (Function.update pl cl.length h) (given cl posL cid n) k q ↔ Region pl cl k q) := by
  have hpl : ∀ {i : Nat} {P : Nat × Option Nat}, cl[i]? = some P → Function.update pl cl.length h i = pl i := fun hP =>
    Function.update_of_ne (by have := (List.getElem?_eq_some_iff.1 hP).1; omega) _ _
  have main : ∀ k, Region pl cl (if k = n then cid else k) q → (k = cid → h.ev q ≤ 0) → (k = n → 0 ≤ h.ev q) → Region (Function.update pl cl.length h) (given cl posL cid n) k q := by
    intro k hr h1 h2 i P' hP' hs
    rcases given_cases hne hown hmem hfresh hP' hs with ⟨P, hP, e, -⟩ | ⟨rfl, ⟨rfl, e⟩ | ⟨rfl, e⟩⟩
    · rw [hpl hP, e]
      exact hr i P hP (by rw [← e]; exact hs)
    · rw [e, Function.update_self]; simpa using h2 rfl
    · rw [e, Function.update_self]; simpa using h1 rfl
  refine ⟨fun hr h1 => main cid (by split <;> exact hr) (fun _ => h1) (fun e => absurd e.symm hne), fun hr h1 => main n (by rw [if_pos rfl]; exact hr) (fun e => absurd e hne) (fun _ => h1), ?_, ?_, ?_⟩
  · intro hr
    have := hr _ _ given_new (by simp [sg, hne])
    rw [Function.update_self] at this
    simpa [sg, hne] using this
  · intro hr
    have := hr _ _ given_new (by simp [sg, hne.symm])
    rw [Function.update_self] at this
    simpa [sg, hne.symm] using this
  · intro k h1 h2
    constructor
    · intro hr i P hP hs
      have := hr i _ (given_old hP)
      have e : sg (if i ∈ posL then renameCells cid n P else P) k = sg P k := by
        split
        · exact sg_rename_other h1 h2
        · rfl
      rw [e, hpl hP] at this
      exact this hs
    · intro hr
      exact main k (by rw [if_neg h2]; exact hr) (fun e => absurd e h1) (fun e => absurd e h2)

end Verif.Bsp
