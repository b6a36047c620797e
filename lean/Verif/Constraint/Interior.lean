import Verif.Constraint.Inner
/-!
# C88, C89: what `interior_intersections` marks
-/
namespace Verif.Constraint
open InSphere (Pt Ori orient3d doubleToSign)
open Tet (Mesh TriFace face)
open Delaunay (Comb SolidTet)
open Geom

variable {K : Type} [Field K] [LinearOrder K] {m : Mesh} {pts : List (Pt K)} {v : Nat × Nat × Nat} {cid : Nat}

/-- Tetrahedra with the property `P`, outside of `S`, that hang together with `S` by faces of such tetrahedra. -/
inductive Spread (m : Mesh) (S P : Nat → Prop) : Nat → Prop
  | first {t x f h} : S t → m.tets[t]? = some x → x.nei f = some h → ¬ S h.tet → P h.tet → Spread m S P h.tet
  | next {t x f h} : Spread m S P t → m.tets[t]? = some x → x.nei f = some h → ¬ S h.tet → P h.tet → Spread m S P h.tet

theorem Spread.not_seed {S P : Nat → Prop} {t : Nat} (h : Spread m S P t) : ¬ S t ∧ P t := by
  cases h <;> exact ⟨by assumption, by assumption⟩

/-- Has the tetrahedron a type under 5? -/
def Hit (m : Mesh) (pts : List (Pt K)) (v : Nat × Nat × Nat) (t : Nat) : Prop := ∃ k < 5, tetType m pts v t = some k

/-- State of the loop: `S` are the tetrahedra at the start, `marks0` the marks at the start. -/
structure Run (m : Mesh) (pts : List (Pt K)) (v : Nat × Nat × Nat) (cid : Nat) (S : List Nat) (marks0 : List Mark) (s : Info) (marks : List Mark) : Prop where
  seed : ∀ t ∈ S, t ∈ s.intersected
  seen : ∀ t ∈ s.intersected, t ∈ s.visited
  why : ∀ t ∈ s.visited, t ∈ s.intersected ∨ ∃ k, 5 ≤ k ∧ tetType m pts v t = some k
  reach : ∀ t ∈ s.intersected, t ∈ S ∨ Spread m (· ∈ S) (Hit m pts v) t
  exact : ∀ k t c, Mark.mk k t c ∈ marks ↔ Mark.mk k t c ∈ marks0 ∨ (c = cid ∧ t ∈ s.intersected ∧ t ∉ S ∧ tetType m pts v t = some k)

theorem interiorFaces_run {S : List Nat} {marks0 : List Mark} {x : Tet.Tet} {t : Nat} (hx : m.tets[t]? = some x) :
    ∀ (fs : List (Fin 4)) (s : Info) (marks : List Mark) (s' : Info) (marks' : List Mark), t ∈ s.intersected → Run m pts v cid S marks0 s marks →
      interiorFaces m pts v cid x fs s marks = some (s', marks') →
      Run m pts v cid S marks0 s' marks' ∧ (∃ l, s'.intersected = s.intersected ++ l) ∧ (∀ t ∈ s.visited, t ∈ s'.visited) ∧ ∀ f ∈ fs, ∃ h, x.nei f = some h ∧ h.tet ∈ s'.visited
  | [], s, marks, s', marks', _, hr, e => by
    simp only [interiorFaces, Option.some.injEq, Prod.mk.injEq] at e
    obtain ⟨rfl, rfl⟩ := e
    exact ⟨hr, ⟨[], by simp⟩, fun _ h => h, by simp⟩
  | f :: fs, s, marks, s', marks', ht, hr, e => by
    simp only [interiorFaces, Option.bind_eq_bind, Option.bind_eq_some_iff] at e
    obtain ⟨h, eh, e⟩ := e
    split at e
    · next hv =>
      obtain ⟨r, a, b, c⟩ := interiorFaces_run hx fs s marks s' marks' ht hr e
      refine ⟨r, a, b, fun g hg => ?_⟩
      rcases List.mem_cons.1 hg with rfl | hg
      · exact ⟨h, eh, b _ hv⟩
      · exact c g hg
    · next hv =>
      simp only [Option.bind_eq_some_iff] at e
      obtain ⟨k, ek, e⟩ := e
      have hS : h.tet ∉ S := fun h' => hv (hr.seen _ (hr.seed _ h'))
      have hI : h.tet ∉ s.intersected := fun h' => hv (hr.seen _ h')
      split at e
      · next hk =>
        have sp : Spread m (· ∈ S) (Hit m pts v) h.tet := by
          rcases hr.reach t ht with h' | h'
          · exact .first h' hx eh hS ⟨k, hk, ek⟩
          · exact .next h' hx eh hS ⟨k, hk, ek⟩
        have hr' : Run m pts v cid S marks0 ⟨s.intersected ++ [h.tet], h.tet :: s.visited⟩ (marks ++ [⟨k, h.tet, cid⟩]) := by
          refine ⟨fun t ht => List.mem_append_left _ (hr.seed t ht), fun t ht => ?_, fun t ht => ?_, fun t ht => ?_, fun k' t c => ?_⟩
          · rcases List.mem_append.1 ht with h' | h'
            · exact List.mem_cons_of_mem _ (hr.seen t h')
            · rw [List.mem_singleton.1 h']; exact List.mem_cons_self
          · rcases List.mem_cons.1 ht with rfl | h'
            · exact .inl (by simp)
            · rcases hr.why t h' with h' | h'
              · exact .inl (List.mem_append_left _ h')
              · exact .inr h'
          · rcases List.mem_append.1 ht with h' | h'
            · exact hr.reach t h'
            · rw [List.mem_singleton.1 h']; exact .inr sp
          · rw [List.mem_append, hr.exact, List.mem_singleton, Mark.mk.injEq]
            constructor
            · rintro ((h' | ⟨h1, h2, h3⟩) | ⟨rfl, rfl, rfl⟩)
              · exact .inl h'
              · exact .inr ⟨h1, List.mem_append_left _ h2, h3⟩
              · exact .inr ⟨rfl, by simp, hS, ek⟩
            · rintro (h' | ⟨h1, h2, h3, h4⟩)
              · exact .inl (.inl h')
              · rcases List.mem_append.1 h2 with h' | h'
                · exact .inl (.inr ⟨h1, h', h3, h4⟩)
                · rw [List.mem_singleton.1 h'] at h4
                  rw [ek, Option.some.injEq] at h4
                  exact .inr ⟨h4.symm, List.mem_singleton.1 h', h1⟩
        obtain ⟨r, ⟨l, a⟩, b, c⟩ := interiorFaces_run hx fs _ _ s' marks' (List.mem_append_left _ ht) hr' e
        refine ⟨r, ⟨h.tet :: l, by rw [a]; simp⟩, fun t ht => b t (List.mem_cons_of_mem _ ht), fun g hg => ?_⟩
        rcases List.mem_cons.1 hg with rfl | hg
        · exact ⟨h, eh, b _ List.mem_cons_self⟩
        · exact c g hg
      · next hk =>
        have hr' : Run m pts v cid S marks0 { s with visited := h.tet :: s.visited } marks := by
          refine ⟨hr.seed, fun t ht => List.mem_cons_of_mem _ (hr.seen t ht), fun t ht => ?_, hr.reach, hr.exact⟩
          rcases List.mem_cons.1 ht with rfl | h'
          · exact .inr ⟨k, by omega, ek⟩
          · exact hr.why t h'
        obtain ⟨r, a, b, c⟩ := interiorFaces_run hx fs { s with visited := h.tet :: s.visited } _ s' marks' ht hr' e
        refine ⟨r, a, fun t ht => b t (List.mem_cons_of_mem _ ht), fun g hg => ?_⟩
        rcases List.mem_cons.1 hg with rfl | hg
        · exact ⟨h, eh, b _ List.mem_cons_self⟩
        · exact c g hg

theorem interiorLoop_run {S : List Nat} {marks0 : List Mark} : ∀ (fuel idx : Nat) (s : Info) (marks : List Mark) (s' : Info) (marks' : List Mark),
    Run m pts v cid S marks0 s marks →
    (∀ i < idx, ∀ t, s.intersected[i]? = some t → ∃ x, m.tets[t]? = some x ∧ ∀ f, ∃ h, x.nei f = some h ∧ h.tet ∈ s.visited) →
    interiorLoop m pts v cid fuel idx s marks = some (s', marks') →
    Run m pts v cid S marks0 s' marks' ∧ ∀ t ∈ s'.intersected, ∃ x, m.tets[t]? = some x ∧ ∀ f, ∃ h, x.nei f = some h ∧ h.tet ∈ s'.visited
  | 0, _, _, _, _, _, _, _, e => by simp [interiorLoop] at e
  | fuel + 1, idx, s, marks, s', marks', hr, hd, e => by
    rw [interiorLoop] at e
    split at e
    · next hi =>
      simp only [Option.bind_eq_bind, Option.bind_eq_some_iff] at e
      obtain ⟨t, et, x, ex, ⟨s1, marks1⟩, e1, e⟩ := e
      have ht : t ∈ s.intersected := List.mem_of_getElem? et
      obtain ⟨r, ⟨l, a⟩, b, c⟩ := interiorFaces_run ex _ _ _ _ _ ht hr e1
      refine interiorLoop_run fuel (idx + 1) s1 marks1 s' marks' r (fun i hi' t' et' => ?_) e
      rw [a, List.getElem?_append_left (by omega)] at et'
      by_cases h : i = idx
      · subst h
        rw [et, Option.some.injEq] at et'
        subst et'
        exact ⟨x, ex, fun f => c f (by fin_cases f <;> simp)⟩
      · obtain ⟨y, ey, hy⟩ := hd i (by omega) t' et'
        refine ⟨y, ey, fun f => ?_⟩
        obtain ⟨h, h1, h2⟩ := hy f
        exact ⟨h, h1, b _ h2⟩
    · next hi =>
      simp only [Option.some.injEq, Prod.mk.injEq] at e
      obtain ⟨rfl, rfl⟩ := e
      refine ⟨hr, fun t ht => ?_⟩
      obtain ⟨i, hl, e⟩ := List.mem_iff_getElem.1 ht
      exact hd i (by omega) t (by rw [List.getElem?_eq_getElem hl, e])

/-- Exactly the tetrahedra of a type under 5 that hang together with the start by faces are marked. -/
theorem interiorLoop_exact {S V : List Nat} (hV : ∀ t, t ∈ V ↔ t ∈ S) {marks0 marks : List Mark} {fuel : Nat} {s' : Info}
    (e : interiorLoop m pts v cid fuel 0 ⟨S, V⟩ marks0 = some (s', marks)) (k t c : Nat) :
    Mark.mk k t c ∈ marks ↔ Mark.mk k t c ∈ marks0 ∨ (c = cid ∧ Spread m (· ∈ S) (Hit m pts v) t ∧ tetType m pts v t = some k) := by
  have h0 : Run m pts v cid S marks0 ⟨S, V⟩ marks0 :=
    ⟨fun _ h => h, fun t h => (hV t).2 h, fun t h => .inl ((hV t).1 h), fun t h => .inl h, fun k t c => ⟨.inl, fun h => h.elim id fun h => absurd h.2.1 h.2.2.1⟩⟩
  obtain ⟨r, d⟩ := interiorLoop_run fuel 0 _ _ _ _ h0 (by simp) e
  rw [r.exact]
  have all : ∀ t, Spread m (· ∈ S) (Hit m pts v) t → t ∈ s'.intersected := by
    intro t h
    have key : ∀ {t x f h}, t ∈ s'.intersected → m.tets[t]? = some x → x.nei f = some h → Hit m pts v h.tet → h.tet ∈ s'.intersected := by
      intro t x f h ht hx hf hh
      obtain ⟨y, ey, hy⟩ := d t ht
      rw [hx, Option.some.injEq] at ey
      subst ey
      obtain ⟨h', e1, e2⟩ := hy f
      rw [hf, Option.some.injEq] at e1
      subst e1
      rcases r.why _ e2 with h' | ⟨k, h5, ek⟩
      · exact h'
      · obtain ⟨k', h5', ek'⟩ := hh
        rw [ek, Option.some.injEq] at ek'
        omega
    induction h with
    | first hS hx hf _ hP => exact key (r.seed _ hS) hx hf hP
    | next _ hx hf _ hP ih => exact key ih hx hf hP
  refine or_congr Iff.rfl (and_congr Iff.rfl ⟨fun ⟨h1, h2, h3⟩ => ⟨(r.reach t h1).resolve_left h2, h3⟩, fun ⟨h1, h2⟩ => ⟨all t h1, h1.not_seed.1, h2⟩⟩)

/-- The constraint cuts through the tetrahedron or contains one of its faces. -/
def Meets (pts : List (Pt K)) (m : Mesh) (A B C : Pt K) (t : Nat) : Prop := ∃ c, SolidTet pts m t c ∧ (Crossed c A B C ∨ ∃ i, FaceIn c i A B C)

theorem solid_unique {t : Nat} {c c' : Fin 4 → Pt K} (h : SolidTet pts m t c) (h' : SolidTet pts m t c') : c = c' := by
  obtain ⟨x, hx, -, hc⟩ := h
  obtain ⟨x', hx', -, hc'⟩ := h'
  rw [hx, Option.some.injEq] at hx'
  subst hx'
  funext i
  have := hc i
  rw [hc' i, Option.some.injEq] at this
  exact this.symm

theorem solid_or_ghost (hD : Delaunay.IsDelaunay pts m) {t : Nat} {x : Tet.Tet} (hx : m.tets[t]? = some x) : x.data 3 = m.nPoints ∨ ∃ c, SolidTet pts m t c := by
  by_cases h : x.data 3 = m.nPoints
  · exact .inl h
  · refine .inr ?_
    have hn := hD.num
    obtain ⟨h0, h1, h2, h3⟩ := hD.point t x hx
    have h3 : x.data 3 < pts.length := by omega
    refine ⟨![pts[x.data 0], pts[x.data 1], pts[x.data 2], pts[x.data 3]], x, hx, by omega, fun i => ?_⟩
    fin_cases i <;> simp

variable [IsStrictOrderedRing K] {A B C : Pt K}

theorem hit_iff (hD : Delaunay.IsDelaunay pts m) (hv : Vertices pts v A B C) (hn : ¬ Collinear A B C) {t k : Nat}
    (ht : ∀ c, SolidTet pts m t c → ¬ Touched c A B C) (hk : k < 5) (e : tetType m pts v t = some k) :
    ∃ c, SolidTet pts m t c ∧ (k = 4 → Crossed c A B C) ∧ ∀ i : Fin 4, k = i.val → FaceIn c i A B C := by
  obtain ⟨x, hx⟩ : ∃ x, m.tets[t]? = some x := by
    cases h : m.tets[t]? with
    | none => simp [tetType, Tet.Mesh.isHull, h] at e
    | some x => exact ⟨x, rfl⟩
  rcases solid_or_ghost hD hx with h | ⟨c, hc⟩
  · rw [c87_ghost m pts v t x hx h, Option.some.injEq] at e
    omega
  · obtain ⟨k', e', -, h4, hf⟩ := c87_tet_type m pts v hD.num hv hn t hc (hD.sphere t c hc).1.ne (ht c hc)
    rw [e, Option.some.injEq] at e'
    subst e'
    exact ⟨c, hc, h4.1, fun i => (hf i).1⟩

theorem meets_hit (hD : Delaunay.IsDelaunay pts m) (hv : Vertices pts v A B C) (hn : ¬ Collinear A B C) {t : Nat}
    (ht : ∀ c, SolidTet pts m t c → ¬ Touched c A B C) (h : Meets pts m A B C t) : Hit m pts v t := by
  obtain ⟨c, hc, h⟩ := h
  obtain ⟨k, e, -, h4, hf⟩ := c87_tet_type m pts v hD.num hv hn t hc (hD.sphere t c hc).1.ne (ht c hc)
  refine ⟨k, ?_, e⟩
  rcases h with h | ⟨i, h⟩
  · have := h4.2 h; omega
  · have := (hf i).2 h; omega

/-- C88. `interior_intersections` marks all the tetrahedra that the constraint cuts through, or that have a face in it, and that hang together by
faces of such tetrahedra with those that a side touches. Missing: tetrahedra that hang together with these by edges or vertices only (`c88_hole`) and
the ones that a side touches (`c88_quad`). -/
theorem c88_interior_partial (hD : Delaunay.IsDelaunay pts m) (hv : Vertices pts v A B C) (hn : ¬ Collinear A B C) {S V : List Nat} (hV : ∀ t, t ∈ V ↔ t ∈ S)
    (hS : ∀ t c, SolidTet pts m t c → Touched c A B C → t ∈ S) {marks0 marks : List Mark} {fuel : Nat} {s' : Info}
    (e : interiorLoop m pts v cid fuel 0 ⟨S, V⟩ marks0 = some (s', marks)) (t : Nat) (c : Fin 4 → Pt K) (hc : SolidTet pts m t c)
    (h : Spread m (· ∈ S) (Meets pts m A B C) t) :
    (Crossed c A B C → cid ∈ marksAt marks 4 t) ∧ ∀ i : Fin 4, FaceIn c i A B C → cid ∈ marksAt marks i t := by
  have far : ∀ {t}, t ∉ S → ∀ c, SolidTet pts m t c → ¬ Touched c A B C := fun ht c hc h => ht (hS _ c hc h)
  have sp : Spread m (· ∈ S) (Hit m pts v) t := by
    clear hc
    induction h with
    | first h1 h2 h3 h4 h5 => exact .first h1 h2 h3 h4 (meets_hit hD hv hn (far h4) h5)
    | next _ h2 h3 h4 h5 ih => exact .next ih h2 h3 h4 (meets_hit hD hv hn (far h4) h5)
  obtain ⟨k, e', -, h4, hf⟩ := c87_tet_type m pts v hD.num hv hn t hc (hD.sphere t c hc).1.ne (far h.not_seed.1 c hc)
  have mk := (interiorLoop_exact hV e k t cid).2 (.inr ⟨rfl, sp, e'⟩)
  have key : ∀ k', k = k' → cid ∈ marksAt marks k' t := by
    rintro _ rfl
    simp only [marksAt, List.mem_map, List.mem_filter]
    exact ⟨_, ⟨mk, by simp⟩, rfl⟩
  exact ⟨fun h => key 4 (h4.2 h), fun i h => key i ((hf i).2 h)⟩

/-- C89. The marks that `interior_intersections` makes are true. Missing: the marks made for tetrahedra that a side touches (`c89_beyond`). -/
theorem c89_interior_partial (hD : Delaunay.IsDelaunay pts m) (hv : Vertices pts v A B C) (hn : ¬ Collinear A B C) {S V : List Nat} (hV : ∀ t, t ∈ V ↔ t ∈ S)
    (hS : ∀ t c, SolidTet pts m t c → Touched c A B C → t ∈ S) {marks0 marks : List Mark} {fuel : Nat} {s' : Info}
    (e : interiorLoop m pts v cid fuel 0 ⟨S, V⟩ marks0 = some (s', marks)) (k : Nat) (t c : Nat) (hk : Mark.mk k t c ∈ marks) (h0 : Mark.mk k t c ∉ marks0) :
    c = cid ∧ k < 5 ∧ ∃ c, SolidTet pts m t c ∧ (k = 4 → Crossed c A B C) ∧ ∀ i : Fin 4, k = i.val → FaceIn c i A B C := by
  obtain ⟨hc, sp, ek⟩ := ((interiorLoop_exact hV e k t c).1 hk).resolve_left h0
  obtain ⟨k', h5, ek'⟩ := sp.not_seed.2
  rw [ek, Option.some.injEq] at ek'
  subst ek'
  exact ⟨hc, h5, hit_iff hD hv hn (fun c hc h => sp.not_seed.1 (hS t c hc h)) h5 ek⟩

end Verif.Constraint
