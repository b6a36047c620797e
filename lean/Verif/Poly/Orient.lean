import Verif.Pred.Props
import Verif.Geom.Axis
import Verif.InSphere.Props
import Verif.Float.Model
import Mathlib.Tactic.LinearCombination
/-!
# The cache of orientations: `verts_orient_wrt_plane`, `is_point_built_from_plane` (`src/polygonlization/bsp_complex.rs` lines 1429-1518)
and the copies made by `split_cell` for coplanar triangles (lines 268-283)
-/
namespace Verif.Poly
open InSphere (Pt Ori doubleToSign)
open Geom (lerp Coplanar comb)
open Pred (Point Rep Env side turn)

variable {K : Type} [Field K] [LinearOrder K]

/-- `HashMap<VertexId, Orientation>`. -/
abbrev Cache := List (Nat × Ori)

/-- `is_point_built_from_plane` (lines 1486-1518). -/
def builtFromPlane (p : Point K) (pa pb pc : Pt K) : Bool :=
  match p with
  | .explicit p => p == pa || p == pb || p == pc
  | .lpi l =>
    ((pa == l.p && pb == l.q) || (pb == l.p && pa == l.q)) || ((pb == l.p && pc == l.q) || (pc == l.p && pb == l.q))
      || ((pc == l.p && pa == l.q) || (pa == l.p && pc == l.q)) || (pa == l.r && pb == l.s && pc == l.t)
  | .tpi t =>
    (pa == t.v1 && pb == t.v2 && pc == t.v3) || (pa == t.w1 && pb == t.w2 && pc == t.w3) || (pa == t.u1 && pb == t.u2 && pc == t.u3)

/-- The three shortcuts for a vertex inside a segment (lines 1462-1475), from the orientations of the two parents. -/
def shortcut (oa ob : Ori) : Option Ori := if oa = ob then some oa else if oa = .zero then some ob else if ob = .zero then some oa else none

/-- The value computed when no shortcut applies (lines 1478-1482). -/
def evaluate (E : Env K) (pa pb pc : Pt K) (p : Point K) : Option Ori :=
  if builtFromPlane p pa pb pc then some .zero else Pred.orient3d E (.explicit pa) (.explicit pb) (.explicit pc) p

/-- Lines 1450-1460: if one parent has no entry, process both. -/
def ensure (f : Cache → Nat → Option Cache) (a b : Nat) (c : Cache) : Option Cache :=
  if (c.lookup a).isNone || (c.lookup b).isNone then [a, b].foldlM f c else some c

/-- One round of the loop of `verts_orient_wrt_plane` (lines 1444-1483). Lookup in the list finds the newest entry. `fuel` bounds the depth of
the recursion. -/
def orientVert (E : Env K) (pa pb pc : Pt K) (points : List (Point K)) (parents : List (Nat × Nat)) : Nat → Cache → Nat → Option Cache
  | 0, _, _ => none
  | fuel + 1, c, v =>
    if (c.lookup v).isSome then some c
    else do
      let vp ← parents[v]?
      let p ← points[v]?
      if v ≠ vp.1 then
        let c ← ensure (orientVert E pa pb pc points parents fuel) vp.1 vp.2 c
        let oa ← c.lookup vp.1
        let ob ← c.lookup vp.2
        match shortcut oa ob with
        | some o => pure ((v, o) :: c)
        | none => pure ((v, ← evaluate E pa pb pc p) :: c)
      else pure ((v, ← evaluate E pa pb pc p) :: c)

/-- `verts_orient_wrt_plane` (lines 1429-1484); the three points of the plane are explicit (`explicit().unwrap()`). -/
def vertsOrient (E : Env K) (pa pb pc : Pt K) (points : List (Point K)) (parents : List (Nat × Nat)) (fuel : Nat) (verts : List Nat) (c : Cache) : Option Cache :=
  verts.foldlM (orientVert E pa pb pc points parents fuel) c

/-! ### Specification -/

/-- `loc` gives the position of every vertex: it is what the stored point represents, and a vertex with parents lies strictly between
two older vertices (`split_edge` in `split_cell`, lines 383-401). -/
structure Genealogy (points : List (Point K)) (parents : List (Nat × Nat)) (loc : Nat → Pt K) : Prop where
  len : parents.length = points.length
  rep : ∀ v p, points[v]? = some p → Rep p (loc v)
  mid : ∀ v vp, parents[v]? = some vp → v ≠ vp.1 → vp.1 < v ∧ vp.2 < v ∧ ∃ t, 0 < t ∧ t < 1 ∧ loc v = lerp (loc vp.1) (loc vp.2) t

/-- Every stored orientation is the exact one. -/
def CacheSound (pa pb pc : Pt K) (loc : Nat → Pt K) (c : Cache) : Prop := ∀ v o, c.lookup v = some o → o = side pa pb pc (loc v)

/-! ### Proofs -/

omit [LinearOrder K] in
theorem orient_lerp (a b c p q : Pt K) (t : K) :
    InSphere.orient3d a b c (lerp p q t) = (1 - t) * InSphere.orient3d a b c p + t * InSphere.orient3d a b c q := by
  simp only [InSphere.orient3d, lerp]; ring

omit [LinearOrder K] in
theorem orient_comb (a b c a' b' c' : Pt K) (u1 u2 u3 v1 v2 v3 w1 w2 w3 : K) (x : Pt K) (hu : u1 + u2 + u3 = 1) (hv : v1 + v2 + v3 = 1) (hw : w1 + w2 + w3 = 1)
    (ha : a' = comb u1 u2 u3 a b c) (hb : b' = comb v1 v2 v3 a b c) (hc : c' = comb w1 w2 w3 a b c) :
    InSphere.orient3d a' b' c' x = (u1 * (v2 * w3 - v3 * w2) - u2 * (v1 * w3 - v3 * w1) + u3 * (v1 * w2 - v2 * w1)) * InSphere.orient3d a b c x := by
  have e1 : u3 = 1 - u1 - u2 := by linear_combination hu
  have e2 : v3 = 1 - v1 - v2 := by linear_combination hv
  have e3 : w3 = 1 - w1 - w2 := by linear_combination hw
  subst e1 e2 e3 ha hb hc
  simp only [InSphere.orient3d, comb]; ring

omit [LinearOrder K] in
theorem orient2d_comb (axis : Nat) (a b c : Pt K) (u1 u2 u3 v1 v2 v3 w1 w2 w3 : K) (hu : u1 + u2 + u3 = 1) (hv : v1 + v2 + v3 = 1) (hw : w1 + w2 + w3 = 1) :
    Geom.orient2d (Pred.proj axis (comb u1 u2 u3 a b c)) (Pred.proj axis (comb v1 v2 v3 a b c)) (Pred.proj axis (comb w1 w2 w3 a b c)) =
      (u1 * (v2 * w3 - v3 * w2) - u2 * (v1 * w3 - v3 * w1) + u3 * (v1 * w2 - v2 * w1)) * Geom.orient2d (Pred.proj axis a) (Pred.proj axis b) (Pred.proj axis c) := by
  have e1 : u3 = 1 - u1 - u2 := by linear_combination hu
  have e2 : v3 = 1 - v1 - v2 := by linear_combination hv
  have e3 : w3 = 1 - w1 - w2 := by linear_combination hw
  subst e1 e2 e3
  unfold Pred.proj
  split <;> simp only [Geom.orient2d, comb] <;> ring

omit [LinearOrder K] in
theorem orient_coplanar {a b c x : Pt K} (h : Coplanar x a b c) : InSphere.orient3d a b c x = 0 := by
  obtain ⟨w1, w2, w3, hw, rfl⟩ := h
  have e3 : w3 = 1 - w1 - w2 := by linear_combination hw
  subst e3
  simp only [InSphere.orient3d, comb]; ring

omit [LinearOrder K] in
theorem orient_self (a b c : Pt K) : InSphere.orient3d a b c a = 0 ∧ InSphere.orient3d a b c b = 0 ∧ InSphere.orient3d a b c c = 0 := by
  refine ⟨?_, ?_, ?_⟩ <;> simp only [InSphere.orient3d] <;> ring

variable [IsStrictOrderedRing K]

theorem side_zero {a b c x : Pt K} (h : InSphere.orient3d a b c x = 0) : side a b c x = .zero := by
  unfold side; rw [h, neg_zero]; exact Geom.sign_zero.2 rfl

theorem builtFromPlane_sound {p : Point K} {pa pb pc X : Pt K} (h : builtFromPlane p pa pb pc = true) (hr : Rep p X) : side pa pb pc X = .zero := by
  refine side_zero ?_
  obtain ⟨s1, s2, s3⟩ := orient_self pa pb pc
  cases p with
  | explicit p =>
    simp only [Rep] at hr
    subst hr
    simp only [builtFromPlane, Bool.or_eq_true, beq_iff_eq] at h
    rcases h with (rfl | rfl) | rfl
    · exact s1
    · exact s2
    · exact s3
  | lpi l =>
    obtain ⟨u, hu⟩ : ∃ u, X = lerp l.p l.q u := hr.on_line
    have hpl : Coplanar X l.r l.s l.t := hr.on_plane
    simp only [builtFromPlane, Bool.or_eq_true, Bool.and_eq_true, beq_iff_eq] at h
    rcases h with ((((h | h) | (h | h)) | (h | h)) | ⟨⟨h1, h2⟩, h3⟩)
    all_goals first
      | (rw [h1, h2, h3]; exact orient_coplanar hpl)
      | (rw [hu, ← h.1, ← h.2, orient_lerp]; simp only [s1, s2, s3, mul_zero, add_zero])
  | tpi t =>
    simp only [builtFromPlane, Bool.or_eq_true, Bool.and_eq_true, beq_iff_eq] at h
    rcases h with ((⟨⟨h1, h2⟩, h3⟩ | ⟨⟨h1, h2⟩, h3⟩) | ⟨⟨h1, h2⟩, h3⟩) <;> rw [h1, h2, h3]
    · exact orient_coplanar hr.on1
    · exact orient_coplanar hr.on2
    · exact orient_coplanar hr.on3

theorem evaluate_sound (E : Env K) (hE : E.Sound) {p : Point K} {pa pb pc X : Pt K} (hr : Rep p X) : evaluate E pa pb pc p = some (side pa pb pc X) := by
  unfold evaluate
  split
  · rw [builtFromPlane_sound ‹_› hr]
  · exact Pred.c30_orient3d E hE _ _ _ _ pa pb pc X rfl rfl rfl hr

theorem shortcut_sound {a b c p q x : Pt K} {t : K} {o : Ori} (h0 : 0 < t) (h1 : t < 1) (hx : x = lerp p q t)
    (h : shortcut (side a b c p) (side a b c q) = some o) : o = side a b c x := by
  have e : -InSphere.orient3d a b c x = (1 - t) * -InSphere.orient3d a b c p + t * -InSphere.orient3d a b c q := by
    rw [hx, orient_lerp]; ring
  unfold shortcut at h
  unfold side at h ⊢
  rw [e]
  generalize -InSphere.orient3d a b c p = u at *
  generalize -InSphere.orient3d a b c q = v at *
  have h2 : 0 < 1 - t := by linarith
  split_ifs at h with c1 c2 c3
  · cases h
    rcases lt_trichotomy u 0 with hu | hu | hu
    · have hv : v < 0 := Geom.sign_neg.1 (c1 ▸ Geom.sign_neg.2 hu)
      rw [Geom.sign_neg.2 hu, eq_comm, Geom.sign_neg]
      nlinarith
    · have hv : v = 0 := Geom.sign_zero.1 (c1 ▸ Geom.sign_zero.2 hu)
      rw [hu, hv]; simp
    · have hv : 0 < v := Geom.sign_pos.1 (c1 ▸ Geom.sign_pos.2 hu)
      rw [Geom.sign_pos.2 hu, eq_comm, Geom.sign_pos]
      nlinarith
  · cases h
    rw [Geom.sign_zero.1 c2, mul_zero, zero_add, Geom.sign_mul_pos h0]
  · cases h
    rw [Geom.sign_zero.1 c3, mul_zero, add_zero, Geom.sign_mul_pos h2]

/-- What a call promises for the cache. -/
structure Extends (pa pb pc : Pt K) (loc : Nat → Pt K) (c c' : Cache) : Prop where
  sound : CacheSound pa pb pc loc c'
  keep : ∀ v o, c.lookup v = some o → c'.lookup v = some o

theorem lookup_put {c : Cache} {v : Nat} {o : Ori} (w : Nat) : ((v, o) :: c).lookup w = if w = v then some o else c.lookup w := by
  rw [List.lookup_cons]
  by_cases h : w = v
  · subst h; simp
  · rw [if_neg h, show (w == v) = false by simpa using h]

theorem put_extends {pa pb pc : Pt K} {loc : Nat → Pt K} {c : Cache} {v : Nat} (hc : CacheSound pa pb pc loc c) (hv : c.lookup v = none) :
    Extends pa pb pc loc c ((v, side pa pb pc (loc v)) :: c) := by
  refine ⟨fun w o h => ?_, fun w o h => ?_⟩
  · rw [lookup_put] at h
    split at h
    · cases h; subst ‹w = v›; rfl
    · exact hc w o h
  · rw [lookup_put, if_neg]
    · exact h
    · rintro rfl; rw [hv] at h; cases h

theorem orientVert_spec (E : Env K) (hE : E.Sound) (pa pb pc : Pt K) {points : List (Point K)} {parents : List (Nat × Nat)} {loc : Nat → Pt K}
    (hg : Genealogy points parents loc) : ∀ (fuel : Nat) (c : Cache) (v : Nat), v < fuel → v < points.length → CacheSound pa pb pc loc c →
      ∃ c', orientVert E pa pb pc points parents fuel c v = some c' ∧ Extends pa pb pc loc c c' ∧ (c'.lookup v).isSome = true := by
  intro fuel
  induction fuel with
  | zero => intro c v h; omega
  | succ fuel ih =>
    intro c v hv hvl hc
    unfold orientVert
    by_cases hit : (c.lookup v).isSome = true
    · rw [if_pos hit]
      exact ⟨c, rfl, ⟨hc, fun _ _ h => h⟩, hit⟩
    · rw [if_neg hit]
      have hnone : c.lookup v = none := Option.not_isSome_iff_eq_none.1 hit
      have hpl : v < parents.length := by rw [hg.len]; exact hvl
      have hpar := List.getElem?_eq_getElem (l := parents) (i := v) hpl
      have hpt := List.getElem?_eq_getElem (l := points) (i := v) hvl
      rw [hpar, hpt]
      simp only [Option.bind_eq_bind, Option.bind_some]
      have hrep := hg.rep v _ hpt
      have hev := evaluate_sound E hE (pa := pa) (pb := pb) (pc := pc) hrep
      by_cases hd : v ≠ parents[v].1
      · rw [if_pos hd]
        obtain ⟨l1, l2, t, t0, t1, hloc⟩ := hg.mid v _ hpar hd
        obtain ⟨c1, r1, x1, k1, k2⟩ : ∃ c1, ensure (orientVert E pa pb pc points parents fuel) parents[v].1 parents[v].2 c = some c1 ∧ Extends pa pb pc loc c c1 ∧
            (c1.lookup parents[v].1).isSome = true ∧ (c1.lookup parents[v].2).isSome = true := by
          unfold ensure
          by_cases hmiss : ((c.lookup parents[v].1).isNone || (c.lookup parents[v].2).isNone) = true
          · rw [if_pos hmiss]
            obtain ⟨ca, ra, xa, ka⟩ := ih c parents[v].1 (by omega) (by omega) hc
            obtain ⟨cb, rb, xb, kb⟩ := ih ca parents[v].2 (by omega) (by omega) xa.sound
            refine ⟨cb, ?_, ⟨xb.sound, fun w o h => xb.keep w o (xa.keep w o h)⟩, ?_, kb⟩
            · rw [List.foldlM_cons, ra]
              show (do let c' ← orientVert E pa pb pc points parents fuel ca parents[v].2; List.foldlM _ c' []) = _
              rw [rb]; rfl
            · obtain ⟨o, ho⟩ := Option.isSome_iff_exists.1 ka
              rw [xb.keep _ _ ho]; rfl
          · rw [if_neg hmiss]
            simp only [Bool.or_eq_true, Option.isNone_iff_eq_none, not_or] at hmiss
            exact ⟨c, rfl, ⟨hc, fun _ _ h => h⟩, Option.isSome_iff_ne_none.2 hmiss.1, Option.isSome_iff_ne_none.2 hmiss.2⟩
        rw [r1]
        obtain ⟨oa, hoa⟩ := Option.isSome_iff_exists.1 k1
        obtain ⟨ob, hob⟩ := Option.isSome_iff_exists.1 k2
        simp only [Option.bind_some, hoa, hob]
        have ea := x1.sound _ _ hoa
        have eb := x1.sound _ _ hob
        have trans : ∀ c2, Extends pa pb pc loc c1 c2 → Extends pa pb pc loc c c2 := fun c2 h => ⟨h.sound, fun w o hw => h.keep w o (x1.keep w o hw)⟩
        -- the recursion may have stored `v` itself? no: then its orientation is simply stored once more
        have final : Extends pa pb pc loc c1 ((v, side pa pb pc (loc v)) :: c1) := by
          refine ⟨fun w o h => ?_, fun w o h => ?_⟩
          · rw [lookup_put] at h
            split at h
            · cases h; subst ‹w = v›; rfl
            · exact x1.sound w o h
          · rw [lookup_put]
            split
            · subst ‹w = v›; rw [x1.sound _ _ h]
            · exact h
        cases hs : shortcut oa ob with
        | some o =>
          have : o = side pa pb pc (loc v) := shortcut_sound t0 t1 hloc (by rw [← ea, ← eb]; exact hs)
          refine ⟨(v, o) :: c1, rfl, ?_, by rw [lookup_put, if_pos rfl]; rfl⟩
          rw [this]; exact trans _ final
        | none =>
          refine ⟨(v, side pa pb pc (loc v)) :: c1, ?_, trans _ final, by rw [lookup_put, if_pos rfl]; rfl⟩
          simp only [hev]; rfl
      · rw [if_neg hd, hev]
        exact ⟨_, rfl, put_extends hc hnone, by rw [lookup_put, if_pos rfl]; rfl⟩

/-- C53. `verts_orient_wrt_plane` on any vertices, in any order, starting from any sound cache, does not fail and leaves a sound cache that
keeps all old entries and holds an entry for every vertex asked for. -/
theorem c53_verts_orient (E : Env K) (hE : E.Sound) (pa pb pc : Pt K) {points : List (Point K)} {parents : List (Nat × Nat)} {loc : Nat → Pt K}
    (hg : Genealogy points parents loc) : ∀ (verts : List Nat) (c : Cache), (∀ v ∈ verts, v < points.length) → CacheSound pa pb pc loc c →
      ∃ c', vertsOrient E pa pb pc points parents points.length verts c = some c' ∧ CacheSound pa pb pc loc c' ∧
        (∀ v o, c.lookup v = some o → c'.lookup v = some o) ∧ ∀ v ∈ verts, c'.lookup v = some (side pa pb pc (loc v))
  | [], c, _, hc => ⟨c, rfl, hc, fun _ _ h => h, by simp⟩
  | v :: verts, c, hv, hc => by
    have hvl := hv v (by simp)
    obtain ⟨c1, r1, x1, k1⟩ := orientVert_spec E hE pa pb pc hg points.length c v hvl hvl hc
    obtain ⟨c2, r2, s2, k2, m2⟩ := c53_verts_orient E hE pa pb pc hg verts c1 (fun w hw => hv w (List.mem_cons_of_mem _ hw)) x1.sound
    refine ⟨c2, ?_, s2, fun w o h => k2 w o (x1.keep w o h), fun w hw => ?_⟩
    · unfold vertsOrient at r2 ⊢
      rw [List.foldlM_cons, r1]; exact r2
    · rcases List.mem_cons.1 hw with rfl | hw
      · obtain ⟨o, ho⟩ := Option.isSome_iff_exists.1 k1
        rw [k2 _ _ ho, x1.sound _ _ ho]
      · exact m2 w hw

/-- Two explicit vertices, the middle of them (given as the point where a line meets a plane), and a vertex between that and a third one. -/
def exPoints : List (Point ℚ) := [.explicit ⟨0, 0, 0⟩, .explicit ⟨0, 0, 4⟩, .explicit ⟨2, 2, 4⟩,
  .lpi ⟨⟨0, 0, 0⟩, ⟨0, 0, 4⟩, ⟨1, 0, 2⟩, ⟨0, 1, 2⟩, ⟨0, 0, 2⟩⟩, .explicit ⟨1, 1, 3⟩]

/-- Where they are. -/
def exLoc (v : Nat) : Pt ℚ := ([⟨0, 0, 0⟩, ⟨0, 0, 4⟩, ⟨2, 2, 4⟩, ⟨0, 0, 2⟩, ⟨1, 1, 3⟩] : List (Pt ℚ)).getD v ⟨0, 0, 0⟩

/-- They meet the hypotheses of `c53_verts_orient`. -/
example : Genealogy exPoints [(0, 0), (1, 1), (2, 2), (0, 1), (3, 2)] exLoc := by
  have hl : Rep (.lpi ⟨⟨0, 0, 0⟩, ⟨0, 0, 4⟩, ⟨1, 0, 2⟩, ⟨0, 1, 2⟩, ⟨0, 0, 2⟩⟩ : Point ℚ) (exLoc 3) :=
    (Pred.lineMeetsPlane_iff _ _).2 ⟨by decide +kernel, by decide +kernel⟩
  refine ⟨rfl, fun v p h => ?_, fun v vp h hne => ?_⟩
  · rcases v with _ | _ | _ | _ | _ | v
    all_goals first | (simp only [exPoints, List.getElem?_cons_zero, List.getElem?_cons_succ, Option.some.injEq] at h; subst h) | skip
    · rfl
    · rfl
    · rfl
    · exact hl
    · rfl
    · simp [exPoints] at h
  · rcases v with _ | _ | _ | _ | _ | v
    all_goals first | (simp only [List.getElem?_cons_zero, List.getElem?_cons_succ, Option.some.injEq] at h; subst h) | skip
    · simp at hne
    · simp at hne
    · simp at hne
    · exact ⟨by decide, by decide, 1 / 2, by norm_num, by norm_num, by decide +kernel⟩
    · exact ⟨by decide, by decide, 1 / 2, by norm_num, by norm_num, by decide +kernel⟩
    · simp at h

example : vertsOrient Pred.plain ⟨1, 0, 2⟩ ⟨0, 1, 2⟩ ⟨0, 0, 2⟩ exPoints [(0, 0), (1, 1), (2, 2), (0, 1), (3, 2)] 5 [4] [] =
    some [(4, .positive), (2, .positive), (3, .zero), (1, .positive), (0, .negative)] := by decide +kernel

/-! ### The copies for coplanar triangles -/

/-- The orientation `split_cell` stores for a coplanar triangle (lines 273-280): that of the base triangle, reversed if the projections of
the two triangles are oriented differently. -/
def copied (baseOri coplanarOri o : Ori) : Ori := if baseOri = coplanarOri then o else o.reverse

/-- C53. If the two coplanar triangles are projected along the same axis and neither projection degenerates, the copy is exact. -/
theorem c53_copied_partial {a b c a' b' c' : Pt K} (axis : Nat) (ha : Coplanar a' a b c) (hb : Coplanar b' a b c) (hc : Coplanar c' a b c)
    (h1 : turn axis a b c ≠ .zero) (h2 : turn axis a' b' c' ≠ .zero) (x : Pt K) :
    copied (turn axis a b c) (turn axis a' b' c') (side a b c x) = side a' b' c' x := by
  obtain ⟨u1, u2, u3, hu, rfl⟩ := ha
  obtain ⟨v1, v2, v3, hv, rfl⟩ := hb
  obtain ⟨w1, w2, w3, hw, rfl⟩ := hc
  unfold turn at *
  rw [orient2d_comb axis a b c _ _ _ _ _ _ _ _ _ hu hv hw] at *
  unfold side copied
  rw [orient_comb a b c _ _ _ u1 u2 u3 v1 v2 v3 w1 w2 w3 x hu hv hw rfl rfl rfl]
  generalize u1 * (v2 * w3 - v3 * w2) - u2 * (v1 * w3 - v3 * w1) + u3 * (v1 * w2 - v2 * w1) = d at *
  generalize Geom.orient2d (Pred.proj axis a) (Pred.proj axis b) (Pred.proj axis c) = n at *
  generalize InSphere.orient3d a b c x = f at *
  have hn : n ≠ 0 := fun e => h1 (Geom.sign_zero.2 e)
  rw [← mul_neg]
  by_cases e : doubleToSign n = doubleToSign (d * n)
  · rw [if_pos e, Geom.sign_mul_pos ((Geom.sign_mul_eq hn).1 e.symm)]
  · rw [if_neg e]
    have hd : ¬ 0 < d := fun h => e ((Geom.sign_mul_eq hn).2 h).symm
    have hd0 : d ≠ 0 := fun h => h2 (by rw [h, zero_mul]; exact Geom.sign_zero.2 rfl)
    have hneg : 0 < -d := neg_pos.2 (lt_of_le_of_ne (not_lt.1 hd) hd0)
    rw [show d * -f = (-d) * f by ring, Geom.sign_mul_pos hneg, InSphere.doubleToSign_neg]
    cases doubleToSign f <;> rfl

/-- Two triangles in the plane `x + y + z = 4`, oriented differently. -/
example : copied (turn (K := ℚ) 2 ⟨4, 0, 0⟩ ⟨0, 4, 0⟩ ⟨0, 0, 4⟩) (turn (K := ℚ) 2 ⟨1, 1, 2⟩ ⟨1, 2, 1⟩ ⟨2, 1, 1⟩) (side (K := ℚ) ⟨4, 0, 0⟩ ⟨0, 4, 0⟩ ⟨0, 0, 4⟩ ⟨0, 0, 0⟩)
    = side (K := ℚ) ⟨1, 1, 2⟩ ⟨1, 2, 1⟩ ⟨2, 1, 1⟩ ⟨0, 0, 0⟩ ∧ turn (K := ℚ) 2 ⟨4, 0, 0⟩ ⟨0, 4, 0⟩ ⟨0, 0, 4⟩ ≠ turn (K := ℚ) 2 ⟨1, 1, 2⟩ ⟨1, 2, 1⟩ ⟨2, 1, 1⟩ := by
  decide +kernel

section float
open Float (fadd fsub fmul)

/-- `max_comp_in_tri_normal_filter` (`src/predicates/mod.rs` lines 125-151) in `f64` arithmetic; the constant is the `f64` nearest to `8.88395e-16`. -/
def maxCompFloat (a b c : Pt ℚ) : Nat :=
  let v3x := fsub c.x b.x
  let v3y := fsub c.y b.y
  let v3z := fsub c.z b.z
  let v2x := fsub b.x a.x
  let v2y := fsub b.y a.y
  let v2z := fsub b.z a.z
  let nvx := fsub (fmul v2y v3z) (fmul v2z v3y)
  let nvy := fsub (fmul v3x v2z) (fmul v3z v2x)
  let nvz := fsub (fmul v2x v3y) (fmul v2y v3x)
  let mv := Geom.absMax6 [v3x, v3y, v3z, v2x, v2y, v2z]
  let m := Geom.maxOf3 |nvx| |nvy| |nvz|
  if m.2 > fmul (fmul (4504697819959031 / 5070602400912917605986812821504) mv) mv then m.1 else 3

/-- C53 fails for the copies in `f64` arithmetic: rounding makes `max_comp_in_tri_normal` choose different axes for two coplanar triangles of
the same orientation, and then the reversed orientation is stored. -/
theorem c53_copied_refuted : ∃ a b c a' b' c' x : Pt ℚ, Coplanar a' a b c ∧ Coplanar b' a b c ∧ Coplanar c' a b c ∧
    maxCompFloat a b c = 1 ∧ maxCompFloat a' b' c' = 0 ∧
    copied (turn (maxCompFloat a b c) a b c) (turn (maxCompFloat a' b' c') a' b' c') (side a b c x) ≠ side a' b' c' x := by
  refine ⟨⟨0, 0, 0⟩, ⟨6534098421532661, 6534098421532660, 0⟩, ⟨0, 0, 8⟩, ⟨0, 0, 0⟩, ⟨6534098421532661, 6534098421532660, -1⟩, ⟨0, 0, 6⟩, ⟨1, 0, 0⟩,
    ⟨1, 0, 0, by norm_num, by decide +kernel⟩, ⟨1 / 8, 1, -1 / 8, by norm_num, by decide +kernel⟩, ⟨1 / 4, 0, 3 / 4, by norm_num, by decide +kernel⟩,
    by decide +kernel, by decide +kernel, by decide +kernel⟩

end float

end Verif.Poly
