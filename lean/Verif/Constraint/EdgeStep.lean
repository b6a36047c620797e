import Verif.Constraint.Steps
/-!
# A step of the walk from an edge
-/
namespace Verif.Constraint
open InSphere (Pt orient3d)
open Tet (Mesh TriFace)
open Delaunay (Comb SolidTet IsDelaunay pt get_pt)
open Geom

variable {K : Type} [Field K] [LinearOrder K] [IsStrictOrderedRing K] {m : Mesh} {pts : List (Pt K)} {a b : Nat}
local notation "P" => lerp (pt pts a) (pt pts b)

theorem some_bind {α β : Type} (v : α) (f : α → Option β) : (some v >>= f) = f v := rfl

theorem of_ite {α : Type} {c : Bool} {l l' : α} {G : α → Prop} (h : (if c = true then some l' else none) = some l) (g : c = true → G l') : G l := by
  split at h
  · next hc => cases h; exact g hc
  · cases h

theorem pivots_perm (x : Tet.Tet) : ∀ v : Tet.Ver, Four x (x.data (Tet.orgPivot v)) (x.data (Tet.destPivot v)) (x.data (Tet.apexPivot v)) (x.data (Tet.oppoPivot v)) := by
  have key : ∀ v : Tet.Ver, [Tet.orgPivot v, Tet.destPivot v, Tet.apexPivot v, Tet.oppoPivot v].Perm [0, 1, 2, 3] := by decide
  intro v
  exact (key v).map x.data

section
variable (hD : IsDelaunay pts m) {t : Nat} {x : Tet.Tet} {s : K}
include hD

theorem edgeStep_spec (ha : a < pts.length) (hb : b < pts.length) (hab : a ≠ b) {va vb : Nat} {spin : TriFace} (hx : m.tets[spin.tet]? = some x) (ho : m.org spin = some va) (hd : m.dest spin = some vb)
    (hva : va ≠ b) (hvb : vb ≠ b) (h0 : 0 ≤ s) (h1 : s < 1) {w : K} (w0 : 0 < w) (w1 : w < 1) (hP : P s = lerp (pt pts va) (pt pts vb) w)
    (na : ∀ r, s < r → r ≤ 1 → pt pts va ≠ P r) (nb : ∀ r, s < r → r ≤ 1 → pt pts vb ≠ P r) (prev : Nat) :
    ∃ o, edgeStep m pts va vb a b prev spin = some o ∧ (∀ o', o = some o' → Goal pts m a b s o') ∧
      (spin.tet ≠ prev → x.data 3 ≠ pts.length → Ahead pts a b x s → ∃ o', o = some o') := by
  unfold edgeStep
  have hhull : m.isHull spin.tet = some (decide (x.data 3 = pts.length)) := by
    simp only [Mesh.isHull, hx, hD.num, Option.map_some, Option.some.injEq]
    rfl
  dsimp only
  rw [hhull, some_bind]
  split
  swap
  · next h => exact ⟨none, rfl, by simp, fun h1 h2 => absurd ⟨h1, by rw [decide_eq_true_eq]; exact h2⟩ h⟩
  next hc =>
  rw [decide_eq_true_eq] at hc
  have S : Sol pts m spin.tet x := ⟨hx, hc.2⟩
  have eo : x.data (Tet.orgPivot spin.ver) = va := by simpa [Mesh.org, hx] using ho
  have ed : x.data (Tet.destPivot spin.ver) = vb := by simpa [Mesh.dest, hx] using hd
  have F := pivots_perm x spin.ver
  have ea : m.apex spin = some (x.data (Tet.apexPivot spin.ver)) := by simp [Mesh.apex, hx]
  have ep : m.oppo spin = some (x.data (Tet.oppoPivot spin.ver)) := by simp [Mesh.oppo, hx]
  rw [eo, ed] at F
  generalize x.data (Tet.apexPivot spin.ver) = vc at *
  generalize x.data (Tet.oppoPivot spin.ver) = vd at *
  rw [ea, some_bind, ep, some_bind]
  have hco := F.of_edge hD S w
  rw [← hP] at hco
  obtain ⟨wa, wb, wc, wd⟩ := hco
  have pa : 0 < wt pts x va (P s) := by rw [wa]; linarith
  have pb : 0 < wt pts x vb (P s) := by rw [wb]; exact w0
  have hin : In pts x (P s) := F.in_of hD pa.le pb.le wc.ge wd.ge
  split
  · next h =>
    refine ⟨_, rfl, ?_, fun _ _ _ => ⟨_, rfl⟩⟩
    rintro o ⟨⟩
    rcases h with rfl | rfl
    · exact goodb hD F.swap12.swap01 S hin h1
    · exact goodb hD F.swap23.swap12.swap01 S hin h1
  next hno =>
  obtain ⟨x1, y1, e1, f1, s1, c1⟩ := edge_face hD (F.swap12.swap23.swap01.swap12 : Four x vc vd va vb) S ha hb hin pb
  obtain ⟨x2, y2, e2, f2, s2, c2⟩ := edge_face hD (F.swap12.swap23.swap01.swap12.swap23 : Four x vc vd vb va) S ha hb hin pa
  obtain ⟨x3, y3, e3, f3, s3, c3⟩ := edge_opp hD (F.swap12.swap23.swap01.swap12.swap23 : Four x vc vd vb va) S ha hb hin pa
  obtain ⟨x4, y4, e4, f4, s4, c4⟩ := edge_vertex hD F S ha hb hab h1 hin pa wc wd
  obtain ⟨x5, y5, e5, f5, s5, c5⟩ := edge_vertex hD F.swap23 S ha hb hab h1 hin pa wd wc
  obtain ⟨x6, y6, e6, f6, s6, c6⟩ := edge_edge hD F S ha hb h1 hin pb wc wd (.inl ⟨rfl, rfl⟩)
  obtain ⟨x7, y7, e7, f7, s7, c7⟩ := edge_edge hD F.swap23 S ha hb h1 hin pb wd wc (.inl ⟨rfl, rfl⟩)
  obtain ⟨x8, y8, e8, f8, s8, c8⟩ := edge_edge hD F.swap01 S ha hb h1 hin pa wc wd (.inr ⟨rfl, rfl⟩)
  obtain ⟨x9, y9, e9, f9, s9, c9⟩ := edge_edge hD F.swap01.swap23 S ha hb h1 hin pa wd wc (.inr ⟨rfl, rfl⟩)
  rw [e1, some_bind, f1, some_bind]
  split
  · next h => exact ⟨_, rfl, by rintro o ⟨⟩; exact s1 h, fun _ _ _ => ⟨_, rfl⟩⟩
  next n1 =>
  rw [e2, some_bind, f2, some_bind]
  split
  · next h => exact ⟨_, rfl, by rintro o ⟨⟩; exact s2 h, fun _ _ _ => ⟨_, rfl⟩⟩
  next n2 =>
  rw [e3, some_bind, f3, some_bind]
  split
  · next h => exact ⟨_, rfl, by rintro o ⟨⟩; exact s3 h, fun _ _ _ => ⟨_, rfl⟩⟩
  next n3 =>
  rw [e4, some_bind, f4, some_bind]
  split
  · next h => exact ⟨_, rfl, by rintro o ⟨⟩; exact s4 h, fun _ _ _ => ⟨_, rfl⟩⟩
  next n4 =>
  rw [e5, some_bind, f5, some_bind]
  split
  · next h => exact ⟨_, rfl, by rintro o ⟨⟩; exact s5 h, fun _ _ _ => ⟨_, rfl⟩⟩
  next n5 =>
  have test : ∀ (e : Nat × Nat) (x y : Bool), vSegCross pts a b e.1 e.2 = some x → vSamePlane pts e.2 b va vb = some y →
      (do if (← vSegCross pts a b e.1 e.2) && (← vSamePlane pts e.2 b va vb) then return some [e.1, e.2] else return none : Option (Option (List Nat))) = some (if (x && y) = true then some [e.1, e.2] else none) := by
    intro e x y h1 h2
    rw [h1, some_bind, h2, some_bind]
    split <;> rfl
  obtain ⟨rE, eE, hE, cE⟩ := firstM_spec (f := fun (e : Nat × Nat) => do
        if (← vSegCross pts a b e.1 e.2) && (← vSamePlane pts e.2 b va vb) then return some [e.1, e.2] else return none) (l := [(va, vc), (va, vd), (vb, vc), (vb, vd)])
    (G := fun l => Goal pts m a b s (spin.tet, l)) (by
      intro e he
      simp only [List.mem_cons, List.not_mem_nil, or_false] at he
      rcases he with rfl | rfl | rfl | rfl
      · exact ⟨_, test _ _ _ e6 f6, fun l hl => of_ite (G := fun l => Goal pts m a b s (spin.tet, l)) hl s6⟩
      · exact ⟨_, test _ _ _ e7 f7, fun l hl => of_ite (G := fun l => Goal pts m a b s (spin.tet, l)) hl s7⟩
      · exact ⟨_, test _ _ _ e8 f8, fun l hl => of_ite (G := fun l => Goal pts m a b s (spin.tet, l)) hl s8⟩
      · exact ⟨_, test _ _ _ e9 f9, fun l hl => of_ite (G := fun l => Goal pts m a b s (spin.tet, l)) hl s9⟩)
  rw [eE, some_bind]
  cases rE with
  | some l => exact ⟨_, rfl, by rintro o ⟨⟩; exact hE _ rfl, fun _ _ _ => ⟨_, rfl⟩⟩
  | none =>
  refine ⟨none, rfl, by simp, ?_⟩
  rintro - - ⟨r, r0, r1, hr, hk⟩
  exfalso
  rcases lt_or_eq_of_le r1 with r1' | rfl
  swap
  · rw [lerp_one] at hr
    rcases (F.mem b).1 (S.corner_of_in hD hb hr) with h | h | h | h
    · exact hva h.symm
    · exact hvb h.symm
    · exact hno (.inl h.symm)
    · exact hno (.inr h.symm)
  have nE : ∀ (e : Nat × Nat) (x y : Bool), e ∈ [(va, vc), (va, vd), (vb, vc), (vb, vd)] → vSegCross pts a b e.1 e.2 = some x → vSamePlane pts e.2 b va vb = some y → ¬ (x && y) = true := by
    intro e x y he h1 h2 h
    obtain ⟨b, hb⟩ := cE ⟨e, he, [e.1, e.2], by rw [test e x y h1 h2, if_pos h]⟩
    cases hb
  have n6 := nE (va, vc) _ _ (by simp) e6 f6
  have n7 := nE (va, vd) _ _ (by simp) e7 f7
  have n8 := nE (vb, vc) _ _ (by simp) e8 f8
  have n9 := nE (vb, vd) _ _ (by simp) e9 f9
  obtain ⟨k, hk1, hk2⟩ := hk r1'
  have hkv : k = va ∨ k = vb := by
    rcases F.carrier hD hk2 with rfl | rfl | rfl | rfl
    · exact .inl rfl
    · exact .inr rfl
    · rw [wc] at hk2; exact absurd hk2 (lt_irrefl _)
    · rw [wd] at hk2; exact absurd hk2 (lt_irrefl _)
  have hsum := F.sum_one hD S (P r)
  rcases hkv with rfl | rfl
  · rcases lt_or_eq_of_le (hr vb) with z1 | z1 <;> rcases lt_or_eq_of_le (hr vc) with z2 | z2 <;> rcases lt_or_eq_of_le (hr vd) with z3 | z3
    · exact n2 (c2 ⟨r, r0, h0, r1', z2, z3, z1, hk1⟩)
    · exact n8 (c8 ⟨r, r0, h0, r1', z1, hk1, z2, z3.symm⟩)
    · exact n9 (c9 ⟨r, r0, h0, r1', z1, hk1, z3, z2.symm⟩)
    · exact nb r r0 r1 (F.swap01.at_corner hD S hk1 z2.symm z3.symm)
    · exact n3 (c3 ⟨r, r0, h0, r1', z2, z3, z1.symm, hk1⟩)
    · exact n4 (c4 ⟨r, r0, h0, r1', hk1, z1.symm, z3.symm⟩)
    · exact n5 (c5 ⟨r, r0, h0, r1', hk1, z1.symm, z2.symm⟩)
    · rw [← z1, ← z2, ← z3, hk1] at hsum
      simp at hsum
  · rcases lt_or_eq_of_le (hr va) with z1 | z1 <;> rcases lt_or_eq_of_le (hr vc) with z2 | z2 <;> rcases lt_or_eq_of_le (hr vd) with z3 | z3
    · exact n1 (c1 ⟨r, r0, h0, r1', z2, z3, z1, hk1⟩)
    · exact n6 (c6 ⟨r, r0, h0, r1', z1, hk1, z2, z3.symm⟩)
    · exact n7 (c7 ⟨r, r0, h0, r1', z1, hk1, z3, z2.symm⟩)
    · exact na r r0 r1 (F.at_corner hD S hk1 z2.symm z3.symm)
    · exact n3 (c3 ⟨r, r0, h0, r1', z2, z3, hk1, z1.symm⟩)
    · exact n4 (c4 ⟨r, r0, h0, r1', z1.symm, hk1, z3.symm⟩)
    · exact n5 (c5 ⟨r, r0, h0, r1', z1.symm, hk1, z2.symm⟩)
    · rw [← z1, ← z2, ← z3, hk1] at hsum
      simp at hsum

end
end Verif.Constraint
