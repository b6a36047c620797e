import Verif.Tet.Spec
import Mathlib.Logic.Function.Basic
/-! # Lemmas: table algebra, writes to the mesh, rotations of a gluing -/
namespace Verif.Tet

theorem face_enext : ∀ v, face (enext v) = face v := by decide +kernel
theorem enext_enext : ∀ v, enext (enext v) = eprev v := by decide +kernel
theorem fsym_bond : ∀ i j, fsymTbl i (bondTbl i j) = j := by decide +kernel
theorem fsym_enext : ∀ i j, fsymTbl (enext i) j = eprev (fsymTbl i j) := by decide +kernel
theorem face_bond : ∀ i j, face (bondTbl i j) = face j := by decide +kernel
theorem face_fsym : ∀ i j, face (fsymTbl i j) = face j := by decide +kernel
theorem fsym_left_cancel : ∀ i a b, fsymTbl i a = fsymTbl i b → a = b := by decide +kernel
theorem facePivot_eq : ∀ v, facePivot1 v = face (esym v) := fun _ => rfl
theorem org_enext : ∀ v, orgPivot (enext v) = destPivot v := by decide +kernel
theorem dest_enext : ∀ v, destPivot (enext v) = apexPivot v := by decide +kernel
theorem apex_enext : ∀ v, apexPivot (enext v) = orgPivot v := by decide +kernel
theorem org_eprev : ∀ v, orgPivot (eprev v) = apexPivot v := by decide +kernel
theorem dest_eprev : ∀ v, destPivot (eprev v) = orgPivot v := by decide +kernel
theorem apex_eprev : ∀ v, apexPivot (eprev v) = destPivot v := by decide +kernel
theorem eprev_enext : ∀ v, eprev (enext v) = v := by decide +kernel
theorem enext_eprev : ∀ v, enext (eprev v) = v := by decide +kernel
theorem oppo_face : ∀ v, oppoPivot v = face v := by decide +kernel
theorem epivot_face : ∀ v, face (epivot v) = face v := by decide +kernel
theorem face_verOfFace : ∀ f, face (verOfFace f) = f := by decide +kernel

/-- Every version is a rotation of the representative of its face. -/
theorem rotations : ∀ v w : Ver, face v = face w → w = v ∨ w = enext v ∨ w = eprev v := by decide +kernel

namespace Mesh

variable {m m' : Mesh}

theorem modify_some {i : Nat} {g : Tet → Tet} (h : i < m.tets.length) :
    m.modify i g = some { m with tets := m.tets.modify i g } := if_pos h

theorem modify_get {i : Nat} {g : Tet → Tet} (h : m.modify i g = some m') (j : Nat) :
    m'.tets[j]? = if i = j then (m.tets[j]?).map g else m.tets[j]? := by
  unfold modify at h
  split at h
  · cases h; simp only [List.getElem?_modify]; split <;> simp_all
  · cases h

theorem modify_frame {i : Nat} {g : Tet → Tet} (h : m.modify i g = some m') :
    m'.nPoints = m.nPoints ∧ m'.p2t = m.p2t ∧ m'.tets.length = m.tets.length ∧ i < m.tets.length := by
  unfold modify at h
  split at h
  · cases h; simp_all
  · cases h

theorem setNei_get {t : Nat} {f : Fin 4} {x : TriFace} (h : m.setNei t f x = some m') (j : Nat) :
    m'.tets[j]? = if t = j then (m.tets[j]?).map fun y => { y with nei := Function.update y.nei f (some x) }
      else m.tets[j]? := modify_get h j

theorem setNei_frame {t : Nat} {f : Fin 4} {x : TriFace} (h : m.setNei t f x = some m') :
    m'.nPoints = m.nPoints ∧ m'.p2t = m.p2t ∧ m'.tets.length = m.tets.length ∧ t < m.tets.length := modify_frame h

theorem setNei_some {t : Nat} {f : Fin 4} {x : TriFace} (h : t < m.tets.length) : ∃ m', m.setNei t f x = some m' :=
  ⟨_, modify_some h⟩

/-- The neighbour slots of a mesh, as a partial function. -/
def slot (m : Mesh) (t : Nat) (f : Fin 4) : Option TriFace := (m.tets[t]?).bind (·.nei f)

theorem fsym_eq (t : TriFace) : m.fsym t = (m.slot t.tet (face t.ver)).map fun h => ⟨h.tet, fsymTbl t.ver h.ver⟩ := by
  unfold fsym slot
  cases m.tets[t.tet]? <;> simp
  rename_i x
  cases x.nei (face t.ver) <;> rfl

theorem fnext_eq (t : TriFace) : m.fnext t = m.fsym t.esym := by
  unfold fnext fsym facePivot1 facePivot2 TriFace.esym; rfl

theorem setNei_slot {t : Nat} {f : Fin 4} {x : TriFace} (h : m.setNei t f x = some m') (t' : Nat) (f' : Fin 4) :
    m'.slot t' f' = if t = t' ∧ f = f' then some x else m.slot t' f' := by
  have hl := (setNei_frame h).2.2.2
  unfold slot
  rw [setNei_get h]
  by_cases ht : t = t'
  · subst ht
    simp only [if_true, true_and]
    rw [List.getElem?_eq_getElem hl]
    by_cases hf : f = f'
    · subst hf; simp
    · simp [hf, Function.update_of_ne (Ne.symm hf)]
  · simp [ht]

theorem setNei_data {t : Nat} {f : Fin 4} {x : TriFace} (h : m.setNei t f x = some m') (j : Nat) :
    (m'.tets[j]?).map (·.data) = (m.tets[j]?).map (·.data) := by
  rw [setNei_get h]; split
  · cases m.tets[j]? <;> rfl
  · rfl

theorem org_of_data (h : ∀ j : Nat, (m'.tets[j]?).map (·.data) = (m.tets[j]?).map (·.data)) (t : TriFace) :
    m'.org t = m.org t ∧ m'.dest t = m.dest t ∧ m'.apex t = m.apex t ∧ m'.oppo t = m.oppo t := by
  have := h t.tet
  unfold org dest apex oppo
  cases h1 : m'.tets[t.tet]? <;> cases h2 : m.tets[t.tet]? <;> simp_all

theorem bond_spec {t1 t2 : TriFace} (h : m.bond t1 t2 = some m') :
    (∀ t f, m'.slot t f = if t2.tet = t ∧ face t2.ver = f then some ⟨t1.tet, bondTbl t2.ver t1.ver⟩
      else if t1.tet = t ∧ face t1.ver = f then some ⟨t2.tet, bondTbl t1.ver t2.ver⟩ else m.slot t f) ∧
    (∀ j : Nat, (m'.tets[j]?).map (·.data) = (m.tets[j]?).map (·.data)) ∧
    m'.nPoints = m.nPoints ∧ m'.p2t = m.p2t ∧ m'.tets.length = m.tets.length ∧
    t1.tet < m.tets.length ∧ t2.tet < m.tets.length := by
  unfold bond at h
  simp only [Option.bind_eq_bind, Option.bind_eq_some_iff] at h
  obtain ⟨m1, h1, h2⟩ := h
  obtain ⟨a1, a2, a3, a4⟩ := setNei_frame h1
  obtain ⟨b1, b2, b3, b4⟩ := setNei_frame h2
  refine ⟨fun t f => ?_, fun j => ?_, ?_, ?_, ?_, a4, ?_⟩
  · rw [setNei_slot h2, setNei_slot h1]
  · rw [setNei_data h2, setNei_data h1]
  · rw [b1, a1]
  · rw [b2, a2]
  · rw [b3, a3]
  · omega
end Mesh

variable {m : Mesh}

/-- Gluing is symmetric. -/
theorem Glued.symm {t h : TriFace} (g : Glued m t h) : Glued m h t :=
  ⟨g.bwd, g.fwd, g.dest.symm, g.org.symm, g.apex.symm⟩

theorem fsym_handle_enext (t : TriFace) : m.fsym t.enext = (m.fsym t).map TriFace.eprev := by
  rw [Mesh.fsym_eq, Mesh.fsym_eq]
  simp only [TriFace.enext, face_enext]
  cases m.slot t.tet (face t.ver) <;> simp [fsym_enext, TriFace.eprev]

theorem face_eprev : ∀ v, face (eprev v) = face v := by decide +kernel
theorem fsym_eprev' : ∀ i j, fsymTbl (eprev i) j = enext (fsymTbl i j) := by decide +kernel

theorem fsym_handle_eprev (t : TriFace) : m.fsym t.eprev = (m.fsym t).map TriFace.enext := by
  rw [Mesh.fsym_eq, Mesh.fsym_eq]
  simp only [TriFace.eprev, face_eprev]
  cases m.slot t.tet (face t.ver) <;> simp [fsym_eprev', TriFace.enext]

/-- A gluing rotates. -/
theorem Glued.enext {t h : TriFace} (g : Glued m t h) : Glued m t.enext h.eprev where
  fwd := by rw [fsym_handle_enext, g.fwd]; rfl
  bwd := by rw [fsym_handle_eprev, g.bwd]; rfl
  org := by have := g.apex; simpa [Mesh.org, Mesh.dest, Mesh.apex, TriFace.enext, TriFace.eprev, org_eprev, dest_enext] using this
  dest := by have := g.org; simpa [Mesh.org, Mesh.dest, Mesh.apex, TriFace.enext, TriFace.eprev, dest_eprev, org_enext] using this
  apex := by have := g.dest; simpa [Mesh.org, Mesh.dest, Mesh.apex, TriFace.enext, TriFace.eprev, apex_eprev, apex_enext] using this

theorem Glued.eprev {t h : TriFace} (g : Glued m t h) : Glued m t.eprev h.enext := (g.symm.enext).symm

/-- One gluing per face is enough. -/
theorem glued_of_face {live : Nat → Prop} {t : Nat} {v : Ver}
    (h : ∃ h, live h.tet ∧ Glued m ⟨t, v⟩ h) (w : Ver) (hw : face v = face w) :
    ∃ h, live h.tet ∧ Glued m ⟨t, w⟩ h := by
  obtain ⟨h, hl, g⟩ := h
  rcases rotations v w hw with rfl | rfl | rfl
  · exact ⟨h, hl, g⟩
  · exact ⟨h.eprev, hl, g.enext⟩
  · exact ⟨h.enext, hl, g.eprev⟩

end Verif.Tet
