import Verif.Surface.AddFace
import Verif.Surface.SplitFace
/-!
# `SurfaceMesh::new`: the loop over the polygons
-/
namespace Verif.Surface

theorem get_map_some {l : List Nat} {i : Nat} : get (l.map some) i = l[i]? := by
  simp only [get, List.getElem?_map]
  cases l[i]? <;> rfl

theorem get_replicate_none {n i : Nat} : get (List.replicate n none) i = none := by
  simp only [get, List.getElem?_replicate]
  split <;> rfl

theorem get_left {a b : Ids} {i : Nat} (h : i < a.length) : get (a ++ b) i = get a i := by
  simp only [get, List.getElem?_append_left h]

theorem get_right {a b : Ids} {i : Nat} (h : a.length ≤ i) : get (a ++ b) i = get b (i - a.length) := by
  simp only [get, List.getElem?_append_right h]

theorem set_last {a : Ids} {x : Nat} : put (a ++ [none]) a.length x = some (a ++ [some x]) := by
  rw [put, if_pos (by simp)]
  congr 1
  rw [List.set_append_right _ _ (Nat.le_refl _)]
  simp

/-- The loop over the corners, after the first one. -/
theorem addCorners_rest {fid : Nat} : ∀ (rest : List Nat) (i : Nat) (s : Corner) (K : Nat), s.m.nH = K → s.m.heNext.length = K →
    s.m.heVertex.length = K → s.m.heFace.length = K → (∀ v ∈ rest, v < s.m.vHe.length) → s.prev = some (K - 1) → 0 < K → i ≠ 0 →
    get s.m.heNext (K - 1) = none →
    ∃ s', addCorners fid rest i s = some s' ∧ s'.first = s.first ∧ s'.prev = some (K + rest.length - 1) ∧
      s'.m.heVertex = s.m.heVertex ++ rest.map some ∧ s'.m.heFace = s.m.heFace ++ List.replicate rest.length (some fid) ∧
      s'.m.heNext.length = K + rest.length ∧
      (∀ j, get s'.m.heNext j = if K - 1 ≤ j ∧ j < K - 1 + rest.length then some (j + 1) else get s.m.heNext j) ∧
      s'.m.vHe.length = s.m.vHe.length ∧
      (∀ v, (v ∉ rest ∧ get s'.m.vHe v = get s.m.vHe v) ∨ (v ∈ rest ∧ ∃ h, get s'.m.vHe v = some h ∧ get s'.m.heVertex h = some v)) ∧
      s'.m.fHe = s.m.fHe ∧ s'.m.nV = s.m.nV ∧ s'.m.nH = K + rest.length ∧ s'.m.nF = s.m.nF ∧ s'.m.nE = s.m.nE ∧
      s'.m.heEdge = s.m.heEdge ++ List.replicate rest.length none ∧ s'.m.vIn = s.m.vIn ++ List.replicate rest.length none ∧
      s'.m.vOut = s.m.vOut ++ List.replicate rest.length none ∧ s'.m.sib = s.m.sib ++ List.replicate rest.length none ∧
      s'.m.eHe = s.m.eHe := by
  intro rest
  induction rest with
  | nil =>
    intro i s K h1 h2 h3 h4 h5 h6 h7 h8 h9
    refine ⟨s, rfl, rfl, by simpa using h6, by simp, by simp, by simpa using h2, fun j => by rw [if_neg]; simp, rfl, fun v => Or.inl ⟨by simp, rfl⟩, rfl,
      rfl, by simpa using h1, rfl, rfl, by simp, by simp, by simp, by simp, rfl⟩
  | cons tail rest ih =>
    intro i s K h1 h2 h3 h4 h5 h6 h7 h8 h9
    obtain ⟨W, w1, w2, w3⟩ := put_spec (a := s.m.vHe) (i := tail) s.m.heNext.length (h5 tail (by simp))
    obtain ⟨X, x1, x2, x3⟩ := put_spec (a := s.m.heNext ++ [none]) (i := K - 1) s.m.heNext.length (by simp; omega)
    let m1 : Mesh := ⟨W, X, s.m.heVertex ++ [some tail], s.m.fHe, s.m.nV, s.m.nH + 1, s.m.nF, s.m.nE, s.m.heEdge ++ [none], s.m.heFace ++ [some fid],
      s.m.vIn ++ [none], s.m.vOut ++ [none], s.m.sib ++ [none], s.m.eHe⟩
    have run : addCorners fid (tail :: rest) i s = addCorners fid rest (i + 1) { m := m1, first := s.first, prev := some s.m.heNext.length } := by
      rw [addCorners]
      have p1 : put (s.m.heVertex ++ List.replicate 1 none) s.m.heNext.length tail = some (s.m.heVertex ++ [some tail]) := by
        rw [h2, ← h3]; exact set_last
      have p2 : put (s.m.heFace ++ List.replicate 1 none) s.m.heNext.length fid = some (s.m.heFace ++ [some fid]) := by
        rw [h2, ← h4]; exact set_last
      refine (bind_of p1).trans ?_
      refine (bind_of p2).trans ?_
      refine (bind_of w1).trans ?_
      simp only [if_neg h8]
      refine (bind_of h6).trans ?_
      exact (bind_of x1).trans rfl
    obtain ⟨s', q0, q1, q2, q3, q4, q5, q6, q7, q8, q9, q10, q11, q12, q13, q14, q15, q16, q17, q18⟩ :=
      ih (i + 1) { m := m1, first := s.first, prev := some s.m.heNext.length } (K + 1) (by simp [m1, h1]) (by simp [m1, x2, h2]) (by simp [m1, h3])
        (by simp [m1, h4]) (fun v hv => by simp only [m1, w2]; exact h5 v (by simp [hv])) (by simp [h2]) (by omega) (by omega)
        (by
          simp only [m1]
          rw [x3, if_neg (by omega), get_append1]
          exact out_none h2 (by omega))
    refine ⟨s', by rw [run, q0], q1, by rw [q2, List.length_cons]; congr 1; omega, by rw [q3]; simp [m1], by rw [q4]; simp [m1, List.replicate_succ], by rw [q5]; simp; omega,
      fun j => ?_, by rw [q7]; exact w2, fun v => ?_, by rw [q9], by rw [q10], by rw [q11]; simp; omega, by rw [q12], by rw [q13],
      by rw [q14]; simp [m1, List.replicate_succ], by rw [q15]; simp [m1, List.replicate_succ], by rw [q16]; simp [m1, List.replicate_succ],
      by rw [q17]; simp [m1, List.replicate_succ], by rw [q18]⟩
    · rw [q6]
      simp only [m1, List.length_cons]
      rw [x3, get_append1]
      by_cases j1 : j = K - 1
      · rw [if_neg (by omega), if_pos j1, if_pos (by omega)]; congr 1; omega
      · by_cases j2 : K ≤ j ∧ j < K + rest.length
        · rw [if_pos (by omega), if_pos (by omega)]
        · rw [if_neg (by omega), if_neg j1, if_neg (by omega)]
    · rcases q8 v with ⟨a1, a2⟩ | ⟨a1, a2⟩
      · simp only [m1] at a2
        rw [w3] at a2
        by_cases hv : v = tail
        · rw [if_pos hv] at a2
          refine Or.inr ⟨by simp [hv], _, a2, ?_⟩
          rw [q3]
          simp only [m1]
          rw [get_left (by simp [h2, h3]), get_right (by omega), h2, h3]
          simp [get, hv]
        · rw [if_neg hv] at a2
          exact Or.inl ⟨by simp [hv, a1], a2⟩
      · exact Or.inr ⟨by simp [a1], a2⟩

/-- One polygon. -/
theorem addPolygon_spec {m : Mesh} {fid : Nat} {p : List Nat} {K : Nat} (hp : p ≠ []) (h1 : m.nH = K) (h2 : m.heNext.length = K)
    (h3 : m.heVertex.length = K) (h4 : m.heFace.length = K) (h5 : ∀ v ∈ p, v < m.vHe.length) (h6 : fid < m.fHe.length) :
    ∃ m', addPolygon m fid p = some m' ∧ m'.heVertex = m.heVertex ++ p.map some ∧ m'.heFace = m.heFace ++ List.replicate p.length (some fid) ∧
      m'.heNext.length = K + p.length ∧
      (∀ j, get m'.heNext j = if j < K then get m.heNext j else if j < K + p.length then some (K + (j - K + 1) % p.length) else none) ∧
      m'.vHe.length = m.vHe.length ∧
      (∀ v, (v ∉ p ∧ get m'.vHe v = get m.vHe v) ∨ (v ∈ p ∧ ∃ h, get m'.vHe v = some h ∧ get m'.heVertex h = some v)) ∧
      m'.fHe.length = m.fHe.length ∧ (∀ f, get m'.fHe f = if f = fid then some K else get m.fHe f) ∧
      m'.nV = m.nV ∧ m'.nH = K + p.length ∧ m'.nF = m.nF ∧ m'.nE = m.nE ∧
      m'.heEdge = m.heEdge ++ List.replicate p.length none ∧ m'.vIn = m.vIn ++ List.replicate p.length none ∧
      m'.vOut = m.vOut ++ List.replicate p.length none ∧ m'.sib = m.sib ++ List.replicate p.length none ∧ m'.eHe = m.eHe := by
  obtain ⟨tail, rest, rfl⟩ := List.exists_cons_of_ne_nil hp
  obtain ⟨W, w1, w2, w3⟩ := put_spec (a := m.vHe) (i := tail) m.heNext.length (h5 tail (by simp))
  obtain ⟨F, f1, f2, f3⟩ := put_spec (a := m.fHe) (i := fid) m.heNext.length h6
  let m1 : Mesh := ⟨W, m.heNext ++ [none], m.heVertex ++ [some tail], F, m.nV, m.nH + 1, m.nF, m.nE, m.heEdge ++ [none], m.heFace ++ [some fid],
    m.vIn ++ [none], m.vOut ++ [none], m.sib ++ [none], m.eHe⟩
  have run : addCorners fid (tail :: rest) 0 { m := m, first := none, prev := none } =
      addCorners fid rest 1 { m := m1, first := some m.heNext.length, prev := some m.heNext.length } := by
    rw [addCorners]
    have p1 : put (m.heVertex ++ List.replicate 1 none) m.heNext.length tail = some (m.heVertex ++ [some tail]) := by
      rw [h2, ← h3]; exact set_last
    have p2 : put (m.heFace ++ List.replicate 1 none) m.heNext.length fid = some (m.heFace ++ [some fid]) := by
      rw [h2, ← h4]; exact set_last
    refine (bind_of p1).trans ?_
    refine (bind_of p2).trans ?_
    refine (bind_of w1).trans ?_
    simp only [if_true]
    exact (bind_of f1).trans rfl
  obtain ⟨s', q0, q1, q2, q3, q4, q5, q6, q7, q8, q9, q10, q11, q12, q13, q14, q15, q16, q17, q18⟩ :=
    addCorners_rest (fid := fid) rest 1 { m := m1, first := some m.heNext.length, prev := some m.heNext.length } (K + 1) (by simp [m1, h1]) (by simp [m1, h2])
      (by simp [m1, h3]) (by simp [m1, h4]) (fun v hv => by simp only [m1, w2]; exact h5 v (by simp [hv])) (by simp [h2]) (by omega) (by omega)
      (by
        simp only [m1]
        rw [get_append1]
        exact out_none h2 (by omega))
  obtain ⟨X, x1, x2, x3⟩ := put_spec (a := s'.m.heNext) (i := K + 1 + rest.length - 1) m.heNext.length (by omega)
  refine ⟨{ s'.m with heNext := X }, ?_, ?_, ?_, ?_, fun j => ?_, ?_, fun v => ?_, ?_, fun f => ?_, ?_, ?_, ?_, ?_, ?_, ?_, ?_, ?_, ?_⟩
  · rw [addPolygon]
    refine (bind_of (run.trans q0)).trans ?_
    refine (bind_of q2).trans ?_
    refine (bind_of q1).trans ?_
    exact (bind_of x1).trans rfl
  · simp only [q3]; simp [m1]
  · simp only [q4]; simp [m1, List.replicate_succ]
  · simp only [x2, q5, List.length_cons]; omega
  · simp only [List.length_cons]
    rw [x3, q6, h2]
    simp only [m1]
    rw [get_append1]
    by_cases j1 : j < K
    · rw [if_neg (by omega), if_neg (by omega), if_pos j1]
    · rw [if_neg j1]
      by_cases j2 : j = K + 1 + rest.length - 1
      · rw [if_pos j2, if_pos (by omega)]
        have : j - K + 1 = rest.length + 1 := by omega
        rw [this, Nat.mod_self, Nat.add_zero]
      · rw [if_neg j2]
        by_cases j3 : j < K + (rest.length + 1)
        · rw [if_pos (by omega), if_pos j3, Nat.mod_eq_of_lt (by omega)]
          congr 1; omega
        · rw [if_neg (by omega), if_neg j3]
          exact out_none h2 (by omega)
  · simp only [q7]; exact w2
  · rcases q8 v with ⟨a1, a2⟩ | ⟨a1, a2⟩
    · simp only [m1] at a2
      rw [w3] at a2
      by_cases hv : v = tail
      · rw [if_pos hv] at a2
        refine Or.inr ⟨by simp [hv], _, a2, ?_⟩
        simp only [q3, m1]
        rw [get_left (by simp [h2, h3]), get_right (by omega), h2, h3]
        simp [get, hv]
      · rw [if_neg hv] at a2
        exact Or.inl ⟨by simp [hv, a1], a2⟩
    · exact Or.inr ⟨by simp [a1], a2⟩
  · simp only [q9]; exact f2
  · simp only [q9]; rw [f3, h2]
  · simp only [q10]; rfl
  · simp only [q11, List.length_cons]; omega
  · simp only [q12]; rfl
  · simp only [q13]; rfl
  · simp only [q14]; simp [m1, List.replicate_succ]
  · simp only [q15]; simp [m1, List.replicate_succ]
  · simp only [q16]; simp [m1, List.replicate_succ]
  · simp only [q17]; simp [m1, List.replicate_succ]
  · simp only [q18]; rfl

/-- The mesh after the loop over the polygons `ps`. -/
structure PolyInv (nV nF : Nat) (ps : List (List Nat)) (m : Mesh) : Prop where
  cV : m.nV = nV
  cF : m.nF = nF
  nH : m.nH = ps.flatten.length
  nE : m.nE = 0
  eHe : m.eHe = []
  vHeLen : m.vHe.length = nV
  fHeLen : m.fHe.length = nF
  nextLen : m.heNext.length = ps.flatten.length
  faceLen : m.heFace.length = ps.flatten.length
  heVertex : m.heVertex = ps.flatten.map some
  heEdge : m.heEdge = List.replicate ps.flatten.length none
  sib : m.sib = List.replicate ps.flatten.length none
  vIn : m.vIn = List.replicate ps.flatten.length none
  vOut : m.vOut = List.replicate ps.flatten.length none
  block : ∀ A p B, ps = A ++ p :: B → get m.fHe A.length = some A.flatten.length ∧
    (∀ x, get m.heFace x = some A.length ↔ A.flatten.length ≤ x ∧ x < A.flatten.length + p.length) ∧
    ∀ i < p.length, get m.heNext (A.flatten.length + i) = some (A.flatten.length + (i + 1) % p.length)
  hasF : ∀ x < ps.flatten.length, ∃ f < ps.length, get m.heFace x = some f
  vhe : ∀ v h, get m.vHe v = some h → get m.heVertex h = some v
  vhe' : ∀ v ∈ ps.flatten, ∃ h, get m.vHe v = some h

theorem PolyInv.add {nV nF : Nat} {ps : List (List Nat)} {m : Mesh} (c : PolyInv nV nF ps m) {p : List Nat} (hp : p ≠ []) (hv : ∀ v ∈ p, v < nV)
    (hf : ps.length < nF) : ∃ m', addPolygon m ps.length p = some m' ∧ PolyInv nV nF (ps ++ [p]) m' := by
  obtain ⟨m', q0, q1, q2, q3, q4, q5, q6, q7, q8, q9, q10, q11, q12, q13, q14, q15, q16, q17⟩ := addPolygon_spec (m := m) (fid := ps.length) (p := p)
    (K := ps.flatten.length) hp c.nH c.nextLen (by rw [c.heVertex, List.length_map]) c.faceLen (fun v h => by rw [c.vHeLen]; exact hv v h)
    (by rw [c.fHeLen]; exact hf)
  have fl : (ps ++ [p]).flatten = ps.flatten ++ p := by simp
  have gF : ∀ x, get m'.heFace x = if x < ps.flatten.length then get m.heFace x else if x < ps.flatten.length + p.length then some ps.length else none := by
    intro x
    rw [q2]
    split_ifs with h1 h2
    · exact get_left (by rw [c.faceLen]; exact h1)
    · rw [get_right (by rw [c.faceLen]; omega), get, List.getElem?_replicate, if_pos (by rw [c.faceLen]; omega)]; rfl
    · exact out_none (n := ps.flatten.length + p.length) (by simp [c.faceLen]) (by omega)
  refine ⟨m', q0, ?_⟩
  refine { cV := q9.trans c.cV, cF := q11.trans c.cF, nH := by rw [q10, fl, List.length_append], nE := q12.trans c.nE, eHe := q17.trans c.eHe,
           vHeLen := q5.trans c.vHeLen, fHeLen := q7.trans c.fHeLen, nextLen := by rw [q3, fl, List.length_append],
           faceLen := by rw [q2, fl]; simp only [List.length_append, List.length_replicate, c.faceLen], heVertex := by rw [q1, c.heVertex, fl, List.map_append],
           heEdge := by rw [q13, c.heEdge, fl, List.length_append, List.replicate_append_replicate],
           sib := by rw [q16, c.sib, fl, List.length_append, List.replicate_append_replicate],
           vIn := by rw [q14, c.vIn, fl, List.length_append, List.replicate_append_replicate],
           vOut := by rw [q15, c.vOut, fl, List.length_append, List.replicate_append_replicate],
           block := ?_, hasF := ?_, vhe := ?_, vhe' := ?_ }
  · intro A r B h
    rcases B.eq_nil_or_concat with rfl | ⟨B, b, rfl⟩
    · obtain ⟨rfl, h2⟩ := List.append_inj' h rfl
      cases h2
      refine ⟨by rw [q8, if_pos rfl], fun x => ?_, fun i hi => ?_⟩
      · rw [gF]
        split_ifs with h1 h2
        · constructor
          · intro hx
            obtain ⟨f, f1, f2⟩ := c.hasF x h1
            rw [hx] at f2; cases f2; omega
          · intro hx; omega
        · exact ⟨fun _ => ⟨by omega, h2⟩, fun _ => rfl⟩
        · constructor
          · intro hx; cases hx
          · intro hx; omega
      · rw [q4, if_neg (by omega), if_pos (by omega), Nat.add_sub_cancel_left]
    · rw [List.concat_eq_append, ← List.cons_append, ← List.append_assoc] at h
      obtain ⟨h1, h2⟩ := List.append_inj' h rfl
      obtain ⟨b1, b2, b3⟩ := c.block A r B h1
      have hl : A.flatten.length + r.length ≤ ps.flatten.length := by rw [h1, List.flatten_append, List.flatten_cons, List.length_append, List.length_append]; omega
      have hA : A.length < ps.length := by rw [h1]; simp
      refine ⟨by rw [q8, if_neg (by omega), b1], fun x => ?_, fun i hi => ?_⟩
      · rw [gF]
        split_ifs with h1 h2
        · exact b2 x
        · constructor
          · intro hx; rw [Option.some.injEq] at hx; omega
          · intro hx; omega
        · constructor
          · intro hx; cases hx
          · intro hx; omega
      · rw [q4, if_pos (by omega), b3 i hi]
  · intro x hx
    rw [fl, List.length_append] at hx
    rw [List.length_append, List.length_singleton]
    simp only [gF]
    split_ifs with h1
    · obtain ⟨f, f1, f2⟩ := c.hasF x h1
      exact ⟨f, by omega, f2⟩
    · exact ⟨ps.length, by omega, rfl⟩
  · intro v h hh
    rcases q6 v with ⟨a1, a2⟩ | ⟨a1, h', a2, a3⟩
    · rw [a2] at hh
      have h1 := c.vhe v h hh
      rw [q1, get_left (get_lt h1), h1]
    · rw [a2] at hh
      cases hh
      exact a3
  · intro v hv
    rw [fl, List.mem_append] at hv
    rcases q6 v with ⟨a1, a2⟩ | ⟨a1, h', a2, a3⟩
    · rw [a2]
      exact c.vhe' v (hv.resolve_right a1)
    · exact ⟨h', a2⟩

theorem addPolygons_spec {nV nF : Nat} : ∀ (rest ps : List (List Nat)) (m : Mesh), PolyInv nV nF ps m → (∀ p ∈ rest, p ≠ [] ∧ ∀ v ∈ p, v < nV) →
    ps.length + rest.length ≤ nF → ∃ m', addPolygons rest ps.length m = some m' ∧ PolyInv nV nF (ps ++ rest) m' := by
  intro rest
  induction rest with
  | nil => intro ps m c _ _; exact ⟨m, rfl, by simpa using c⟩
  | cons p rest ih =>
    intro ps m c h1 h2
    simp only [List.length_cons] at h2
    obtain ⟨m1, q1, q2⟩ := c.add (h1 p (by simp)).1 (h1 p (by simp)).2 (by omega)
    obtain ⟨m', r1, r2⟩ := ih (ps ++ [p]) m1 q2 (fun p hp => h1 p (by simp [hp])) (by simp; omega)
    refine ⟨m', ?_, by simpa using r2⟩
    rw [addPolygons]
    refine (bind_of q1).trans ?_
    simpa using r1

theorem emptyMesh_inv (nV nF : Nat) : PolyInv nV nF [] (emptyMesh nV nF) where
  cV := rfl
  cF := rfl
  nH := rfl
  nE := rfl
  eHe := rfl
  vHeLen := by simp [emptyMesh]
  fHeLen := by simp [emptyMesh]
  nextLen := rfl
  faceLen := rfl
  heVertex := rfl
  heEdge := rfl
  sib := rfl
  vIn := rfl
  vOut := rfl
  block := fun A p B h => by simp at h
  hasF := fun x hx => by simp at hx
  vhe := fun v h hh => by simp only [emptyMesh, get_replicate_none] at hh; cases hh
  vhe' := fun v hv => by simp at hv

end Verif.Surface
