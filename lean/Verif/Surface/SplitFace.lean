import Verif.Surface.AddFace
/-!
# `split_face`
-/
namespace Verif.Surface

theorem chain_rotate {a : Ids} {x y : Nat} {l A R : List Nat} (h : Chain a x l x) (e : x :: l = A ++ y :: R) : Chain a y (R ++ A) y := by
  cases A with
  | nil =>
    simp only [List.nil_append, List.cons.injEq] at e
    obtain ⟨rfl, rfl⟩ := e
    simpa using h
  | cons c A =>
    simp only [List.cons_append, List.cons.injEq] at e
    obtain ⟨rfl, rfl⟩ := e
    obtain ⟨c1, c2⟩ := chain_append.1 h
    exact chain_append.2 ⟨c2, c1⟩

/-- The search finds the two positions. -/
theorem findTwo_second {m : Mesh} {va vb u h : Nat} (hu : get m.heVertex h = some u) (hu' : u = va ∨ u = vb) (C : List Nat) :
    ∀ (B : List Nat) (i p : Nat), (∀ x ∈ B, ∃ w, get m.heVertex x = some w ∧ w ≠ va ∧ w ≠ vb) →
      findTwo m va vb (B ++ h :: C) i (some p) = some (some p, some (i + B.length)) := by
  intro B
  induction B with
  | nil => intro i p _; simp [findTwo, hu, hu']
  | cons b B ih =>
    intro i p hB
    obtain ⟨w, h1, h2, h3⟩ := hB b (by simp)
    simp only [List.cons_append, findTwo, h1, h2, h3, or_self, if_false, Option.bind_eq_bind, Option.bind_some, List.length_cons]
    rw [ih (i + 1) p fun x hx => hB x (List.mem_cons_of_mem _ hx)]
    congr 3; omega

theorem findTwo_first {m : Mesh} {va vb u1 u2 h1 h2 : Nat} (hu1 : get m.heVertex h1 = some u1) (hu1' : u1 = va ∨ u1 = vb)
    (hu2 : get m.heVertex h2 = some u2) (hu2' : u2 = va ∨ u2 = vb) (B C : List Nat)
    (hB : ∀ x ∈ B, ∃ w, get m.heVertex x = some w ∧ w ≠ va ∧ w ≠ vb) :
    ∀ (A : List Nat) (i : Nat), (∀ x ∈ A, ∃ w, get m.heVertex x = some w ∧ w ≠ va ∧ w ≠ vb) →
      findTwo m va vb (A ++ h1 :: (B ++ h2 :: C)) i none = some (some (i + A.length), some (i + A.length + 1 + B.length)) := by
  intro A
  induction A with
  | nil =>
    intro i _
    simp only [List.nil_append, findTwo, hu1, hu1', if_true, Option.bind_eq_bind, Option.bind_some, List.length_nil, Nat.add_zero]
    exact findTwo_second hu2 hu2' C B (i + 1) i hB
  | cons b A ih =>
    intro i hA
    obtain ⟨w, h1, h2, h3⟩ := hA b (by simp)
    simp only [List.cons_append, findTwo, h1, h2, h3, or_self, if_false, Option.bind_eq_bind, Option.bind_some, List.length_cons]
    rw [ih (i + 1) fun x hx => hA x (List.mem_cons_of_mem _ hx)]
    congr 2
    · congr 1; omega
    · congr 1; omega

theorem out_none {a : Ids} {n j : Nat} (ha : a.length = n) (hj : n ≤ j) : get a j = none := by
  by_contra hcon
  obtain ⟨x, hx⟩ := Option.ne_none_iff_exists'.1 hcon
  have := get_lt hx
  omega

theorem get_append1 {a : Ids} (i : Nat) : get (a ++ [none]) i = get a i := by
  have := get_append (a := a) 1 i
  rwa [List.replicate_one] at this

theorem cutFace_run {m : Mesh} {f u1 u2 h1 h2 fl sl n : Nat} {l1 l2 : List Nat} {V1 V S1 S I1 I O1 O X1 X2 X3 X E1 E F1 F2 F G H1 H : Ids}
    (es : (newHalfedges m 2).1 = n)
    (d5 : (h1 :: l1).getLast? = some fl) (d6 : (h2 :: l2).getLast? = some sl)
    (V11 : put (newHalfedges m 2).2.heVertex n u2 = some V1) (V21 : put V1 (n + 1) u1 = some V)
    (S11 : put (newHalfedges m 2).2.sib n (n + 1) = some S1) (S21 : put S1 (n + 1) n = some S)
    (I11 : insertHe (newHalfedges m 2).2.vIn sl n = some I1) (O11 : insertHe (newHalfedges m 2).2.vOut h2 n = some O1)
    (I21 : insertHe I1 fl (n + 1) = some I) (O21 : insertHe O1 h1 (n + 1) = some O)
    (X11 : put (newHalfedges m 2).2.heNext n h1 = some X1) (X21 : put X1 fl n = some X2) (X31 : put X2 (n + 1) h2 = some X3)
    (X41 : put X3 sl (n + 1) = some X) (E11 : put (newHalfedges m 2).2.heEdge n m.eHe.length = some E1)
    (E21 : put E1 (n + 1) m.eHe.length = some E)
    (F11 : put (newHalfedges m 2).2.heFace n f = some F1) (F21 : put F1 (n + 1) m.fHe.length = some F2)
    (F31 : setAll F2 (h2 :: l2) m.fHe.length = some F) (G1 : put (m.eHe ++ [none]) m.eHe.length n = some G)
    (H11 : put (m.fHe ++ [none]) f n = some H1) (H21 : put H1 m.fHe.length (n + 1) = some H) :
    cutFace m f u1 u2 (h1 :: l1) (h2 :: l2) = some (n + 1, ⟨m.vHe, X, V, H, m.nV, m.nH + 2, m.nF + 1, m.nE + 1, E, F, I, O, S, G⟩) := by
  subst es
  unfold cutFace
  bstep V11
  bstep V21
  bstep S11
  bstep S21
  bstep d6
  bstep d5
  bstep (rfl : (h2 :: l2)[0]? = some h2)
  bstep (rfl : (h1 :: l1)[0]? = some h1)
  bstep I11
  bstep O11
  bstep I21
  bstep O21
  bstep X11
  bstep X21
  bstep X31
  bstep X41
  bstep E11
  bstep E21
  bstep F11
  bstep F21
  bstep F31
  bstep G1
  bstep H11
  bstep H21
  rfl

set_option maxHeartbeats 1000000 in
theorem splitFace_spec {m : Mesh} (v : Valid m) {f va vb h1 h2 u1 u2 : Nat} {A B C : List Nat} (hf : f < m.nF)
    (hfh : faceHalfedges m f = some (A ++ h1 :: (B ++ h2 :: C))) (hu1 : get m.heVertex h1 = some u1) (hu2 : get m.heVertex h2 = some u2)
    (hu : (u1 = va ∧ u2 = vb) ∨ (u1 = vb ∧ u2 = va))
    (hA : ∀ x ∈ A, ∃ w, get m.heVertex x = some w ∧ w ≠ va ∧ w ≠ vb) (hB : ∀ x ∈ B, ∃ w, get m.heVertex x = some w ∧ w ≠ va ∧ w ≠ vb) :
    ∃ m', splitFace m f va vb = some (m.nH + 1, m') ∧ Valid m' ∧ m'.nV = m.nV ∧ m'.nE = m.nE + 1 ∧ m'.nF = m.nF + 1 ∧ m'.nH = m.nH + 2 ∧
      faceHalfedges m' f = some (m.nH :: h1 :: B) ∧ faceHalfedges m' m.nF = some ((m.nH + 1) :: h2 :: (C ++ A)) ∧
      get m'.heVertex m.nH = some u2 ∧ get m'.heVertex (m.nH + 1) = some u1 ∧
      get m'.heEdge m.nH = some m.nE ∧ get m'.heEdge (m.nH + 1) = some m.nE ∧
      (∀ h < m.nH, get m'.heVertex h = get m.heVertex h ∧ get m'.heEdge h = get m.heEdge h ∧
        (get m.heFace h ≠ some f → get m'.heNext h = get m.heNext h ∧ get m'.heFace h = get m.heFace h)) ∧
      (∀ g < m.nF, g ≠ f → get m'.fHe g = get m.fHe g) := by
  obtain ⟨c0, ct, c1, c2, c3, c4, c5⟩ := v.faceHalfedges hf
  rw [hfh] at c1
  have c1 := Option.some.inj c1
  -- the ring, cut
  have ring1 := chain_rotate c3 c1.symm
  rw [List.append_assoc, List.cons_append] at ring1
  obtain ⟨r1, r2⟩ := chain_append.1 ring1
  have perm : (c0 :: ct).Perm ((h1 :: B) ++ (h2 :: (C ++ A))) := by
    rw [← c1]
    have : (A ++ h1 :: (B ++ h2 :: C)).Perm ((h1 :: (B ++ h2 :: C)) ++ A) := List.perm_append_comm
    simpa using this
  have nd := perm.nodup_iff.1 c4
  rw [List.nodup_append'] at nd
  obtain ⟨nd1, nd2, nd3⟩ := nd
  have mem : ∀ x, get m.heFace x = some f ↔ x ∈ h1 :: B ∨ x ∈ h2 :: (C ++ A) := by
    intro x
    rw [← c5 x, perm.mem_iff, List.mem_append]
  have lt : ∀ x, get m.heFace x = some f → x < m.nH := fun x hx => by have := get_lt hx; rwa [v.sFace] at this
  obtain ⟨fl, hfl⟩ : ∃ x, x = (h1 :: B).getLast (by simp) := ⟨_, rfl⟩
  obtain ⟨sl, hsl⟩ : ∃ x, x = (h2 :: (C ++ A)).getLast (by simp) := ⟨_, rfl⟩
  have mfl : fl ∈ h1 :: B := by rw [hfl]; exact List.getLast_mem _
  have msl : sl ∈ h2 :: (C ++ A) := by rw [hsl]; exact List.getLast_mem _
  have nfs : fl ≠ sl := fun e => nd3 mfl (by rw [e]; exact msl)
  have lfl : fl < m.nH := lt _ ((mem _).2 (Or.inl mfl))
  have lsl : sl < m.nH := lt _ ((mem _).2 (Or.inr msl))
  have lh1 : h1 < m.nH := lt _ ((mem _).2 (Or.inl (by simp)))
  have lh2 : h2 < m.nH := lt _ ((mem _).2 (Or.inr (by simp)))
  have nfl : get m.heNext fl = some h2 := by rw [hfl]; exact chain_last_get r1
  have nsl : get m.heNext sl = some h1 := by rw [hsl]; exact chain_last_get r2
  have tfl : tip m fl = some u2 := tip_some.2 ⟨h2, nfl, hu2⟩
  have tsl : tip m sl = some u1 := tip_some.2 ⟨h1, nsl, hu1⟩
  -- the arrays
  obtain ⟨m1, hm1⟩ : ∃ x, x = (newHalfedges m 2).2 := ⟨_, rfl⟩
  have gV : ∀ j, get m1.heVertex j = get m.heVertex j := fun j => by rw [hm1]; exact get_append 2 j
  have gE : ∀ j, get m1.heEdge j = get m.heEdge j := fun j => by rw [hm1]; exact get_append 2 j
  have gN : ∀ j, get m1.heNext j = get m.heNext j := fun j => by rw [hm1]; exact get_append 2 j
  have gF : ∀ j, get m1.heFace j = get m.heFace j := fun j => by rw [hm1]; exact get_append 2 j
  have gS : ∀ j, get m1.sib j = get m.sib j := fun j => by rw [hm1]; exact get_append 2 j
  have gI : ∀ j, get m1.vIn j = get m.vIn j := fun j => by rw [hm1]; exact get_append 2 j
  have gO : ∀ j, get m1.vOut j = get m.vOut j := fun j => by rw [hm1]; exact get_append 2 j
  have lV : Len m1.heVertex (m.nH + 2) := by rw [hm1]; simp [newHalfedges, Len, v.sVertex]
  have lE : Len m1.heEdge (m.nH + 2) := by rw [hm1]; simp [newHalfedges, Len, v.sEdge]
  have lN : Len m1.heNext (m.nH + 2) := by rw [hm1]; simp [newHalfedges, Len, v.sNext]
  have lF : Len m1.heFace (m.nH + 2) := by rw [hm1]; simp [newHalfedges, Len, v.sFace]
  have lS : Len m1.sib (m.nH + 2) := by rw [hm1]; simp [newHalfedges, Len, v.sSib]
  have lI : Len m1.vIn (m.nH + 2) := by rw [hm1]; simp [newHalfedges, Len, v.sIn]
  have lO : Len m1.vOut (m.nH + 2) := by rw [hm1]; simp [newHalfedges, Len, v.sOut]
  obtain ⟨V1, V11, V12, V13⟩ := put_len (a := m1.heVertex) (i := m.nH) u2 lV (by omega)
  obtain ⟨V, V21, V22, V23⟩ := put_len (a := V1) (i := m.nH + 1) u1 V12 (by omega)
  obtain ⟨S1, S11, S12, S13⟩ := put_len (a := m1.sib) (i := m.nH) (m.nH + 1) lS (by omega)
  obtain ⟨S, S21, S22, S23⟩ := put_len (a := S1) (i := m.nH + 1) m.nH S12 (by omega)
  have ri0 : Rings m1.vIn (tip m) := v.ins.congr (fun _ => rfl) fun j _ _ => gI j
  have ro0 : Rings m1.vOut (get m.heVertex) := v.outs.congr (fun _ => rfl) fun j _ _ => gO j
  have tipout : ∀ {j}, m.nH ≤ j → tip m j = none := by
    intro j hj
    simp [tip, out_none v.sNext hj]
  obtain ⟨I1, I11, I12, I13, -⟩ := rings_insertHe_len ri0 tsl (x := m.nH) (tipout le_rfl) lI (by omega)
  obtain ⟨O1, O11, O12, O13, -⟩ := rings_insertHe_len ro0 hu2 (x := m.nH) (out_none v.sVertex le_rfl) lO (by omega)
  obtain ⟨I, I21, I22, I23, -⟩ := rings_insertHe_len (I13 (fun j => if j = m.nH then tip m sl else tip m j) fun j => rfl) (s := fl) (x := m.nH + 1) (k := u2)
    (by rw [if_neg (by omega)]; exact tfl) (by rw [if_neg (by omega)]; exact tipout (by omega)) I12 (by omega)
  obtain ⟨O, O21, O22, O23, -⟩ := rings_insertHe_len (O13 (fun j => if j = m.nH then get m.heVertex h2 else get m.heVertex j) fun j => rfl) (s := h1)
    (x := m.nH + 1) (k := u1) (by rw [if_neg (by omega)]; exact hu1)
    (by rw [if_neg (by omega)]; exact out_none v.sVertex (by omega)) O12 (by omega)
  obtain ⟨X1, X11, X12, X13⟩ := put_len (a := m1.heNext) (i := m.nH) h1 lN (by omega)
  obtain ⟨X2, X21, X22, X23⟩ := put_len (a := X1) (i := fl) m.nH X12 (by omega)
  obtain ⟨X3, X31, X32, X33⟩ := put_len (a := X2) (i := m.nH + 1) h2 X22 (by omega)
  obtain ⟨X, X41, X42, X43⟩ := put_len (a := X3) (i := sl) (m.nH + 1) X32 (by omega)
  obtain ⟨E1, E11, E12, E13⟩ := put_len (a := m1.heEdge) (i := m.nH) m.nE lE (by omega)
  obtain ⟨E, E21, E22, E23⟩ := put_len (a := E1) (i := m.nH + 1) m.nE E12 (by omega)
  obtain ⟨F1, F11, F12, F13⟩ := put_len (a := m1.heFace) (i := m.nH) f lF (by omega)
  obtain ⟨F2, F21, F22, F23⟩ := put_len (a := F1) (i := m.nH + 1) m.nF F12 (by omega)
  obtain ⟨F, F31, F32, F33⟩ := setAll_len (a := F2) (l := h2 :: (C ++ A)) m.nF F22 (fun j hj => by
    have := lt j ((mem j).2 (Or.inr hj)); omega)
  obtain ⟨G, G1, G2, G3⟩ := put_len (a := m.eHe ++ [none]) (i := m.nE) m.nH (n := m.nE + 1) (by simp [Len, v.sE]) (by omega)
  obtain ⟨H1, H11, H12, H13⟩ := put_len (a := m.fHe ++ [none]) (i := f) m.nH (n := m.nF + 1) (by simp [Len, v.sF]) (by omega)
  obtain ⟨H, H21, H22, H23⟩ := put_len (a := H1) (i := m.nF) (m.nH + 1) H12 (by omega)
  -- what the arrays hold
  have Vg : ∀ j, get V j = if j = m.nH + 1 then some u1 else if j = m.nH then some u2 else get m.heVertex j := fun j => by rw [V23, V13, gV]
  have Eg : ∀ j, get E j = if j = m.nH + 1 then some m.nE else if j = m.nH then some m.nE else get m.heEdge j := fun j => by rw [E23, E13, gE]
  have Fg : ∀ j, get F j = if j ∈ h2 :: (C ++ A) then some m.nF else if j = m.nH + 1 then some m.nF else if j = m.nH then some f else get m.heFace j :=
    fun j => by rw [F33, F23, F13, gF]
  have Gg : ∀ j, get G j = if j = m.nE then some m.nH else get m.eHe j := fun j => by rw [G3, get_append1]
  have Hg : ∀ j, get H j = if j = m.nF then some (m.nH + 1) else if j = f then some m.nH else get m.fHe j := fun j => by rw [H23, H13, get_append1]
  have Xg : ∀ j, get X j = if j = sl then some (m.nH + 1) else if j = m.nH + 1 then some h2 else if j = fl then some m.nH else
      if j = m.nH then some h1 else get m.heNext j := fun j => by rw [X43, X33, X23, X13, gN]
  have Sg : ∀ j, get S j = if j = m.nH + 1 then some m.nH else if j = m.nH then some (m.nH + 1) else get m.sib j := fun j => by rw [S23, S13, gS]
  -- the two new rings
  have s2 : ∀ x, x ∈ h2 :: (C ++ A) → x < m.nH := fun x hx => lt x ((mem x).2 (Or.inr hx))
  have s1 : ∀ x, x ∈ h1 :: B → x < m.nH := fun x hx => lt x ((mem x).2 (Or.inl hx))
  have ch1 : Chain X m.nH (h1 :: B) m.nH := by
    refine ⟨?_, chain_last r1 nd1 (fun y hy hy' => ?_) ?_⟩
    · rw [Xg, if_neg (by omega), if_neg (by omega), if_neg (by omega), if_pos rfl]
    · have := s1 y hy
      rw [← hfl] at hy'
      rw [Xg, if_neg, if_neg (by omega), if_neg hy', if_neg (by omega)]
      rintro rfl
      exact nd3 hy msl
    · rw [← hfl, Xg, if_neg nfs, if_neg (by omega), if_pos rfl]
  have ch2 : Chain X (m.nH + 1) (h2 :: (C ++ A)) (m.nH + 1) := by
    refine ⟨?_, chain_last r2 nd2 (fun y hy hy' => ?_) ?_⟩
    · rw [Xg, if_neg (by omega), if_pos rfl]
    · have := s2 y hy
      rw [← hsl] at hy'
      rw [Xg, if_neg hy', if_neg (by omega), if_neg, if_neg (by omega)]
      rintro rfl
      exact nd3 mfl hy
    · rw [← hsl, Xg, if_pos rfl]
  have cn1 : (m.nH :: h1 :: B).Nodup := List.nodup_cons.2 ⟨fun h => by have := s1 _ h; omega, nd1⟩
  have cn2 : ((m.nH + 1) :: h2 :: (C ++ A)).Nodup := List.nodup_cons.2 ⟨fun h => by have := s2 _ h; omega, nd2⟩
  -- the run
  set m' : Mesh := ⟨m.vHe, X, V, H, m.nV, m.nH + 2, m.nF + 1, m.nE + 1, E, F, I, O, S, G⟩ with hm'
  refine ⟨m', ?_, ?_, rfl, rfl, rfl, rfl, ?_, ?_, ?_, ?_, ?_, ?_, ?_, ?_⟩
  · have hua1 : u1 = va ∨ u1 = vb := by rcases hu with ⟨h, -⟩ | ⟨h, -⟩ <;> simp [h]
    have hua2 : u2 = va ∨ u2 = vb := by rcases hu with ⟨-, h⟩ | ⟨-, h⟩ <;> simp [h]
    have ft := findTwo_first hu1 hua1 hu2 hua2 B C hB A 0 hA
    have d1 : (A ++ h1 :: (B ++ h2 :: C))[0 + A.length]? = some h1 := by simp
    have d2 : ((A ++ h1 :: (B ++ h2 :: C)).drop (0 + A.length)).take (0 + A.length + 1 + B.length - (0 + A.length)) = h1 :: B := by
      rw [show 0 + A.length + 1 + B.length - (0 + A.length) = B.length + 1 by omega]; simp
    have d3 : (A ++ h1 :: (B ++ h2 :: C)).drop (0 + A.length + 1 + B.length) = h2 :: C := by
      rw [show A ++ h1 :: (B ++ h2 :: C) = (A ++ h1 :: B) ++ h2 :: C by simp, List.drop_append_of_le_length (by simp; omega)]
      rw [List.drop_eq_nil_of_le (by simp; omega)]; rfl
    have d4 : (A ++ h1 :: (B ++ h2 :: C)).take (0 + A.length) = A := by simp
    have d5 : (h1 :: B).getLast? = some fl := by rw [hfl]; exact List.getLast?_eq_some_getLast _
    have d6 : (h2 :: (C ++ A)).getLast? = some sl := by rw [hsl]; exact List.getLast?_eq_some_getLast _
    have cut : cutFace m f u1 u2 (h1 :: B) (h2 :: (C ++ A)) = some (m.nH + 1, m') := by
      have es : (newHalfedges m 2).1 = m.nH := v.sNext
      have e1 : m.eHe.length = m.nE := v.sE
      have e2 : m.fHe.length = m.nF := v.sF
      rw [← e1] at E11 E21 G1
      rw [← e2] at F21 F31 H21
      rw [hm1] at V11 S11 I11 O11 X11 E11 F11
      exact cutFace_run es d5 d6 V11 V21 S11 S21 I11 O11 I21 O21 X11 X21 X31 X41 E11 E21 F11 F21 F31 G1 H11 H21
    unfold splitFace
    bstep hfh
    bstep ft
    bstep (rfl : some (0 + A.length) = some _)
    bstep (rfl : some (0 + A.length + 1 + B.length) = some _)
    bstep d1
    bstep hu1
    rw [d2, d3, d4, List.cons_append]
    by_cases hc : u1 = va
    · have : u2 = vb := by rcases hu with ⟨-, h⟩ | ⟨h1, h2⟩ <;> omega
      rw [if_pos hc, ← hc, ← this]; exact cut
    · obtain ⟨e1, e2⟩ : u1 = vb ∧ u2 = va := by rcases hu with h | h <;> [exact absurd h.1 hc; exact h]
      rw [if_neg hc, ← e1, ← e2]; exact cut
  · have tipEq : ∀ j, tip m' j = if j = m.nH + 1 then some u2 else if j = m.nH then some u1 else tip m j := by
      intro j
      have tipX : ∀ n, get X j = some n → tip m' j = get V n := fun n hn => by simp [tip, hm', hn]
      by_cases j1 : j = sl
      · rw [tipX (m.nH + 1) (by rw [Xg, if_pos j1]), Vg, if_pos rfl, if_neg (by omega), if_neg (by omega), j1, tsl]
      by_cases j2 : j = m.nH + 1
      · rw [tipX h2 (by rw [Xg, if_neg j1, if_pos j2]), Vg, if_neg (by omega), if_neg (by omega), if_pos j2, hu2]
      by_cases j3 : j = fl
      · rw [tipX m.nH (by rw [Xg, if_neg j1, if_neg j2, if_pos j3]), Vg, if_neg (by omega), if_pos rfl, if_neg (by omega), if_neg (by omega), j3, tfl]
      by_cases j4 : j = m.nH
      · rw [tipX h1 (by rw [Xg, if_neg j1, if_neg j2, if_neg j3, if_pos j4]), Vg, if_neg (by omega), if_neg (by omega), if_neg j2, if_pos j4, hu1]
      · rw [if_neg j2, if_neg j4]
        have e1 : get X j = get m.heNext j := by rw [Xg, if_neg j1, if_neg j2, if_neg j3, if_neg j4]
        cases hn : get m.heNext j with
        | none => simp [tip, hm', e1, hn]
        | some n =>
          have hj : j < m.nH := by have := get_lt hn; rwa [v.sNext] at this
          obtain ⟨n', n1, n2, -⟩ := v.next hj
          rw [hn] at n1; cases n1
          rw [tipX n (by rw [e1, hn]), Vg, if_neg (by omega), if_neg (by omega)]
          simp [tip, hn]
    have facesR : Rings X (get F) := by
      intro h k hh
      by_cases hk1 : k = m.nF
      · subst hk1
        have key : ∀ x, get F x = some m.nF ↔ x ∈ (m.nH + 1) :: h2 :: (C ++ A) := by
          intro x
          rw [Fg]
          by_cases x1 : x ∈ h2 :: (C ++ A)
          · rw [if_pos x1]; simp only [true_iff]; exact List.mem_cons_of_mem _ x1
          · rw [if_neg x1]
            by_cases x2 : x = m.nH + 1
            · rw [if_pos x2]; simp [x2]
            · rw [if_neg x2, List.mem_cons]
              simp only [x1, x2, or_self, iff_false]
              split_ifs with x3
              · simp only [Option.some.injEq]; omega
              · intro hc
                have := get_lt hc; rw [v.sFace] at this
                obtain ⟨g, g1, g2⟩ := v.hasF x this
                rw [hc] at g2; cases g2; omega
        refine (Ring.rebase ⟨_, ch2, cn2, fun _ => Iff.rfl⟩ ((key h).1 hh)).iff fun y => (key y).symm
      · by_cases hk2 : k = f
        · subst hk2
          have key : ∀ x, get F x = some k ↔ x ∈ m.nH :: h1 :: B := by
            intro x
            rw [Fg]
            by_cases x1 : x ∈ h2 :: (C ++ A)
            · rw [if_pos x1]
              simp only [Option.some.injEq]
              constructor
              · intro e; exact absurd e.symm hk1
              · intro hx
                rcases List.mem_cons.1 hx with hx | hx
                · have := s2 x x1; omega
                · exact absurd x1 (nd3 hx)
            · rw [if_neg x1]
              by_cases x2 : x = m.nH + 1
              · rw [if_pos x2]
                simp only [Option.some.injEq]
                constructor
                · intro e; exact absurd e.symm hk1
                · intro hx
                  rcases List.mem_cons.1 hx with hx | hx
                  · omega
                  · have := s1 x hx; omega
              · rw [if_neg x2]
                by_cases x3 : x = m.nH
                · rw [if_pos x3]; simp [x3]
                · rw [if_neg x3, mem, List.mem_cons]
                  simp [x1, x3]
          exact (Ring.rebase ⟨_, ch1, cn1, fun _ => Iff.rfl⟩ ((key h).1 hh)).iff fun y => (key y).symm
        · have key : ∀ x, get F x = some k ↔ get m.heFace x = some k := by
            intro x
            rw [Fg]
            by_cases x1 : x ∈ h2 :: (C ++ A)
            · rw [if_pos x1, (mem x).2 (Or.inr x1)]
              simp only [Option.some.injEq]
              constructor <;> intro h <;> omega
            · rw [if_neg x1]
              by_cases x2 : x = m.nH + 1
              · rw [if_pos x2, out_none v.sFace (by omega)]
                simp only [Option.some.injEq, reduceCtorEq, iff_false]; omega
              · rw [if_neg x2]
                by_cases x3 : x = m.nH
                · rw [if_pos x3, out_none v.sFace (by omega)]
                  simp only [Option.some.injEq, reduceCtorEq, iff_false]; omega
                · rw [if_neg x3]
          refine ((v.faces h k ((key h).1 hh)).congr fun y hy => ?_).iff fun y => (key y).symm
          have hy' := get_lt hy; rw [v.sFace] at hy'
          have nf : ∀ z, get m.heFace z = some f → y ≠ z := by
            rintro z hz rfl
            rw [hy] at hz; cases hz; exact hk2 rfl
          rw [Xg, if_neg (nf sl ((mem _).2 (Or.inr msl))), if_neg (by omega), if_neg (nf fl ((mem _).2 (Or.inl mfl))), if_neg (by omega)]
    have edgesR : Rings S (get E) := by
      refine Rings.newClass (l := [m.nH, m.nH + 1]) (k0 := m.nE) v.edges (fun x hx => ?_) (fun j k hj => ?_) (fun h hh => ?_) (fun j => ?_) ?_
      · simp only [List.mem_cons, List.not_mem_nil, or_false] at hx
        exact out_none v.sEdge (by omega)
      · have := get_lt hj; rw [v.sEdge] at this
        rw [Sg, if_neg (by omega), if_neg (by omega)]
      · refine Ring.rebase (h := m.nH) ⟨[m.nH + 1], ⟨?_, ?_⟩, by simp, fun _ => Iff.rfl⟩ hh
        · rw [Sg, if_neg (by omega), if_pos rfl]
        · rw [Chain, Sg, if_pos rfl]
      · rw [Eg]
        simp only [List.mem_cons, List.not_mem_nil, or_false]
        by_cases j1 : j = m.nH + 1
        · simp [j1]
        · by_cases j2 : j = m.nH <;> simp [j1, j2]
      · intro j hj
        have := get_lt hj; rw [v.sEdge] at this
        obtain ⟨e, h1, h2⟩ := v.hasE j this
        rw [hj] at h2; cases h2; omega
    have outsR : Rings O (get V) := O23 _ fun j => by
      rw [Vg]
      by_cases j1 : j = m.nH + 1
      · rw [if_pos j1, if_pos j1, if_neg (by omega), hu1]
      · rw [if_neg j1, if_neg j1, hu2]
    have insR : Rings I (tip m') := I23 _ fun j => by
      rw [tipEq]
      by_cases j1 : j = m.nH + 1
      · rw [if_pos j1, if_pos j1, if_neg (by omega), tfl]
      · rw [if_neg j1, if_neg j1, tsl]
    have cases3 : ∀ j, j < m.nH + 2 → j < m.nH ∨ j = m.nH ∨ j = m.nH + 1 := fun j hj => by omega
    have Vo : ∀ j, j < m.nH → get V j = get m.heVertex j := fun j hj => by rw [Vg, if_neg (by omega), if_neg (by omega)]
    have Eo : ∀ j, j < m.nH → get E j = get m.heEdge j := fun j hj => by rw [Eg, if_neg (by omega), if_neg (by omega)]
    have u1lt : u1 < m.nV := by
      obtain ⟨a, a1, a2⟩ := v.hasV h1 lh1
      rw [hu1] at a2; cases a2; exact a1
    have u2lt : u2 < m.nV := by
      obtain ⟨a, a1, a2⟩ := v.hasV h2 lh2
      rw [hu2] at a2; cases a2; exact a1
    refine
      { sV := v.sV, sF := ?_, sE := ?_, sNext := ?_, sVertex := ?_, sEdge := ?_, sFace := ?_,
        sIn := ?_, sOut := ?_, sSib := ?_, hasV := ?_, hasF := ?_, hasE := ?_, faces := facesR, edges := edgesR,
        outs := outsR, ins := insR, vhe := ?_, vhe' := ?_, fhe := ?_, ehe := ?_, ends := ?_ }
    · exact H22
    · exact G2
    · exact X42
    · exact V22
    · exact E22
    · exact F32
    · exact I22
    · exact O22
    · exact S22
    · intro h hh
      rcases cases3 h hh with hh | rfl | rfl
      · obtain ⟨a, a1, a2⟩ := v.hasV h hh
        exact ⟨a, a1, (Vo h hh).trans a2⟩
      · exact ⟨u2, u2lt, by simp only [hm', Vg]; rw [if_neg (by omega), if_pos trivial]⟩
      · exact ⟨u1, u1lt, by simp only [hm', Vg]; rw [if_pos trivial]⟩
    · intro h hh
      by_cases x1 : h ∈ h2 :: (C ++ A)
      · exact ⟨m.nF, Nat.lt_succ_self _, by simp only [hm']; rw [Fg, if_pos x1]⟩
      rcases cases3 h hh with hh | rfl | rfl
      · obtain ⟨a, a1, a2⟩ := v.hasF h hh
        exact ⟨a, Nat.lt_succ_of_lt a1, by simp only [hm']; rw [Fg, if_neg x1, if_neg (by omega), if_neg (by omega)]; exact a2⟩
      · exact ⟨f, Nat.lt_succ_of_lt hf, by simp only [hm']; rw [Fg, if_neg x1, if_neg (by omega), if_pos rfl]⟩
      · exact ⟨m.nF, Nat.lt_succ_self _, by simp only [hm']; rw [Fg, if_neg x1, if_pos rfl]⟩
    · intro h hh
      rcases cases3 h hh with hh | rfl | rfl
      · obtain ⟨a, a1, a2⟩ := v.hasE h hh
        exact ⟨a, Nat.lt_succ_of_lt a1, (Eo h hh).trans a2⟩
      · exact ⟨m.nE, Nat.lt_succ_self _, by simp only [hm']; rw [Eg, if_neg (by omega), if_pos rfl]⟩
      · exact ⟨m.nE, Nat.lt_succ_self _, by simp only [hm']; rw [Eg, if_pos rfl]⟩
    · intro u h hu
      have h1 := v.vhe u h hu
      have h2 := get_lt h1; rw [v.sVertex] at h2
      exact (Vo h h2).trans h1
    · intro h u hu
      simp only [hm'] at hu
      rw [Vg] at hu
      split_ifs at hu
      · cases hu; exact v.vhe' h1 _ hu1
      · cases hu; exact v.vhe' h2 _ hu2
      · exact v.vhe' h u hu
    · intro g hg
      have hg : g < m.nF + 1 := hg
      simp only [hm']
      by_cases g1 : g = m.nF
      · exact ⟨m.nH + 1, by rw [Hg, if_pos g1], by rw [Fg, if_neg (fun h => by have := s2 _ h; omega), if_pos rfl, g1]⟩
      · by_cases g2 : g = f
        · exact ⟨m.nH, by rw [Hg, if_neg g1, if_pos g2], by
            rw [Fg, if_neg (fun h => by have := s2 _ h; omega), if_neg (by omega), if_pos rfl, g2]⟩
        · obtain ⟨h, a1, a2⟩ := v.fhe g (by omega)
          have h2 := get_lt a2; rw [v.sFace] at h2
          refine ⟨h, by rw [Hg, if_neg g1, if_neg g2, a1], ?_⟩
          rw [Fg, if_neg, if_neg (by omega), if_neg (by omega), a2]
          intro hc
          rw [(mem h).2 (Or.inr hc)] at a2
          cases a2; exact g2 rfl
    · intro e he
      have he : e < m.nE + 1 := he
      simp only [hm']
      by_cases e1 : e = m.nE
      · exact ⟨m.nH, by rw [Gg, if_pos e1], by rw [Eg, if_neg (by omega), if_pos rfl, e1]⟩
      · obtain ⟨h, a1, a2⟩ := v.ehe e (by omega)
        have h2 := get_lt a2; rw [v.sEdge] at h2
        exact ⟨h, by rw [Gg, if_neg e1, a1], (Eo h h2).trans a2⟩
    · intro h h' e he he'
      have cls : ∀ x, get E x = some e → (e = m.nE ∧ (x = m.nH ∨ x = m.nH + 1)) ∨ (x < m.nH ∧ get m.heEdge x = some e) := by
        intro x hx
        rw [Eg] at hx
        split_ifs at hx with x1 x2
        · cases hx; exact Or.inl ⟨rfl, Or.inr x1⟩
        · cases hx; exact Or.inl ⟨rfl, Or.inl x2⟩
        · have := get_lt hx; rw [v.sEdge] at this
          exact Or.inr ⟨this, hx⟩
      have old : ∀ x, x < m.nH → get m.heEdge x = some e → e < m.nE := by
        intro x hx he
        obtain ⟨e', e1, e2⟩ := v.hasE x hx
        rw [he] at e2; cases e2; exact e1
      unfold SameEnds
      rw [tipEq, tipEq]
      simp only [hm', Vg]
      rcases cls h he with ⟨a1, a2⟩ | ⟨a1, a2⟩ <;> rcases cls h' he' with ⟨b1, b2⟩ | ⟨b1, b2⟩
      · rcases a2 with rfl | rfl <;> rcases b2 with rfl | rfl <;> simp
      · have := old h' b1 b2; omega
      · have := old h a1 a2; omega
      · rw [if_neg (by omega), if_neg (by omega), if_neg (by omega), if_neg (by omega), if_neg (by omega), if_neg (by omega), if_neg (by omega),
          if_neg (by omega)]
        exact v.ends h h' e a2 b2
  · have : get m'.fHe f = some m.nH := by simp only [hm']; rw [Hg, if_neg (by omega), if_pos rfl]
    simp only [faceHalfedges, this, Option.bind_eq_bind, Option.bind_some]
    exact ringIter_eq ch1 cn1
  · have : get m'.fHe m.nF = some (m.nH + 1) := by simp only [hm']; rw [Hg, if_pos rfl]
    simp only [faceHalfedges, this, Option.bind_eq_bind, Option.bind_some]
    exact ringIter_eq ch2 cn2
  · simp only [hm']; rw [Vg, if_neg (by omega), if_pos rfl]
  · simp only [hm']; rw [Vg, if_pos rfl]
  · simp only [hm']; rw [Eg, if_neg (by omega), if_pos rfl]
  · simp only [hm']; rw [Eg, if_pos rfl]
  · intro h hh
    simp only [hm']
    refine ⟨by rw [Vg, if_neg (by omega), if_neg (by omega)], by rw [Eg, if_neg (by omega), if_neg (by omega)], fun hnf => ⟨?_, ?_⟩⟩
    · have nf : ∀ z, get m.heFace z = some f → h ≠ z := by rintro z hz rfl; exact hnf hz
      rw [Xg, if_neg (nf sl ((mem _).2 (Or.inr msl))), if_neg (by omega), if_neg (nf fl ((mem _).2 (Or.inl mfl))), if_neg (by omega)]
    · rw [Fg, if_neg (fun hc => hnf ((mem h).2 (Or.inr hc))), if_neg (by omega), if_neg (by omega)]
  · intro g hg hgf
    simp only [hm']
    rw [Hg, if_neg (by omega), if_neg hgf]

end Verif.Surface
