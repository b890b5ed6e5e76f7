import Verif.Props.AlgSys
/-!
# C89: An equation system with several matrices, vectors and scalars: schedules, reuse, initialization and sums of systems
-/
namespace IFEM.AlgSys
open IFEM.Spec IFEM.Sam IFEM.Props

variable {R : Type} [CommRing R] {s0 s : Sam R} {D : FEModel R}

/-- The element data without the number of the thread. -/
def ElmData.strip (e : ElmData R) : ElmData R := { e with thread := 0 }

theorem sum_strip (f : ElmData R → R) (hf : ∀ e, f e.strip = f e) (es es' : List (ElmData R))
    (hperm : (es.map ElmData.strip).Perm (es'.map ElmData.strip)) : (es.map f).sum = (es'.map f).sum := by
  have k : ∀ l : List (ElmData R), l.map f = (l.map ElmData.strip).map f := by
    intro l
    rw [List.map_map]
    exact List.map_congr_left fun e _ => (hf e).symm
  rw [k es, k es']
  exact (hperm.map f).sum_eq

/-- The same elements in any order, distributed in any way on any number of threads, give the same matrices, vectors and scalars. -/
theorem C89_any_schedule (hp : Packs s0 D) (hv : D.Valid) (h : s0.initSystemEquations = some (s, true)) (S : Sys R)
    (hS : SysFits s.neq S.A S.b) (hR : S.R = []) (initLHS : Bool) (n n' : Nat) (hn : 1 ≤ n) (hn' : 1 ≤ n')
    (hd0 : S.c = [] → S.d = .null ∨ S.d = .single) (es es' : List (ElmData R))
    (he : ∀ e ∈ es, DataFits D e ∧ e.thread < n) (he' : ∀ e ∈ es', DataFits D e ∧ e.thread < n')
    (hperm : (es.map ElmData.strip).Perm (es'.map ElmData.strip)) :
    ∃ S1 S2, round s S initLHS n es = some S1 ∧ round s S initLHS n' es' = some S2 ∧
      (∀ i, i < S.A.length → ∀ r c, matVal S1.A i r c = matVal S2.A i r c) ∧
      (∀ j, j < S.b.length → ∀ r, vecVal S1.b j r = vecVal S2.b j r) ∧
      (∀ k, k < S.c.length → S1.c.getD k 0 = S2.c.getD k 0) := by
  obtain ⟨S1, e1, -, -, -, -, m1, v1, t1⟩ := C89_round hp hv h S hS hR initLHS n hn hd0 es he
  obtain ⟨S2, e2, -, -, -, -, m2, v2, t2⟩ := C89_round hp hv h S hS hR initLHS n' hn' hd0 es' he'
  obtain ⟨hB, ⟨g, hg⟩, -⟩ := C05_basis_exists_unique hp hv h
  refine ⟨S1, S2, e1, e2, fun i hi r c => ?_, fun j hj r => ?_, fun k hk => ?_⟩
  · obtain ⟨N, hN⟩ := hB r
    obtain ⟨N', hN'⟩ := hB c
    rw [m1 i hi r c N N' hN hN', m2 i hi r c N N' hN hN', sum_strip (fun e => matPart D e i N N') (fun _ => rfl) es es' hperm]
  · obtain ⟨N, hN⟩ := hB r
    rw [v1 j hj r N g hN hg, v2 j hj r N g hN hg, sum_strip (fun e => vecPart D (links S.A S.b) e j N g) (fun _ => rfl) es es' hperm]
  · rw [t1 k hk, t2 k hk, sum_strip (fun e => sclPart e k) (fun _ => rfl) es es' hperm]

/-- Assembly of the right-hand sides only, without initialization of the matrices: the matrices stay as they are, and the vectors are those
of a full assembly of the same element matrices and vectors (including the terms of the prescribed values). -/
theorem C89_rhs_only (hp : Packs s0 D) (hv : D.Valid) (h : s0.initSystemEquations = some (s, true)) (S : Sys R)
    (hS : SysFits s.neq S.A S.b) (hR : S.R = []) (n : Nat) (hn : 1 ≤ n)
    (hd0 : S.c = [] → S.d = .null ∨ S.d = .single) (es : List (ElmData R)) (he : ∀ e ∈ es, DataFits D e ∧ e.thread < n) :
    ∃ S1 S2, round s S true n es = some S1 ∧ round s S false n (es.map fun e => { e with rhsOnly := true }) = some S2 ∧
      (∀ i, i < S.A.length → ∀ r c, matVal S2.A i r c = matVal S.A i r c) ∧
      (∀ j, j < S.b.length → ∀ r, vecVal S2.b j r = vecVal S1.b j r) := by
  have he' : ∀ e ∈ es.map fun e => { e with rhsOnly := true }, DataFits D e ∧ e.thread < n := by
    intro e hm
    obtain ⟨x, hx, rfl⟩ := List.mem_map.1 hm
    exact ⟨⟨(he x hx).1.range, (he x hx).1.mats, (he x hx).1.vecs⟩, (he x hx).2⟩
  obtain ⟨S1, e1, -, -, -, -, m1, v1, t1⟩ := C89_round hp hv h S hS hR true n hn hd0 es he
  obtain ⟨S2, e2, -, -, -, -, m2, v2, t2⟩ := C89_round hp hv h S hS hR false n hn hd0 _ he'
  obtain ⟨hB, ⟨g, hg⟩, -⟩ := C05_basis_exists_unique hp hv h
  refine ⟨S1, S2, e1, e2, fun i hi r c => ?_, fun j hj r => ?_⟩
  · obtain ⟨N, hN⟩ := hB r
    obtain ⟨N', hN'⟩ := hB c
    rw [m2 i hi r c N N' hN hN', List.map_map, List.sum_eq_zero]
    · simp
    · intro x hx
      obtain ⟨e, -, rfl⟩ := List.mem_map.1 hx
      unfold matPart
      simp
  · obtain ⟨N, hN⟩ := hB r
    rw [v1 j hj r N g hN hg, v2 j hj r N g hN hg, List.map_map]
    rfl

/-! ## Initialization -/

theorem resize_length {β : Type} (l : List β) (n : Nat) (v : β) : (resize l n v).length = n := by
  unfold resize
  rw [List.length_append, List.length_take, List.length_replicate]
  omega

theorem resize_getD {β : Type} (l : List β) (n : Nat) (v : β) (k : Nat) (hk : k < n) : (resize l n v).getD k v = l.getD k v := by
  unfold resize
  rw [List.getD_eq_getElem?_getD, List.getD_eq_getElem?_getD]
  by_cases c : k < l.length
  · rw [List.getElem?_append_left (by rw [List.length_take]; omega), List.getElem?_take, if_pos hk]
  · rw [List.getElem?_append_right (by rw [List.length_take]; omega), List.getElem?_eq_none (l := l) (by omega), List.getElem?_replicate]
    split <;> rfl

/-- The initialization makes a system with the numbers of matrices, vectors and scalars asked for; all matrices are zero.  A vector or scalar
that existed before keeps its values (the first `neq` of them), the new ones are zero.  A single matrix is linked with the first vector, several
matrices are not linked.  There is a reaction force for each specified DOF if there is one matrix and they are asked for, and none else. -/
theorem C89_init (S : Sys R) (neq nspdof nmat nvec nscl : Nat) (reac : Bool) :
    SysFits neq (init S neq nspdof nmat nvec nscl reac).A (init S neq nspdof nmat nvec nscl reac).b ∧
      (init S neq nspdof nmat nvec nscl reac).A.length = nmat ∧ (init S neq nspdof nmat nvec nscl reac).b.length = nvec ∧
      (init S neq nspdof nmat nvec nscl reac).c.length = nscl ∧
      (∀ i r c, matVal (init S neq nspdof nmat nvec nscl reac).A i r c = 0) ∧
      (∀ j, j < nvec → ∀ r : Int, 1 ≤ r → r ≤ neq → vecVal (init S neq nspdof nmat nvec nscl reac).b j r = vecVal S.b j r) ∧
      (∀ k, k < nscl → (init S neq nspdof nmat nvec nscl reac).c.getD k 0 = S.c.getD k 0) ∧
      (nmat = 1 → nvec ≠ 0 → ∃ K, (init S neq nspdof nmat nvec nscl reac).A = [(K, some 0)]) ∧
      (nmat ≠ 1 → ∀ p ∈ (init S neq nspdof nmat nvec nscl reac).A, p.2 = none) ∧
      (init S neq nspdof nmat nvec nscl reac).R.length = (if nmat = 1 ∧ nvec ≠ 0 ∧ reac = true then nspdof else 0) ∧
      (∀ x ∈ (init S neq nspdof nmat nvec nscl reac).R, x = 0) := by
  have hA : ∀ p ∈ (init S neq nspdof nmat nvec nscl reac).A, p.1 = Mat.zero neq neq ∧ (p.2 = none ∨ (p.2 = some 0 ∧ nmat = 1 ∧ nvec ≠ 0)) := by
    intro p hp
    unfold init at hp
    dsimp only at hp
    by_cases c : nmat = 1 ∧ nvec ≠ 0
    · rw [if_pos c] at hp
      rw [List.mem_singleton] at hp
      subst hp
      exact ⟨rfl, Or.inr ⟨rfl, c⟩⟩
    · rw [if_neg c] at hp
      rw [(List.mem_replicate.1 hp).2]
      exact ⟨rfl, Or.inl rfl⟩
  have hb : (init S neq nspdof nmat nvec nscl reac).b = (resize S.b nvec []).map fun v => resize v neq 0 := rfl
  have hbl : (init S neq nspdof nmat nvec nscl reac).b.length = nvec := by rw [hb, List.length_map, resize_length]
  refine ⟨⟨fun p hp => ?_, fun v hv => ?_, fun p hp j hj => ?_⟩, ?_, hbl, resize_length _ _ _, fun i r c => ?_, fun j hj r h1 h2 => ?_, fun k hk => ?_,
    fun h1 h2 => ?_, fun h1 p hp => ?_, ?_, fun x hx => ?_⟩
  · rw [(hA p hp).1]
    exact ⟨by simp [Mat.WF, Mat.zero], rfl, rfl⟩
  · rw [hb] at hv
    obtain ⟨w, -, rfl⟩ := List.mem_map.1 hv
    exact resize_length _ _ _
  · rw [hbl]
    rcases (hA p hp).2 with e | ⟨e, -, e2⟩
    · rw [e] at hj; exact absurd hj (by simp)
    · rw [e] at hj
      obtain rfl : 0 = j := Option.some.inj hj
      omega
  · unfold init
    dsimp only
    split
    · next c => exact c.1.symm
    · exact List.length_replicate
  · unfold matVal
    rw [List.getD_eq_getElem?_getD, List.getElem?_map]
    cases hg : (init S neq nspdof nmat nvec nscl reac).A[i]? with
    | none => exact zero_val' 0 0 r c
    | some p =>
      rw [Option.map_some, Option.getD_some, (hA p (List.mem_of_getElem? hg)).1]
      exact zero_val' _ _ _ _
  · unfold vecVal
    have e1 : (init S neq nspdof nmat nvec nscl reac).b.getD j [] = resize (S.b.getD j []) neq 0 := by
      rw [hb, List.getD_eq_getElem?_getD, List.getElem?_map, ← resize_getD S.b nvec [] j hj, List.getD_eq_getElem?_getD]
      rw [List.getElem?_eq_getElem (by rw [resize_length]; exact hj)]
      rfl
    rw [e1]
    generalize S.b.getD j [] = v
    obtain ⟨m, rfl⟩ : ∃ m : Nat, r = m + 1 := ⟨(r-1).toNat, by omega⟩
    have hv : ∀ u : List R, vval u ((m:Int)+1) = u.getD m 0 := by
      intro u
      unfold vval at1? at0?
      rw [if_pos (by omega), show ((m:Int) + 1 - 1).toNat = m by omega, List.getD_eq_getElem?_getD]
    rw [hv, hv]
    exact resize_getD v neq 0 m (by omega)
  · exact resize_getD S.c nscl 0 k hk
  · refine ⟨Mat.zero neq neq, ?_⟩
    unfold init
    dsimp only
    rw [if_pos ⟨h1, h2⟩]
  · rcases (hA p hp).2 with e | ⟨-, e, -⟩
    · exact e
    · exact absurd e h1
  · unfold init
    dsimp only
    split <;> simp
  · unfold init at hx
    dsimp only at hx
    split at hx
    · exact (List.mem_replicate.1 hx).2
    · exact absurd hx (by simp)

/-- A matrix can be linked with a vector exactly if both exist; the values are not changed, and the other links neither. -/
theorem C89_associate (S : Sys R) (imat ivec : Nat) :
    ((setAssociatedVector S imat ivec).2 = true ↔ imat < S.A.length ∧ ivec < S.b.length) ∧
      ((setAssociatedVector S imat ivec).2 = false → (setAssociatedVector S imat ivec).1 = S) ∧
      (setAssociatedVector S imat ivec).1.A.map Prod.fst = S.A.map Prod.fst ∧
      (setAssociatedVector S imat ivec).1.b = S.b ∧ (setAssociatedVector S imat ivec).1.c = S.c ∧
      (∀ i : Nat, i ≠ imat → (setAssociatedVector S imat ivec).1.A[i]? = S.A[i]?) ∧
      ((setAssociatedVector S imat ivec).2 = true → ((setAssociatedVector S imat ivec).1.A.map Prod.snd)[imat]? = some (some ivec)) ∧
      (∀ n, SysFits n S.A S.b → SysFits n (setAssociatedVector S imat ivec).1.A (setAssociatedVector S imat ivec).1.b) := by
  unfold setAssociatedVector
  by_cases c : imat < S.A.length ∧ ivec < S.b.length
  · rw [if_pos c]
    dsimp only
    refine ⟨by simp [c], fun h => absurd h (by simp), ?_, rfl, rfl, fun i hi => ?_, fun _ => ?_, fun n hn => ?_⟩
    · apply List.ext_getElem? ; intro i
      rw [List.getElem?_map, List.getElem?_map, List.getElem?_modify]
      split <;> cases S.A[i]? <;> rfl
    · rw [List.getElem?_modify]
      simp only [if_neg (Ne.symm hi)]
      cases S.A[i]? <;> rfl
    · rw [List.getElem?_map, List.getElem?_modify, List.getElem?_eq_getElem c.1]
      simp
    · have hm : ∀ p ∈ S.A.modify imat (fun p => (p.1, some ivec)), p ∈ S.A ∨ ∃ q ∈ S.A, p = (q.1, some ivec) := by
        intro p hp
        obtain ⟨i, hi⟩ := List.mem_iff_getElem?.1 hp
        rw [List.getElem?_modify] at hi
        obtain ⟨q, hq, e⟩ := Option.map_eq_some_iff.1 hi
        by_cases ci : imat = i
        · rw [if_pos ci] at e
          exact Or.inr ⟨q, List.mem_of_getElem? hq, e.symm⟩
        · rw [if_neg ci] at e
          subst e
          exact Or.inl (List.mem_of_getElem? hq)
      refine ⟨fun p hp => ?_, hn.vecs, fun p hp j hj => ?_⟩
      · rcases hm p hp with h | ⟨q, hq, rfl⟩
        · exact hn.mats p h
        · exact hn.mats q hq
      · rcases hm p hp with h | ⟨q, hq, rfl⟩
        · exact hn.assoc p h j hj
        · obtain rfl : ivec = j := Option.some.inj hj
          exact c.2
  · rw [if_neg c]
    exact ⟨by simp [c], fun _ => rfl, rfl, rfl, rfl, fun _ _ => rfl, fun h => absurd h (by simp), fun n hn => hn⟩

/-! ## Sums of systems -/

theorem addVecs_spec (nA : Nat) (i : Nat) (b tb : List (List R)) (h : min b.length (nA - i) ≤ tb.length) :
    ∃ b', addVecs nA i b tb = some b' ∧ b'.length = b.length ∧
      ∀ j, j < b.length → b'.getD j [] = if i + j < nA then addTo (b.getD j []) (tb.getD j []) else b.getD j [] := by
  induction b generalizing i tb with
  | nil => exact ⟨[], by unfold addVecs; rfl, rfl, fun j hj => absurd hj (by simp)⟩
  | cons B bs ih =>
    unfold addVecs
    by_cases c : i < nA
    · rw [if_pos c]
      cases tb with
      | nil => simp only [List.length_cons, List.length_nil] at h; omega
      | cons T ts =>
        simp only [List.length_cons] at h
        obtain ⟨b', e, l, v⟩ := ih (i+1) ts (by omega)
        refine ⟨addTo B T :: b', by dsimp only; rw [e]; rfl, by simp [l], fun j hj => ?_⟩
        cases j with
        | zero => rw [if_pos (by omega)]; rfl
        | succ j =>
          have := v j (by simp only [List.length_cons] at hj; omega)
          rw [List.getD_cons_succ, this]
          rw [show i + 1 + j = i + (j + 1) by omega]
          rfl
    · rw [if_neg c]
      exact ⟨_, rfl, rfl, fun j _ => by rw [if_neg (by omega)]⟩

theorem vval_addTo (x y : List R) (hl : y.length = x.length) (r : Int) : vval (addTo x y) r = vval x r + vval y r := by
  by_cases c : 1 ≤ r ∧ r ≤ x.length
  · obtain ⟨m, rfl⟩ : ∃ m : Nat, r = m + 1 := ⟨(r-1).toNat, by omega⟩
    have hv : ∀ u : List R, vval u ((m:Int)+1) = u.getD m 0 := by
      intro u
      unfold vval at1? at0?
      rw [if_pos (by omega), show ((m:Int) + 1 - 1).toNat = m by omega, List.getD_eq_getElem?_getD]
    rw [hv, hv, hv, addTo_getD x y m (by omega)]
  · have hv : ∀ u : List R, u.length = x.length → vval u r = 0 := by
      intro u hu
      unfold vval at1? at0?
      by_cases c1 : 0 ≤ r - 1
      · rw [if_pos c1, List.getElem?_eq_none (by omega)]; rfl
      · rw [if_neg c1]; rfl
    rw [hv _ (addTo_length x y), hv _ rfl, hv _ hl, add_zero]

/-- A system is added to another one of the same equations: the matrices, as many vectors as the other system has matrices (finding F30), and the
scalars.  The remaining vectors are not changed. -/
theorem C89_add (n : Nat) (S T : Sys R) (hS : SysFits n S.A S.b) (hT : SysFits n T.A T.b) (hR : T.R = [])
    (hb : min S.b.length T.A.length ≤ T.b.length) :
    ∃ S', add S T = some S' ∧ S'.b.length = S.b.length ∧ S'.c.length = S.c.length ∧ S'.A.map Prod.snd = S.A.map Prod.snd ∧ S'.R = S.R ∧
      (∀ i, i < S.A.length → ∀ r c : Int, 1 ≤ r → r ≤ n → 1 ≤ c → c ≤ n →
        matVal S'.A i r c = matVal S.A i r c + if i < T.A.length then matVal T.A i r c else 0) ∧
      (∀ j, j < S.b.length → ∀ r, vecVal S'.b j r = vecVal S.b j r + if j < T.A.length then vecVal T.b j r else 0) ∧
      (∀ k, k < S.c.length → S'.c.getD k 0 = S.c.getD k 0 + T.c.getD k 0) := by
  unfold add
  obtain ⟨b', e, l, v⟩ := addVecs_spec T.A.length 0 S.b T.b (by rw [Nat.sub_zero]; exact hb)
  rw [e, hR]
  dsimp only
  rw [if_neg (by simp)]
  refine ⟨_, rfl, l, addTo_length _ _, ?_, ?_, fun i hi r c r1 r2 c1 c2 => ?_, fun j hj r => ?_, fun k hk => addTo_getD _ _ k hk⟩
  · apply List.ext_getElem?
    intro i
    dsimp only
    rw [List.getElem?_map, List.getElem?_map, List.getElem?_zipIdx, List.getElem?_map]
    cases S.A[i]? with
    | none => rfl
    | some p =>
      simp only [Option.map_some]
      split <;> rfl
  · dsimp only
    have : addTo (S.R.take S.b.length) [] = S.R.take S.b.length := by
      cases S.R.take S.b.length <;> rfl
    rw [this, List.take_append_drop]
  · dsimp only
    unfold matVal
    rw [List.getD_eq_getElem?_getD, List.getD_eq_getElem?_getD, List.getD_eq_getElem?_getD, List.getElem?_map, List.getElem?_map, List.getElem?_map,
      List.getElem?_map, List.getElem?_zipIdx, List.getElem?_eq_getElem hi]
    have hs := hS.mats _ (List.getElem_mem hi)
    simp only [Option.map_some, Option.getD_some, Nat.zero_add]
    by_cases ci : i < T.A.length
    · rw [if_pos ci, List.getElem?_eq_getElem ci]
      have ht := hT.mats _ (List.getElem_mem ci)
      dsimp only [Option.map_some, Option.getD_some]
      generalize T.A[i].1 = B at ht
      generalize S.A[i].1 = A at hs
      unfold addMat
      rw [if_neg (by omega)]
      have hval : ∀ M : Mat R, M.nrow = n → M.ncol = n → M.val r c = M.elem.getD ((r-1).toNat + n * (c-1).toNat) 0 := by
        intro M hr hc
        unfold Mat.val Mat.get?
        rw [if_pos ⟨r1, by omega, c1, by omega⟩, hr, List.getD_eq_getElem?_getD]
      have lA : A.elem.length = n * n := by have := hs.1; unfold Mat.WF at this; rw [this, hs.2.1, hs.2.2]
      have lB : B.elem.length = n * n := by have := ht.1; unfold Mat.WF at this; rw [this, ht.2.1, ht.2.2]
      rw [hval ⟨A.nrow, A.ncol, addTo A.elem B.elem⟩ hs.2.1 hs.2.2, hval A hs.2.1 hs.2.2, hval B ht.2.1 ht.2.2]
      refine addTo_getD _ _ _ ?_
      rw [lA]
      have k1 : (r-1).toNat < n := by omega
      have k2 : (c-1).toNat + 1 ≤ n := by omega
      have := Nat.mul_le_mul_left n k2
      rw [Nat.mul_add, Nat.mul_one] at this
      omega
    · rw [if_neg ci, List.getElem?_eq_none (by omega), add_zero]
  · dsimp only
    unfold vecVal
    rw [v j hj, Nat.zero_add]
    by_cases c : j < T.A.length
    · rw [if_pos c, if_pos c]
      refine vval_addTo _ _ ?_ r
      have h1 : j < T.b.length := by omega
      rw [List.getD_eq_getElem?_getD, List.getD_eq_getElem?_getD, List.getElem?_eq_getElem h1, List.getElem?_eq_getElem hj]
      exact (hT.vecs _ (List.getElem_mem h1)).trans (hS.vecs _ (List.getElem_mem hj)).symm
    · rw [if_neg c, if_neg c, add_zero]

/-- A matrix is not changed if the other one has another number of rows or more columns. -/
theorem C89_add_refused (S T S' : Sys R) (h : add S T = some S') (i : Nat) (p t : Mat R × Option Nat) (hp : S.A[i]? = some p) (ht : T.A[i]? = some t)
    (hd : p.1.nrow ≠ t.1.nrow ∨ p.1.ncol < t.1.ncol) : S'.A[i]? = some p := by
  unfold add at h
  split at h
  · exact absurd h (by simp)
  · split at h
    · exact absurd h (by simp)
    · rw [← Option.some.inj h]
      dsimp only
      rw [List.getElem?_map, List.getElem?_zipIdx, hp]
      simp only [Option.map_some, Nat.zero_add]
      rw [ht]
      dsimp only
      unfold addMat
      rw [if_pos hd]

/-! ## Findings and a concrete case -/

/-- Finding F178: the scalars of an element without matrices and vectors are not added. -/
theorem C89_scalars_lost (s : Sam R) (S : Sys R) (e : ElmData R) (hA : e.A = []) (hb : e.b = []) : assemble s S e = some S := by
  unfold assemble
  rw [if_pos ⟨hA, hb⟩]

/-- Finding F179: the link of a single matrix has no effect on the assembly: the terms of the prescribed values always go to the first
vector. -/
theorem C89_single_link (s : Sam R) (K : Mat R) (a a' : Option Nat) (B : List R) (bs : List (List R)) (e : ElmData R) :
    assembleSystems s [(K, a')] (B :: bs) e =
      (assembleSystems s [(K, a)] (B :: bs) e).map fun r => (r.1.map fun p => (p.1, a'), r.2) := by
  unfold assembleSystems
  dsimp only
  cases s.assembleVec B e.rhs e.iel with
  | none => rfl
  | some B1 =>
    dsimp only
    cases newtonStep s K B1 e with
    | none => rfl
    | some r =>
      obtain ⟨K', B2⟩ := r
      dsimp only
      cases assembleVecs s e.iel bs (e.b.drop 1) <;> rfl

/-- Finding F30: the second vector is left out because there is only one matrix; and with more matrices than vectors in the other system an
element outside of its array of vectors is used. -/
example : addVecs 1 0 [[(1 : ℤ)], [2]] [[10], [20]] = some [[11], [2]] ∧ addVecs 2 0 [[(1 : ℤ)], [2]] [[10]] = none := ⟨by decide, by decide⟩

/-- Two elements with two matrices, two vectors and a scalar, assembled by different threads. -/
def exElems : List (ElmData ℤ) :=
  [⟨2, 1, [⟨3, 3, [4, 1, 0, 1, 5, 2, 0, 2, 6]⟩, ⟨3, 3, [1, 0, 0, 0, 1, 0, 0, 0, 1]⟩], [[1, 2, 3], [4, 5, 6]], [10], false, true⟩,
   ⟨1, 0, [⟨3, 3, [1, 0, 0, 0, 1, 0, 0, 0, 1]⟩, ⟨3, 3, [2, 0, 0, 0, 2, 0, 0, 0, 2]⟩], [[1, 1, 1], [2, 2, 2]], [7], false, true⟩]

def exSys : Sys ℤ := (setAssociatedVector (init ⟨[], [], [], .null, []⟩ 3 0 2 2 1 false) 1 0).1

example : ∀ e ∈ exElems, DataFits exampleModel e ∧ e.thread < 2 := by
  intro e he
  unfold exElems at he
  simp only [List.mem_cons, List.not_mem_nil, or_false] at he
  have hd2 : (exampleModel.elmDofs (exampleModel.nodesOf 2)).length = 3 := by decide
  have hd1 : (exampleModel.elmDofs (exampleModel.nodesOf 1)).length = 3 := by decide
  rcases he with rfl | rfl
  · refine ⟨⟨by decide, fun M hM => ?_, fun f hf => ?_⟩, by decide⟩
    · simp only [List.mem_cons, List.not_mem_nil, or_false] at hM
      rcases hM with rfl | rfl <;> exact ⟨rfl, hd2.symm, hd2.symm⟩
    · simp only [List.mem_cons, List.not_mem_nil, or_false] at hf
      rcases hf with rfl | rfl <;> exact hd2.symm
  · refine ⟨⟨by decide, fun M hM => ?_, fun f hf => ?_⟩, by decide⟩
    · simp only [List.mem_cons, List.not_mem_nil, or_false] at hM
      rcases hM with rfl | rfl <;> exact ⟨rfl, hd1.symm, hd1.symm⟩
    · simp only [List.mem_cons, List.not_mem_nil, or_false] at hf
      rcases hf with rfl | rfl <;> exact hd1.symm

example : SysFits 3 exSys.A exSys.b ∧ exSys.R = [] ∧ exSys.A.length = 2 ∧ exSys.b.length = 2 ∧ exSys.c = [0] := by
  have h := (C89_init (⟨[], [], [], .null, []⟩ : Sys ℤ) 3 0 2 2 1 false)
  exact ⟨(C89_associate _ 1 0).2.2.2.2.2.2.2 3 h.1, rfl, rfl, rfl, rfl⟩

example : (exampleTables.initSystemEquations.bind fun s => (round s.1 exSys true 2 exElems).map fun S => (S.b, S.c, S.A.map fun p => p.1.elem)) =
    some ([[-13, 3, -9], [21, 6, 12]], [17], [[56, 6, 32, 6, 6, 4, 32, 4, 21], [12, 0, 6, 0, 1, 0, 6, 0, 6]]) := by decide +kernel

end IFEM.AlgSys
