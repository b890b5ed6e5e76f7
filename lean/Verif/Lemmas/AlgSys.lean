import Verif.Spec.AlgSys
import Verif.Props.Assembly
import Verif.Lemmas.RhsOnly
/-! Several matrices and vectors: the loops over the vectors and matrices of an element. -/
namespace IFEM.AlgSys
open IFEM.Spec IFEM.Sam IFEM.Props
attribute [-simp] Fin.getElem_fin

variable {R : Type} [CommRing R]

/-! ## Matrix without right-hand side -/

/-- `L'` is `L` without some entries that do not touch the matrix. -/
inductive Drops : List (Option (Upd R)) → List (Option (Upd R)) → Prop
  | nil : Drops [] []
  | keep (x : Option (Upd R)) (l l' : List (Option (Upd R))) : (∀ r v, x ≠ some (.vec r v)) → Drops l l' → Drops (x :: l) (x :: l')
  | skip (x : Option (Upd R)) (l l' : List (Option (Upd R))) : (∀ r c v, x ≠ some (.mat r c v)) → Drops l l' → Drops (x :: l) l'

theorem Drops.append {a a' b b' : List (Option (Upd R))} (h1 : Drops a a') (h2 : Drops b b') : Drops (a ++ b) (a' ++ b') := by
  induction h1 with
  | nil => exact h2
  | keep x l l' hx _ ih => exact Drops.keep x _ _ hx ih
  | skip x l l' hx _ ih => exact Drops.skip x _ _ hx ih

theorem Drops.refl (l : List (Option (Upd R))) (h : ∀ x ∈ l, ∀ r v, x ≠ some (.vec r v)) : Drops l l := by
  induction l with
  | nil => exact Drops.nil
  | cons x l ih => exact Drops.keep x _ _ (h x List.mem_cons_self) (ih fun y hy => h y (List.mem_cons_of_mem _ hy))

theorem Drops.all (l : List (Option (Upd R))) (h : ∀ x ∈ l, ∀ r c v, x ≠ some (.mat r c v)) : Drops l [] := by
  induction l with
  | nil => exact Drops.nil
  | cons x l ih => exact Drops.skip x _ _ (h x List.mem_cons_self) (ih fun y hy => h y (List.mem_cons_of_mem _ hy))

theorem Drops.flatMap {ι : Type} (l : List ι) (f f' : ι → List (Option (Upd R))) (h : ∀ x ∈ l, Drops (f x) (f' x)) : Drops (l.flatMap f) (l.flatMap f') := by
  induction l with
  | nil => exact Drops.nil
  | cons x l ih =>
    rw [List.flatMap_cons, List.flatMap_cons]
    exact (h x List.mem_cons_self).append (ih fun y hy => h y (List.mem_cons_of_mem _ hy))

theorem Drops.run {l l' : List (Option (Upd R))} (h : Drops l l') (K : Mat R) (B : List R) (r : Mat R × List R)
    (e : l.foldlM applyDense (K, B) = some r) : l'.foldlM applyDense (K, []) = some (r.1, []) := by
  induction h generalizing K B with
  | nil =>
    obtain rfl : (K, B) = r := Option.some.inj e
    rfl
  | keep x l l' hx _ ih =>
    rw [List.foldlM_cons] at e ⊢
    cases x with
    | none => exact absurd e (by simp [applyDense])
    | some u =>
      cases u with
      | vec a v => exact absurd rfl (hx a v)
      | mat a c v =>
        simp only [applyDense] at e ⊢
        cases hm : K.addAt? a c v with
        | none => rw [hm] at e; exact absurd e (by simp)
        | some m =>
          rw [hm] at e
          exact ih m B e
  | skip x l l' hx _ ih =>
    rw [List.foldlM_cons] at e
    cases x with
    | none => exact absurd e (by simp [applyDense])
    | some u =>
      cases u with
      | mat a c v => exact absurd rfl (hx a c v)
      | vec a v =>
        simp only [applyDense] at e
        cases hm : add1? B a v with
        | none => rw [hm] at e; exact absurd e (by simp)
        | some m =>
          rw [hm] at e
          exact ih K m e

theorem free_mat (eM : Mat R) (meen : List Int) : ∀ x ∈ assemFree eM meen, ∀ r v, x ≠ some (.vec r v) := by
  intro x hx r v
  unfold assemFree at hx
  simp only [List.mem_flatMap] at hx
  obtain ⟨j, _, hx⟩ := hx
  split at hx
  · exact absurd hx (by simp)
  · rcases List.mem_cons.1 hx with rfl | hx
    · cases eM.elm? j j <;> simp
    · obtain ⟨i, _, hx⟩ := List.mem_flatMap.1 hx
      split at hx
      · exact absurd hx (by simp)
      · simp only [List.mem_cons, List.not_mem_nil, or_false] at hx
        rcases hx with rfl | rfl
        · cases eM.elm? i j <;> simp
        · cases eM.elm? j i <;> simp

theorem slaveMat_mat (s : Sam R) (eM : Mat R) (meen : List Int) (j : Fin meen.length) : ∀ x ∈ s.assemSlaveMat eM meen j, ∀ r v, x ≠ some (.vec r v) := by
  intro x hx r v
  unfold assemSlaveMat at hx
  obtain ⟨tj, _, hx⟩ := List.mem_flatMap.1 hx
  cases tj with
  | none => obtain rfl := List.mem_singleton.1 hx; simp
  | some t =>
    obtain ⟨i, _, hx⟩ := List.mem_flatMap.1 hx
    dsimp only at hx
    split at hx
    · simp only [List.mem_cons, List.not_mem_nil, or_false] at hx
      rcases hx with rfl | rfl
      · cases eM.elm? i j <;> simp
      · cases eM.elm? j i <;> simp
    · split at hx
      · obtain ⟨ti, _, rfl⟩ := List.mem_map.1 hx
        cases ti with
        | none => simp
        | some ti => cases h : eM.elm? i j <;> simp [h]
      · exact absurd hx (by simp)

theorem slaveRHS_vec (s : Sam R) (eM : Mat R) (meen : List Int) (j : Fin meen.length) (c0 : R) :
    ∀ x ∈ s.assemSlaveRHS eM meen j c0, ∀ r c v, x ≠ some (.mat r c v) := by
  intro x hx r c v
  unfold assemSlaveRHS at hx
  obtain ⟨i, _, hx⟩ := List.mem_flatMap.1 hx
  dsimp only at hx
  split at hx
  · obtain rfl := List.mem_singleton.1 hx
    cases eM.elm? i j <;> simp
  · split at hx
    · obtain ⟨ti, _, rfl⟩ := List.mem_map.1 hx
      cases ti with
      | none => simp
      | some ti => cases h : eM.elm? i j <;> simp [h]
    · exact absurd hx (by simp)

theorem upd_drops (s : Sam R) (eM : Mat R) (meen : List Int) (b : Bool) : Drops (s.assemUpd eM meen b) (s.assemUpd eM meen false) := by
  unfold assemUpd assemSlaves
  refine (Drops.refl _ (free_mat eM meen)).append (Drops.flatMap _ _ _ fun j _ => ?_)
  unfold assemSlave
  split
  · exact Drops.nil
  · split
    · exact Drops.refl _ (by simp)
    · cases b with
      | false => exact Drops.refl _ (by
          intro x hx
          simp only [Bool.false_eq_true, if_false, List.nil_append] at hx
          exact slaveMat_mat s eM meen j x hx)
      | true =>
        simp only [Bool.false_eq_true, if_false, if_true]
        exact (Drops.all _ (slaveRHS_vec s eM meen j _)).append (Drops.refl _ (slaveMat_mat s eM meen j))

/-- Without a right-hand side the matrix is the same as with one. -/
theorem lhs_of_mat (s : Sam R) (K : Mat R) (B : List R) (eK : Mat R) (iel : Nat) (K' : Mat R) (B' : List R)
    (h : s.assembleMat K B eK iel = some (K', B')) : assembleLhs s K eK iel = some K' := by
  unfold assembleMat at h
  unfold assembleLhs
  by_cases he : eK.isEmpty
  · rw [if_pos he] at h ⊢
    rw [(Prod.mk.inj (Option.some.inj h)).1]
  · rw [if_neg he] at h ⊢
    unfold assembleDense at h ⊢
    by_cases hk : K.nrow ≠ s.neq ∨ K.ncol < s.neq
    · rw [if_pos hk] at h; exact absurd h (by simp)
    · rw [if_neg hk] at h ⊢
      cases hm : s.getElmEqns iel eK.nrow with
      | none => rw [hm] at h; exact absurd h (by simp)
      | some meen =>
        rw [hm] at h
        simp only [Option.bind_eq_bind, Option.bind_some] at h ⊢
        have := (upd_drops s eK meen (!B.isEmpty)).run K B _ h
        simp only [List.isEmpty_nil, Bool.not_true]
        rw [this]
        rfl

/-! ## The vectors and the matrices of an element -/

section
variable {s0 s : Sam R} {D : FEModel R}

theorem vecVal_cons_zero (B : List R) (bs : List (List R)) (r : Int) : vecVal (B :: bs) 0 r = vval B r := rfl
theorem vecVal_cons_succ (B : List R) (bs : List (List R)) (j : Nat) (r : Int) : vecVal (B :: bs) (j+1) r = vecVal bs j r := rfl
theorem matVal_cons_zero (p : Mat R × Option Nat) (A : List (Mat R × Option Nat)) (r c : Int) : matVal (p :: A) 0 r c = p.1.val r c := rfl
theorem matVal_cons_succ (p : Mat R × Option Nat) (A : List (Mat R × Option Nat)) (i : Nat) (r c : Int) : matVal (p :: A) (i+1) r c = matVal A i r c := rfl

theorem vecVal_set (b : List (List R)) (j : Nat) (B : List R) (k : Nat) (r : Int) (hj : j < b.length) :
    vecVal (b.set j B) k r = if j = k then vval B r else vecVal b k r := by
  unfold vecVal
  rw [List.getD_eq_getElem?_getD, List.getElem?_set]
  by_cases e : j = k
  · subst e; simp [hj]
  · simp [e, List.getD_eq_getElem?_getD]

/-- An element vector of the right length fits with a zero matrix. -/
theorem elem_of_vec (iel : Nat) (hi : 1 ≤ iel ∧ iel ≤ D.elems.length) (f : List R) (hf : f.length = (D.dofsOf iel).length) :
    ElemFits D ⟨iel, Mat.zero (D.dofsOf iel).length (D.dofsOf iel).length, f⟩ :=
  ⟨hi, ⟨by simp [Mat.WF, Mat.zero], rfl, rfl⟩, hf⟩

theorem elem_of_mat (iel : Nat) (hi : 1 ≤ iel ∧ iel ≤ D.elems.length) (M : Mat R) (hM : MatFits D (D.nodesOf iel) M) :
    ElemFits D ⟨iel, M, List.replicate (D.dofsOf iel).length 0⟩ := ⟨hi, hM, by simp⟩

theorem vec_spec (hp : Packs s0 D) (hv : D.Valid) (h : s0.initSystemEquations = some (s, true)) (iel : Nat) (hi : 1 ≤ iel ∧ iel ≤ D.elems.length)
    (f : List R) (hf : f.length = (D.dofsOf iel).length) (B : List R) (hB : B.length = s.neq) :
    ∃ B', s.assembleVec B f iel = some B' ∧ B'.length = s.neq ∧ ∀ r N, BasisField s D r N → vval B' r = vval B r + vecWork D iel N f :=
  C05_assemble_vector hp hv h (elem_of_vec iel hi f hf) B hB

theorem mat_spec (hp : Packs s0 D) (hv : D.Valid) (h : s0.initSystemEquations = some (s, true)) (iel : Nat) (hi : 1 ≤ iel ∧ iel ≤ D.elems.length)
    (M : Mat R) (hM : MatFits D (D.nodesOf iel) M) (K : Mat R) (hK : K.WF ∧ K.nrow = s.neq ∧ K.ncol = s.neq) (B : List R) (hB : B.length = s.neq) :
    ∃ K' B', s.assembleMat K B M iel = some (K', B') ∧ (K'.WF ∧ K'.nrow = s.neq ∧ K'.ncol = s.neq) ∧ B'.length = s.neq ∧
      (∀ r c N N', BasisField s D r N → BasisField s D c N' → K'.val r c = K.val r c + matWork D iel N N' M) ∧
      (∀ r N g, BasisField s D r N → LiftField D g → vval B' r = vval B r - matWork D iel N g M) := by
  obtain ⟨K', B', h1, h2, h3, h4, h5, h6, h7⟩ := C06_assemble_matrix hp hv h (elem_of_mat iel hi M hM) K hK.1 hK.2.1 hK.2.2 B hB
  exact ⟨K', B', h1, ⟨h2, h3, h4⟩, h5, h6, h7⟩

theorem rhsOnly_spec (hp : Packs s0 D) (hv : D.Valid) (h : s0.initSystemEquations = some (s, true)) (iel : Nat) (hi : 1 ≤ iel ∧ iel ≤ D.elems.length)
    (M : Mat R) (hM : MatFits D (D.nodesOf iel) M) (B : List R) (hB : B.length = s.neq) :
    ∃ B', s.assembleRhsOnly B M iel = some B' ∧ B'.length = s.neq ∧
      (∀ r N g, BasisField s D r N → LiftField D g → vval B' r = vval B r - matWork D iel N g M) := by
  have hr := ready_of_init hp hv h
  have he := elem_of_mat iel hi M hM
  obtain ⟨B', h1, h2, h3⟩ := assembleRhsOnly_spec hr hv he B hB
  have hd : ∀ i : Fin (D.dofsOf iel).length, ∀ d, (D.dofsOf iel)[i] = some d → 1 ≤ d ∧ d ≤ D.status.length :=
    fun i => dofs_ok hv (nodesOf_mem he) _ (List.getElem_mem i.2)
  refine ⟨B', h1, h2, fun r N g hN hg => ?_⟩
  rw [h3]
  congr 1
  unfold matWork
  apply Finset.sum_congr rfl
  intro i _
  apply Finset.sum_congr rfl
  intro j _
  rw [basis_val hr hv hN (hd i), lift_val hr hv hg (hd j)]
  rfl

theorem assembleVecs_spec (hp : Packs s0 D) (hv : D.Valid) (h : s0.initSystemEquations = some (s, true)) (iel : Nat)
    (hi : 1 ≤ iel ∧ iel ≤ D.elems.length) (fs : List (List R)) (hf : ∀ f ∈ fs, f.length = (D.dofsOf iel).length) (b : List (List R))
    (hb : ∀ v ∈ b, v.length = s.neq) :
    ∃ b', assembleVecs s iel b fs = some b' ∧ b'.length = b.length ∧ (∀ v ∈ b', v.length = s.neq) ∧
      ∀ j, j < b.length → ∀ r N, BasisField s D r N → vecVal b' j r = vecVal b j r + (fs[j]?).elim 0 (vecWork D iel N) := by
  induction b generalizing fs with
  | nil => exact ⟨[], by cases fs <;> rfl, rfl, by simp, fun j hj => absurd hj (by simp)⟩
  | cons B bs ih =>
    cases fs with
    | nil => exact ⟨B :: bs, rfl, rfl, hb, fun j _ r N _ => by simp⟩
    | cons f fs =>
      obtain ⟨B', e1, l1, v1⟩ := vec_spec hp hv h iel hi f (hf f List.mem_cons_self) B (hb B List.mem_cons_self)
      obtain ⟨bs', e2, l2, w2, v2⟩ := ih fs (fun x hx => hf x (List.mem_cons_of_mem _ hx)) (fun x hx => hb x (List.mem_cons_of_mem _ hx))
      refine ⟨B' :: bs', ?_, by simp [l2], ?_, ?_⟩
      · unfold assembleVecs
        rw [e1, e2]; rfl
      · intro v hv'
        rcases List.mem_cons.1 hv' with rfl | hv'
        · exact l1
        · exact w2 v hv'
      · intro j hj r N hN
        cases j with
        | zero => exact v1 r N hN
        | succ j => exact v2 j (by simpa using hj) r N hN

theorem matStep_spec (hp : Packs s0 D) (hv : D.Valid) (h : s0.initSystemEquations = some (s, true)) (iel : Nat)
    (hi : 1 ≤ iel ∧ iel ≤ D.elems.length) (rhsOnly : Bool) (K : Mat R) (a : Option Nat) (M : Mat R) (hM : MatFits D (D.nodesOf iel) M)
    (hK : K.WF ∧ K.nrow = s.neq ∧ K.ncol = s.neq) (b : List (List R)) (hb : ∀ v ∈ b, v.length = s.neq) (ha : ∀ j, a = some j → j < b.length) :
    ∃ K' b', matStep s iel rhsOnly K a M b = some (K', b') ∧ (K'.WF ∧ K'.nrow = s.neq ∧ K'.ncol = s.neq) ∧ b'.length = b.length ∧
      (∀ v ∈ b', v.length = s.neq) ∧
      (∀ r c N N', BasisField s D r N → BasisField s D c N' →
        K'.val r c = K.val r c + if rhsOnly = false then matWork D iel N N' M else 0) ∧
      (∀ j, j < b.length → ∀ r N g, BasisField s D r N → LiftField D g →
        vecVal b' j r = vecVal b j r - if a = some j then matWork D iel N g M else 0) := by
  unfold matStep
  cases a with
  | none =>
    dsimp only
    cases rhsOnly with
    | true => exact ⟨K, b, rfl, hK, rfl, hb, fun r c N N' _ _ => by simp, fun j _ r N g _ _ => by simp⟩
    | false =>
      obtain ⟨K', B', e1, w1, -, v1, -⟩ := mat_spec hp hv h iel hi M hM K hK (List.replicate s.neq 0) (by simp)
      refine ⟨K', b, ?_, w1, rfl, hb, fun r c N N' hN hN' => by simpa using v1 r c N N' hN hN', fun j _ r N g _ _ => by simp⟩
      rw [if_neg (by simp), lhs_of_mat s K _ M iel K' B' e1]
      rfl
  | some j0 =>
    have hj0 := ha j0 rfl
    have hB : b[j0]? = some b[j0] := List.getElem?_eq_getElem hj0
    have hvB : ∀ r, vecVal b j0 r = vval b[j0] r := by
      intro r; unfold vecVal; rw [List.getD_eq_getElem?_getD, hB]; rfl
    have hlB := hb b[j0] (List.getElem_mem _)
    dsimp only
    rw [hB]
    dsimp only
    have hset : ∀ B' : List R, B'.length = s.neq → ∀ v ∈ b.set j0 B', v.length = s.neq := by
      intro B' hB' v hv'
      rcases List.mem_or_eq_of_mem_set hv' with hv' | rfl
      · exact hb v hv'
      · exact hB'
    cases rhsOnly with
    | true =>
      obtain ⟨B', e1, l1, v1⟩ := rhsOnly_spec hp hv h iel hi M hM b[j0] hlB
      refine ⟨K, b.set j0 B', ?_, hK, by simp, hset B' l1, fun r c N N' _ _ => by simp, fun j hj r N g hN hg => ?_⟩
      · rw [if_pos rfl, e1]; rfl
      · rw [vecVal_set b j0 B' j r hj0]
        by_cases ej : j0 = j
        · subst ej
          rw [if_pos rfl, if_pos rfl, v1 r N g hN hg, hvB]
        · rw [if_neg ej, if_neg (by simpa using ej), sub_zero]
    | false =>
      obtain ⟨K', B', e1, w1, l1, v1, v2⟩ := mat_spec hp hv h iel hi M hM K hK b[j0] hlB
      refine ⟨K', b.set j0 B', ?_, w1, by simp, hset B' l1, fun r c N N' hN hN' => by simpa using v1 r c N N' hN hN', fun j hj r N g hN hg => ?_⟩
      · rw [if_neg (by simp), e1]; rfl
      · rw [vecVal_set b j0 B' j r hj0]
        by_cases ej : j0 = j
        · subst ej
          rw [if_pos rfl, if_pos rfl, v2 r N g hN hg, hvB]
        · rw [if_neg ej, if_neg (by simpa using ej), sub_zero]

theorem assembleMats_spec (hp : Packs s0 D) (hv : D.Valid) (h : s0.initSystemEquations = some (s, true)) (iel : Nat)
    (hi : 1 ≤ iel ∧ iel ≤ D.elems.length) (rhsOnly : Bool) (A : List (Mat R × Option Nat)) (eA : List (Mat R))
    (hM : ∀ M ∈ eA, MatFits D (D.nodesOf iel) M) (b : List (List R)) (hS : SysFits s.neq A b) :
    ∃ A' b', assembleMats s iel rhsOnly A eA b = some (A', b') ∧ SysFits s.neq A' b' ∧ A'.map Prod.snd = A.map Prod.snd ∧ b'.length = b.length ∧
      (∀ i, i < A.length → ∀ r c N N', BasisField s D r N → BasisField s D c N' →
        matVal A' i r c = matVal A i r c + if rhsOnly = false then (eA[i]?).elim 0 (matWork D iel N N') else 0) ∧
      (∀ j, j < b.length → ∀ r N g, BasisField s D r N → LiftField D g →
        vecVal b' j r = vecVal b j r - ∑ i ∈ Finset.range A.length,
          if (A.map Prod.snd)[i]? = some (some j) then (eA[i]?).elim 0 (matWork D iel N g) else 0) := by
  induction A generalizing eA b with
  | nil => exact ⟨[], b, by unfold assembleMats; rfl, hS, rfl, rfl, fun i hi => absurd hi (by simp), fun j _ r N g _ _ => by simp⟩
  | cons p A ih =>
    obtain ⟨K, a⟩ := p
    cases eA with
    | nil =>
      refine ⟨(K, a) :: A, b, by unfold assembleMats; rfl, hS, rfl, rfl, fun i _ r c N N' _ _ => by simp, fun j _ r N g _ _ => by simp⟩
    | cons M eA =>
      obtain ⟨K', b1, e1, w1, l1, hb1, k1, v1⟩ := matStep_spec hp hv h iel hi rhsOnly K a M (hM M List.mem_cons_self)
        (hS.mats (K, a) List.mem_cons_self) b hS.vecs (fun j hj => hS.assoc (K, a) List.mem_cons_self j hj)
      have hS1 : SysFits s.neq A b1 := ⟨fun p hp' => hS.mats p (List.mem_cons_of_mem _ hp'), hb1,
        fun p hp' j hj => by rw [l1]; exact hS.assoc p (List.mem_cons_of_mem _ hp') j hj⟩
      obtain ⟨A', b2, e2, hS2, m2, l2, k2, v2⟩ := ih eA (fun x hx => hM x (List.mem_cons_of_mem _ hx)) b1 hS1
      refine ⟨(K', a) :: A', b2, ?_, ⟨?_, hS2.vecs, ?_⟩, by simp [m2], by rw [l2, l1], ?_, ?_⟩
      · unfold assembleMats
        rw [e1]
        dsimp only
        rw [e2]
      · intro q hq
        rcases List.mem_cons.1 hq with rfl | hq
        · exact w1
        · exact hS2.mats q hq
      · intro q hq j hj
        rcases List.mem_cons.1 hq with rfl | hq
        · rw [l2, l1]; exact hS.assoc (K, a) List.mem_cons_self j hj
        · exact hS2.assoc q hq j hj
      · intro i hi' r c N N' hN hN'
        cases i with
        | zero => exact k1 r c N N' hN hN'
        | succ i => exact k2 i (by simpa using hi') r c N N' hN hN'
      · intro j hj r N g hN hg
        rw [v2 j (by rw [l1]; exact hj) r N g hN hg, v1 j hj r N g hN hg, List.length_cons, Finset.sum_range_succ']
        simp only [List.map_cons, List.getElem?_cons_succ, List.getElem?_cons_zero, Option.some.injEq, Option.elim_some]
        ring
end

end IFEM.AlgSys
