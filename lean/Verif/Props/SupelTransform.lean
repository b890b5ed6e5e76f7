import Verif.Lemmas.SupelTransform
import Mathlib.Logic.Equiv.Fin.Basic
/-!
# Property C82: superelements in global axes

The matrix and load vector of a superelement are transformed to the global axes, and the solution is transformed back for the recovery.
-/
namespace IFEM.Props
open IFEM.Spec IFEM.Supel IFEM.Mat
variable {K : Type} [Field K] {N m : Nat}

theorem sumT_nodes (f : Fin (m * N) → K) : ∑ p, f p = ∑ a : Fin m, ∑ i : Fin N, f (finProdFinEquiv (a, i)) := by
  rw [← Fintype.sum_equiv finProdFinEquiv (fun x : Fin m × Fin N => f (finProdFinEquiv x)) f (fun _ => rfl), Fintype.sum_prod_type]

theorem divT_pair (a : Fin m) (i : Fin N) : (finProdFinEquiv (a, i) : Fin (m * N)).divNat = a := by
  have h := finProdFinEquiv.symm_apply_apply (a, i)
  exact congrArg Prod.fst h

theorem modT_pair (a : Fin m) (i : Fin N) : (finProdFinEquiv (a, i) : Fin (m * N)).modNat = i := by
  have h := finProdFinEquiv.symm_apply_apply (a, i)
  exact congrArg Prod.snd h

theorem nodalT_sum (T : Matrix (Fin N) (Fin N) K) (p : Fin (m * N)) (f : Fin (m * N) → K) : ∑ q, nodal m T p q * f q = ∑ i : Fin N, T p.modNat i * f (finProdFinEquiv (p.divNat, i)) := by
  rw [sumT_nodes, Finset.sum_eq_single p.divNat]
  · apply Finset.sum_congr rfl
    intro i _
    unfold nodal
    rw [divT_pair, modT_pair, if_pos rfl]
  · intro b _ hb
    apply Finset.sum_eq_zero
    intro i _
    unfold nodal
    rw [divT_pair, if_neg (fun h => hb h.symm), zero_mul]
  · simp

theorem nodalT_mul (A B : Matrix (Fin N) (Fin N) K) : nodal m (A * B) = nodal m A * nodal m B := by
  ext p q
  rw [Matrix.mul_apply, nodalT_sum]
  unfold nodal
  by_cases h : p.divNat = q.divNat
  · rw [if_pos h, Matrix.mul_apply]
    apply Finset.sum_congr rfl
    intro i _
    rw [divT_pair, modT_pair, if_pos h]
  · rw [if_neg h]
    symm
    apply Finset.sum_eq_zero
    intro i _
    rw [divT_pair, if_neg h, mul_zero]

theorem nodalT_one : nodal m (1 : Matrix (Fin N) (Fin N) K) = 1 := by
  ext p q
  unfold nodal
  rw [Matrix.one_apply, Matrix.one_apply]
  by_cases h : p = q
  · subst h; simp
  · rw [if_neg h]
    by_cases h1 : p.divNat = q.divNat
    · rw [if_pos h1, if_neg]
      intro h2
      apply h
      apply finProdFinEquiv.symm.injective
      exact Prod.ext h1 h2
    · rw [if_neg h1]

theorem nodalT_transpose (T : Matrix (Fin N) (Fin N) K) : nodal m T.transpose = (nodal m T).transpose := by
  ext p q
  rw [Matrix.transpose_apply]
  unfold nodal
  by_cases h : p.divNat = q.divNat
  · rw [if_pos h, if_pos h.symm, Matrix.transpose_apply]
  · rw [if_neg h, if_neg (fun h' => h h'.symm)]

/-- Entries of a represented matrix as a function of natural numbers. -/
theorem ent_of_rep {M : Mat K} {r c : Nat} {A : Matrix (Fin r) (Fin c) K} (h : Rep M A) :
    Ent M r c fun i j => if hi : i < r then if hj : j < c then A ⟨i, hi⟩ ⟨j, hj⟩ else 0 else 0 := by
  unfold Ent
  have : (Matrix.of fun (i : Fin r) (j : Fin c) => if hi : i.1 < r then if hj : j.1 < c then A ⟨i.1, hi⟩ ⟨j.1, hj⟩ else 0 else 0) = A := by
    ext i j
    simp
  rw [this]
  exact h

theorem pairT_val (a : Fin m) (i : Fin N) : (finProdFinEquiv (a, i) : Fin (m * N)).1 = a.1 * N + i.1 := by
  simp [finProdFinEquiv]; ring

/-- **C82** (transformation of matrices).  A square matrix for `m` nodes becomes `T A Tᵀ`, where `T` has the nodal matrix repeated on its diagonal. -/
theorem C82_transform_matrix {A Tn : Mat K} {c : Nat} {A' : Matrix (Fin (m * N)) (Fin (m * N)) K} {T : Matrix (Fin N) (Fin c) K} (hA : Rep A A') (hT : Rep Tn T) (hc : N ≤ c) (hN : 0 < N) (hm : 0 < m) :
    ∃ B, transformMat A Tn = some (true, B) ∧ Rep B (nodal m (leading hc T) * A' * (nodal m (leading hc T)).transpose) := by
  obtain ⟨B, g1, g2⟩ := transformMat_spec Tn N c _ (ent_of_rep hT) hc hN m hm A _ (ent_of_rep hA)
  refine ⟨B, g1, ?_⟩
  unfold Ent at g2
  convert g2 using 1
  ext p q
  rw [Matrix.mul_apply]
  simp only [Matrix.of_apply]
  have h1 : ∀ x, (nodal m (leading hc T) * A') p x * (nodal m (leading hc T)).transpose x q = nodal m (leading hc T) q x * (nodal m (leading hc T) * A') p x := by
    intro x; rw [Matrix.transpose_apply]; ring
  rw [Finset.sum_congr rfl fun x _ => h1 x, nodalT_sum]
  unfold blk
  apply Finset.sum_congr rfl
  intro l _
  rw [Matrix.mul_apply, nodalT_sum, mul_comm]
  have hq : q.1 % N < N := Nat.mod_lt _ hN
  have hp : p.1 % N < N := Nat.mod_lt _ hN
  congr 1
  · apply Finset.sum_congr rfl
    intro k _
    have e1 := (finProdFinEquiv (p.divNat, k) : Fin (m * N)).2
    have e2 := (finProdFinEquiv (q.divNat, l) : Fin (m * N)).2
    rw [pairT_val] at e1 e2
    have d1 : p.1 / N * N + k.1 < m * N := e1
    have d2 : q.1 / N * N + l.1 < m * N := e2
    dsimp only
    rw [dif_pos hp, dif_pos (lt_of_lt_of_le k.2 hc), dif_pos d1, dif_pos d2]
    congr 2
    · exact Fin.ext (pairT_val _ _)
    · exact Fin.ext (pairT_val _ _)
  · dsimp only
    rw [dif_pos hq, dif_pos (lt_of_lt_of_le l.2 hc)]
    rfl

theorem vals_ofFn {M : Nat} (v : Fin M → K) : Vals (List.ofFn v) M fun p => if hp : p < M then v ⟨p, hp⟩ else 0 := by
  refine ⟨by simp, ?_⟩
  intro p hp
  have := vval_ofFn v ⟨p, hp⟩
  push_cast at this
  rw [this]
  simp [hp]

/-- **C82** (transformation of vectors).  A vector for `m` nodes is multiplied by the same matrix, or by its transpose. -/
theorem C82_transform_vector {Tn : Mat K} {c : Nat} {T : Matrix (Fin N) (Fin c) K} (hT : Rep Tn T) (hc : N ≤ c) (hN : 0 < N) (hm : 0 < m) (v : Fin (m * N) → K) :
    transformVec (List.ofFn v) Tn false = some (true, List.ofFn ((nodal m (leading hc T)).mulVec v)) ∧
    transformVec (List.ofFn v) Tn true = some (true, List.ofFn ((nodal m (leading hc T)).transpose.mulVec v)) := by
  have key : ∀ tp : Bool, transformVec (List.ofFn v) Tn tp = some (true, List.ofFn ((nodal m (if tp then (leading hc T).transpose else leading hc T)).mulVec v)) := by
    intro tp
    obtain ⟨V, g1, g2, g3⟩ := transformVec_spec Tn N c _ (ent_of_rep hT) hc hN tp m hm (List.ofFn v) _ (vals_ofFn v)
    rw [g1, list_ofFn g2]
    congr 3
    funext p
    have := g3 p.1 p.2
    push_cast
    rw [this]
    unfold Matrix.mulVec dotProduct
    rw [nodalT_sum]
    apply Finset.sum_congr rfl
    intro j _
    have e1 := (finProdFinEquiv (p.divNat, j) : Fin (m * N)).2
    rw [pairT_val] at e1
    have d1 : p.1 / N * N + j.1 < m * N := e1
    have hp : p.1 % N < N := Nat.mod_lt _ hN
    congr 1
    · unfold tr
      cases tp
      · simp only [Bool.false_eq_true, if_false]
        rw [dif_pos hp, dif_pos (lt_of_lt_of_le j.2 hc)]
        rfl
      · simp only [if_true]
        rw [dif_pos j.2, dif_pos (lt_of_lt_of_le hp hc)]
        rfl
    · rw [dif_pos d1]
      congr 1
      exact Fin.ext (pairT_val p.divNat j).symm
  refine ⟨key false, ?_⟩
  rw [key true, if_pos rfl, nodalT_transpose]

/-- **C82** (rotations).  For an orthogonal nodal matrix the two transformations of a vector undo each other, work is the same in both systems of axes, and a vector solves the transformed system exactly if the vector
transformed back solves the original one. -/
theorem C82_rotation (T : Matrix (Fin N) (Fin N) K) (hT : T * T.transpose = 1) (A : Matrix (Fin (m * N)) (Fin (m * N)) K) (b u v : Fin (m * N) → K) :
    (nodal m T).transpose.mulVec ((nodal m T).mulVec v) = v ∧ (nodal m T).mulVec ((nodal m T).transpose.mulVec v) = v ∧
    dotProduct ((nodal m T).mulVec u) ((nodal m T * A * (nodal m T).transpose).mulVec ((nodal m T).mulVec v)) = dotProduct u (A.mulVec v) ∧
    dotProduct ((nodal m T).mulVec u) ((nodal m T).mulVec b) = dotProduct u b ∧
    ((nodal m T * A * (nodal m T).transpose).mulVec v = (nodal m T).mulVec b ↔ A.mulVec ((nodal m T).transpose.mulVec v) = b) := by
  have hT' : T.transpose * T = 1 := mul_eq_one_comm.1 hT
  have h1 : nodal m T * (nodal m T).transpose = 1 := by rw [← nodalT_transpose, ← nodalT_mul, hT, nodalT_one]
  have h2 : (nodal m T).transpose * nodal m T = 1 := by rw [← nodalT_transpose, ← nodalT_mul, hT', nodalT_one]
  have hd : ∀ x y : Fin (m * N) → K, dotProduct ((nodal m T).mulVec x) ((nodal m T).mulVec y) = dotProduct x y := by
    intro x y
    rw [Matrix.dotProduct_mulVec, ← Matrix.mulVec_transpose, Matrix.mulVec_mulVec, h2, Matrix.one_mulVec]
  refine ⟨by rw [Matrix.mulVec_mulVec, h2, Matrix.one_mulVec], by rw [Matrix.mulVec_mulVec, h1, Matrix.one_mulVec], ?_, hd u b, ?_⟩
  · rw [Matrix.mulVec_mulVec, Matrix.mul_assoc, h2, Matrix.mul_one, ← Matrix.mulVec_mulVec, hd]
  · rw [← Matrix.mulVec_mulVec, ← Matrix.mulVec_mulVec]
    constructor
    · intro h
      have := congrArg (nodal m T).transpose.mulVec h
      rw [Matrix.mulVec_mulVec _ (nodal m T).transpose (nodal m T), Matrix.mulVec_mulVec b, h2, Matrix.one_mulVec, Matrix.one_mulVec] at this
      exact this
    · intro h; rw [h]

/-- **C82** (refusal).  The transformation is refused, and nothing is changed, if the nodal matrix has fewer columns than rows or more rows than the matrix or vector, or the matrix has more columns than rows. -/
theorem C82_transform_refused (A Tn : Mat K) (V : List K) (tp : Bool) :
    (A.nrow < A.ncol ∨ Tn.ncol < Tn.nrow ∨ A.nrow < Tn.nrow → transformMat A Tn = some (false, A)) ∧
    (Tn.ncol < Tn.nrow ∨ V.length < Tn.nrow → transformVec V Tn tp = some (false, V)) := by
  refine ⟨fun h => ?_, fun h => ?_⟩
  · unfold transformMat
    dsimp only
    rw [if_pos h]
  · unfold transformVec
    dsimp only
    rw [if_pos h]

/-! ## Superelement patches -/

/-- The image of a point: rotated, and moved by the fourth column (if there is one). -/
theorem mapPoint_spec {Tn : Mat K} (T : Matrix (Fin 3) (Fin 3) K) (t : Fin 3 → K) (x : Fin 3 → K) :
    (Rep Tn T → mapPoint Tn (List.ofFn x) = some (List.ofFn (T.mulVec x))) ∧
    (Rep Tn (Matrix.of fun (i : Fin 3) (j : Fin 4) => (Fin.snoc (T i) (t i) : Fin 4 → K) j) → mapPoint Tn (List.ofFn x) = some (List.ofFn (T.mulVec x + t))) := by
  constructor
  · intro h
    unfold mapPoint
    dsimp only
    rw [h.cols, if_neg (by omega), h.rows]
    have := (C60_mulVec (t := false) (by unfold RepOp; rw [if_neg (by simp)]; exact h) (by omega) (by omega) x).1 (List.replicate 3 0)
    rw [this]
    simp
  · intro h
    unfold mapPoint
    dsimp only
    rw [h.cols, if_pos rfl, h.rows]
    have hx : List.ofFn x ++ [1] = List.ofFn (Fin.snoc x 1 : Fin 4 → K) := by
      rw [List.ofFn_succ' (n := 3)]
      have e3 : (Fin.snoc x 1 : Fin 4 → K) (Fin.last 3) = 1 := Fin.snoc_last (α := fun _ => K) 1 x
      rw [List.concat_eq_append, e3]
      congr 1
    rw [hx]
    have := (C60_mulVec (t := false) (by unfold RepOp; rw [if_neg (by simp)]; exact h) (by omega) (by omega) (Fin.snoc x 1 : Fin 4 → K)).1 (List.replicate 3 0)
    rw [this]
    simp only [Option.map_some, Option.some.injEq]
    rw [List.take_of_length_le (by simp)]
    congr 1
    funext i
    unfold Matrix.mulVec dotProduct
    rw [Fin.sum_univ_castSucc]
    have e3 : (Fin.snoc x 1 : Fin 4 → K) (Fin.last 3) = 1 := Fin.snoc_last (α := fun _ => K) 1 x
    have e4 : (Fin.snoc (T i) (t i) : Fin 4 → K) (Fin.last 3) = t i := Fin.snoc_last (α := fun _ => K) (t i) (T i)
    simp only [Matrix.of_apply]
    rw [e3, e4, mul_one]
    simp [Matrix.mulVec, dotProduct]

theorem mapM_points {a : Nat} (X : Fin a → Fin 3 → K) (F : List K → Option (List K)) (G : (Fin 3 → K) → Fin 3 → K) (h : ∀ x : Fin 3 → K, F (List.ofFn x) = some (List.ofFn (G x))) :
    (List.ofFn fun k => List.ofFn (X k)).mapM F = some (List.ofFn fun k => List.ofFn (G (X k))) := by
  have := mapM_some' (f := fun k : Fin a => F (List.ofFn (X k))) (g := fun k => List.ofFn (G (X k))) (List.finRange a) (fun k _ => h (X k))
  rw [List.ofFn_eq_map, List.ofFn_eq_map, List.mapM_map]
  exact this

/-- **C82** (a superelement patch in global axes).  Every node is rotated and moved, the matrix becomes `T A Tᵀ` and the load vector `T b`. -/
theorem C82_patch_transform (T : Matrix (Fin 3) (Fin 3) K) (t : Fin 3 → K) (Tn : Mat K) (hT : Rep Tn (Matrix.of fun (i : Fin 3) (j : Fin 4) => (Fin.snoc (T i) (t i) : Fin 4 → K) j))
    {a : Nat} (hm : 0 < m) (X : Fin a → Fin 3 → K) (A : Mat K) (A' : Matrix (Fin (m * 3)) (Fin (m * 3)) K) (hA : Rep A A') (b : Fin (m * 3) → K) :
    ∃ B, Patch.transform ⟨List.ofFn fun k => List.ofFn (X k), A, List.ofFn b⟩ Tn = some (true, ⟨List.ofFn fun k => List.ofFn (T.mulVec (X k) + t), B, List.ofFn ((nodal m T).mulVec b)⟩) ∧
      Rep B (nodal m T * A' * (nodal m T).transpose) := by
  have hl : leading (by omega : 3 ≤ 4) (Matrix.of fun (i : Fin 3) (j : Fin 4) => (Fin.snoc (T i) (t i) : Fin 4 → K) j) = T := by
    ext i j
    unfold leading
    simp only [Matrix.of_apply]
    exact Fin.snoc_castSucc (α := fun _ => K) (t i) (T i) j
  obtain ⟨B, g1, g2⟩ := C82_transform_matrix hA hT (by omega) (by omega) hm
  have g3 := (C82_transform_vector hT (by omega) (by omega) hm b).1
  rw [hl] at g2 g3
  refine ⟨B, ?_, g2⟩
  unfold Patch.transform
  rw [hT.rows, hT.cols, if_neg (by omega)]
  dsimp only
  rw [mapM_points X (mapPoint Tn) (fun x => T.mulVec x + t) (fun x => (mapPoint_spec T t x).2 hT)]
  dsimp only
  rw [g1]
  dsimp only
  rw [g3]

/-- **C82** (recovery in global axes).  The solution at the retained nodes is transformed to the local axes, the internal values are recovered there, and the result is transformed to the global axes. -/
theorem C82_recover_global {Tn : Mat K} {c m' : Nat} {T : Matrix (Fin N) (Fin c) K} (hT : Rep Tn T) (hc : N ≤ c) (hN : 0 < N) (hm : 0 < m) (hm' : 0 < m') (back : List K → Option (List K)) (v : Fin (m * N) → K) (w : Fin (m' * N) → K)
    (hb : back (List.ofFn ((nodal m (leading hc T)).transpose.mulVec v)) = some (List.ofFn w)) :
    recoverOne (some back) (some Tn) (List.ofFn v) = some (true, List.ofFn ((nodal m' (leading hc T)).mulVec w)) := by
  unfold recoverOne
  dsimp only
  rw [(C82_transform_vector hT hc hN hm v).2]
  dsimp only
  rw [hb]
  dsimp only
  rw [if_pos rfl]
  exact (C82_transform_vector hT hc hN hm' w).1

end IFEM.Props
