import Verif.Props.TensorInv

/-!
# C68: tensors — principal directions by Jacobi's method
-/
namespace IFEM.Tens
open IFEM.Mapping Matrix

/-- The symmetric matrix with a given diagonal and the off-diagonal terms 12, 23, 13. -/
def symm3 (d a : Fin 3 → ℝ) : Matrix (Fin 3) (Fin 3) ℝ := !![d 0, a 0, a 2; a 0, d 1, a 1; a 2, a 1, d 2]

/-- The columns of `T` are orthonormal, and the matrix `S` has the given diagonal and off-diagonal terms in the coordinates they define. -/
def Frames (S : Matrix (Fin 3) (Fin 3) ℝ) (d a : Fin 3 → ℝ) (T : Tensor) : Prop :=
  ∃ Q : Matrix (Fin 3) (Fin 3) ℝ, T = ofMat Q ∧ Qᵀ*Q = 1 ∧ Qᵀ*S*Q = symm3 d a

theorem frames_mul {S Q G : Matrix (Fin 3) (Fin 3) ℝ} {d a d' a' : Fin 3 → ℝ} (h1 : Qᵀ*Q = 1) (h2 : Qᵀ*S*Q = symm3 d a)
    (g1 : Gᵀ*G = 1) (g2 : Gᵀ*symm3 d a*G = symm3 d' a') : Frames S d' a' (ofMat (Q*G)) := by
  refine ⟨Q*G, rfl, ?_, ?_⟩
  · calc (Q*G)ᵀ*(Q*G) = Gᵀ*(Qᵀ*Q)*G := by rw [transpose_mul]; simp only [Matrix.mul_assoc]
      _ = 1 := by rw [h1, Matrix.mul_one, g1]
  · calc (Q*G)ᵀ*S*(Q*G) = Gᵀ*(Qᵀ*S*Q)*G := by rw [transpose_mul]; simp only [Matrix.mul_assoc]
      _ = _ := by rw [h2, g2]

/-- The tangent chosen eliminates the term. -/
theorem jacTan_spec (h a : ℝ) (ha : a ≠ 0) : a*(1 - jacTan h a^2) = h*jacTan h a := by
  have hg : |h| + 100*|a| ≠ |h| := by have := abs_pos.2 ha; intro h'; linarith
  rw [jacTan]
  rw [if_pos hg]
  have hr : h = h/a*a := by field_simp
  generalize h/a = r at *
  subst hr
  have hs : Real.sqrt (4 + r*r)^2 = 4 + r*r := Real.sq_sqrt (by have := mul_self_nonneg r; linarith)
  have hp : 0 < Real.sqrt (4 + r*r) := Real.sqrt_pos.2 (by have := mul_self_nonneg r; linarith)
  set w := Real.sqrt (4 + r*r)
  have hd : 0 < |r| + w := by have := abs_nonneg r; linarith
  split_ifs with hn
  · rw [abs_of_neg hn] at hd ⊢
    have : (-r + w) ≠ 0 := hd.ne'
    field_simp
    linear_combination hs
  · rw [abs_of_nonneg (not_lt.1 hn)] at hd ⊢
    have : (r + w) ≠ 0 := hd.ne'
    field_simp
    linear_combination hs

/-- Cosine and sine of the rotation. -/
theorem jac_cs (t : ℝ) :
    let c := 1/Real.sqrt (1 + t*t)
    let s := t*c
    let tau := s/(1 + c)
    c*c + s*s = 1 ∧ 1 - s*tau = c ∧ s = t*c := by
  intro c s tau
  have hp : 0 < Real.sqrt (1 + t*t) := Real.sqrt_pos.2 (by have := mul_self_nonneg t; linarith)
  have hs : Real.sqrt (1 + t*t)^2 = 1 + t*t := Real.sq_sqrt (by have := mul_self_nonneg t; linarith)
  have hc : 0 < c := by positivity
  have e : c*c + s*s = 1 := by
    show 1/Real.sqrt (1 + t*t)*(1/Real.sqrt (1 + t*t)) + t*(1/Real.sqrt (1 + t*t))*(t*(1/Real.sqrt (1 + t*t))) = 1
    have hs2 : Real.sqrt (1 + t^2)^2 = 1 + t^2 := Real.sq_sqrt (by positivity)
    field_simp; linarith
  refine ⟨e, ?_, rfl⟩
  show 1 - s*(s/(1 + c)) = c
  have : 1 + c ≠ 0 := by linarith
  field_simp
  linarith

/-- The rotation in the plane of the first two, or of the last two axes. -/
def giv (i : Fin 2) (c s : ℝ) : Matrix (Fin 3) (Fin 3) ℝ := if i = 0 then !![c, s, 0; -s, c, 0; 0, 0, 1] else !![1, 0, 0; 0, c, s; 0, -s, c]

theorem giv_orth (i : Fin 2) (c s : ℝ) (h : c*c + s*s = 1) : (giv i c s)ᵀ*giv i c s = 1 := by
  have h' : s*s + c*c = 1 := by linarith
  fin_cases i <;> ext p q <;> fin_cases p <;> fin_cases q <;> simp [giv, Matrix.mul_apply, Fin.sum_univ_three, h, h'] <;> ring

theorem jacCols0 (Q : Matrix (Fin 3) (Fin 3) ℝ) (c s tau : ℝ) (h : 1 - s*tau = c) : jacCols s tau 1 2 (ofMat Q) = ofMat (Q*giv 0 c s) := by
  subst h
  simp [ofMat3_eq, jacCols, List.range_succ, Tensor.get, Tensor.put, Tensor.at, Tensor.index, giv, Matrix.mul_apply, Fin.sum_univ_three]
  refine ⟨?_, ?_, ?_, ?_, ?_, ?_⟩ <;> ring

theorem jacCols1 (Q : Matrix (Fin 3) (Fin 3) ℝ) (c s tau : ℝ) (h : 1 - s*tau = c) : jacCols s tau 2 3 (ofMat Q) = ofMat (Q*giv 1 c s) := by
  subst h
  simp [ofMat3_eq, jacCols, List.range_succ, Tensor.get, Tensor.put, Tensor.at, Tensor.index, giv, Matrix.mul_apply, Fin.sum_univ_three]
  refine ⟨?_, ?_, ?_, ?_, ?_, ?_⟩ <;> ring

theorem rot0 (S : Matrix (Fin 3) (Fin 3) ℝ) (thres : ℝ) (ht : 0 ≤ thres) (s : Jac) (h : Frames S s.d s.a s.q) :
    Frames S (jacRot thres 0 1 2 s).d (jacRot thres 0 1 2 s).a (jacRot thres 0 1 2 s).q ∧
    ∀ i, (jacRot thres 0 1 2 s).d i - (jacRot thres 0 1 2 s).z i = s.d i - s.z i := by
  rw [jacRot]
  dsimp only
  split_ifs with h0 h1
  · have : s.a 0 = 0 := by have := h0.1; have h2 : |s.a 0| = 0 := by linarith
                           exact abs_eq_zero.1 h2
    have e : Function.update s.a 0 0 = s.a := by rw [Function.update_eq_self_iff]; exact this.symm
    rw [e]; exact ⟨h, fun _ => rfl⟩
  · have ha : s.a 0 ≠ 0 := by intro h2; rw [h2, abs_zero] at h1; linarith
    obtain ⟨Q, hq, q1, q2⟩ := h
    obtain ⟨cs, ct, st⟩ := jac_cs (jacTan (s.d 1 - s.d 0) (s.a 0))
    have tn := jacTan_spec (s.d 1 - s.d 0) (s.a 0) ha
    set t := jacTan (s.d 1 - s.d 0) (s.a 0)
    set c := 1/Real.sqrt (1 + t*t)
    set tau := t*c/(1 + c)
    generalize hsn : t*c = sn at *
    refine ⟨?_, ?_⟩
    · rw [hq, show ((0 : Fin 3).val + 1) = 1 from rfl, show ((1 : Fin 3).val + 1) = 2 from rfl, jacCols0 Q c sn tau ct]
      apply frames_mul q1 q2 (giv_orth _ _ _ cs)
      ext p q
      fin_cases p <;> fin_cases q <;> simp [giv, symm3, Matrix.mul_apply, Fin.sum_univ_three, Function.update]
      all_goals subst hsn
      · linear_combination s.d 0*cs - t*c*c*tn - s.a 0*t*cs
      · linear_combination c*c*tn
      · linear_combination (-s.a 2)*ct
      · linear_combination c*c*tn
      · linear_combination s.d 1*cs + t*c*c*tn + s.a 0*t*cs
      · linear_combination (-s.a 1)*ct
      · linear_combination (-s.a 2)*ct
      · linear_combination (-s.a 1)*ct
    · intro i
      fin_cases i <;> simp [Function.update]
  · exact ⟨h, fun _ => rfl⟩

theorem rot1 (S : Matrix (Fin 3) (Fin 3) ℝ) (thres : ℝ) (ht : 0 ≤ thres) (s : Jac) (h : Frames S s.d s.a s.q) :
    Frames S (jacRot thres 1 2 0 s).d (jacRot thres 1 2 0 s).a (jacRot thres 1 2 0 s).q ∧
    ∀ i, (jacRot thres 1 2 0 s).d i - (jacRot thres 1 2 0 s).z i = s.d i - s.z i := by
  rw [jacRot]
  dsimp only
  split_ifs with h0 h1
  · have : s.a 1 = 0 := by have := h0.1; have h2 : |s.a 1| = 0 := by linarith
                           exact abs_eq_zero.1 h2
    have e : Function.update s.a 1 0 = s.a := by rw [Function.update_eq_self_iff]; exact this.symm
    rw [e]; exact ⟨h, fun _ => rfl⟩
  · have ha : s.a 1 ≠ 0 := by intro h2; rw [h2, abs_zero] at h1; linarith
    obtain ⟨Q, hq, q1, q2⟩ := h
    obtain ⟨cs, ct, st⟩ := jac_cs (jacTan (s.d 2 - s.d 1) (s.a 1))
    have tn := jacTan_spec (s.d 2 - s.d 1) (s.a 1) ha
    set t := jacTan (s.d 2 - s.d 1) (s.a 1)
    set c := 1/Real.sqrt (1 + t*t)
    set tau := t*c/(1 + c)
    generalize hsn : t*c = sn at *
    refine ⟨?_, ?_⟩
    · rw [hq, show ((1 : Fin 3).val + 1) = 2 from rfl, show ((2 : Fin 3).val + 1) = 3 from rfl, jacCols1 Q c sn tau ct]
      apply frames_mul q1 q2 (giv_orth _ _ _ cs)
      ext p q
      fin_cases p <;> fin_cases q <;> simp [giv, symm3, Matrix.mul_apply, Fin.sum_univ_three, Function.update]
      all_goals subst hsn
      · linear_combination (-s.a 0)*ct
      · linear_combination (-s.a 2)*ct
      · linear_combination (-s.a 0)*ct
      · linear_combination s.d 1*cs - t*c*c*tn - s.a 1*t*cs
      · linear_combination c*c*tn
      · linear_combination (-s.a 2)*ct
      · linear_combination c*c*tn
      · linear_combination s.d 2*cs + t*c*c*tn + s.a 1*t*cs
    · intro i
      fin_cases i <;> simp [Function.update]
  · exact ⟨h, fun _ => rfl⟩

theorem loop_frames (S : Matrix (Fin 3) (Fin 3) ℝ) (left iter : Nat) (p a : Fin 3 → ℝ) (Q : Tensor) (h : Frames S p a Q) :
    Frames S (jacLoop left iter p a Q).1 (jacLoop left iter p a Q).2.1 (jacLoop left iter p a Q).2.2 := by
  induction left generalizing iter p a Q with
  | zero => exact h
  | succ left ih =>
    rw [jacLoop]
    dsimp only
    split
    · exact h
    · rename_i hsm
      apply ih
      have ht : (0 : ℝ) ≤ if iter < 4 then 11/1000*asum a else 0 := by
        have : 0 ≤ asum a := by unfold asum; positivity
        split <;> positivity
      generalize (if iter < 4 then 11/1000*asum a else 0 : ℝ) = th at ht
      have h1 := rot0 S th ht ⟨p, a, fun _ => 0, Q⟩ h
      have h2 := rot1 S th ht _ h1.1
      have e : (fun i => p i + (jacRot th 1 2 0 (jacRot th 0 1 2 ⟨p, a, fun _ => 0, Q⟩)).z i) = (jacRot th 1 2 0 (jacRot th 0 1 2 ⟨p, a, fun _ => 0, Q⟩)).d := by
        funext i
        have a1 := h1.2 i
        have a2 := h2.2 i
        dsimp only at a1
        linarith
      rw [e]
      exact h2.1

/-- **C68 (principal directions).**  The directions computed are orthonormal, and the values computed are the diagonal terms of the tensor in the coordinates they define; the off-diagonal terms there
are those left by the iterations. -/
theorem C68_directions (A : Matrix (Fin 3) (Fin 3) ℝ) (h : A.IsSymm) : ∃ p a T, principalDir (ofSym3 A) = some (p, a, T) ∧ Frames A p a T := by
  rw [principalDir, if_neg (by simp [ofSym3])]
  refine ⟨_, _, _, rfl, ?_⟩
  apply loop_frames
  refine ⟨1, (C68_construction.1 3 (by norm_num) (by norm_num)).2, by simp, ?_⟩
  rw [transpose_one, Matrix.one_mul, Matrix.mul_one]
  ext p q
  fin_cases p <;> fin_cases q <;> simp [symm3, ofSym3, Tensor.at, sym_le h 0 1, sym_le h 0 2, sym_le h 1 2]

/-- **C68 (eigenvectors).**  Hence, if the iterations leave no off-diagonal term, the directions are eigenvectors with the values computed. -/
theorem C68_directions_eigen (A : Matrix (Fin 3) (Fin 3) ℝ) (h : A.IsSymm) {p a : Fin 3 → ℝ} {T : Tensor} (hp : principalDir (ofSym3 A) = some (p, a, T)) (ha : a = 0) :
    ∃ Q : Matrix (Fin 3) (Fin 3) ℝ, T = ofMat Q ∧ Qᵀ*Q = 1 ∧ ∀ j, A *ᵥ (fun i => Q i j) = p j • fun i => Q i j := by
  obtain ⟨p', a', T', e, Q, hq, q1, q2⟩ := C68_directions A h
  rw [hp] at e
  simp only [Option.some.injEq, Prod.mk.injEq] at e
  obtain ⟨rfl, rfl, rfl⟩ := e
  refine ⟨Q, hq, q1, fun j => ?_⟩
  have q1' : Q*Qᵀ = 1 := mul_eq_one_comm.1 q1
  have e2 : A*Q = Q*symm3 p a := by
    rw [← q2]
    calc A*Q = (Q*Qᵀ)*(A*Q) := by rw [q1', Matrix.one_mul]
      _ = _ := by simp only [Matrix.mul_assoc]
  funext i
  have := congrFun (congrFun e2 i) j
  rw [ha] at this
  simp only [Matrix.mulVec, dotProduct, Pi.smul_apply, smul_eq_mul]
  rw [Matrix.mul_apply, Matrix.mul_apply] at this
  rw [this]
  fin_cases j <;> simp [symm3, Fin.sum_univ_three, mul_comm]

/-- **C68 (counterexample, principal directions).**  In a state of pure shear in the plane 13 the iterations do nothing: the values are zero and the directions the coordinate axes, although the
principal values are 1, 0 and -1. -/
theorem C68_directions_counterexample : (∃ a, principalDir (ofSym3 !![0, 0, 1; 0, 0, 0; 1, 0, 0]) = some (fun _ => 0, a, ofMat (1 : Matrix (Fin 3) (Fin 3) ℝ)) ∧ a 2 = 1) ∧
    (!![0, 0, 1; 0, 0, 0; 1, 0, 0] : Matrix (Fin 3) (Fin 3) ℝ) *ᵥ ![1, 0, 1] = ![1, 0, 1] := by
  have key (left iter : Nat) (Q : Tensor) : jacLoop left iter (fun _ => 0) ![0, 0, 1] Q = (fun _ => 0, ![0, 0, 1], Q) := by
    induction left generalizing iter with
    | zero => rfl
    | succ left ih =>
      rw [jacLoop]
      dsimp only
      have sm : asum ![0, 0, 1] = 1 := by simp [asum]
      rw [sm, if_neg (by unfold epsZ; norm_num)]
      have r (th : ℝ) (i j k : Fin 3) (hi : (![0, 0, 1] : Fin 3 → ℝ) i = 0) : jacRot th i j k ⟨fun _ => 0, ![0, 0, 1], fun _ => 0, Q⟩ = ⟨fun _ => 0, ![0, 0, 1], fun _ => 0, Q⟩ := by
        rw [jacRot]
        dsimp only
        rw [if_pos (by rw [hi]; simp)]
        congr 1
        rw [Function.update_eq_self_iff, hi]
      rw [r _ 0 1 2 rfl, r _ 1 2 0 rfl]
      simp only [add_zero]
      exact ih _
  constructor
  · refine ⟨![0, 0, 1], ?_, rfl⟩
    rw [principalDir, if_neg (by simp [ofSym3])]
    have e1 : (fun i : Fin 3 => (ofSym3 !![0, 0, 1; 0, 0, 0; 1, 0, 0]).at i) = fun _ => 0 := by
      funext i; fin_cases i <;> simp [ofSym3, Tensor.at]
    have e2 : (fun i : Fin 3 => (ofSym3 !![0, 0, 1; 0, 0, 0; 1, 0, 0]).at (3+i)) = ![0, 0, 1] := by
      funext i; fin_cases i <;> simp [ofSym3, Tensor.at]
    rw [e1, e2]; dsimp only; rw [key, (C68_construction.1 3 (by norm_num) (by norm_num)).2]
  · funext i; fin_cases i <;> simp [Matrix.mulVec, dotProduct, Fin.sum_univ_three]

end IFEM.Tens
