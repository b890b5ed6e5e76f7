import Verif.Props.Renumber
import Verif.Props.Queries
import Verif.Props.ImmersedGeo
import Verif.Props.SupelTransform
import Verif.Props.Dirichlet
import Verif.Props.MappingHess
import Verif.Props.NonLin
/-!
# Edge cases: refusals, flags and defaults of C04, C21, C32, C33, C61, C80, C81 and C82
-/
namespace IFEM.Props
open IFEM.Spec

/-! ## Renumbering (C21) -/

theorem renumberPatchLoop_count (l : List Int) (n : Int) (m : List (Int × Int)) (r : Nat) :
    (renumberPatchLoop l n m r).2.2.2 = r + ((l.zip (renumberPatchLoop l n m r).1).filter fun p => decide (p.1 ≠ p.2)).length := by
  induction l generalizing n m r with
  | nil => simp [renumberPatchLoop]
  | cons a l ih =>
    have hf : (renumberNew a n m).1 = decide (a ≠ (renumberNew a n m).2.1) := by
      unfold renumberNew; split <;> rfl
    rw [renumberPatchLoop]
    dsimp only
    rw [ih, List.zip_cons_cons, List.filter_cons, hf]
    by_cases h : a = (renumberNew a n m).2.1
    · simp [← h]
    · simp only [ne_eq, h, not_false_eq_true, decide_true, if_true, List.length_cons]
      omega

/-- **C21** (count).  The number of renumbered nodes reported for a patch is the number of places in its node table at which the number has changed. -/
theorem C21_count (mlgn : List Int) (nNod : Int) (m : List (Int × Int)) :
    (renumberPatch mlgn nNod m).2.2.2 = ((mlgn.zip (renumberPatch mlgn nNod m).1).filter fun p => decide (p.1 ≠ p.2)).length := by
  have := renumberPatchLoop_count mlgn nNod m 0
  simpa [renumberPatch] using this

/-- Two of three numbers change here. -/
example : (renumberPatch [1, 7, 5] 0 []).1 = [1, 2, 3] ∧ (renumberPatch [1, 7, 5] 0 []).2.2.2 = 2 := by
  refine ⟨?_, ?_⟩ <;> decide +kernel

/-! ## Queries (C04) -/

/-- **C04** (node out of range).  A node number that does not exist has the empty DOF range from zero to zero. -/
theorem C04_node_out_of_range {R : Type} (s : Sam R) (n : Int) (h : n < 1 ∨ n > s.nnod) : s.getNodeDOFs n = some (0, 0) := by
  rw [Sam.getNodeDOFs, if_pos h]

example : exampleTables.getNodeDOFs 0 = some (0, 0) := C04_node_out_of_range _ _ (Or.inl (by decide))

/-! ## Immersed boundaries (C80) -/

/-- **C80** (function).  With a geometry function, a point is in the void exactly if the function is below the threshold; a patch without geometry has only void. -/
theorem C80_function_alpha {K : Type} [Field K] [LinearOrder K] (sqrt : K → K) (f : Immersed.Pt K → K) (t : K) (p : Immersed.Pt K) :
    ((Immersed.Geometry.func f t).alpha sqrt p = 0 ↔ f p < t) ∧ ((Immersed.Geometry.func f t).alpha sqrt p = 1 ↔ t ≤ f p) ∧
      (Immersed.Geometry.none : Immersed.Geometry K).alpha sqrt p = 0 := by
  refine ⟨?_, ?_, rfl⟩ <;> simp only [Immersed.Geometry.alpha] <;> split <;> rename_i h <;> simp [h] <;> simpa using h

/-! ## Superelements (C82) -/

/-- **C82** (one superelement).  Without a substructure model the internal solution is the superelement solution itself; if the recovery fails, the failure is reported with no solution. -/
theorem C82_recover_one {K : Type} [Field K] (T : Option (Mat K)) (v : List K) :
    Supel.recoverOne none T v = some (true, v) ∧
    (∀ back : List K → Option (List K), back v = none → Supel.recoverOne (some back) none v = some (false, [])) ∧
    (∀ (back : List K → Option (List K)) (w : List K), back v = some w → Supel.recoverOne (some back) none v = some (true, w)) ∧
    (∀ (back : List K → Option (List K)) (Tn : Mat K) (ok : Bool) (l : List K), Supel.transformVec v Tn true = some (ok, l) → back l = none →
      Supel.recoverOne (some back) (some Tn) v = some (false, [])) := by
  refine ⟨rfl, fun back h => ?_, fun back w h => ?_, fun back Tn ok l h1 h2 => ?_⟩
  · simp [Supel.recoverOne, h]
  · simp [Supel.recoverOne, h]
  · simp [Supel.recoverOne, h1, h2]

example : Supel.recoverOne (some fun l : List Rat => if l.length = 2 then some (l ++ [5]) else none) none [1, 2] = some (true, [1, 2, 5]) :=
  (C82_recover_one none [1, 2]).2.2.1 _ _ rfl

/-! ## Dirichlet conditions (C81) -/

section
variable {K : Type} [Field K] [LinearOrder K]

/-- The tables do not describe the constraint `m` in row `i`: its slave DOF is not marked as dependent, or the row has another slave DOF. -/
def BadRow (s : Sam K) (m : Mpc K) (i : Nat) : Prop :=
  ∃ idof ip1 c d, dofNo s.madof m.key = some idof ∧ at0? s.mpmceq i = some ip1 ∧ at1? s.msc idof = some c ∧ at0? s.mmceq (ip1 - 1) = some d ∧ (c > 0 ∨ d ≠ idof)

theorem updateStep_bad {s : Sam K} {H : List (Mpc K)} {f : Nat} {prev : Option (List K)} {tt : List K} {m : Mpc K} {i : Nat} (h : BadRow s m i) :
    Dirichlet.updateStep s H f prev tt m (some i) = some (tt, false) := by
  obtain ⟨idof, ip1, c, d, h1, h2, h3, h4, h5⟩ := h
  rw [Dirichlet.updateStep, h1, h2]
  dsimp only
  rw [h3, h4]
  dsimp only
  rw [if_pos h5]

theorem updateLoop_bad {s : Sam K} {H : List (Mpc K)} {f : Nat} {prev : Option (List K)} (ms : List (Mpc K)) (is : List (Option Nat)) (tt : List K) (r : List K × Bool)
    (j i : Nat) (m : Mpc K) (hm : ms[j]? = some m) (hi : is[j]? = some (some i)) (hb : BadRow s m i)
    (h : Dirichlet.updateLoop s H f prev tt ms is = some r) : r.2 = false := by
  induction ms generalizing is tt j with
  | nil => simp at hm
  | cons a ms ih =>
    cases is with
    | nil => simp at hi
    | cons q is =>
      rw [Dirichlet.updateLoop] at h
      cases j with
      | zero =>
        simp only [List.getElem?_cons_zero, Option.some.injEq] at hm hi
        subst hm; subst hi
        rw [updateStep_bad hb] at h
        simp only [Option.some.injEq] at h
        rw [← h]
      | succ j =>
        simp only [List.getElem?_cons_succ] at hm hi
        cases hs : Dirichlet.updateStep s H f prev tt a q with
        | none => rw [hs] at h; simp at h
        | some t =>
          obtain ⟨t1, t2⟩ := t
          rw [hs] at h
          cases t2 with
          | false => simp only [Option.some.injEq] at h; rw [← h]
          | true => exact ih is t1 j hm hi h

/-- **C81** (inconsistent tables).  If the tables do not describe one of the constraints in the row that was assigned to it, the update of the prescribed values fails. -/
theorem C81_inconsistent (s s' : Sam K) (f : Nat) (P : List (SPatch K)) (is : List (Option Nat)) (prev : Option (List K)) (ok : Bool) (hn : 1 ≤ s.nceq)
    (j i : Nat) (m : Mpc K) (hm : (P.flatMap fun p => p.mpcs)[j]? = some m) (hi : is[j]? = some (some i)) (hb : BadRow s m i)
    (h : Dirichlet.updateConstraintEqs s f P is prev = some (s', ok)) : ok = false := by
  rw [Dirichlet.updateConstraintEqs, if_neg (by omega)] at h
  obtain ⟨r, h1, h2⟩ := Option.map_eq_some_iff.mp h
  have := updateLoop_bad _ _ _ r j i m hm hi hb h1
  simp only [Prod.mk.injEq] at h2
  rw [← h2.2, this]
end

/-! ## Second derivatives (C61) -/

/-- **C61** (refusal).  Second derivatives are refused, and left as they were, unless the inverse Jacobian is square with the number of space dimensions (or there are fewer parameters than that). -/
theorem C61_hessian_refused (H D0 d2 : Mapping.Arr3) (Ji X D : Mat ℝ) (hD : D.elem ≠ []) (h1 : X.nrow ≤ Ji.ncol) (h2 : ¬ (Ji.ncol = X.nrow ∧ Ji.nrow = X.nrow)) :
    Mapping.hessian H D0 Ji X d2 D false = (false, H, D0) := by
  rw [Mapping.hessian, if_neg Bool.false_ne_true]
  dsimp only
  rw [if_neg (by simpa using hD), if_neg (by omega), if_pos (by by_contra hc; push Not at hc; exact h2 hc)]

/-- **C61** (refusal, third derivatives).  Third derivatives are refused, and left as they were, if the inverse Jacobian has more columns than rows; they are also refused in three dimensions, where the result is zero. -/
theorem C61_hessian2_refused (D0 d : Mapping.Arr4) (Ji : Mat ℝ) :
    (Ji.nrow < Ji.ncol → Mapping.hessian2 D0 Ji d = (false, D0)) ∧
    (Ji.nrow = 3 → Ji.ncol = 3 → (Mapping.hessian2 D0 Ji d).1 = false ∧ (Mapping.hessian2 D0 Ji d).2 = ⟨d.n1, 3, 3, 3, fun _ _ _ _ => 0⟩) ∧
    (Ji.ncol < Ji.nrow → Mapping.hessian2 D0 Ji d = (true, d)) := by
  refine ⟨fun h => ?_, fun h1 h2 => ?_, fun h => ?_⟩
  · rw [Mapping.hessian2, if_neg (by omega), if_pos (by omega)]
  · rw [Mapping.hessian2, if_neg (by omega), if_neg (by omega), if_neg (by omega), if_pos (by omega), h1]
    exact ⟨rfl, rfl⟩
  · rw [Mapping.hessian2, if_pos h]

/-! ## Slow convergence (C32) and line search (C33) -/

section
variable {K : Type} [Field K] [LinearOrder K] [IsStrictOrderedRing K] {V : Type} [AddCommGroup V] [Module K V]

/-- **C32** (slow convergence).  From the second iteration on, with a previous norm `a` and the new norm `b` (relative to the reference norm): an iteration which goes on is reported as slow exactly if the previous norm
is positive and the new one has not been reduced below a tenth of it. -/
theorem C32_slow (p : ConvPar K) (hl : p.linear = false) (iter : Int) (hi : 1 < iter) (x a : K) (inc : Option K) (m : ConvMem K) (hm : m.prevNorm = some a)
    (hc : (nlCheck p iter (some x) inc m).1 = .slow ∨ (nlCheck p iter (some x) inc m).1 = .ok) :
    ((nlCheck p iter (some x) inc m).1 = .slow ↔ 0 < a ∧ a / 10 < |x / m.refNorm|) := by
  have key : ∀ st : ConvStatus, ((convVerdict p iter (some (x / m.refNorm)) inc st m).1 = .slow ∨ (convVerdict p iter (some (x / m.refNorm)) inc st m).1 = .ok) →
      (convVerdict p iter (some (x / m.refNorm)) inc st m).1 = st := by
    intro st h
    unfold convVerdict at h ⊢
    dsimp only at h ⊢
    split_ifs at h ⊢ <;> first | rfl | (exfalso; simp at h)
  have e : nlCheck p iter (some x) inc m = convVerdict p iter (some (x / m.refNorm)) inc (if 0 < a ∧ a / 10 < |x / m.refNorm| then .slow else .ok) m := by
    rw [nlCheck, hl, if_neg Bool.false_ne_true, if_neg (by omega), hm]
    have ha : a * (1 / 10) = a / 10 := by ring
    simp only [Option.map_some, nanLt, hi, decide_true, Bool.true_and, Bool.and_eq_true, decide_eq_true_eq, ha]
  rw [e] at hc ⊢
  rw [key _ hc]
  split <;> rename_i h <;> simp [h]

/-- The step lengths tried, and the energies found for them, in a line search which uses up its iterations. -/
def Trials (eta s0 : K) (e : Nat → Option K) (n : Nat) (c sk : Nat → K) : Prop :=
  ∀ k < n, e k = some (sk k) ∧ eta * |s0| ≤ |sk k| ∧ lsNext s0 (sk k) (c k) = some (c (k + 1)) ∧ 1/2 * eta * |c (k + 1) + c k| ≤ |c (k + 1) - c k|

theorem lsLoop_best (linear : Bool) (eta s0 : K) (linsol : V) (n : Nat) (e : Nat → Option K) (c sk : Nat → K) (smin cmin cp : K) (s : LsState K V) (ht : Trials eta s0 e n c sk) :
    ∃ s' : LsState K V, lsLoop linear eta s0 linsol n e smin cmin (c 0) cp s = .done s' ∧
      ((s'.alphaO = cmin ∧ ∀ k < n, smin ≤ |sk k|) ∨ ∃ k < n, s'.alphaO = c k ∧ |sk k| < smin ∧ (∀ j < n, |sk k| ≤ |sk j|) ∧ ∀ j < k, |sk k| < |sk j|) := by
  induction n generalizing e c sk smin cmin cp s with
  | zero =>
    rw [lsLoop]
    exact ⟨_, rfl, Or.inl ⟨rfl, fun k hk => absurd hk (by omega)⟩⟩
  | succ n ih =>
    obtain ⟨h1, h2, h3, h4⟩ := ht 0 (by omega)
    rw [lsLoop]
    dsimp only
    rw [h1]
    dsimp only
    rw [if_neg (not_lt.mpr h2), h3]
    dsimp only
    rw [if_neg (not_lt.mpr h4)]
    have ht' : Trials eta s0 (fun i => e (i+1)) n (fun i => c (i+1)) (fun i => sk (i+1)) := fun k hk => ht (k+1) (by omega)
    obtain ⟨s', r1, r2⟩ := ih (fun i => e (i+1)) (fun i => c (i+1)) (fun i => sk (i+1)) (if |sk 0| < smin then |sk 0| else smin) (if |sk 0| < smin then c 0 else cmin) (c 0) _ ht'
    refine ⟨s', r1, ?_⟩
    rcases r2 with ⟨q1, q2⟩ | ⟨k, hk, q1, q2, q3, q4⟩
    · by_cases hs : |sk 0| < smin
      · rw [if_pos hs] at q1 q2
        refine Or.inr ⟨0, by omega, q1, hs, fun j hj => ?_, fun j hj => absurd hj (by omega)⟩
        cases j with
        | zero => exact le_refl _
        | succ j => exact q2 j (by omega)
      · rw [if_neg hs] at q1 q2
        refine Or.inl ⟨q1, fun j hj => ?_⟩
        cases j with
        | zero => exact not_lt.mp hs
        | succ j => exact q2 j (by omega)
    · have hlt : |sk (k+1)| < |sk 0| ∧ |sk (k+1)| < smin := by
        by_cases hs : |sk 0| < smin
        · rw [if_pos hs] at q2
          exact ⟨q2, lt_trans q2 hs⟩
        · rw [if_neg hs] at q2
          exact ⟨lt_of_lt_of_le q2 (not_lt.mp hs), q2⟩
      refine Or.inr ⟨k+1, by omega, q1, hlt.2, fun j hj => ?_, fun j hj => ?_⟩
      · cases j with
        | zero => exact le_of_lt hlt.1
        | succ j => exact q3 j (by omega)
      · cases j with
        | zero => exact hlt.1
        | succ j => exact q4 j (by omega)

/-- **C33** (best step).  A line search which uses up its ten iterations without meeting a tolerance ends with the first of the step lengths tried for which the energy was the smallest, or with the full step
if no energy was smaller than the initial one. -/
theorem C33_best_step (linear : Bool) (eta s0 : K) (heta : 0 < eta) (linsol : V) (e : Nat → Option K) (c sk : Nat → K) (h0 : c 0 = 1) (s : LsState K V) (ht : Trials eta s0 e 10 c sk) :
    ∃ s' : LsState K V, lineSearch linear eta s0 e linsol s = .done s' ∧
      ((s'.alphaO = 1 ∧ ∀ k < 10, |s0| ≤ |sk k|) ∨ ∃ k < 10, s'.alphaO = c k ∧ |sk k| < |s0| ∧ (∀ j < 10, |sk k| ≤ |sk j|) ∧ ∀ j < k, |sk k| < |sk j|) := by
  rw [lineSearch, if_neg (not_le.mpr heta)]
  have := lsLoop_best linear eta s0 linsol 10 e c sk |s0| 1 0 s ht
  rw [h0] at this
  exact this
end

/-- A line search with tolerance 1/10 in which no trial is accepted: the steps alternate between 3/2 and 1/2. -/
example : Trials (1/10 : Rat) 1 (fun k => some (if k % 2 = 0 then 2/3 else -3)) 10 (fun k => if k = 0 then 1 else if k % 2 = 0 then 1/2 else 3/2) (fun k => if k % 2 = 0 then 2/3 else -3) := by
  intro k hk
  interval_cases k <;> decide +kernel

end IFEM.Props
