import Verif.Props.Modal
import Mathlib.Analysis.Real.Sqrt
import Mathlib.Algebra.Field.Rat
import Mathlib.Algebra.Order.Field.Rat
import Mathlib.Data.Fin.VecNotation
import Mathlib.LinearAlgebra.Matrix.Notation
import Mathlib.Tactic.FieldSimp
import Mathlib.Tactic.FinCases
import Mathlib.Tactic.NormNum

/-!
# C84: expansion of modal solutions, normalization, frequencies, restart; examples
-/

namespace IFEM.Modal

open Matrix Spec.Modal

variable {K : Type} [Field K]

theorem addScaled_ofFn {n : Nat} (x y : Fin n → K) (a : K) :
    addScaled (List.ofFn x) (List.ofFn y) a = List.ofFn (x + a • y) := by
  apply List.ext_getElem?
  intro i
  by_cases h : i < n
  · simp [addScaled, h]
  · rw [List.getElem?_eq_none (by simp [addScaled]; omega), List.getElem?_eq_none (by simp; omega)]

theorem expandOne_fold {n : Nat} : ∀ (modes : List (Mode K)) (phi : Nat → Fin n → K) (q : List K)
    (x : Fin n → K), q.length = modes.length →
    (∀ j md, modes[j]? = some md → md.eigVec = List.ofFn (phi j)) →
    (modes.zip q).foldl (fun s p => addScaled s p.1.eigVec p.2) (List.ofFn x) =
      List.ofFn (x + ∑ j ∈ Finset.range modes.length, q.getD j 0 • phi j)
  | [], phi, q, x, _, _ => by simp
  | md :: modes, phi, [], x, h, _ => by simp at h
  | md :: modes, phi, a :: q, x, h, hv => by
    rw [List.zip_cons_cons, List.foldl_cons, hv 0 md rfl, addScaled_ofFn,
      expandOne_fold modes (fun j => phi (j+1)) q _ (by simpa using h)
        (fun j m' hj => hv (j+1) m' (by simpa using hj)),
      List.length_cons, Finset.sum_range_succ']
    congr 1
    simp only [List.getD_cons_succ, List.getD_cons_zero]
    abel

/-- C84.  Expansion: if all modal vectors have one value per mode, and the stored solution is empty or
of the right size (the result of an earlier expansion), the solution vectors are the sums of the modes
with these values, whatever was stored before. -/
theorem C84_expand [DecidableEq K] {n m k : Nat} (hm : 0 < m) (phi : Fin m → Fin n → K)
    (modes : List (Mode K)) (hlen : modes.length = m)
    (hv : ∀ (j : Fin m) md, modes[j.val]? = some md → md.eigVec = List.ofFn (phi j))
    (q : Fin k → Fin m → K) (sol : List (List K)) (hs : sol = [] ∨ sol.length = k)
    (hsol : ∀ s ∈ sol, s = [] ∨ s.length = n) :
    expandSolution modes sol (List.ofFn fun i => List.ofFn (q i)) =
      some (List.ofFn fun i => List.ofFn (∑ j, q i j • phi j)) := by
  have hone : ∀ i : Fin k, expandOne modes n (List.ofFn (q i)) = List.ofFn (∑ j, q i j • phi j) := by
    intro i
    have hz : List.replicate n (0 : K) = List.ofFn fun _ : Fin n => (0 : K) := by
      rw [List.ofFn_const]
    rw [expandOne, hz, expandOne_fold modes (fun j => if h : j < m then phi ⟨j, h⟩ else 0)
      (List.ofFn (q i)) (fun _ => 0) (by simp [hlen]) (by
        intro j md hj
        have : j < m := by rw [← hlen]; exact (List.getElem?_eq_some_iff.mp hj).1
        rw [dif_pos this]
        exact hv ⟨j, this⟩ md hj), hlen, Finset.sum_range]
    congr 1
    have : (fun _ : Fin n => (0 : K)) = 0 := rfl
    rw [this, zero_add]
    apply Finset.sum_congr rfl
    intro j _
    rw [dif_pos j.isLt]
    simp
  have hloop : ∀ (k : Nat) (q : Fin k → Fin m → K) (ss : List (List K)), ss.length = k →
      (∀ s ∈ ss, s = [] ∨ s.length = n) →
      expandLoop modes n ss (List.ofFn fun i => List.ofFn (q i)) =
        some (List.ofFn fun i => expandOne modes n (List.ofFn (q i))) := by
    intro k
    induction k with
    | zero =>
      intro q ss hl _
      have : ss = [] := List.length_eq_zero_iff.mp hl
      subst this
      simp [expandLoop]
    | succ k ih =>
      intro q ss hl hss
      cases ss with
      | nil => simp at hl
      | cons s ss =>
        rw [List.ofFn_succ, expandLoop, if_neg (by simp [hlen]), if_pos (hss s (by simp)),
          ih (fun i => q i.succ) ss (by simpa using hl) (fun x hx => hss x (by simp [hx])),
          Option.map_some, List.ofFn_succ]
  cases modes with
  | nil => simp at hlen; omega
  | cons f fs =>
    have hn : f.eigVec.length = n := by rw [hv ⟨0, hm⟩ f rfl]; simp
    rw [expandSolution, hn]
    have hst : (expandStart sol (List.ofFn fun i => List.ofFn (q i))).length = k ∧
        ∀ s ∈ expandStart sol (List.ofFn fun i => List.ofFn (q i)), s = [] ∨ s.length = n := by
      unfold expandStart
      by_cases h0 : sol = []
      · rw [if_pos h0]
        refine ⟨by simp, ?_⟩
        intro s hs
        left
        exact (List.mem_replicate.mp hs).2
      · rw [if_neg h0, if_neg (by
          rcases hs with h | h
          · exact absurd h h0
          · simp [h])]
        rcases hs with h | h
        · exact absurd h h0
        · exact ⟨h, hsol⟩
    rw [hloop k q _ hst.1 hst.2, Option.getD_some]
    congr 2
    funext i
    exact hone i

/-- C84.  A modal vector of the wrong length, or the wrong number of vectors, gives no solution. -/
theorem C84_expand_refused [DecidableEq K] (f : Mode K) (modes : List (Mode K))
    (sol mSol : List (List K)) :
    (sol ≠ [] → sol.length ≠ mSol.length → expandSolution (f :: modes) sol mSol = some []) ∧
    ((sol = [] ∨ sol.length = mSol.length) → (∃ s ∈ mSol, s.length ≠ (f :: modes).length) →
      expandSolution (f :: modes) sol mSol = some []) := by
  constructor
  · intro h1 h2
    simp [expandSolution, expandStart, h1, h2, expandLoop]
  · intro h1 h2
    have key : ∀ (ss ms : List (List K)), ss.length = ms.length →
        (∃ s ∈ ms, s.length ≠ (f :: modes).length) →
        expandLoop (f :: modes) f.eigVec.length ss ms = none := by
      intro ss
      induction ss with
      | nil =>
        intro ms hl h
        have : ms = [] := List.length_eq_zero_iff.mp hl.symm
        subst this
        simp at h
      | cons s ss ih =>
        intro ms hl h
        cases ms with
        | nil => simp at hl
        | cons m ms =>
          rw [expandLoop]
          by_cases hm : m.length = (f :: modes).length
          · rw [if_neg (by simpa using hm)]
            split
            · rw [ih ms (by simpa using hl) (by
                obtain ⟨s, hs, hs'⟩ := h
                rcases List.mem_cons.mp hs with rfl | hs
                · exact absurd hm hs'
                · exact ⟨s, hs, hs'⟩)]
              rfl
            · rfl
          · rw [if_pos hm]
    have hst : (expandStart sol mSol).length = mSol.length := by
      unfold expandStart
      by_cases h0 : sol = []
      · rw [if_pos h0]; simp
      · rcases h1 with h | h
        · exact absurd h h0
        · rw [if_neg h0, if_neg (by simpa using h), h]
    rw [expandSolution]
    rw [key _ _ hst h2]
    rfl

/-- C84.  Retrieval of an expanded vector by its index; an index outside gives the empty vector. -/
theorem C84_expanded_index (sol : List (List K)) (idx : Int) :
    (∀ i : Nat, ∀ h : i < sol.length, idx = i → expandedSolution sol idx = sol[i]) ∧
    (idx < 0 ∨ (sol.length : Int) ≤ idx → expandedSolution sol idx = []) := by
  constructor
  · rintro i h rfl
    rw [expandedSolution, if_pos (by omega)]
    simp [h]
  · intro h
    rw [expandedSolution, if_neg (by omega)]

variable [LinearOrder K] [IsStrictOrderedRing K]

/-- C84.  `orthonormalize` divides a mode by its modal mass `s`, and not by the root of it: the modal
mass is then `1/s`.  It is one only if it was one before (to within the tolerance). -/
theorem C84_orthonormalize {N : Nat} (M : Matrix (Fin N) (Fin N) K)
    (mul : List K → Option (List K)) (hmul : ∀ x : Fin N → K, mul (List.ofFn x) =
      some (List.ofFn (M *ᵥ x))) (eps : K) (he : 0 < eps) (md : Mode K) (x : Fin N → K)
    (hx : md.eqnVec = List.ofFn x) (s : K) (hs : s = (M *ᵥ x) ⬝ᵥ x) :
    (s < eps → orthonormalize mul eps md = none) ∧
    (eps ≤ s → |s - 1| < eps → orthonormalize mul eps md = some md) ∧
    (eps ≤ s → eps ≤ |s - 1| → ∃ md' y, orthonormalize mul eps md = some md' ∧
      md'.eqnVec = List.ofFn y ∧ md'.eigVec = md.eigVec.map (· / s) ∧
      (M *ᵥ y) ⬝ᵥ y = 1 / s ∧ (M *ᵥ y) ⬝ᵥ y ≠ 1) := by
  have hsc : dot (List.ofFn (M *ᵥ x)) (List.ofFn x) = s := by rw [dot_ofFn, hs]
  have hunf : orthonormalize mul eps md = if s < eps then none
      else if |s - 1| < eps then some md
      else some { md with eqnVec := md.eqnVec.map (· / s), eigVec := md.eigVec.map (· / s) } := by
    simp only [orthonormalize, hx, hmul, Option.bind_eq_bind, Option.bind_some, hsc]
  refine ⟨?_, ?_, ?_⟩
  · intro h; rw [hunf, if_pos h]
  · intro h1 h2; rw [hunf, if_neg (not_lt.mpr h1), if_pos h2]
  · intro h1 h2
    have hpos : 0 < s := lt_of_lt_of_le he h1
    have hval : (M *ᵥ fun i => x i / s) ⬝ᵥ (fun i => x i / s) = 1 / s := by
      have e : (fun i => x i / s) = s⁻¹ • x := by
        funext i
        simp [div_eq_inv_mul]
      rw [e, Matrix.mulVec_smul, smul_dotProduct, dotProduct_smul, ← hs]
      simp only [smul_eq_mul]
      field_simp
    refine ⟨_, fun i => x i / s, by rw [hunf, if_neg (not_lt.mpr h1), if_neg (not_lt.mpr h2)], ?_,
      rfl, hval, ?_⟩
    · rw [hx, List.map_ofFn]; rfl
    · rw [hval]
      intro h
      have : s = 1 := by
        field_simp at h
        exact h.symm
      rw [this, sub_self, abs_zero] at h2
      exact absurd he (not_lt.mpr h2)

/-- C84.  `computeDamping` stores the damping of the mode. -/
theorem C84_compute_damping {N : Nat} (C : Matrix (Fin N) (Fin N) K)
    (mul : List K → Option (List K)) (hmul : ∀ x : Fin N → K, mul (List.ofFn x) =
      some (List.ofFn (C *ᵥ x))) (md : Mode K) (x : Fin N → K) (hx : md.eqnVec = List.ofFn x) :
    computeDamping mul md = some { md with damping := x ⬝ᵥ C *ᵥ x } := by
  simp only [computeDamping, hx, hmul, Option.bind_eq_bind, Option.bind_some, dot_ofFn]
  rw [dotProduct_comm]
  rfl

/-- C84.  Restart: number, frequency and shape of all modes are as saved; the damping (and the vector
by equations) is not saved, it is that of the mode at the place where it is restored. -/
theorem C84_restart (old modes : List (Mode K)) :
    (restoreModes old (saveModes modes)).length = modes.length ∧
    ∀ i md, modes[i]? = some md → ∃ md', (restoreModes old (saveModes modes))[i]? = some md' ∧
      md'.eigNo = md.eigNo ∧ md'.eigVal = md.eigVal ∧ md'.eigVec = md.eigVec ∧
      md'.damping = (old.getD i Mode.empty).damping := by
  refine ⟨by simp [restoreModes, saveModes], ?_⟩
  intro i md h
  have hi : i < modes.length := (List.getElem?_eq_some_iff.mp h).1
  have hs : (saveModes modes)[i]? = some (md.eigNo, md.eigVal, md.eigVec) := by
    simp [saveModes, h]
  refine ⟨{ old.getD i Mode.empty with eigNo := md.eigNo, eigVal := md.eigVal, eigVec := md.eigVec },
    ?_, rfl, rfl, rfl, rfl⟩
  rw [restoreModes, List.getElem?_map, List.getElem?_range (by simpa [saveModes] using hi),
    Option.map_some, hs]

/-- C84.  Restart into new modes loses the individual damping. -/
theorem C84_restart_damping_lost (modes : List (Mode K)) :
    ∀ md' ∈ restoreModes [] (saveModes modes), md'.damping = 0 := by
  intro md' h
  obtain ⟨i, hi⟩ := List.mem_iff_getElem?.mp h
  have hlen : (restoreModes [] (saveModes modes)).length = modes.length :=
    (C84_restart [] modes).1
  have hi' : i < modes.length := by
    rw [← hlen]; exact (List.getElem?_eq_some_iff.mp hi).1
  obtain ⟨m2, h2, _, _, _, h3⟩ := (C84_restart [] modes).2 i _ (List.getElem?_eq_getElem hi')
  rw [hi] at h2
  cases h2
  rw [h3]
  rfl

/-- C84.  The frequency stored for an eigenvalue gives back its absolute value as modal stiffness: the
eigenvalue itself exactly if that is not negative. -/
theorem C84_frequency (pi ev : ℝ) (hpi : 0 < pi) :
    (2*pi * storedValue Real.sqrt pi true ev)^2 = |ev| ∧
    ((2*pi * storedValue Real.sqrt pi true ev)^2 = ev ↔ 0 ≤ ev) ∧
    storedValue Real.sqrt pi false ev = ev := by
  have key : (2*pi * storedValue Real.sqrt pi true ev)^2 = |ev| := by
    unfold storedValue
    by_cases h : ev < 0
    · rw [if_neg (by simp), if_pos h, abs_of_neg h]
      have := Real.sq_sqrt (by linarith : (0:ℝ) ≤ -ev)
      field_simp
      linear_combination this
    · rw [if_neg (by simp), if_neg h, abs_of_nonneg (not_lt.mp h)]
      have := Real.sq_sqrt (not_lt.mp h)
      field_simp
      linear_combination this
  refine ⟨key, ?_, by simp [storedValue]⟩
  rw [key]
  exact abs_eq_self

/-! ## Concrete cases -/

/-- Two masses of one, with stiffness and Rayleigh damping. -/
def exStructure : Structure Rat 2 2 where
  M := !![1, 0; 0, 1]
  S := !![1, 0; 0, 4]
  C := !![3/2, 0; 0, 3]
  phi := ![![0, 1], ![-1, 0]]
  omega := ![2, 1]
  zeta := ![3, 3/2]
  mass := by decide +kernel
  damp := by decide +kernel
  stif := by decide +kernel

/-- Its modes; here 2π is 6. -/
def exModes : List (Mode Rat) := [⟨1, 1/3, 0, [0, 1], [0, 1]⟩, ⟨2, 1/6, 0, [-1, 0], [-1, 0]⟩]

theorem exMatch : Match exStructure 1 (1/2) 6 exModes := by
  apply C84_rayleigh exStructure 1 (1/2) 6 (by norm_num) (by norm_num)
  · decide +kernel
  · rfl
  · intro i
    fin_cases i
    · refine ⟨_, rfl, ?_, ?_, ?_, ?_⟩ <;> decide +kernel
    · refine ⟨_, rfl, ?_, ?_, ?_, ?_⟩ <;> decide +kernel

theorem exComplete : exStructure.Complete := by
  intro f hf
  have h0 := hf 0
  have h1 := hf 1
  simp [exStructure, dotProduct, Fin.sum_univ_two] at h0 h1
  funext i
  fin_cases i
  · exact h1
  · exact h0

/-- The dynamics theorem applies; a load of (3,5) at rest, β = 1/4, γ = 1/2, step 2. -/
example : (assembleModalSystem ⟨1, 1/2, none, none⟩ exModes 6 2 [3, 5]
    [[0, 0], [0, 0], [0, 0]] (1/4) (1/2)).2 = some ([8, 7/2], [5, -3]) := by
  decide +kernel

/-- **C84** (no modes).  Without modes there is no expanded solution; only if the first modal vector is empty too the code goes on and accesses the first of no modes. -/
theorem C84_no_modes {K : Type} [Field K] [DecidableEq K] (sol mSol : List (List K)) (h : mSol.head? ≠ some []) :
    expandSolution ([] : List (Mode K)) sol mSol = some [] := by
  rw [expandSolution, if_neg (fun hc => h hc.2)]

/-- C84: too few solution vectors are refused: fewer than three with a Newmark scheme, none at all otherwise. -/
theorem C84_too_few {K : Type} [Field K] [LinearOrder K] (st : State K) (modes : List (Mode K)) (twoPi dt : K) (rhs : List K) (mSol : List (List K)) (beta gamma : K)
    (h : (0 < beta ∧ mSol.length < 3) ∨ (beta ≤ 0 ∧ mSol = [])) :
    (assembleModalSystem st modes twoPi dt rhs mSol beta gamma).2 = none := by
  have e : enough mSol beta = false := by
    rcases h with ⟨hb, hl⟩ | ⟨hb, rfl⟩
    · simp only [enough, gt_iff_lt, if_pos hb, decide_eq_false_iff_not]; omega
    · simp only [enough, gt_iff_lt, if_neg (not_lt.mpr hb), decide_eq_false_iff_not]; simp
  simp [assembleModalSystem, e]

theorem C84_no_modes_access {K : Type} [Field K] [DecidableEq K] (mSol : List (List K)) : expandSolution ([] : List (Mode K)) [] ([] :: mSol) = none := by
  simp [expandSolution, expandStart, List.replicate_succ]

example : expandSolution exModes [] [[2, 3]] = some [[-3, 2]] := by decide +kernel

/-- Modes whose numbers are not their places in the list: the equations of the two modes are
exchanged, while the values of the modal solution are not. -/
example : (assembleModalSystem ⟨1, 1/2, none, none⟩
      [⟨2, 1/3, 0, [0, 1], [0, 1]⟩, ⟨1, 1/6, 0, [-1, 0], [-1, 0]⟩] 6 2 [3, 5]
      [[0, 0], [0, 0], [0, 0]] (1/4) (1/2)).2 = some ([7/2, 8], [-3, (5 : Rat)]) := by
  decide +kernel

/-- With four solution vectors the displacement is taken from the second one, which is also the
velocity. -/
example : (assembleModalSystem ⟨0, 0, none, none⟩ [⟨1, 1, 0, [1], [1]⟩] 1 1 [(0 : Rat)]
    [[10], [1], [0], [0]] (1/4) (1/2)).2 = some ([5/4], [-1]) := by
  decide +kernel

/-- A mode with modal mass four: after normalization it has modal mass one fourth. -/
example : (orthonormalize (fun x => some x) (1/10^16) (⟨1, 1, 0, [2], [2]⟩ : Mode Rat)).map
    (fun m => m.eqnVec) = some [1/2] := by
  decide +kernel

end IFEM.Modal
