import Verif.Spec.Newmark
import Mathlib.Tactic.Ring
import Mathlib.Tactic.FieldSimp
import Mathlib.Tactic.LinearCombination
import Mathlib.Tactic.NormNum
/-!
# C29–C30: Newmark, generalised-alpha and Hilber-Hughes-Taylor time integration
-/
namespace IFEM.Props
open IFEM.Spec Matrix
variable {K : Type} [Field K] [LinearOrder K] [IsStrictOrderedRing K] {ι : Type} [Fintype ι]

/-! ## C29: difference formulas -/

/-- **C29** (predictor). Every predictor satisfies the Newmark difference formulas with respect to the state at the start of the step,
and does what its name says. -/
theorem C29_predictor (p : Char) (beta gamma dt : K) (hb : beta ≠ 0) (hg : gamma ≠ 0) (hdt : dt ≠ 0) (s s' : NmSol K ι)
    (h : nmPredict p beta gamma dt s = some s') :
    NewmarkRel beta gamma dt s s' ∧ (p = 'a' → s'.a = 0) ∧ (p = 'v' → s'.v = s.v) ∧ (p = 'd' → s'.u = s.u) := by
  unfold nmPredict at h
  dsimp only at h
  by_cases ha : p = 'a'
  · rw [if_pos ha] at h
    cases h
    refine ⟨⟨?_, ?_⟩, fun _ => rfl, fun h => ?_, fun h => ?_⟩
    · funext i; simp; ring
    · funext i; simp; ring
    · rw [ha] at h; exact absurd h (by decide)
    · rw [ha] at h; exact absurd h (by decide)
  · rw [if_neg ha] at h
    by_cases hv : p = 'v'
    · rw [if_pos hv] at h
      cases h
      refine ⟨⟨?_, ?_⟩, fun h => absurd h ha, fun _ => rfl, fun h => ?_⟩
      · funext i; simp; field_simp; ring
      · funext i; simp only [Pi.add_apply, Pi.smul_apply, smul_eq_mul]; field_simp; ring
      · rw [hv] at h; exact absurd h (by decide)
    · rw [if_neg hv] at h
      by_cases hd : p = 'd'
      · rw [if_pos hd] at h
        cases h
        refine ⟨⟨?_, ?_⟩, fun h => absurd h ha, fun h => absurd h hv, fun _ => rfl⟩
        · funext i; simp; field_simp; ring
        · funext i; simp; field_simp; ring
      · rw [if_neg hd] at h; cases h

/-- **C29** (correctors). Any number of corrections with arbitrary increments keeps the difference formulas. -/
theorem C29_corrector (sd : Bool) (beta gamma dt : K) (hb : beta ≠ 0) (hdt : dt ≠ 0) (s0 s : NmSol K ι)
    (h : NewmarkRel beta gamma dt s0 s) (ls : List (ι → K)) :
    NewmarkRel beta gamma dt s0 (ls.foldl (fun s l => nmCorrect sd beta gamma dt l s) s) := by
  induction ls generalizing s with
  | nil => exact h
  | cons l ls ih =>
    apply ih
    obtain ⟨h1, h2⟩ := h
    unfold nmCorrect
    constructor
    · dsimp only
      rw [h1]
      funext i
      cases sd
      · simp; ring
      · simp; field_simp; ring
    · dsimp only
      rw [h2]
      funext i
      cases sd
      · simp; ring
      · simp; field_simp; ring

theorem relax_eq (al : K) (X Z : ι → K) : relax al X Z = al • Z + (1 - al) • X := by
  unfold relax
  split
  · rfl
  · rename_i h
    push Not at h
    rw [h]; simp

/-- **C29** (generalised-alpha). After the predictor and any number of corrections, the end-of-step state satisfies the
difference formulas, and the state used for the residual is the intermediate one; the converged state is the end-of-step state. -/
theorem C29_generalised_alpha (am af : K) (p : Char) (sd : Bool) (beta gamma dt : K) (hb : beta ≠ 0) (hg : gamma ≠ 0)
    (hdt : dt ≠ 0) (s s1 : GaSol K ι) (h : gaPredict am af p beta gamma dt (gaAdvance s) = some s1) (ls : List (ι → K)) :
    let t := ls.foldl (fun s l => gaCorrect am af sd beta gamma dt l false s) s1
    NewmarkRel beta gamma dt s.sol t.temp ∧
    t.sol.u = af • t.temp.u + (1 - af) • s.sol.u ∧ t.sol.v = af • t.temp.v + (1 - af) • s.sol.v ∧
    t.sol.a = am • t.temp.a + (1 - am) • s.sol.a ∧
    ∀ l, NewmarkRel beta gamma dt s.sol (gaCorrect am af sd beta gamma dt l true t).sol := by
  have hcor : ∀ (l : ι → K) (c : Bool) (t : GaSol K ι), (gaCorrect am af sd beta gamma dt l c t).temp = nmCorrect sd beta gamma dt l t.temp ∧
      (gaCorrect am af sd beta gamma dt l c t).prev = t.prev := by
    intro l c t
    unfold gaCorrect nmCorrect
    cases c <;> exact ⟨rfl, rfl⟩
  have key : ∀ (ls : List (ι → K)) (t : GaSol K ι), NewmarkRel beta gamma dt s.sol t.temp → t.prev = s.sol →
      t.sol.u = af • t.temp.u + (1 - af) • s.sol.u → t.sol.v = af • t.temp.v + (1 - af) • s.sol.v →
      t.sol.a = am • t.temp.a + (1 - am) • s.sol.a →
      let t' := ls.foldl (fun s l => gaCorrect am af sd beta gamma dt l false s) t
      NewmarkRel beta gamma dt s.sol t'.temp ∧ t'.sol.u = af • t'.temp.u + (1 - af) • s.sol.u ∧
      t'.sol.v = af • t'.temp.v + (1 - af) • s.sol.v ∧ t'.sol.a = am • t'.temp.a + (1 - am) • s.sol.a := by
    intro ls
    induction ls with
    | nil => intro t h1 _ h3 h4 h5; exact ⟨h1, h3, h4, h5⟩
    | cons l ls ih =>
      intro t h1 h2 h3 h4 h5
      have hc := hcor l false t
      apply ih
      · rw [hc.1]; exact C29_corrector sd beta gamma dt hb hdt s.sol t.temp h1 [l]
      · rw [hc.2, h2]
      · unfold gaCorrect; dsimp only; rw [if_neg (by decide)]; dsimp only; rw [relax_eq, h2]
      · unfold gaCorrect; dsimp only; rw [if_neg (by decide)]; dsimp only; rw [relax_eq, h2]
      · unfold gaCorrect; dsimp only; rw [if_neg (by decide)]; dsimp only; rw [relax_eq, h2]
  have h0 : NewmarkRel beta gamma dt s.sol s1.temp ∧ s1.prev = s.sol ∧
      s1.sol.u = af • s1.temp.u + (1 - af) • s.sol.u ∧ s1.sol.v = af • s1.temp.v + (1 - af) • s.sol.v ∧
      s1.sol.a = am • s1.temp.a + (1 - am) • s.sol.a := by
    unfold gaPredict gaAdvance at h
    dsimp only at h
    cases hp : nmPredict p beta gamma dt s.sol with
    | none => rw [hp] at h; cases h
    | some q =>
      rw [hp] at h
      dsimp only at h
      cases h
      exact ⟨(C29_predictor p beta gamma dt hb hg hdt _ _ hp).1, rfl, relax_eq _ _ _, relax_eq _ _ _, relax_eq _ _ _⟩
  obtain ⟨a1, a2, a3, a4, a5⟩ := h0
  obtain ⟨k1, k2, k3, k4⟩ := key ls s1 a1 a2 a3 a4 a5
  refine ⟨k1, k2, k3, k4, ?_⟩
  intro l
  have : (gaCorrect am af sd beta gamma dt l true (ls.foldl (fun s l => gaCorrect am af sd beta gamma dt l false s) s1)).sol =
      nmCorrect sd beta gamma dt l (ls.foldl (fun s l => gaCorrect am af sd beta gamma dt l false s) s1).temp := by
    unfold gaCorrect nmCorrect; rfl
  rw [this]
  exact C29_corrector sd beta gamma dt hb hdt s.sol _ k1 [l]

/-- **C29** (nonlinear Newmark). After the predictor and at least one correction, the difference formulas hold, and the
displacement is the initial one plus all increments. -/
theorem C29_nonlinear (beta gamma dt : K) (hb : beta ≠ 0) (hdt : dt ≠ 0) (s : NlSol K ι) (l : ι → K) (ls : List (ι → K)) :
    let t := (l :: ls).foldl (fun s l => nlCorrect beta gamma dt l s) (nlPredict beta gamma dt s)
    NewmarkRel beta gamma dt s.sol t.sol ∧ t.sol.u = s.sol.u + (l :: ls).sum := by
  have key : ∀ (ls : List (ι → K)) (t : NlSol K ι), t.predVel = (nlPredict beta gamma dt s).predVel →
      t.predAcc = (nlPredict beta gamma dt s).predAcc → t.sol.u = s.sol.u + t.incDis →
      t.sol.v = t.predVel + (gamma / (beta * dt)) • t.incDis → t.sol.a = t.predAcc + (1 / (beta * dt * dt)) • t.incDis →
      let t' := ls.foldl (fun s l => nlCorrect beta gamma dt l s) t
      NewmarkRel beta gamma dt s.sol t'.sol ∧ t'.sol.u = t.sol.u + ls.sum := by
    intro ls
    induction ls with
    | nil =>
      intro t h1 h2 h3 h4 h5
      refine ⟨⟨?_, ?_⟩, by simp⟩
      · dsimp only [List.foldl_nil]
        rw [h3, h5, h2]
        funext i
        simp [nlPredict]; field_simp; ring
      · dsimp only [List.foldl_nil]
        rw [h4, h5, h2, h1]
        funext i
        simp [nlPredict]; field_simp; ring
    | cons l ls ih =>
      intro t h1 h2 h3 h4 h5
      have := ih (nlCorrect beta gamma dt l t) h1 h2 (by unfold nlCorrect; dsimp only; rw [h3]; simp [add_assoc])
        rfl rfl
      refine ⟨this.1, ?_⟩
      have h' := this.2
      rw [List.foldl_cons, h']
      unfold nlCorrect
      simp [add_assoc]
  have := key ls (nlCorrect beta gamma dt l (nlPredict beta gamma dt s)) rfl rfl
    (by unfold nlCorrect nlPredict; simp) rfl rfl
  refine ⟨this.1, ?_⟩
  have h' := this.2
  rw [List.foldl_cons, h']
  unfold nlCorrect nlPredict
  simp [add_assoc]

/-- The correction steps of `HHTSIM`: iterations number `k+1`, `k+2`, ... -/
def hhtIters (beta gamma dt : K) : Nat → List (ι → K) → HhtSol K ι → HhtSol K ι
  | _, [], s => s
  | k, l :: ls, s => hhtIters beta gamma dt (k+1) ls (hhtCorrect beta gamma dt l (k+1) false s)

/-- **C29** (Hilber-Hughes-Taylor). After the predictor, at least one iteration, and possibly the final correction when convergence is
detected, the difference formulas hold and the displacement is the initial one plus all increments. -/
theorem C29_hht (beta gamma dt : K) (hb : beta ≠ 0) (hdt : dt ≠ 0) (s : HhtSol K ι) (l : ι → K) (ls : List (ι → K)) :
    let t := hhtIters beta gamma dt 0 (l :: ls) (hhtPredict beta gamma dt s)
    NewmarkRel beta gamma dt s.sol t.sol ∧ t.sol.u = s.sol.u + (l :: ls).sum ∧
    ∀ lc, NewmarkRel beta gamma dt s.sol (hhtCorrect beta gamma dt lc (l :: ls).length true t).sol := by
  have fin : ∀ t : HhtSol K ι, t.pV = s.sol.v - (hhtPredict beta gamma dt s).pV → t.pA = s.sol.a - (hhtPredict beta gamma dt s).pA →
      t.sol.u = s.sol.u + t.incDis →
      t.sol.v = t.pV + (gamma / (beta * dt)) • t.incDis → t.sol.a = t.pA + (1 / (beta * dt * dt)) • t.incDis →
      NewmarkRel beta gamma dt s.sol t.sol := by
    intro t h1 h2 h3 h4 h5
    constructor
    · rw [h3, h5, h2]
      funext i
      simp [hhtPredict]; field_simp; ring
    · rw [h4, h5, h2, h1]
      funext i
      simp [hhtPredict]; field_simp; ring
  have step : ∀ (k : Nat) (c : Bool) (l : ι → K) (t : HhtSol K ι), (k ≠ 1 ∨ c = true) →
      (hhtCorrect beta gamma dt l k c t).pV = t.pV ∧ (hhtCorrect beta gamma dt l k c t).pA = t.pA ∧
      (hhtCorrect beta gamma dt l k c t).sol.v = t.pV + (gamma / (beta * dt)) • (hhtCorrect beta gamma dt l k c t).incDis ∧
      (hhtCorrect beta gamma dt l k c t).sol.a = t.pA + (1 / (beta * dt * dt)) • (hhtCorrect beta gamma dt l k c t).incDis := by
    intro k c l t h
    have : ¬ (k = 1 ∧ c = false) := by
      rintro ⟨h1, h2⟩
      rcases h with h | h
      · exact h h1
      · rw [h2] at h; cases h
    unfold hhtCorrect
    rw [if_neg this]
    exact ⟨rfl, rfl, rfl, rfl⟩
  have key : ∀ (ls : List (ι → K)) (k : Nat) (t : HhtSol K ι), 1 ≤ k → t.pV = s.sol.v - (hhtPredict beta gamma dt s).pV →
      t.pA = s.sol.a - (hhtPredict beta gamma dt s).pA → t.sol.u = s.sol.u + t.incDis →
      t.sol.v = t.pV + (gamma / (beta * dt)) • t.incDis → t.sol.a = t.pA + (1 / (beta * dt * dt)) • t.incDis →
      let t' := hhtIters beta gamma dt k ls t
      t'.pV = t.pV ∧ t'.pA = t.pA ∧ t'.sol.u = s.sol.u + t'.incDis ∧ t'.sol.v = t'.pV + (gamma / (beta * dt)) • t'.incDis ∧
      t'.sol.a = t'.pA + (1 / (beta * dt * dt)) • t'.incDis ∧ t'.sol.u = t.sol.u + ls.sum := by
    intro ls
    induction ls with
    | nil => intro k t _ _ _ h3 h4 h5; exact ⟨rfl, rfl, h3, h4, h5, by simp [hhtIters]⟩
    | cons l ls ih =>
      intro k t hk h1 h2 h3 h4 h5
      obtain ⟨e1, e2, e3, e4⟩ := step (k+1) false l t (Or.inl (by omega))
      have hu : (hhtCorrect beta gamma dt l (k+1) false t).sol.u = s.sol.u + (hhtCorrect beta gamma dt l (k+1) false t).incDis := by
        unfold hhtCorrect; dsimp only; rw [h3]; simp [add_assoc]
      obtain ⟨i1, i2, i3, i4, i5, i6⟩ := ih (k+1) _ (by omega) (by rw [e1, h1]) (by rw [e2, h2]) hu (by rw [e3, e1]) (by rw [e4, e2])
      refine ⟨by rw [← e1]; exact i1, by rw [← e2]; exact i2, i3, i4, i5, ?_⟩
      have : (hhtCorrect beta gamma dt l (k+1) false t).sol.u = t.sol.u + l := by unfold hhtCorrect; simp
      unfold hhtIters
      rw [i6, this]; simp [add_assoc]
  set t1 := hhtCorrect beta gamma dt l 1 false (hhtPredict beta gamma dt s) with ht1
  have b1 : t1.pV = s.sol.v - (hhtPredict beta gamma dt s).pV := by
    rw [ht1]; unfold hhtCorrect; rw [if_pos ⟨rfl, rfl⟩]; dsimp only
    funext i; simp [hhtPredict]; ring
  have b2 : t1.pA = s.sol.a - (hhtPredict beta gamma dt s).pA := by
    rw [ht1]; unfold hhtCorrect; rw [if_pos ⟨rfl, rfl⟩]; dsimp only
    funext i; simp [hhtPredict]; ring
  have b3 : t1.sol.u = s.sol.u + t1.incDis := by rw [ht1]; unfold hhtCorrect hhtPredict; simp
  have b4 : t1.sol.v = t1.pV + (gamma / (beta * dt)) • t1.incDis := by
    rw [ht1]; unfold hhtCorrect; rw [if_pos ⟨rfl, rfl⟩]
  have b5 : t1.sol.a = t1.pA + (1 / (beta * dt * dt)) • t1.incDis := by
    rw [ht1]; unfold hhtCorrect; rw [if_pos ⟨rfl, rfl⟩]
  have b6 : t1.sol.u = s.sol.u + l := by rw [ht1]; unfold hhtCorrect hhtPredict; simp
  obtain ⟨k1, k2, k3, k4, k5, k6⟩ := key ls 1 t1 le_rfl b1 b2 b3 b4 b5
  have e0 : hhtIters beta gamma dt 0 (l :: ls) (hhtPredict beta gamma dt s) = hhtIters beta gamma dt 1 ls t1 := rfl
  intro t
  have et : t = hhtIters beta gamma dt 1 ls t1 := rfl
  rw [et]
  refine ⟨fin _ (by rw [k1, b1]) (by rw [k2, b2]) k3 k4 k5, by rw [k6, b6]; simp [add_assoc], ?_⟩
  intro lc
  obtain ⟨e1, e2, e3, e4⟩ := step (l :: ls).length true lc (hhtIters beta gamma dt 1 ls t1) (Or.inr rfl)
  apply fin
  · rw [e1, k1, b1]
  · rw [e2, k2, b2]
  · unfold hhtCorrect; dsimp only; rw [k3]; simp [add_assoc]
  · rw [e3, e1]
  · rw [e4, e2]

/-- **C29 fails** (F22) in the Hilber-Hughes-Taylor solver if convergence is detected before the first iteration: the predicted
velocity is stored instead of the corrected one. -/
theorem C29_counterexample_hht : ∃ (s : HhtSol Rat (Fin 1)) (l : Fin 1 → Rat),
    ¬ NewmarkRel (1/4) (1/2) 1 s.sol (hhtCorrect (1/4) (1/2) 1 l 0 true (hhtPredict (1/4) (1/2) 1 s)).sol := by
  refine ⟨⟨⟨0, fun _ => 1, 0⟩, 0, 0, 0⟩, 0, ?_⟩
  rintro ⟨-, h⟩
  have := congrFun h 0
  simp [hhtCorrect, hhtPredict] at this

/-! ## C30: consistency of tangent, residual and correction -/

theorem addMat_mulVec (N : Matrix ι ι K) (w : K) (o : Option (Matrix ι ι K)) (x : ι → K) :
    addMat N w o *ᵥ x = N *ᵥ x + w • (mat o *ᵥ x) := by
  cases o with
  | none => simp [addMat, mat]
  | some A => simp [addMat, mat, add_mulVec, smul_mulVec]

theorem addMV_eq (r : ι → K) (o : Option (Matrix ι ι K)) (x : ι → K) (w : K) : addMV r o x w = r + w • (mat o *ᵥ x) := by
  cases o with
  | none => simp [addMV, mat]
  | some A => simp [addMV, mat]

theorem scaleMat_mulVec (w : K) (o : Option (Matrix ι ι K)) (x : ι → K) : scaleMat w o *ᵥ x = w • (mat o *ᵥ x) := by
  cases o with
  | none => simp [scaleMat, mat]
  | some A => simp [scaleMat, mat, smul_mulVec]

theorem addDamp_eq (r : ι → K) (fd : Option (ι → K)) (C : Option (Matrix ι ι K)) (v : ι → K) (w : K)
    (hfd : ∀ f, fd = some f → f = mat C *ᵥ v) : addDamp r fd C v w = r + w • (mat C *ᵥ v) := by
  cases fd with
  | none => exact addMV_eq _ _ _ _
  | some f => unfold addDamp; dsimp only; rw [hfd f rfl]

theorem addRayleigh_eq (r : ι → K) (a : K) (A : Option (Matrix ι ι K)) (v : ι → K) (w : K) (ha : 0 ≤ a) :
    addRayleigh r a A v (w * a) = r + w • (a • (mat A *ᵥ v)) := by
  unfold addRayleigh
  split
  · rw [addMV_eq]; funext i; simp; ring
  · rename_i hn
    have : a = 0 := le_antisymm (not_lt.1 hn) ha
    rw [this]; simp

theorem nmNewton_mulVec (p : NmPar K) (h : K) (M Kt C : Option (Matrix ι ι K)) (x : ι → K) :
    nmNewton p h M Kt C *ᵥ x = (if p.slvDisp then 1 / (p.beta * h * h) else 1) •
      ((p.alpha_m + p.alpha_f * p.alpha1 * p.gamma * h) • (mat M *ᵥ x) +
       (p.alpha_f * (p.alpha2 * p.gamma + p.beta * h) * h) • (mat Kt *ᵥ x) + (p.alpha_f * p.gamma * h) • (mat C *ᵥ x)) := by
  have h0 : ∀ N : Matrix ι ι K, (if p.slvDisp then (1 / (p.beta * h * h)) • N else N) =
      (if p.slvDisp then 1 / (p.beta * h * h) else 1) • N := by
    intro N; split
    · rfl
    · simp
  unfold nmNewton
  dsimp only
  rw [h0, smul_mulVec, addMat_mulVec, addMat_mulVec, scaleMat_mulVec]

theorem nmRHS_eq (p : NmPar K) (M Kt C : Option (Matrix ι ι K)) (dF : ι → K) (fd : Option (ι → K)) (vel acc : ι → K)
    (h1 : 0 ≤ p.alpha1) (h2 : 0 ≤ p.alpha2) (hfd : ∀ f, fd = some f → f = mat C *ᵥ vel) :
    nmRHS p M Kt C dF fd vel acc = dF - mat M *ᵥ acc - (mat C *ᵥ vel + p.alpha1 • (mat M *ᵥ vel) + p.alpha2 • (mat Kt *ᵥ vel)) := by
  unfold nmRHS
  dsimp only
  have m1 : -p.alpha1 = (-1) * p.alpha1 := by ring
  have m2 : -p.alpha2 = (-1) * p.alpha2 := by ring
  rw [m1, m2, addRayleigh_eq _ _ _ _ _ h2, addRayleigh_eq _ _ _ _ _ h1, addDamp_eq _ _ _ _ _ hfd, addMV_eq]
  funext i
  simp only [Pi.add_apply, Pi.smul_apply, Pi.sub_apply, smul_eq_mul]
  ring

/-- **C30** (Newmark). For linear stiffness, damping and mass, one solution of the Newton system followed by the correction step
gives dynamic equilibrium at the corrected state, from any state. -/
theorem C30_newmark (a1 a2 b c h : K) (M Kt C : Option (Matrix ι ι K)) (f : ι → K) (fd : Option (ι → K)) (s : NmSol K ι) (l : ι → K)
    (hb : b ≠ 0) (hh : h ≠ 0) (h1 : 0 ≤ a1) (h2 : 0 ≤ a2) (hfd : ∀ g, fd = some g → g = mat C *ᵥ s.v)
    (hsolve : nmNewton (NmPar.make a1 a2 b c false) h M Kt C *ᵥ l =
      nmRHS (NmPar.make a1 a2 b c false) M Kt C (f - mat Kt *ᵥ s.u) fd s.v s.a) :
    let s' := nmCorrect (decide (b < 0)) |b| c h l s
    Equilibrium (mat M) (mat C) (mat Kt) a1 a2 f s'.u s'.v s'.a := by
  have hb' : |b| ≠ 0 := abs_ne_zero.2 hb
  rw [nmNewton_mulVec, nmRHS_eq (NmPar.make a1 a2 b c false) M Kt C _ fd s.v s.a h1 h2 hfd] at hsolve
  simp only [NmPar.make, Bool.false_eq_true, if_false] at hsolve
  intro s'
  unfold Equilibrium
  funext i
  have hi := congrFun hsolve i
  simp only [s', nmCorrect, mulVec_add, mulVec_smul, Pi.add_apply, Pi.smul_apply, Pi.sub_apply, smul_eq_mul] at hi ⊢
  generalize |b| = B at *
  by_cases hd : b < 0
  · simp only [hd, decide_true, if_true] at hi ⊢
    field_simp at hi ⊢
    linear_combination hi
  · simp only [hd, decide_false, Bool.false_eq_true, if_false] at hi ⊢
    linear_combination hi

/-- **C30** (a whole Newmark step). Predictor, one Newton solution and correction yield a state that satisfies both the Newmark
difference formulas and dynamic equilibrium. -/
theorem C30_newmark_step (pr : Char) (a1 a2 b c h : K) (M Kt C : Option (Matrix ι ι K)) (f : ι → K) (s p : NmSol K ι) (l : ι → K)
    (hb : b ≠ 0) (hc : c ≠ 0) (hh : h ≠ 0) (h1 : 0 ≤ a1) (h2 : 0 ≤ a2) (hp : nmPredict pr |b| c h s = some p)
    (hsolve : nmNewton (NmPar.make a1 a2 b c false) h M Kt C *ᵥ l =
      nmRHS (NmPar.make a1 a2 b c false) M Kt C (f - mat Kt *ᵥ p.u) none p.v p.a) :
    let s' := nmCorrect (decide (b < 0)) |b| c h l p
    NewmarkRel |b| c h s s' ∧ Equilibrium (mat M) (mat C) (mat Kt) a1 a2 f s'.u s'.v s'.a :=
  ⟨C29_corrector _ _ _ _ (abs_ne_zero.2 hb) hh _ _ (C29_predictor pr _ _ _ (abs_ne_zero.2 hb) hc hh _ _ hp).1 [l],
   C30_newmark a1 a2 b c h M Kt C f none p l hb hh h1 h2 (by intro g hg; cases hg) hsolve⟩

/-- **C30** (generalised-alpha). One solution of the Newton system followed by the correction step gives dynamic equilibrium at
the intermediate state, where the element routines use the same parameters as the solver. -/
theorem C30_generalised_alpha (a1 a2 b c h : K) (M Kt C : Option (Matrix ι ι K)) (f : ι → K) (s : GaSol K ι) (l : ι → K)
    (hh : h ≠ 0) (h1 : 0 ≤ a1) (h2 : 0 ≤ a2) (hbeta : (NmPar.make a1 a2 b c true).beta ≠ 0)
    (hu : s.sol.u = relax c s.prev.u s.temp.u) (hv : s.sol.v = relax c s.prev.v s.temp.v)
    (ha : s.sol.a = relax |b| s.prev.a s.temp.a)
    (hsolve : nmNewton (NmPar.make a1 a2 b c true) h M Kt C *ᵥ l =
      nmRHS (NmPar.make a1 a2 b c true) M Kt C (f - mat Kt *ᵥ s.sol.u) none s.sol.v s.sol.a) :
    let s' := gaCorrect |b| c (decide (b < 0)) (NmPar.make a1 a2 b c true).beta (NmPar.make a1 a2 b c true).gamma h l false s
    Equilibrium (mat M) (mat C) (mat Kt) a1 a2 f s'.sol.u s'.sol.v s'.sol.a := by
  rw [nmNewton_mulVec, nmRHS_eq (NmPar.make a1 a2 b c true) M Kt C _ none s.sol.v s.sol.a h1 h2 (by intro g hg; cases hg),
    hu, hv, ha, relax_eq, relax_eq, relax_eq] at hsolve
  intro s'
  have e1 : s'.sol.u = relax c s.prev.u s'.temp.u := rfl
  have e2 : s'.sol.v = relax c s.prev.v s'.temp.v := rfl
  have e3 : s'.sol.a = relax |b| s.prev.a s'.temp.a := rfl
  have t1 : s'.temp.u = s.temp.u + (if decide (b < 0) then 1 else (NmPar.make a1 a2 b c true).beta * h * h) • l := rfl
  have t2 : s'.temp.v = s.temp.v + (if decide (b < 0) then (NmPar.make a1 a2 b c true).gamma / ((NmPar.make a1 a2 b c true).beta * h)
    else (NmPar.make a1 a2 b c true).gamma * h) • l := rfl
  have t3 : s'.temp.a = s.temp.a + (if decide (b < 0) then 1 / ((NmPar.make a1 a2 b c true).beta * h * h) else 1) • l := rfl
  unfold Equilibrium
  rw [e1, e2, e3, relax_eq, relax_eq, relax_eq, t1, t2, t3]
  have am : (NmPar.make a1 a2 b c true).alpha_m = |b| := rfl
  have af : (NmPar.make a1 a2 b c true).alpha_f = c := rfl
  have x1 : (NmPar.make a1 a2 b c true).alpha1 = a1 := rfl
  have x2 : (NmPar.make a1 a2 b c true).alpha2 = a2 := rfl
  have x3 : (NmPar.make a1 a2 b c true).slvDisp = decide (b < 0) := rfl
  rw [am, af, x1, x2, x3] at hsolve
  generalize (NmPar.make a1 a2 b c true).beta = B at *
  generalize (NmPar.make a1 a2 b c true).gamma = G at *
  funext i
  have hi := congrFun hsolve i
  simp only [mulVec_add, mulVec_smul, Pi.add_apply, Pi.smul_apply, Pi.sub_apply, smul_eq_mul] at hi ⊢
  by_cases hd : b < 0
  · simp only [hd, decide_true, if_true] at hi ⊢
    field_simp at hi ⊢
    linear_combination hi
  · simp only [hd, decide_false, Bool.false_eq_true, if_false] at hi ⊢
    linear_combination hi

/-- **C30** (parameters). The element routines reconstruct from `alpha_m` and `alpha_f` the same `beta` and `gamma` as the generalised-alpha
solver (GenAlphaSIM.C:34-54), for either way of giving the parameters. -/
theorem C30_parameters (a1 a2 am af : K) (h : 0 ≤ am) :
    (NmPar.make a1 a2 am af true).beta = 1/4 * (1 - (af - am)) * (1 - (af - am)) ∧ (NmPar.make a1 a2 am af true).gamma = 1/2 - (af - am) ∧
    (NmPar.make a1 a2 (-am) af true).beta = 1/4 * (1 - (af - am)) * (1 - (af - am)) ∧
    (NmPar.make a1 a2 (-am) af true).gamma = 1/2 - (af - am) ∧ (NmPar.make a1 a2 (-am) af true).slvDisp = decide (0 < am) := by
  unfold NmPar.make
  simp only [if_true, abs_neg, abs_of_nonneg h]
  simp

theorem hhtNewton_mulVec (p : NmPar K) (h : K) (M Km Kg C : Option (Matrix ι ι K)) (x : ι → K) :
    hhtNewton p h M Km Kg C *ᵥ x =
      (1 / (p.beta * h * h) + (3/2 - p.gamma) * p.alpha1 * (p.gamma / (p.beta * h))) • (mat M *ᵥ x) +
      ((3/2 - p.gamma) + (3/2 - p.gamma) * p.alpha2 * (p.gamma / (p.beta * h))) • (mat Km *ᵥ x) +
      (3/2 - p.gamma) • (mat Kg *ᵥ x) + ((3/2 - p.gamma) * (p.gamma / (p.beta * h))) • (mat C *ᵥ x) := by
  unfold hhtNewton
  dsimp only
  rw [addMat_mulVec, addMat_mulVec, addMat_mulVec, scaleMat_mulVec]

theorem hhtDamp_eq (p : NmPar K) (M Km C : Option (Matrix ι ι K)) (fd : Option (ι → K)) (v : ι → K) (w : K) (r : ι → K)
    (h1 : 0 ≤ p.alpha1) (h2 : 0 ≤ p.alpha2) (hfd : ∀ f, fd = some f → f = mat C *ᵥ v) :
    hhtDamp p M Km C fd v w r = r + w • (mat C *ᵥ v + p.alpha1 • (mat M *ᵥ v) + p.alpha2 • (mat Km *ᵥ v)) := by
  unfold hhtDamp
  dsimp only
  rw [addDamp_eq _ _ _ _ _ hfd, addRayleigh_eq _ _ _ _ _ h2, addRayleigh_eq _ _ _ _ _ h1]
  funext i
  simp only [Pi.add_apply, Pi.smul_apply, smul_eq_mul]
  ring

/-- **C30** (Hilber-Hughes-Taylor, corrector iterations). With the assembled corrector residual, the stored inertia force `F0` of the
previous step and the external load `f`, one Newton solution and the corresponding update of displacement, velocity and
acceleration give a state satisfying the Hilber-Hughes-Taylor equation. -/
theorem C30_hht_corrector (alpha a1 a2 h : K) (M : Matrix ι ι K) (Km Kg C : Option (Matrix ι ι K)) (f F0 fia fp : ι → K) (s : NmSol K ι)
    (l : ι → K) (fd : Option (ι → K)) (hal : alpha ≠ 1) (hh : h ≠ 0) (h1 : 0 ≤ a1) (h2 : 0 ≤ a2)
    (hfd : ∀ g, fd = some g → g = mat C *ᵥ s.v)
    (hsolve : hhtNewton (NmPar.hht alpha a1 a2) h (some M) Km Kg C *ᵥ l =
      (hhtFinalize (1/2 - alpha) false
        (hhtRHS (NmPar.hht alpha a1 a2) false false M Km C (-(mat Km *ᵥ s.u + mat Kg *ᵥ s.u)) none fd s.v s.a none) fia f F0 fp).1) :
    let p := NmPar.hht alpha a1 a2
    let s' : NmSol K ι := ⟨s.u + l, s.v + (p.gamma / (p.beta * h)) • l, s.a + (1 / (p.beta * h * h)) • l⟩
    HHTEquation alpha M (netForce M (mat C) (mat Km) (mat Kg) a1 a2 f s'.u s'.v) F0 s'.a := by
  have hbeta : (NmPar.hht alpha a1 a2).beta ≠ 0 := by
    show (1:K)/4 * (1 - alpha) * (1 - alpha) ≠ 0
    have : 1 - alpha ≠ 0 := sub_ne_zero.2 (Ne.symm hal)
    have : (4:K) ≠ 0 := by norm_num
    positivity
  have hg : (NmPar.hht alpha a1 a2).gamma = 1/2 - alpha := rfl
  have x1 : (NmPar.hht alpha a1 a2).alpha1 = a1 := rfl
  have x2 : (NmPar.hht alpha a1 a2).alpha2 = a2 := rfl
  have hm : mat (some M) = M := rfl
  rw [hhtNewton_mulVec] at hsolve
  unfold hhtFinalize hhtRHS at hsolve
  simp only [Bool.false_eq_true, if_false] at hsolve
  rw [hhtDamp_eq _ _ _ _ _ _ _ _ (by rw [x1]; exact h1) (by rw [x2]; exact h2) (by exact hfd)] at hsolve
  simp only [hhtBase, Bool.false_eq_true, if_false, x1, x2, hm, hg] at hsolve
  intro p s'
  unfold HHTEquation netForce
  funext i
  have hi := congrFun hsolve i
  simp only [s', p, hg, mulVec_add, mulVec_smul, mulVec_neg, Pi.add_apply, Pi.smul_apply, Pi.sub_apply, Pi.neg_apply, smul_eq_mul] at hi ⊢
  generalize (NmPar.hht alpha a1 a2).beta = B at *
  linear_combination hi

theorem hht_beta_ne {alpha : K} (hal : alpha ≠ 1) (a1 a2 : K) : (NmPar.hht alpha a1 a2).beta ≠ 0 := by
  show (1:K)/4 * (1 - alpha) * (1 - alpha) ≠ 0
  have : 1 - alpha ≠ 0 := sub_ne_zero.2 (Ne.symm hal)
  exact mul_ne_zero (mul_ne_zero (by norm_num) this) this

/-- **C30** (a whole Hilber-Hughes-Taylor step). Predictor, assembly of the predictor right-hand side from the state of
the previous step, one Newton solution and the first correction yield a state that satisfies the Newmark difference
formulas and the Hilber-Hughes-Taylor equation, where the inertia force stored for
later iterations is the net force at the start of the step (loads `fp`). -/
theorem C30_hht_step (alpha a1 a2 h : K) (M : Matrix ι ι K) (Km Kg C : Option (Matrix ι ι K)) (f fp F0 : ι → K) (s : HhtSol K ι)
    (l : ι → K) (hal : alpha ≠ 1) (hh : h ≠ 0) (h1 : 0 ≤ a1) (h2 : 0 ≤ a2) :
    let p := NmPar.hht alpha a1 a2
    let q := hhtPredict p.beta p.gamma h s
    let sint := -(mat Km *ᵥ q.sol.u + mat Kg *ᵥ q.sol.u)
    let fin := hhtFinalize p.gamma true (hhtRHS p false true M Km C sint none none q.sol.v q.sol.a (some (q.pV, q.pA)))
        (hhtInertia p M Km C sint none q.sol.v) f F0 fp
    hhtNewton p h (some M) Km Kg C *ᵥ l = fin.1 →
    let s' := (hhtCorrect p.beta p.gamma h l 1 false q).sol
    fin.2 = netForce M (mat C) (mat Km) (mat Kg) a1 a2 fp s.sol.u s.sol.v ∧
    NewmarkRel p.beta p.gamma h s.sol s' ∧
    HHTEquation alpha M (netForce M (mat C) (mat Km) (mat Kg) a1 a2 f s'.u s'.v) fin.2 s'.a := by
  intro p q sint fin hsolve s'
  have hbeta : p.beta ≠ 0 := hht_beta_ne hal a1 a2
  have hg : p.gamma = 1/2 - alpha := rfl
  have x1 : p.alpha1 = a1 := rfl
  have x2 : p.alpha2 = a2 := rfl
  have hm : mat (some M) = M := rfl
  have hF : fin.2 = netForce M (mat C) (mat Km) (mat Kg) a1 a2 fp s.sol.u s.sol.v := by
    show hhtInertia p M Km C sint none q.sol.v + fp = _
    unfold hhtInertia
    dsimp only
    have m1 : -p.alpha1 = (-1) * p.alpha1 := by ring
    have m2 : -p.alpha2 = (-1) * p.alpha2 := by ring
    rw [m1, m2, addMV_eq, addRayleigh_eq _ _ _ _ _ (by rw [x2]; exact h2), addRayleigh_eq _ _ _ _ _ (by rw [x1]; exact h1), hm, x1, x2]
    unfold netForce
    funext i
    simp only [sint, q, hhtPredict, Pi.add_apply, Pi.smul_apply, Pi.sub_apply, Pi.neg_apply, smul_eq_mul]
    ring
  have hf1 : fin.1 = (hhtRHS p false true M Km C sint none none q.sol.v q.sol.a (some (q.pV, q.pA))) + (1:K) • fin.2 +
      (3/2 - p.gamma) • f + (p.gamma - 3/2) • fp := rfl
  refine ⟨hF, (C29_hht p.beta p.gamma h hbeta hh s l []).1, ?_⟩
  have hr : hhtRHS p false true M Km C sint none none q.sol.v q.sol.a (some (q.pV, q.pA)) =
      M *ᵥ (q.pA - q.sol.a) + (3/2 - p.gamma) • (mat C *ᵥ q.pV + a1 • (M *ᵥ q.pV) + a2 • (mat Km *ᵥ q.pV)) := by
    unfold hhtRHS
    dsimp only
    rw [hhtDamp_eq _ _ _ _ _ _ _ _ (by rw [x1]; exact h1) (by rw [x2]; exact h2) (by intro g hg; cases hg), hm, x1, x2]
    rfl
  rw [hf1, hr, hhtNewton_mulVec, hF, hm, x1, x2] at hsolve
  rw [hF]
  unfold HHTEquation
  unfold netForce at hsolve ⊢
  have eu : s'.u = s.sol.u + l := by
    show s.sol.u + (1:K) • l = _
    rw [one_smul]
  have ev : s'.v = (s.sol.v - q.pV) + (p.gamma / (p.beta * h)) • l := by
    show (s.sol.v + (-1:K) • q.pV) + (p.gamma / (p.beta * h)) • (0 + (1:K) • l) = _
    rw [zero_add, one_smul]; funext i; simp; ring
  have ea : s'.a = (s.sol.a - q.pA) + (1 / (p.beta * h * h)) • l := by
    show (s.sol.a + (-1:K) • q.pA) + (1 / (p.beta * h * h)) • (0 + (1:K) • l) = _
    rw [zero_add, one_smul]; funext i; simp; ring
  rw [eu, ev, ea]
  have eq1 : q.sol.a = s.sol.a := rfl
  rw [eq1] at hsolve
  funext i
  have hi := congrFun hsolve i
  simp only [mulVec_add, mulVec_sub, mulVec_smul, Pi.add_apply, Pi.smul_apply, Pi.sub_apply, smul_eq_mul] at hi ⊢
  rw [hg] at hi ⊢
  generalize p.beta = B at *
  linear_combination hi

/-- **C30** (a whole step of the nonlinear Newmark solver). Predictor, assembly, one Newton solution and correction yield a state that
satisfies the Newmark difference formulas and the Hilber-Hughes-Taylor equation with the stored inertia force `F0`;
the loads `f1` may be part of the first, `f2` given as a separate element vector. -/
theorem C30_nonlinear_step (alpha a1 a2 h : K) (M : Matrix ι ι K) (Km Kg C : Option (Matrix ι ι K)) (f1 F0 : ι → K) (f2 : Option (ι → K))
    (s : NlSol K ι) (l : ι → K) (hal : alpha ≠ 1) (hh : h ≠ 0) (h1 : 0 ≤ a1) (h2 : 0 ≤ a2) :
    let p := NmPar.hht alpha a1 a2
    let q := nlPredict p.beta p.gamma h s
    hhtNewton p h (some M) Km Kg C *ᵥ l =
      nlFinalize p.gamma (hhtRHS p true true M Km C (f1 - (mat Km *ᵥ q.sol.u + mat Kg *ᵥ q.sol.u)) f2 none q.sol.v q.sol.a none) F0 →
    let s' := (nlCorrect p.beta p.gamma h l q).sol
    NewmarkRel p.beta p.gamma h s.sol s' ∧
    HHTEquation alpha M (netForce M (mat C) (mat Km) (mat Kg) a1 a2 (f1 + f2.getD 0) s'.u s'.v) F0 s'.a := by
  intro p q hsolve s'
  have hbeta : p.beta ≠ 0 := hht_beta_ne hal a1 a2
  have hg : p.gamma = 1/2 - alpha := rfl
  have x1 : p.alpha1 = a1 := rfl
  have x2 : p.alpha2 = a2 := rfl
  have hm : mat (some M) = M := rfl
  refine ⟨(C29_nonlinear p.beta p.gamma h hbeta hh s l []).1, ?_⟩
  have hr : hhtRHS p true true M Km C (f1 - (mat Km *ᵥ q.sol.u + mat Kg *ᵥ q.sol.u)) f2 none q.sol.v q.sol.a none =
      (3/2 - p.gamma) • (f1 - (mat Km *ᵥ q.sol.u + mat Kg *ᵥ q.sol.u)) + (M *ᵥ q.sol.a) + (3/2 - p.gamma) • f2.getD 0 +
      (3/2 - p.gamma) • (mat C *ᵥ q.sol.v + a1 • (M *ᵥ q.sol.v) + a2 • (mat Km *ᵥ q.sol.v)) := by
    unfold hhtRHS
    dsimp only
    rw [hhtDamp_eq _ _ _ _ _ _ _ _ (by rw [x1]; exact h1) (by rw [x2]; exact h2) (by intro g hg; cases hg), hm, x1, x2]
    cases f2 <;> simp [hhtBase]
  rw [hr, hhtNewton_mulVec, hm, x1, x2] at hsolve
  unfold nlFinalize at hsolve
  unfold HHTEquation
  unfold netForce
  have eu : s'.u = s.sol.u + l := by
    show s.sol.u + (1:K) • l = _
    rw [one_smul]
  have ev : s'.v = (-1:K) • q.sol.v + (p.gamma / (p.beta * h)) • l := by
    show (-1:K) • q.sol.v + (p.gamma / (p.beta * h)) • (0 + (1:K) • l) = _
    rw [zero_add, one_smul]
  have ea : s'.a = (-1:K) • q.sol.a + (1 / (p.beta * h * h)) • l := by
    show (-1:K) • q.sol.a + (1 / (p.beta * h * h)) • (0 + (1:K) • l) = _
    rw [zero_add, one_smul]
  rw [eu, ev, ea]
  have eq1 : q.sol.u = s.sol.u := rfl
  rw [eq1] at hsolve
  funext i
  have hi := congrFun hsolve i
  simp only [mulVec_add, mulVec_sub, mulVec_smul, Pi.add_apply, Pi.smul_apply, Pi.sub_apply, smul_eq_mul] at hi ⊢
  rw [hg] at hi ⊢
  generalize p.beta = B at *
  linear_combination hi

/-- **C30 fails** (F25) for a negative mass-proportional damping coefficient, which the residual ignores but the Newton
matrix does not. -/
theorem C30_counterexample_negative_damping : ∃ (s : NmSol Rat (Fin 1)) (l : Fin 1 → Rat),
    nmNewton (NmPar.make (-1) 0 (1/4) (1/2) false) 1 (some (1 : Matrix (Fin 1) (Fin 1) Rat)) none none *ᵥ l =
      nmRHS (NmPar.make (-1) 0 (1/4) (1/2) false) (some 1) none none (0 : Fin 1 → Rat) none s.v s.a ∧
    ¬ Equilibrium (1 : Matrix (Fin 1) (Fin 1) Rat) 0 0 (-1) 0 0 (nmCorrect false (1/4) (1/2) 1 l s).u (nmCorrect false (1/4) (1/2) 1 l s).v
        (nmCorrect false (1/4) (1/2) 1 l s).a := by
  refine ⟨⟨0, fun _ => 1, 0⟩, 0, ?_, ?_⟩
  · simp [nmRHS, NmPar.make, addRayleigh, addDamp, addMV]
  · intro h
    have := congrFun h 0
    simp [nmCorrect] at this

/-- A concrete linear oscillator `a + v + 2u = 3` integrated over one step: the hypotheses of the step theorem can be met. -/
example : ∃ (p : NmSol Rat (Fin 1)) (l : Fin 1 → Rat), nmPredict 'a' |(1/4 : Rat)| (1/2) 1 ⟨0, 0, fun _ => 2⟩ = some p ∧
    nmNewton (NmPar.make 0 0 (1/4) (1/2) false) 1 (some (1 : Matrix (Fin 1) (Fin 1) Rat)) (some 2) (some 1) *ᵥ l =
      nmRHS (NmPar.make 0 0 (1/4) (1/2) false) (some 1) (some 2) (some 1) ((fun _ => 3) - mat (some 2) *ᵥ p.u) none p.v p.a ∧ l ≠ 0 := by
  refine ⟨⟨fun _ => 1/2, fun _ => 1, 0⟩, fun _ => 1/2, ?_, ?_, ?_⟩
  · unfold nmPredict
    rw [if_pos rfl]
    simp only [Option.some.injEq, NmSol.mk.injEq]
    refine ⟨?_, ?_, trivial⟩ <;> funext i <;> norm_num [abs_of_pos]
  · funext i
    simp [nmNewton, scaleMat, addMat, nmRHS, NmPar.make, addRayleigh, addDamp, addMV, mat, add_mulVec, smul_mulVec, Matrix.ofNat_mulVec]
    simp [Matrix.mulVec, dotProduct, Fin.eq_zero i, Matrix.ofNat_apply, Matrix.add_apply, Matrix.smul_apply]
    have h2 : (2 : Matrix (Fin 1) (Fin 1) Rat) 0 0 = 2 := by decide +kernel
    norm_num [h2, Matrix.add_apply, Matrix.smul_apply]
  · intro h; have := congrFun h 0; norm_num at this

end IFEM.Props
