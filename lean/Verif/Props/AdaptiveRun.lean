import Verif.Props.AdaptiveDorfel

/-!
# C70: when the mesh is refined, and the adaptive loop
-/
namespace IFEM.Adapt

variable {K : Type} [Field K] [LinearOrder K]

/-- Reasons not to refine: a limit is reached or the reference norm is zero. -/
def Stop (P : Setup K) (S : State K) (iStep : Int) (err : K) : Prop :=
  S.refNorm / 100 < P.epsZ ∨ P.maxStep < iStep ∨ P.maxDOFs < S.dofs ∨ err < P.errTol * (S.refNorm / 100) ∨ P.condLimit < 1 / S.rCond

/-- A positive return value is given only if no limit is reached. -/
theorem C70_refined [FloorRing K] (P : Setup K) (S : State K) (iStep : Int) (r : Int) (m : List Nat) (h : calcRefinement P S iStep = some (r, m)) (hr : 0 < r) :
    iStep ≤ P.maxStep ∧ S.dofs ≤ P.maxDOFs ∧ P.epsZ ≤ S.refNorm / 100 ∧ 1 / S.rCond ≤ P.condLimit ∧ (P.adaptor = 0 → S.anaSol = true) ∧ 0 < P.adNorm ∧
      (∃ g err, S.gNorm[P.adaptor]? = some g ∧ g[P.adNorm-1]? = some err ∧ P.errTol * (S.refNorm / 100) ≤ err) ∧
      (P.threshold = .trueBeta → r = S.remapped.length ∧ m = [] ∧ S.nPatches = 1) ∧
      (P.threshold ≠ .trueBeta → r = m.length ∧ (P.scheme ≠ .isotropicFunction → S.nPatches = 1 ∧ mark S.refIn P.threshold (P.beta (iStep-1)) P.symmEps = some m) ∧
        (P.scheme = .isotropicFunction → ∃ e, S.nodeErrors = some e ∧ mark e P.threshold (P.beta (iStep-1)) P.symmEps = some m)) := by
  have no : ∀ z : Int, ¬ (0 < z) → ¬ (some ((z, []) : Int × List Nat) = some (r, m)) := by
    intro z hz he
    simp only [Option.some.injEq, Prod.mk.injEq] at he
    omega
  unfold calcRefinement at h
  by_cases h1 : S.nPatches = 0
  · rw [if_pos h1] at h; exact absurd h (no 0 (by omega))
  rw [if_neg h1] at h
  by_cases h2 : P.adaptor ≥ S.gNorm.length ∨ S.refIn = []
  · rw [if_pos h2] at h; exact absurd h (no 0 (by omega))
  rw [if_neg h2] at h
  by_cases h3 : P.adaptor = 0 ∧ S.anaSol = false
  · rw [if_pos h3] at h; exact absurd h (no 0 (by omega))
  rw [if_neg h3] at h
  by_cases h4 : S.refNorm / 100 < -P.epsZ
  · rw [if_pos h4] at h; exact absurd h (no (-1) (by omega))
  rw [if_neg h4] at h
  by_cases h5 : S.refNorm / 100 < P.epsZ
  · rw [if_pos h5] at h; exact absurd h (no 0 (by omega))
  rw [if_neg h5] at h
  by_cases h6 : iStep > P.maxStep
  · rw [if_pos h6] at h; exact absurd h (no 0 (by omega))
  rw [if_neg h6] at h
  by_cases h7 : S.dofs > P.maxDOFs
  · rw [if_pos h7] at h; exact absurd h (no 0 (by omega))
  rw [if_neg h7] at h
  obtain ⟨g, hg, h⟩ := Option.bind_eq_some_iff.1 h
  obtain ⟨err, herr, h⟩ := Option.bind_eq_some_iff.1 h
  have hadn : 0 < P.adNorm ∧ g[P.adNorm-1]? = some err := by
    unfold get1 at herr
    split at herr
    · simp at herr
    · exact ⟨by omega, herr⟩
  by_cases h8 : err < P.errTol * (S.refNorm / 100)
  · rw [if_pos h8] at h; exact absurd h (no 0 (by omega))
  rw [if_neg h8] at h
  by_cases h9 : 1 / S.rCond > P.condLimit
  · rw [if_pos h9] at h; exact absurd h (no 0 (by omega))
  rw [if_neg h9] at h
  refine ⟨by omega, by omega, not_lt.1 h5, not_lt.1 h9, fun h0 => ?_, hadn.1, ⟨g, err, hg, hadn.2, not_lt.1 h8⟩, ?_⟩
  · rcases hA : S.anaSol with _ | _
    · exact absurd ⟨h0, hA⟩ h3
    · rfl
  · by_cases ht : P.threshold = .trueBeta
    · rw [if_pos ht] at h
      refine ⟨fun _ => ?_, fun hn => absurd ht hn⟩
      split at h
      · exact absurd h (no (-2) (by omega))
      · replace h := Option.some.inj h
        simp only [Prod.mk.injEq] at h
        exact ⟨h.1.symm, h.2.symm, by omega⟩
    · rw [if_neg ht] at h
      refine ⟨fun hn => absurd hn ht, fun _ => ?_⟩
      by_cases hs : P.scheme = .isotropicFunction
      · rw [if_pos hs] at h
        obtain ⟨e, he, h⟩ := Option.bind_eq_some_iff.1 h
        obtain ⟨m', hm', h⟩ := Option.bind_eq_some_iff.1 h
        replace h := Option.some.inj h
        simp only [Prod.mk.injEq] at h
        obtain ⟨ha, rfl⟩ := h
        exact ⟨ha.symm, fun hn => absurd hs hn, fun _ => ⟨e, he, hm'⟩⟩
      · rw [if_neg hs] at h
        split at h
        · exact absurd h (no (-4) (by omega))
        · obtain ⟨m', hm', h⟩ := Option.bind_eq_some_iff.1 h
          replace h := Option.some.inj h
          simp only [Prod.mk.injEq] at h
          obtain ⟨ha, rfl⟩ := h
          exact ⟨ha.symm, fun _ => ⟨by omega, hm'⟩, fun hn => absurd hn hs⟩

/-- In a model with one patch, with errors for its elements and a non-negative reference norm: refinement stops exactly if a limit is reached, and otherwise the marked elements are refined. -/
theorem C70_decision [FloorRing K] (P : Setup K) (S : State K) (iStep : Int) (g : List K) (err : K) (m : List Nat) (hp : S.nPatches = 1) (hr : S.refIn ≠ [])
    (ha : P.adaptor = 0 → S.anaSol = true) (hg : S.gNorm[P.adaptor]? = some g) (hn : 0 < P.adNorm) (he : g[P.adNorm-1]? = some err) (hnn : -P.epsZ ≤ S.refNorm / 100)
    (ht : P.threshold ≠ .trueBeta) (hs : P.scheme ≠ .isotropicFunction) (hm : mark S.refIn P.threshold (P.beta (iStep-1)) P.symmEps = some m) :
    (Stop P S iStep err → calcRefinement P S iStep = some (0, [])) ∧ (¬ Stop P S iStep err → calcRefinement P S iStep = some ((m.length : Int), m) ∧ 0 < m.length) := by
  have hlt : P.adaptor < S.gNorm.length := (List.getElem?_eq_some_iff.1 hg).1
  have e1 : ¬ S.nPatches = 0 := by omega
  have e2 : ¬ (P.adaptor ≥ S.gNorm.length ∨ S.refIn = []) := by
    rintro (h | h)
    · omega
    · exact hr h
  have e3 : ¬ (P.adaptor = 0 ∧ S.anaSol = false) := fun h => by rw [ha h.1] at h; exact absurd h.2 (by simp)
  have e4 : ¬ (S.refNorm / 100 < -P.epsZ) := not_lt.2 hnn
  have e5 : ¬ P.adNorm = 0 := by omega
  have e6 : ¬ S.nPatches > 1 := by omega
  have key : calcRefinement P S iStep = if S.refNorm / 100 < P.epsZ then some (0, []) else if iStep > P.maxStep then some (0, []) else if S.dofs > P.maxDOFs then some (0, []) else
      if err < P.errTol * (S.refNorm / 100) then some (0, []) else if 1 / S.rCond > P.condLimit then some (0, []) else some ((m.length : Int), m) := by
    unfold calcRefinement
    simp only [Option.bind_eq_bind, Option.pure_def]
    rw [if_neg e1, if_neg e2, if_neg e3, if_neg e4, hg, Option.bind_some, show get1 g P.adNorm = some err by rw [get1, if_neg e5, he], Option.bind_some, if_neg ht, if_neg hs, if_neg e6, hm, Option.bind_some]
  refine ⟨fun h => ?_, fun h => ⟨?_, ?_⟩⟩
  · rw [key]
    split
    · rfl
    next h1 =>
    split
    · rfl
    next h2 =>
    split
    · rfl
    next h3 =>
    split
    · rfl
    next h4 =>
    split
    · rfl
    next h5 => exact absurd h (by unfold Stop; simp only [gt_iff_lt] at h2 h3 h5; tauto)
  · unfold Stop at h
    simp only [not_or] at h
    rw [key, if_neg h.1, if_neg h.2.1, if_neg h.2.2.1, if_neg h.2.2.2.1, if_neg h.2.2.2.2]
  · exact List.length_pos_iff.2 (C70_largest _ _ _ _ _ hm).2

/-- The reference norm: the norm of the analytical solution, or the one of the solution and the estimated error together; zero without any norms. -/
theorem C70_reference (f : List ℝ) (gs : List (List ℝ)) :
    (∀ k, referenceNorm [] k = 0 ∧ referenceNorm ([] :: gs) k = 0) ∧
    (∀ a b c l, f = a :: b :: c :: l → referenceNorm (f :: gs) 0 = c) ∧
    (∀ a l k x y r, f = a :: l → 0 < k → (f :: gs)[k]? = some (x :: y :: r) → 0 ≤ referenceNorm (f :: gs) k ∧ (referenceNorm (f :: gs) k)^2 = a^2 + y^2) := by
  refine ⟨fun k => ⟨rfl, rfl⟩, ?_, ?_⟩
  · rintro a b c l rfl
    simp [referenceNorm]
  · rintro a l k x y r rfl hk h
    have : referenceNorm ((a :: l) :: gs) k = Real.sqrt (a^2 + y^2) := by
      unfold referenceNorm
      simp only [h]
      rw [if_neg (by omega)]
    rw [this]
    exact ⟨Real.sqrt_nonneg _, Real.sq_sqrt (by positivity)⟩

theorem solveLoop_spec (c : Int → Cycle) (N : Nat) (hN : 1 ≤ N) (hc : ∀ i : Int, (N : Int) < i → (c i).code ≤ 0) : ∀ (fuel k : Nat), k ≤ N → N + 1 ≤ fuel + k →
    ∃ r n, solveLoop c fuel ((k : Int) + 1) ((List.range k).map fun i => (i : Int) + 1) = some (r, (List.range n).map fun i => (i : Int) + 1) ∧ n ≤ N ∧
      (r = 0 ∨ r = 1 ∨ r = 2) ∧ (r = 0 → ∃ s : Int, s = (n : Int) + 1 ∧ adaptMesh c s = false) := by
  intro fuel
  induction fuel with
  | zero => intro k h1 h2; omega
  | succ fuel ih =>
    intro k hk hf
    rw [solveLoop]
    have hsn : (List.range k).map (fun i => (i : Int) + 1) ++ [(k : Int) + 1] = (List.range (k+1)).map fun i => (i : Int) + 1 := by rw [List.range_succ]; simp
    by_cases ha : adaptMesh c ((k : Int) + 1) = true
    · have hk' : k < N := by
        rcases Nat.lt_or_ge k N with h | h
        · exact h
        · exfalso
          have : k = N := by omega
          subst this
          unfold adaptMesh at ha
          rw [if_neg (by omega), if_pos (hc _ (by omega))] at ha
          exact absurd ha (by simp)
      rw [if_pos ha]
      split
      · exact ⟨1, k, rfl, hk, by simp, fun h => absurd h (by simp)⟩
      · split
        · rw [hsn]
          exact ⟨2, k+1, rfl, by omega, by simp, fun h => absurd h (by simp)⟩
        · rw [hsn]
          have := ih (k+1) (by omega) (by omega)
          rw [show ((k+1 : Nat) : Int) + 1 = (k : Int) + 1 + 1 by omega] at this
          exact this
    · rw [if_neg ha]
      exact ⟨0, k, rfl, hk, by simp, fun _ => ⟨_, rfl, by simpa using ha⟩⟩

/-- The adaptive loop ends after at most `maxStep` (but at least one) solutions, whatever the refinements and solutions do; the steps are solved in sequence from the first. -/
theorem C70_loop (c : Int → Cycle) (N : Nat) (hN : 1 ≤ N) (hc : ∀ i : Int, (N : Int) < i → (c i).code ≤ 0) :
    ∃ r n, solveLoop c (N+1) 1 [] = some (r, (List.range n).map fun i => (i : Int) + 1) ∧ n ≤ N ∧ (r = 0 ∨ r = 1 ∨ r = 2) ∧ (r = 0 → ∃ s : Int, s = (n : Int) + 1 ∧ adaptMesh c s = false) := by
  simpa using solveLoop_spec c N hN hc (N+1) 0 (by omega) (by omega)

/-- The assumption of the previous theorem holds for the code of `calcRefinement` if `maxStep` is at most the bound. -/
theorem C70_loop_bound [FloorRing K] (P : Setup K) (S : State K) (i : Int) (r : Int) (m : List Nat) (N : Nat) (hN : P.maxStep ≤ N) (hi : (N : Int) < i) (h : calcRefinement P S i = some (r, m)) : r ≤ 0 := by
  by_contra hr
  have := (C70_refined P S i r m h (by omega)).1
  omega

/-- An error code of `calcRefinement` (or a failure of the refinement) ends the loop with the return value 0, the one for success. -/
theorem C70_failure_not_reported (c : Int → Cycle) (h1 : (c 1).solve = true) (h2 : (c 1).output = true) (h3 : (c 2).code < 0 ∨ (0 < (c 2).code ∧ (c 2).refine = false)) (n : Nat) :
    solveLoop c (n+2) 1 [] = some (0, [1]) := by
  have ha : adaptMesh c 2 = false := by
    unfold adaptMesh
    rw [if_neg (by omega)]
    rcases h3 with h | h
    · rw [if_pos (by omega)]
    · rw [if_neg (by omega)]; exact h.2
  rw [solveLoop, show adaptMesh c 1 = true by unfold adaptMesh; rw [if_pos (by omega)], if_pos rfl, h1, h2]
  simp only [Bool.true_eq_false, if_false, List.nil_append]
  rw [solveLoop, show (1 : Int) + 1 = 2 by rfl, ha]
  rfl

theorem addPatch_spec (p : List Nat × List K) (hp : p.1.length = p.2.length) (e : List K) (hv : ∀ g ∈ p.1, g < e.length) :
    ∃ e', addPatch e p = some e' ∧ e'.length = e.length ∧ ∀ g, g < e.length → e'.getD g 0 = e.getD g 0 + (((p.1.zip p.2).filter fun q => q.1 = g).map Prod.snd).sum := by
  have key : ∀ k, k ≤ p.2.length → ∃ e', (List.range k).foldlM (addFunction p) e = some e' ∧ e'.length = e.length ∧
      ∀ g, g < e.length → e'.getD g 0 = e.getD g 0 + ((((p.1.zip p.2).take k).filter fun q => q.1 = g).map Prod.snd).sum := by
    intro k
    induction k with
    | zero => intro _; exact ⟨e, rfl, rfl, fun g _ => by simp⟩
    | succ k ih =>
      intro hk
      obtain ⟨e', h1, h2, h3⟩ := ih (by omega)
      have hk2 : k < p.2.length := by omega
      have hk1 : k < p.1.length := by omega
      have hg := hv _ (List.getElem_mem hk1)
      have hge : p.1[k] < e'.length := by omega
      refine ⟨e'.set p.1[k] (e'[p.1[k]] + p.2[k]), ?_, by simpa using h2, ?_⟩
      · rw [List.range_succ, List.foldlM_append, h1]
        simp [addFunction, List.getElem?_eq_getElem hk2, List.getElem?_eq_getElem hk1, List.getElem?_eq_getElem hge]
      · intro g hgl
        have hz : k < (p.1.zip p.2).length := by simp; omega
        rw [List.take_succ_eq_append_getElem hz, List.filter_append, List.map_append, List.sum_append]
        have h3g := h3 g hgl
        by_cases he : p.1[k] = g
        · subst he
          rw [List.getD_eq_getElem _ _ (by simpa using hge), List.getElem_set_self]
          rw [List.getD_eq_getElem _ _ hge] at h3g
          rw [h3g]
          simp [add_assoc]
        · simp only [List.getD_eq_getElem?_getD, List.getElem?_set_ne he] at h3g ⊢
          rw [h3g]
          simp [he]
  obtain ⟨e', h1, h2, h3⟩ := key p.2.length (le_refl _)
  refine ⟨e', h1, h2, fun g hg => ?_⟩
  rw [h3 g hg, List.take_of_length_le (by simp [hp])]

/-- The error of a basis function of a model with several patches is the sum over the patches (and their functions) it is part of. -/
theorem C70_functions (n : Nat) (patches : List (List Nat × List K)) (hp : ∀ p ∈ patches, p.1.length = p.2.length ∧ ∀ g ∈ p.1, g < n) :
    ∃ e, functionErrors n patches = some e ∧ e.length = n ∧ ∀ g, g < n → Spec.err e g = Spec.total patches g := by
  have key : ∀ (ps : List (List Nat × List K)) (e : List K), e.length = n → (∀ p ∈ ps, p.1.length = p.2.length ∧ ∀ g ∈ p.1, g < n) →
      ∃ e', ps.foldlM addPatch e = some e' ∧ e'.length = n ∧ ∀ g, g < n → e'.getD g 0 = e.getD g 0 + Spec.total ps g := by
    intro ps
    induction ps with
    | nil => intro e he _; exact ⟨e, rfl, he, fun g _ => by simp [Spec.total]⟩
    | cons p ps ih =>
      intro e he hv
      obtain ⟨e1, h1, h2, h3⟩ := addPatch_spec p (hv p (by simp)).1 e (by rw [he]; exact (hv p (by simp)).2)
      obtain ⟨e2, k1, k2, k3⟩ := ih e1 (h2.trans he) (fun q hq => hv q (by simp [hq]))
      refine ⟨e2, ?_, k2, fun g hg => ?_⟩
      · rw [List.foldlM_cons, h1]; exact k1
      · rw [k3 g hg, h3 g (by omega)]
        simp [Spec.total, add_assoc]
  obtain ⟨e, h1, h2, h3⟩ := key patches (List.replicate n 0) (by simp) hp
  refine ⟨e, h1, h2, fun g hg => ?_⟩
  rw [Spec.err, h3 g hg]
  have : (List.replicate n (0 : K)).getD g 0 = 0 := by rw [List.getD_eq_getElem _ _ (by simpa using hg)]; simp
  rw [this, zero_add]

/-- The reported smallest, largest and average errors. -/
theorem C70_extremes (e : List K) (he : e ≠ []) : ∃ a b, extremes e = some (a, b, e.sum / e.length) ∧ IsLeast {y | y ∈ e} a ∧ IsGreatest {y | y ∈ e} b := by
  obtain ⟨x, l, rfl⟩ := List.exists_cons_of_ne_nil he
  have key : ∀ (l : List K) (s : K × K × K), s.1 ≤ s.2.1 → (l.foldl extremeStep s).2.2 = s.2.2 + l.sum ∧
      IsLeast {y | y = s.1 ∨ y ∈ l} (l.foldl extremeStep s).1 ∧ IsGreatest {y | y = s.2.1 ∨ y ∈ l} (l.foldl extremeStep s).2.1 := by
    intro l
    induction l with
    | nil => intro s _; simp [IsLeast, IsGreatest, lowerBounds, upperBounds]
    | cons y l ih =>
      intro s hs
      rw [List.foldl_cons]
      have h1 : (extremeStep s y).1 = min s.1 y ∧ (extremeStep s y).2.1 = max s.2.1 y ∧ (extremeStep s y).2.2 = s.2.2 + y := by
        unfold extremeStep
        split
        · next h => exact ⟨(min_eq_right (le_of_lt h)).symm, (max_eq_left (le_trans (le_of_lt h) hs)).symm, rfl⟩
        · next h =>
          split
          · next h' => exact ⟨(min_eq_left (not_lt.1 h)).symm, (max_eq_right (le_of_lt h')).symm, rfl⟩
          · next h' => exact ⟨(min_eq_left (not_lt.1 h)).symm, (max_eq_left (not_lt.1 h')).symm, rfl⟩
      obtain ⟨i1, i2, i3⟩ := ih (extremeStep s y) (by rw [h1.1, h1.2.1]; exact le_trans (min_le_left _ _) (le_trans hs (le_max_left _ _)))
      rw [h1.1] at i2
      rw [h1.2.1] at i3
      refine ⟨by rw [i1, h1.2.2, List.sum_cons, add_assoc], ⟨?_, ?_⟩, ⟨?_, ?_⟩⟩
      · rcases i2.1 with h | h
        · rw [Set.mem_setOf_eq, h]
          rcases min_choice s.1 y with h' | h' <;> simp [h']
        · simp [h]
      · rintro z hz
        rcases hz with rfl | hz
        · exact le_trans (i2.2 (Or.inl rfl)) (min_le_left _ _)
        · rcases List.mem_cons.1 hz with rfl | hz
          · exact le_trans (i2.2 (Or.inl rfl)) (min_le_right _ _)
          · exact i2.2 (Or.inr hz)
      · rcases i3.1 with h | h
        · rw [Set.mem_setOf_eq, h]
          rcases max_choice s.2.1 y with h' | h' <;> simp [h']
        · simp [h]
      · rintro z hz
        rcases hz with rfl | hz
        · exact le_trans (le_max_left _ _) (i3.2 (Or.inl rfl))
        · rcases List.mem_cons.1 hz with rfl | hz
          · exact le_trans (le_max_right _ _) (i3.2 (Or.inl rfl))
          · exact i3.2 (Or.inr hz)
  obtain ⟨k1, k2, k3⟩ := key l (x, x, x) (le_refl _)
  refine ⟨_, _, by rw [extremes]; simp only [k1]; rw [List.sum_cons], ?_, ?_⟩
  · simpa [List.mem_cons] using k2
  · simpa [List.mem_cons] using k3

/-- With one element (or function) and the limit at the largest error, nothing is selected, and the last selected error is read before the start of the array; likewise for 0 percent. -/
theorem C70_first_element (x : ℚ) (eps : ℚ) : mark [x] .maximum 100 eps = none ∧ mark [x] .dorfel 100 eps = none ∧ mark [x] .none 0 eps = none := by
  have hs : sorted [x] = [(x, 0)] := by
    have := (sorted_perm [x])
    simpa using this
  have hb : upperBound [(x, 0)] x = 0 := by simp [upperBound, pairGe]
  refine ⟨?_, ?_, ?_⟩
  · simp only [mark, hs, refineSize, errorLimit]
    norm_num
    simp [hb]
  · simp only [mark, hs, refineSize, errorLimit, dorfelLoop]
    have : (if (0:ℚ) < List.sum (List.map Prod.fst [(x, 0)]) * (100/100) then x else x) = x := by split <;> rfl
    simp [hb]
  · simp [mark, hs, refineSize]

/-- Five elements, two of them with nearly the same error. -/
example : mark [1/10, 4, 3, 2999999999/1000000000, 2] .none 40 (1/10^6 : ℚ) = some [1, 2] ∧ mark [1/10, 4, 3, 2999999999/1000000000, 2] .symmetrized 40 (1/10^6 : ℚ) = some [1, 2, 3] ∧
    mark [1/10, 4, 3, 2999999999/1000000000, 2] .maximum 50 (1/10^6 : ℚ) = some [1, 2, 3, 4] ∧ mark [1/10, 4, 3, 2999999999/1000000000, 2] .dorfel 50 (1/10^6 : ℚ) = some [1, 2, 3] := by
  decide +kernel

/-- Refinement of 100 percent of the total error leaves out element 0 if it has the smallest error. -/
theorem C70_dorfel_counterexample : mark [1, 4, 2] .dorfel 100 (1/10^6 : ℚ) = some [1, 2] ∧ mark [4, 1, 2] .dorfel 100 (1/10^6 : ℚ) = some [0, 2, 1] := by decide +kernel

/-- A setup with a limit of ten steps and a tolerance of 5 percent. -/
def exampleSetup : Setup ℚ := ⟨1, 2, fun _ => 40, 5, 10^12, 10, 1000, .fullspan, .none, 1/10^6, 1/10^12⟩

/-- A model with one patch of four elements and two groups of norms. -/
def exampleState : State ℚ := ⟨1, false, 50, [[10, 10], [9, 1]], 10, 1/100, [1/2, 3, 1/4, 2], none, []⟩

example : calcRefinement exampleSetup exampleState 2 = some (2, [1, 3]) ∧ calcRefinement exampleSetup exampleState 11 = some (0, []) ∧
    calcRefinement exampleSetup { exampleState with refNorm := 50 } 2 = some (0, []) ∧ calcRefinement exampleSetup { exampleState with nPatches := 2 } 2 = some (-4, []) ∧
    calcRefinement { exampleSetup with threshold := .trueBeta } { exampleState with nPatches := 2 } 2 = some (-2, []) ∧ calcRefinement exampleSetup { exampleState with refNorm := -1 } 2 = some (-1, []) := by
  decide +kernel

end IFEM.Adapt
