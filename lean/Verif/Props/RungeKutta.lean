import Verif.Spec.RungeKutta
import Verif.Lemmas.RungeKutta
import Mathlib.Analysis.Analytic.Constructions
import Mathlib.Algebra.BigOperators.Fin
import Mathlib.Data.List.GetD
import Mathlib.Tactic.IntervalCases
import Mathlib.Analysis.Calculus.Deriv.Shift
/-!
# C58: explicit Runge-Kutta methods
-/
namespace IFEM.Props
open IFEM.Spec IFEM.Lemmas.RK

section
variable {K E L : Type} [Field K] [AddCommGroup E] [Module K E]

theorem addStages_eq (dt : K) (w : Nat → K) (ks : List E) (n : Nat) (u : E) :
    addStages dt w ks n u = u + dt • ∑ j ∈ Finset.range n, w j • ks.getD j 0 := by
  unfold addStages
  induction n with
  | zero => simp
  | succ n ih =>
    rw [List.range_succ, List.foldl_append, ih, Finset.sum_range_succ]
    simp only [List.foldl_cons, List.foldl_nil]
    module

theorem addStages_append (dt : K) (w : Nat → K) (ks l : List E) (n : Nat) (u : E) (h : n ≤ ks.length) :
    addStages dt w (ks ++ l) n u = addStages dt w ks n u := by
  rw [addStages_eq, addStages_eq]
  congr 2
  refine Finset.sum_congr rfl fun j hj => ?_
  rw [List.getD_append _ _ _ _ (by have := Finset.mem_range.mp hj; omega)]

theorem stages_run (sim : RKSim K E L) (B F : K → E → E) (T : Tableau K) (linear : Bool) (tp : TimeStep K) (M : Option L) (u : E)
    (h : Integrates sim B F linear tp.step M) (n : Nat) :
    ∃ M' ks, (List.range n).foldlM (rkStage sim T linear tp u) (M, []) = some (M', ks) ∧
      IsStages B F T.a (fun i => T.c.getD i 0) n (tp.t - tp.dt) tp.dt u ks ∧
      (linear = true → 0 < n → ∀ M0, (∀ t u, sim.mass t u = some M0) → M' = some M0) ∧ (n = 0 → M' = M) := by
  induction n with
  | zero => exact ⟨M, [], rfl, ⟨rfl, fun i hi => absurd hi (Nat.not_lt_zero i)⟩, fun _ h => absurd h (Nat.lt_irrefl 0), fun _ => rfl⟩
  | succ n ih =>
    obtain ⟨M', ks, hr, ⟨hl, hs⟩, hM, hz⟩ := ih
    have htime : tp.t + tp.dt * (T.c.getD n 0 - 1) = tp.t - tp.dt + T.c.getD n 0 * tp.dt := by ring
    have hex : ∃ M1, (if linear = false ∨ (tp.step = 1 ∧ n = 0) then
          sim.mass (tp.t - tp.dt + T.c.getD n 0 * tp.dt) (B (tp.t - tp.dt + T.c.getD n 0 * tp.dt) (addStages tp.dt (T.a n) ks n u)) else M') = some M1 ∧
        sim.rate M1 (tp.t - tp.dt + T.c.getD n 0 * tp.dt) (B (tp.t - tp.dt + T.c.getD n 0 * tp.dt) (addStages tp.dt (T.a n) ks n u))
          = some (F (tp.t - tp.dt + T.c.getD n 0 * tp.dt) (B (tp.t - tp.dt + T.c.getD n 0 * tp.dt) (addStages tp.dt (T.a n) ks n u))) ∧
        (linear = true → ∀ M0, (∀ t u, sim.mass t u = some M0) → M1 = M0) := by
      obtain ⟨M1, h1, h2⟩ := h.rate (tp.t - tp.dt + T.c.getD n 0 * tp.dt) (B (tp.t - tp.dt + T.c.getD n 0 * tp.dt) (addStages tp.dt (T.a n) ks n u))
      refine ⟨M1, ?_, h2, fun _ M0 hM0 => ?_⟩
      · split
        · exact h1
        · rename_i hc
          have hlin : linear = true := by cases hb : linear <;> simp_all
          obtain ⟨M0, hM0, hst⟩ := h.reuse hlin
          have : M1 = M0 := by have := hM0 (tp.t - tp.dt + T.c.getD n 0 * tp.dt) (B (tp.t - tp.dt + T.c.getD n 0 * tp.dt) (addStages tp.dt (T.a n) ks n u)); rw [h1] at this; exact Option.some.inj this
          rw [this]
          by_cases hn : n = 0
          · rw [hz hn]
            rcases hst with hst | hst
            · exact absurd (Or.inr ⟨hst, hn⟩) hc
            · exact hst
          · exact hM hlin (by omega) M0 hM0
      · have := hM0 (tp.t - tp.dt + T.c.getD n 0 * tp.dt) (B (tp.t - tp.dt + T.c.getD n 0 * tp.dt) (addStages tp.dt (T.a n) ks n u)); rw [h1] at this; exact Option.some.inj this
    obtain ⟨M1, e1, e2, e3⟩ := hex
    refine ⟨some M1, ks ++ [F (tp.t - tp.dt + T.c.getD n 0 * tp.dt) (B (tp.t - tp.dt + T.c.getD n 0 * tp.dt) (addStages tp.dt (T.a n) ks n u))], ?_, ⟨?_, ?_⟩, ?_, ?_⟩
    · rw [List.range_succ, List.foldlM_append, hr]
      simp only [List.foldlM_cons, List.foldlM_nil, Option.bind_eq_bind, Option.bind_some, Option.pure_def]
      unfold rkStage
      simp only [htime, h.bc, Option.bind_some, e1, e2]
    · simp [hl]
    · intro i hi
      by_cases hin : i < n
      · rw [List.getD_append _ _ _ _ (by omega), hs i hin]
        congr 4
        refine Finset.sum_congr rfl fun j hj => ?_
        rw [List.getD_append _ _ _ _ (by have := Finset.mem_range.mp hj; omega)]
      · have : i = n := by omega
        subst this
        rw [List.getD_append_right _ _ _ _ (by omega), hl, Nat.sub_self, addStages_eq]
        simp only [List.getD_cons_zero]
        congr 4
        refine Finset.sum_congr rfl fun j hj => ?_
        rw [List.getD_append _ _ _ _ (by have := Finset.mem_range.mp hj; omega)]
    · intro hl _ M0 hM0
      rw [e3 hl M0 hM0]
    · intro h; omega

/-- **C58** (the step). Every step succeeds; it evaluates the stages of the tableau starting from the end of the previous step, imposes the boundary
values of the stage times on the stages, adds the weighted stages to the solution, and imposes the boundary values of the new time. -/
theorem C58_step (sim : RKSim K E L) (B F : K → E → E) (T : Tableau K) (linear : Bool) (tp : TimeStep K) (M : Option L) (u : E)
    (h : Integrates sim B F linear tp.step M) :
    ∃ M' ks, solveRK sim T linear tp M u = some (M', B tp.t (u + tp.dt • ∑ i ∈ Finset.range T.b.length, T.b.getD i 0 • ks.getD i 0), ks) ∧
      IsStages B F T.a (fun i => T.c.getD i 0) T.b.length (tp.t - tp.dt) tp.dt u ks ∧
      (linear = true → T.b ≠ [] → ∀ step, Integrates sim B F linear step M') := by
  obtain ⟨M', ks, hr, hs, hM, _⟩ := stages_run sim B F T linear tp M u h T.b.length
  refine ⟨M', ks, ?_, hs, fun hl hb step => ⟨h.bc, h.rate, fun _ => ?_⟩⟩
  · unfold solveRK
    rw [hr]
    simp only [Option.bind_some, h.bc, addStages_eq]
  · obtain ⟨M0, hM0, _⟩ := h.reuse hl
    exact ⟨M0, hM0, Or.inr (hM hl (List.length_pos_of_ne_nil hb) M0 hM0)⟩

/-- **C58** (counterexample). With a reused coefficient matrix, a computation that does not start with step number 1 (a restart) never assembles the
matrix: the first step fails, whatever the simulator. -/
theorem C58_counterexample_restart (sim : RKSim K E L) (T : Tableau K) (tp : TimeStep K) (u : E) (hs : tp.step ≠ 1) (hb : T.b ≠ []) :
    solveRK sim T true tp none u = none := by
  have : ∃ n, T.b.length = n + 1 := ⟨T.b.length - 1, by have := List.length_pos_of_ne_nil hb; omega⟩
  obtain ⟨n, hn⟩ := this
  unfold solveRK
  have : (List.range T.b.length).foldlM (rkStage sim T true tp u) (none, []) = none := by
    rw [hn, List.range_succ_eq_map, List.foldlM_cons]
    have : rkStage sim T true tp u (none, []) 0 = none := by
      unfold rkStage
      simp only [hs, Bool.true_eq_false, false_and, or_self, if_false, Option.bind_none, Option.bind_fun_none]
    rw [this]; rfl
  rw [this]; rfl

end

/-! ### Taylor expansion of analytic vector fields -/
section
variable {X : Type} [NormedAddCommGroup X] [NormedSpace ℝ X]

private theorem upd10 (a x : X) : Function.update ![a] 0 x = ![x] := by
  funext i; fin_cases i <;> rfl
private theorem upd20 (a b x : X) : Function.update ![a, b] 0 x = ![x, b] := by
  funext i; fin_cases i <;> rfl
private theorem upd21 (a b x : X) : Function.update ![a, b] 1 x = ![a, x] := by
  funext i; fin_cases i <;> rfl
private theorem upd30 (a b c x : X) : Function.update ![a, b, c] 0 x = ![x, b, c] := by
  funext i; fin_cases i <;> rfl
private theorem upd31 (a b c x : X) : Function.update ![a, b, c] 1 x = ![a, x, c] := by
  funext i; fin_cases i <;> rfl
private theorem upd32 (a b c x : X) : Function.update ![a, b, c] 2 x = ![a, b, x] := by
  funext i; fin_cases i <;> rfl
private theorem upd40 (a b c d x : X) : Function.update ![a, b, c, d] 0 x = ![x, b, c, d] := by
  funext i; fin_cases i <;> rfl
private theorem upd41 (a b c d x : X) : Function.update ![a, b, c, d] 1 x = ![a, x, c, d] := by
  funext i; fin_cases i <;> rfl
private theorem upd42 (a b c d x : X) : Function.update ![a, b, c, d] 2 x = ![a, b, x, d] := by
  funext i; fin_cases i <;> rfl
private theorem upd43 (a b c d x : X) : Function.update ![a, b, c, d] 3 x = ![a, b, c, x] := by
  funext i; fin_cases i <;> rfl

theorem lin1_of (q : ContinuousMultilinearMap ℝ (fun _ : Fin 1 => X) X) : Lin1 fun a => q ![a] where
  add a b := by
    have := q.map_update_add ![a] 0 a b
    simpa only [upd10, upd20, upd21, upd30, upd31, upd32, upd40, upd41, upd42, upd43] using this
  smul c a := by
    have := q.map_update_smul ![a] 0 c a
    simpa only [upd10, upd20, upd21, upd30, upd31, upd32, upd40, upd41, upd42, upd43] using this
  bound := ⟨‖q‖, fun a => by simpa using q.le_opNorm ![a]⟩

theorem lin2_of (q : ContinuousMultilinearMap ℝ (fun _ : Fin 2 => X) X) : Lin2 fun a b => q ![a, b] where
  add1 a b c := by have := q.map_update_add ![a, c] 0 a b; simpa only [upd10, upd20, upd21, upd30, upd31, upd32, upd40, upd41, upd42, upd43] using this
  add2 a b c := by have := q.map_update_add ![a, b] 1 b c; simpa only [upd10, upd20, upd21, upd30, upd31, upd32, upd40, upd41, upd42, upd43] using this
  smul1 c a b := by have := q.map_update_smul ![a, b] 0 c a; simpa only [upd10, upd20, upd21, upd30, upd31, upd32, upd40, upd41, upd42, upd43] using this
  smul2 c a b := by have := q.map_update_smul ![a, b] 1 c b; simpa only [upd10, upd20, upd21, upd30, upd31, upd32, upd40, upd41, upd42, upd43] using this
  bound := ⟨‖q‖, fun a b => by have := q.le_opNorm ![a, b]; rw [Fin.prod_univ_two] at this; exact this⟩

theorem lin3_of (q : ContinuousMultilinearMap ℝ (fun _ : Fin 3 => X) X) : Lin3 fun a b c => q ![a, b, c] where
  add1 a b c d := by have := q.map_update_add ![a, c, d] 0 a b; simpa only [upd10, upd20, upd21, upd30, upd31, upd32, upd40, upd41, upd42, upd43] using this
  add2 a b c d := by have := q.map_update_add ![a, b, d] 1 b c; simpa only [upd10, upd20, upd21, upd30, upd31, upd32, upd40, upd41, upd42, upd43] using this
  add3 a b c d := by have := q.map_update_add ![a, b, c] 2 c d; simpa only [upd10, upd20, upd21, upd30, upd31, upd32, upd40, upd41, upd42, upd43] using this
  smul1 s a b c := by have := q.map_update_smul ![a, b, c] 0 s a; simpa only [upd10, upd20, upd21, upd30, upd31, upd32, upd40, upd41, upd42, upd43] using this
  smul2 s a b c := by have := q.map_update_smul ![a, b, c] 1 s b; simpa only [upd10, upd20, upd21, upd30, upd31, upd32, upd40, upd41, upd42, upd43] using this
  smul3 s a b c := by have := q.map_update_smul ![a, b, c] 2 s c; simpa only [upd10, upd20, upd21, upd30, upd31, upd32, upd40, upd41, upd42, upd43] using this
  bound := ⟨‖q‖, fun a b c => by have := q.le_opNorm ![a, b, c]; rw [Fin.prod_univ_three] at this; exact this⟩

theorem lin4_of (q : ContinuousMultilinearMap ℝ (fun _ : Fin 4 => X) X) : Lin4 fun a b c d => q ![a, b, c, d] where
  add1 a a' b c d := by have := q.map_update_add ![a, b, c, d] 0 a a'; simpa only [upd10, upd20, upd21, upd30, upd31, upd32, upd40, upd41, upd42, upd43] using this
  add2 a b b' c d := by have := q.map_update_add ![a, b, c, d] 1 b b'; simpa only [upd10, upd20, upd21, upd30, upd31, upd32, upd40, upd41, upd42, upd43] using this
  add3 a b c c' d := by have := q.map_update_add ![a, b, c, d] 2 c c'; simpa only [upd10, upd20, upd21, upd30, upd31, upd32, upd40, upd41, upd42, upd43] using this
  add4 a b c d d' := by have := q.map_update_add ![a, b, c, d] 3 d d'; simpa only [upd10, upd20, upd21, upd30, upd31, upd32, upd40, upd41, upd42, upd43] using this
  smul1 s a b c d := by have := q.map_update_smul ![a, b, c, d] 0 s a; simpa only [upd10, upd20, upd21, upd30, upd31, upd32, upd40, upd41, upd42, upd43] using this
  smul2 s a b c d := by have := q.map_update_smul ![a, b, c, d] 1 s b; simpa only [upd10, upd20, upd21, upd30, upd31, upd32, upd40, upd41, upd42, upd43] using this
  smul3 s a b c d := by have := q.map_update_smul ![a, b, c, d] 2 s c; simpa only [upd10, upd20, upd21, upd30, upd31, upd32, upd40, upd41, upd42, upd43] using this
  smul4 s a b c d := by have := q.map_update_smul ![a, b, c, d] 3 s d; simpa only [upd10, upd20, upd21, upd30, upd31, upd32, upd40, upd41, upd42, upd43] using this
  bound := ⟨‖q‖, fun a b c d => by have := q.le_opNorm ![a, b, c, d]; rw [Fin.prod_univ_four] at this; exact this⟩

theorem taylor_of_analytic {f : X → X} {x0 : X} (h : AnalyticAt ℝ f x0) :
    ∃ f0 f1 f2 f3 f4, TaylorAt f x0 f0 f1 f2 f3 f4 := by
  obtain ⟨p, hp⟩ := h
  refine ⟨p 0 ![], fun a => p 1 ![a], fun a b => p 2 ![a, b], fun a b c => p 3 ![a, b, c], fun a b c d => p 4 ![a, b, c, d],
    lin1_of _, lin2_of _, lin3_of _, lin4_of _, ?_⟩
  refine (hp.isBigO_sub_partialSum_pow 5).congr_left fun d => ?_
  unfold FormalMultilinearSeries.partialSum
  simp only [Finset.sum_range_succ, Finset.sum_range_zero, zero_add]
  congr 6 <;> (congr 1; funext i; fin_cases i <;> rfl)

end

/-! ### The order of the methods -/
section
open Asymptotics Topology Filter
variable {E L : Type} [NormedAddCommGroup E] [NormedSpace ℝ E]

/-- Methods satisfying the order conditions, applied to time dependent problems. -/
theorem order_general {F : ℝ → E → E} {t0 : ℝ} {u0 : E} (hF : AnalyticAt ℝ (fun x : ℝ × E => F x.1 x.2) (t0, u0)) {y : ℝ → E}
    (hy : ∀ᶠ t in 𝓝 t0, HasDerivAt y (F t (y t)) t) (hy0 : y t0 = u0) {a : Nat → Nat → ℝ} {b c : Nat → ℝ} {s p : Nat}
    (hc : OrderConds a b s p) (hrow : ∀ i < s, c i = ∑ j ∈ Finset.range i, a i j) (ks : ℝ → List E)
    (hks : ∀ h, IsStages (fun _ u => u) F a c s t0 h u0 (ks h)) :
    (fun h => u0 + h • ∑ i ∈ Finset.range s, b i • (ks h).getD i 0 - y (t0 + h)) =O[𝓝 0] fun h : ℝ => h ^ (p + 1) := by
  have hf : AnalyticAt ℝ (fun x : ℝ × E => ((1:ℝ), F x.1 x.2)) (t0, u0) := analyticAt_const.prod hF
  obtain ⟨f0, f1, f2, f3, f4, hT⟩ := taylor_of_analytic hf
  have hsh : Tendsto (fun h : ℝ => t0 + h) (𝓝 0) (𝓝 t0) := by
    have : Continuous fun h : ℝ => t0 + h := by fun_prop
    simpa using this.tendsto 0
  have hY : ∀ᶠ h in 𝓝 (0:ℝ), HasDerivAt (fun h : ℝ => (t0 + h, y (t0 + h))) ((1:ℝ), F (t0 + h, y (t0 + h)).1 (t0 + h, y (t0 + h)).2) h := by
    refine (hsh.eventually hy).mono fun h hh => ?_
    have e1 : HasDerivAt (fun h : ℝ => t0 + h) 1 h := (hasDerivAt_id h).const_add t0
    have e2 : HasDerivAt (fun h : ℝ => y (t0 + h)) (F (t0 + h) (y (t0 + h))) h := by
      exact HasDerivAt.comp_const_add t0 h hh
    exact e1.prodMk e2
  have key := local_error hT (y := fun h : ℝ => (t0 + h, y (t0 + h))) hY (by simp [hy0]) hc (fun i h => ((1:ℝ), (ks h).getD i 0)) (by
    intro i hi h
    have hs := (hks h).2 i hi
    have e : ((t0, u0) : ℝ × E) + h • ∑ j ∈ Finset.range i, a i j • ((1:ℝ), (ks h).getD j 0)
        = (t0 + c i * h, u0 + h • ∑ j ∈ Finset.range i, a i j • (ks h).getD j 0) := by
      refine Prod.ext ?_ ?_
      · simp only [Prod.fst_add, Prod.smul_fst, Prod.fst_sum, smul_eq_mul, mul_one, hrow i hi]; ring
      · simp only [Prod.snd_add, Prod.smul_snd, Prod.snd_sum]
    rw [e]
    exact Prod.ext rfl hs)
  unfold EqM at key
  have := (isBigO_snd_prod (f' := fun h : ℝ => (((t0, u0) : ℝ × E) + h • ∑ j ∈ Finset.range s, b j • ((1:ℝ), (ks h).getD j 0) - (t0 + h, y (t0 + h))).1)
    (g' := fun h : ℝ => (((t0, u0) : ℝ × E) + h • ∑ j ∈ Finset.range s, b j • ((1:ℝ), (ks h).getD j 0) - (t0 + h, y (t0 + h))).2) (l := 𝓝 0)).trans key
  refine this.congr_left fun h => ?_
  simp only [Prod.snd_sub, Prod.snd_add, Prod.smul_snd, Prod.snd_sum]

private theorem euler_al :
    al (rkTableau (K := ℝ) .euler).a 0 = (0) := by
  norm_num [al]
private theorem euler_ws (w : Nat → ℝ) :
    wsum (rkTableau (K := ℝ) .euler).a w 0 = 0 := by
  norm_num [wsum]
private theorem euler_row : ∀ i < 1, (rkTableau (K := ℝ) .euler).c.getD i 0 = ∑ j ∈ Finset.range i, (rkTableau (K := ℝ) .euler).a i j := by
  intro i hi
  interval_cases i <;> norm_num [Finset.sum_range_succ, Tableau.a, rkTableau, rkeTableau]
private theorem euler_conds : OrderConds (rkTableau (K := ℝ) .euler).a (fun i => (rkTableau (K := ℝ) .euler).b.getD i 0) 1 1 := by
  have a0 := euler_al
  have w0 := fun w => (euler_ws w)
  refine ⟨?_, ?_, ?_, ?_, ?_, by norm_num⟩
  · intro _; simp only [Finset.sum_range_succ, Finset.sum_range_zero, a0, w0]; norm_num [rkTableau, rkeTableau]
  · intro h; omega
  · intro h; omega
  · intro h; omega
  · intro h; omega
private theorem heun_al :
    al (rkTableau (K := ℝ) .heun).a 0 = (0) ∧ al (rkTableau (K := ℝ) .heun).a 1 = (1) := by
  refine ⟨?_, ?_⟩ <;> norm_num [al, Finset.sum_range_succ, Tableau.a, rkTableau, rkeTableau]
private theorem heun_ws (w : Nat → ℝ) :
    wsum (rkTableau (K := ℝ) .heun).a w 0 = 0 ∧ wsum (rkTableau (K := ℝ) .heun).a w 1 = (1) * w 0 := by
  refine ⟨?_, ?_⟩ <;> norm_num [wsum, Finset.sum_range_succ, Tableau.a, rkTableau, rkeTableau]
private theorem heun_row : ∀ i < 2, (rkTableau (K := ℝ) .heun).c.getD i 0 = ∑ j ∈ Finset.range i, (rkTableau (K := ℝ) .heun).a i j := by
  intro i hi
  interval_cases i <;> norm_num [Finset.sum_range_succ, Tableau.a, rkTableau, rkeTableau]
private theorem heun_conds : OrderConds (rkTableau (K := ℝ) .heun).a (fun i => (rkTableau (K := ℝ) .heun).b.getD i 0) 2 2 := by
  obtain ⟨a0, a1⟩ := heun_al
  have w0 := fun w => (heun_ws w).1
  have w1 := fun w => (heun_ws w).2
  refine ⟨?_, ?_, ?_, ?_, ?_, by norm_num⟩
  · intro _; simp only [Finset.sum_range_succ, Finset.sum_range_zero, a0, a1, w0, w1]; norm_num [rkTableau, rkeTableau]
  · intro _; simp only [Finset.sum_range_succ, Finset.sum_range_zero, a0, a1, w0, w1]; norm_num [rkTableau, rkeTableau]
  · intro h; omega
  · intro h; omega
  · intro h; omega
private theorem rk3_al :
    al (rkTableau (K := ℝ) .rk3).a 0 = (0) ∧ al (rkTableau (K := ℝ) .rk3).a 1 = (1/2) ∧ al (rkTableau (K := ℝ) .rk3).a 2 = (1) := by
  refine ⟨?_, ?_, ?_⟩ <;> norm_num [al, Finset.sum_range_succ, Tableau.a, rkTableau, rkeTableau]
private theorem rk3_ws (w : Nat → ℝ) :
    wsum (rkTableau (K := ℝ) .rk3).a w 0 = 0 ∧ wsum (rkTableau (K := ℝ) .rk3).a w 1 = (1/2) * w 0 ∧ wsum (rkTableau (K := ℝ) .rk3).a w 2 = (-1) * w 0 + (2) * w 1 := by
  refine ⟨?_, ?_, ?_⟩ <;> norm_num [wsum, Finset.sum_range_succ, Tableau.a, rkTableau, rkeTableau]
private theorem rk3_row : ∀ i < 3, (rkTableau (K := ℝ) .rk3).c.getD i 0 = ∑ j ∈ Finset.range i, (rkTableau (K := ℝ) .rk3).a i j := by
  intro i hi
  interval_cases i <;> norm_num [Finset.sum_range_succ, Tableau.a, rkTableau, rkeTableau]
private theorem rk3_conds : OrderConds (rkTableau (K := ℝ) .rk3).a (fun i => (rkTableau (K := ℝ) .rk3).b.getD i 0) 3 3 := by
  obtain ⟨a0, a1, a2⟩ := rk3_al
  have w0 := fun w => (rk3_ws w).1
  have w1 := fun w => (rk3_ws w).2.1
  have w2 := fun w => (rk3_ws w).2.2
  refine ⟨?_, ?_, ?_, ?_, ?_, by norm_num⟩
  · intro _; simp only [Finset.sum_range_succ, Finset.sum_range_zero, a0, a1, a2, w0, w1, w2]; norm_num [rkTableau, rkeTableau]
  · intro _; simp only [Finset.sum_range_succ, Finset.sum_range_zero, a0, a1, a2, w0, w1, w2]; norm_num [rkTableau, rkeTableau]
  · intro _
    refine ⟨?_, ?_⟩ <;> (simp only [Finset.sum_range_succ, Finset.sum_range_zero, a0, a1, a2, w0, w1, w2]; norm_num [rkTableau, rkeTableau])
  · intro h; omega
  · intro h; omega
private theorem rk4_al :
    al (rkTableau (K := ℝ) .rk4).a 0 = (0) ∧ al (rkTableau (K := ℝ) .rk4).a 1 = (1/2) ∧ al (rkTableau (K := ℝ) .rk4).a 2 = (1/2) ∧ al (rkTableau (K := ℝ) .rk4).a 3 = (1) := by
  refine ⟨?_, ?_, ?_, ?_⟩ <;> norm_num [al, Finset.sum_range_succ, Tableau.a, rkTableau, rkeTableau]
private theorem rk4_ws (w : Nat → ℝ) :
    wsum (rkTableau (K := ℝ) .rk4).a w 0 = 0 ∧ wsum (rkTableau (K := ℝ) .rk4).a w 1 = (1/2) * w 0 ∧ wsum (rkTableau (K := ℝ) .rk4).a w 2 = (1/2) * w 1 ∧ wsum (rkTableau (K := ℝ) .rk4).a w 3 = (1) * w 2 := by
  refine ⟨?_, ?_, ?_, ?_⟩ <;> norm_num [wsum, Finset.sum_range_succ, Tableau.a, rkTableau, rkeTableau]
private theorem rk4_row : ∀ i < 4, (rkTableau (K := ℝ) .rk4).c.getD i 0 = ∑ j ∈ Finset.range i, (rkTableau (K := ℝ) .rk4).a i j := by
  intro i hi
  interval_cases i <;> norm_num [Finset.sum_range_succ, Tableau.a, rkTableau, rkeTableau]
private theorem rk4_conds : OrderConds (rkTableau (K := ℝ) .rk4).a (fun i => (rkTableau (K := ℝ) .rk4).b.getD i 0) 4 4 := by
  obtain ⟨a0, a1, a2, a3⟩ := rk4_al
  have w0 := fun w => (rk4_ws w).1
  have w1 := fun w => (rk4_ws w).2.1
  have w2 := fun w => (rk4_ws w).2.2.1
  have w3 := fun w => (rk4_ws w).2.2.2
  refine ⟨?_, ?_, ?_, ?_, ?_, by norm_num⟩
  · intro _; simp only [Finset.sum_range_succ, Finset.sum_range_zero, a0, a1, a2, a3, w0, w1, w2, w3]; norm_num [rkTableau, rkeTableau]
  · intro _; simp only [Finset.sum_range_succ, Finset.sum_range_zero, a0, a1, a2, a3, w0, w1, w2, w3]; norm_num [rkTableau, rkeTableau]
  · intro _
    refine ⟨?_, ?_⟩ <;> (simp only [Finset.sum_range_succ, Finset.sum_range_zero, a0, a1, a2, a3, w0, w1, w2, w3]; norm_num [rkTableau, rkeTableau])
  · intro _
    refine ⟨?_, ?_, ?_, ?_⟩ <;> (simp only [Finset.sum_range_succ, Finset.sum_range_zero, a0, a1, a2, a3, w0, w1, w2, w3]; norm_num [rkTableau, rkeTableau])
  · intro h; omega
private theorem heunEuler_al :
    al (rkeTableau (K := ℝ) .heunEuler).1.a 0 = (0) ∧ al (rkeTableau (K := ℝ) .heunEuler).1.a 1 = (1) := by
  refine ⟨?_, ?_⟩ <;> norm_num [al, Finset.sum_range_succ, Tableau.a, rkTableau, rkeTableau]
private theorem heunEuler_ws (w : Nat → ℝ) :
    wsum (rkeTableau (K := ℝ) .heunEuler).1.a w 0 = 0 ∧ wsum (rkeTableau (K := ℝ) .heunEuler).1.a w 1 = (1) * w 0 := by
  refine ⟨?_, ?_⟩ <;> norm_num [wsum, Finset.sum_range_succ, Tableau.a, rkTableau, rkeTableau]
private theorem heunEuler_row : ∀ i < 2, (rkeTableau (K := ℝ) .heunEuler).1.c.getD i 0 = ∑ j ∈ Finset.range i, (rkeTableau (K := ℝ) .heunEuler).1.a i j := by
  intro i hi
  interval_cases i <;> norm_num [Finset.sum_range_succ, Tableau.a, rkTableau, rkeTableau]
private theorem heunEuler_conds : OrderConds (rkeTableau (K := ℝ) .heunEuler).1.a (fun i => (rkeTableau (K := ℝ) .heunEuler).1.b.getD i 0) 2 1 := by
  obtain ⟨a0, a1⟩ := heunEuler_al
  have w0 := fun w => (heunEuler_ws w).1
  have w1 := fun w => (heunEuler_ws w).2
  refine ⟨?_, ?_, ?_, ?_, ?_, by norm_num⟩
  · intro _; simp only [Finset.sum_range_succ, Finset.sum_range_zero, a0, a1, w0, w1]; norm_num [rkTableau, rkeTableau]
  · intro h; omega
  · intro h; omega
  · intro h; omega
  · intro h; omega
private theorem heunEuler_conds_bs : OrderConds (rkeTableau (K := ℝ) .heunEuler).1.a (fun i => (rkeTableau (K := ℝ) .heunEuler).2.getD i 0) 2 2 := by
  obtain ⟨a0, a1⟩ := heunEuler_al
  have w0 := fun w => (heunEuler_ws w).1
  have w1 := fun w => (heunEuler_ws w).2
  refine ⟨?_, ?_, ?_, ?_, ?_, by norm_num⟩
  · intro _; simp only [Finset.sum_range_succ, Finset.sum_range_zero, a0, a1, w0, w1]; norm_num [rkTableau, rkeTableau]
  · intro _; simp only [Finset.sum_range_succ, Finset.sum_range_zero, a0, a1, w0, w1]; norm_num [rkTableau, rkeTableau]
  · intro h; omega
  · intro h; omega
  · intro h; omega
private theorem bogackiShampine_al :
    al (rkeTableau (K := ℝ) .bogackiShampine).1.a 0 = (0) ∧ al (rkeTableau (K := ℝ) .bogackiShampine).1.a 1 = (1/2) ∧ al (rkeTableau (K := ℝ) .bogackiShampine).1.a 2 = (3/4) ∧ al (rkeTableau (K := ℝ) .bogackiShampine).1.a 3 = (1) := by
  refine ⟨?_, ?_, ?_, ?_⟩ <;> norm_num [al, Finset.sum_range_succ, Tableau.a, rkTableau, rkeTableau]
private theorem bogackiShampine_ws (w : Nat → ℝ) :
    wsum (rkeTableau (K := ℝ) .bogackiShampine).1.a w 0 = 0 ∧ wsum (rkeTableau (K := ℝ) .bogackiShampine).1.a w 1 = (1/2) * w 0 ∧ wsum (rkeTableau (K := ℝ) .bogackiShampine).1.a w 2 = (3/4) * w 1 ∧ wsum (rkeTableau (K := ℝ) .bogackiShampine).1.a w 3 = (2/9) * w 0 + (1/3) * w 1 + (4/9) * w 2 := by
  refine ⟨?_, ?_, ?_, ?_⟩ <;> norm_num [wsum, Finset.sum_range_succ, Tableau.a, rkTableau, rkeTableau]
private theorem bogackiShampine_row : ∀ i < 4, (rkeTableau (K := ℝ) .bogackiShampine).1.c.getD i 0 = ∑ j ∈ Finset.range i, (rkeTableau (K := ℝ) .bogackiShampine).1.a i j := by
  intro i hi
  interval_cases i <;> norm_num [Finset.sum_range_succ, Tableau.a, rkTableau, rkeTableau]
private theorem bogackiShampine_conds : OrderConds (rkeTableau (K := ℝ) .bogackiShampine).1.a (fun i => (rkeTableau (K := ℝ) .bogackiShampine).1.b.getD i 0) 4 2 := by
  obtain ⟨a0, a1, a2, a3⟩ := bogackiShampine_al
  have w0 := fun w => (bogackiShampine_ws w).1
  have w1 := fun w => (bogackiShampine_ws w).2.1
  have w2 := fun w => (bogackiShampine_ws w).2.2.1
  have w3 := fun w => (bogackiShampine_ws w).2.2.2
  refine ⟨?_, ?_, ?_, ?_, ?_, by norm_num⟩
  · intro _; simp only [Finset.sum_range_succ, Finset.sum_range_zero, a0, a1, a2, a3, w0, w1, w2, w3]; norm_num [rkTableau, rkeTableau]
  · intro _; simp only [Finset.sum_range_succ, Finset.sum_range_zero, a0, a1, a2, a3, w0, w1, w2, w3]; norm_num [rkTableau, rkeTableau]
  · intro h; omega
  · intro h; omega
  · intro h; omega
private theorem bogackiShampine_conds_bs : OrderConds (rkeTableau (K := ℝ) .bogackiShampine).1.a (fun i => (rkeTableau (K := ℝ) .bogackiShampine).2.getD i 0) 4 3 := by
  obtain ⟨a0, a1, a2, a3⟩ := bogackiShampine_al
  have w0 := fun w => (bogackiShampine_ws w).1
  have w1 := fun w => (bogackiShampine_ws w).2.1
  have w2 := fun w => (bogackiShampine_ws w).2.2.1
  have w3 := fun w => (bogackiShampine_ws w).2.2.2
  refine ⟨?_, ?_, ?_, ?_, ?_, by norm_num⟩
  · intro _; simp only [Finset.sum_range_succ, Finset.sum_range_zero, a0, a1, a2, a3, w0, w1, w2, w3]; norm_num [rkTableau, rkeTableau]
  · intro _; simp only [Finset.sum_range_succ, Finset.sum_range_zero, a0, a1, a2, a3, w0, w1, w2, w3]; norm_num [rkTableau, rkeTableau]
  · intro _
    refine ⟨?_, ?_⟩ <;> (simp only [Finset.sum_range_succ, Finset.sum_range_zero, a0, a1, a2, a3, w0, w1, w2, w3]; norm_num [rkTableau, rkeTableau])
  · intro h; omega
  · intro h; omega
private theorem fehlberg_al :
    al (rkeTableau (K := ℝ) .fehlberg).1.a 0 = (0) ∧ al (rkeTableau (K := ℝ) .fehlberg).1.a 1 = (1/4) ∧ al (rkeTableau (K := ℝ) .fehlberg).1.a 2 = (3/8) ∧ al (rkeTableau (K := ℝ) .fehlberg).1.a 3 = (12/13) ∧ al (rkeTableau (K := ℝ) .fehlberg).1.a 4 = (1) ∧ al (rkeTableau (K := ℝ) .fehlberg).1.a 5 = (1/2) := by
  refine ⟨?_, ?_, ?_, ?_, ?_, ?_⟩ <;> norm_num [al, Finset.sum_range_succ, Tableau.a, rkTableau, rkeTableau]
private theorem fehlberg_ws (w : Nat → ℝ) :
    wsum (rkeTableau (K := ℝ) .fehlberg).1.a w 0 = 0 ∧ wsum (rkeTableau (K := ℝ) .fehlberg).1.a w 1 = (1/4) * w 0 ∧ wsum (rkeTableau (K := ℝ) .fehlberg).1.a w 2 = (3/32) * w 0 + (9/32) * w 1 ∧ wsum (rkeTableau (K := ℝ) .fehlberg).1.a w 3 = (1932/2197) * w 0 + (-7200/2197) * w 1 + (7296/2197) * w 2 ∧ wsum (rkeTableau (K := ℝ) .fehlberg).1.a w 4 = (439/216) * w 0 + (-8) * w 1 + (3680/513) * w 2 + (-845/4104) * w 3 ∧ wsum (rkeTableau (K := ℝ) .fehlberg).1.a w 5 = (-8/27) * w 0 + (2) * w 1 + (-3544/2565) * w 2 + (1859/4104) * w 3 + (-11/40) * w 4 := by
  refine ⟨?_, ?_, ?_, ?_, ?_, ?_⟩ <;> norm_num [wsum, Finset.sum_range_succ, Tableau.a, rkTableau, rkeTableau]
private theorem fehlberg_row : ∀ i < 6, (rkeTableau (K := ℝ) .fehlberg).1.c.getD i 0 = ∑ j ∈ Finset.range i, (rkeTableau (K := ℝ) .fehlberg).1.a i j := by
  intro i hi
  interval_cases i <;> norm_num [Finset.sum_range_succ, Tableau.a, rkTableau, rkeTableau]
private theorem fehlberg_conds : OrderConds (rkeTableau (K := ℝ) .fehlberg).1.a (fun i => (rkeTableau (K := ℝ) .fehlberg).1.b.getD i 0) 6 4 := by
  obtain ⟨a0, a1, a2, a3, a4, a5⟩ := fehlberg_al
  have w0 := fun w => (fehlberg_ws w).1
  have w1 := fun w => (fehlberg_ws w).2.1
  have w2 := fun w => (fehlberg_ws w).2.2.1
  have w3 := fun w => (fehlberg_ws w).2.2.2.1
  have w4 := fun w => (fehlberg_ws w).2.2.2.2.1
  have w5 := fun w => (fehlberg_ws w).2.2.2.2.2
  refine ⟨?_, ?_, ?_, ?_, ?_, by norm_num⟩
  · intro _; simp only [Finset.sum_range_succ, Finset.sum_range_zero, a0, a1, a2, a3, a4, a5, w0, w1, w2, w3, w4, w5]; norm_num [rkTableau, rkeTableau]
  · intro _; simp only [Finset.sum_range_succ, Finset.sum_range_zero, a0, a1, a2, a3, a4, a5, w0, w1, w2, w3, w4, w5]; norm_num [rkTableau, rkeTableau]
  · intro _
    refine ⟨?_, ?_⟩ <;> (simp only [Finset.sum_range_succ, Finset.sum_range_zero, a0, a1, a2, a3, a4, a5, w0, w1, w2, w3, w4, w5]; norm_num [rkTableau, rkeTableau])
  · intro _
    refine ⟨?_, ?_, ?_, ?_⟩ <;> (simp only [Finset.sum_range_succ, Finset.sum_range_zero, a0, a1, a2, a3, a4, a5, w0, w1, w2, w3, w4, w5]; norm_num [rkTableau, rkeTableau])
  · intro h; omega
private theorem fehlberg_conds_bs : OrderConds (rkeTableau (K := ℝ) .fehlberg).1.a (fun i => (rkeTableau (K := ℝ) .fehlberg).2.getD i 0) 6 5 := by
  obtain ⟨a0, a1, a2, a3, a4, a5⟩ := fehlberg_al
  have w0 := fun w => (fehlberg_ws w).1
  have w1 := fun w => (fehlberg_ws w).2.1
  have w2 := fun w => (fehlberg_ws w).2.2.1
  have w3 := fun w => (fehlberg_ws w).2.2.2.1
  have w4 := fun w => (fehlberg_ws w).2.2.2.2.1
  have w5 := fun w => (fehlberg_ws w).2.2.2.2.2
  refine ⟨?_, ?_, ?_, ?_, ?_, by norm_num⟩
  · intro _; simp only [Finset.sum_range_succ, Finset.sum_range_zero, a0, a1, a2, a3, a4, a5, w0, w1, w2, w3, w4, w5]; norm_num [rkTableau, rkeTableau]
  · intro _; simp only [Finset.sum_range_succ, Finset.sum_range_zero, a0, a1, a2, a3, a4, a5, w0, w1, w2, w3, w4, w5]; norm_num [rkTableau, rkeTableau]
  · intro _
    refine ⟨?_, ?_⟩ <;> (simp only [Finset.sum_range_succ, Finset.sum_range_zero, a0, a1, a2, a3, a4, a5, w0, w1, w2, w3, w4, w5]; norm_num [rkTableau, rkeTableau])
  · intro _
    refine ⟨?_, ?_, ?_, ?_⟩ <;> (simp only [Finset.sum_range_succ, Finset.sum_range_zero, a0, a1, a2, a3, a4, a5, w0, w1, w2, w3, w4, w5]; norm_num [rkTableau, rkeTableau])
  · intro _
    refine ⟨?_, ?_, ?_, ?_, ?_, ?_, ?_, ?_, ?_⟩ <;> (simp only [Finset.sum_range_succ, Finset.sum_range_zero, a0, a1, a2, a3, a4, a5, w0, w1, w2, w3, w4, w5]; norm_num [rkTableau, rkeTableau])

/-- The order of one step with prescribed values `G` on some of the unknowns, `P` being the projection on the other ones. -/
theorem order_prescribed {F : ℝ → E → E} {P : E →L[ℝ] E} {G : ℝ → E} {t0 : ℝ} {u0 : E} {y : ℝ → E}
    (hF : AnalyticAt ℝ (fun x : ℝ × E => F x.1 x.2) (t0, y t0)) (hG : AnalyticAt ℝ G t0)
    (hy : ∀ᶠ t in 𝓝 t0, HasDerivAt (fun t => P (y t)) (P (F t (y t))) t) (hyG : ∀ᶠ t in 𝓝 t0, y t = P (y t) + G t)
    (hu : P u0 = P (y t0)) {a : Nat → Nat → ℝ} {b c : Nat → ℝ} {s p : Nat}
    (hc : OrderConds a b s p) (hrow : ∀ i < s, c i = ∑ j ∈ Finset.range i, a i j) (ks : ℝ → List E)
    (hks : ∀ h, IsStages (fun t u => P u + G t) F a c s t0 h u0 (ks h)) :
    (fun h => P (u0 + h • ∑ i ∈ Finset.range s, b i • (ks h).getD i 0) + G (t0 + h) - y (t0 + h)) =O[𝓝 0] fun h : ℝ => h ^ (p + 1) := by
  have hy0 : y t0 = P (y t0) + G t0 := hyG.self_of_nhds
  have hsh : Tendsto (fun h : ℝ => t0 + h) (𝓝 0) (𝓝 t0) := by
    have : Continuous fun h : ℝ => t0 + h := by fun_prop
    simpa using this.tendsto 0
  have hF' : AnalyticAt ℝ (fun x : ℝ × E => P (F x.1 (x.2 + G x.1))) (t0, P (y t0)) := by
    have h1 : AnalyticAt ℝ (fun x : ℝ × E => (x.1, x.2 + G x.1)) (t0, P (y t0)) :=
      analyticAt_fst.prod (analyticAt_snd.add (AnalyticAt.comp (f := Prod.fst) (g := G) (x := ((t0, P (y t0)) : ℝ × E)) hG analyticAt_fst))
    have h2 : AnalyticAt ℝ (fun x : ℝ × E => F x.1 x.2) (t0, P (y t0) + G t0) := by rw [← hy0]; exact hF
    have h3 := AnalyticAt.comp (g := fun x : ℝ × E => F x.1 x.2) (f := fun x : ℝ × E => (x.1, x.2 + G x.1)) (x := ((t0, P (y t0)) : ℝ × E)) h2 h1
    exact AnalyticAt.comp (g := fun x : E => P x) (P.analyticAt _) h3
  have hw : ∀ᶠ t in 𝓝 t0, HasDerivAt (fun t => P (y t)) (P (F t (P (y t) + G t))) t := by
    filter_upwards [hy, hyG] with t h1 h2
    rw [← h2]; exact h1
  have key := order_general (F := fun t w => P (F t (w + G t))) hF' hw rfl hc hrow (fun h => (ks h).map P) (by
    intro h
    refine ⟨by rw [List.length_map]; exact (hks h).1, fun i hi => ?_⟩
    have e : ∀ j, ((ks h).map P).getD j 0 = P ((ks h).getD j 0) := fun j => by
      have := List.getD_map (l := ks h) (d := 0) (n := j) (f := P)
      rwa [map_zero] at this
    simp only [e]
    rw [(hks h).2 i hi]
    simp only [map_add, map_smul, map_sum, hu])
  refine (key.congr' ?_ EventuallyEq.rfl)
  filter_upwards [hsh.eventually hyG] with h hh
  have e : ∀ j, ((ks h).map P).getD j 0 = P ((ks h).getD j 0) := fun j => by
    have := List.getD_map (l := ks h) (d := 0) (n := j) (f := P)
    rwa [map_zero] at this
  simp only [e, map_add, map_smul, map_sum, hu]
  conv_rhs => rw [hh]
  abel

/-- The order of one step of a tableau, for the solution and for other weights of the same stages. -/
theorem order_step (sim : RKSim ℝ E L) {F : ℝ → E → E} {P : E →L[ℝ] E} {G : ℝ → E} {t0 : ℝ} {u0 : E} {y : ℝ → E}
    (hF : AnalyticAt ℝ (fun x : ℝ × E => F x.1 x.2) (t0, y t0)) (hG : AnalyticAt ℝ G t0)
    (hy : ∀ᶠ t in 𝓝 t0, HasDerivAt (fun t => P (y t)) (P (F t (y t))) t) (hyG : ∀ᶠ t in 𝓝 t0, y t = P (y t) + G t)
    (hu : P u0 = P (y t0)) (linear : Bool) (tp : TimeStep ℝ) (M : Option L)
    (hI : Integrates sim (fun t u => P u + G t) F linear tp.step M) (T : Tableau ℝ)
    (hrow : ∀ i < T.b.length, T.c.getD i 0 = ∑ j ∈ Finset.range i, T.a i j) :
    ∃ (M' : ℝ → Option L) (Φ : ℝ → E) (ks : ℝ → List E),
      (∀ h, solveRK sim T linear { tp with t := t0 + h, dt := h } M u0 = some (M' h, Φ h, ks h)) ∧
      (∀ p, OrderConds T.a (fun i => T.b.getD i 0) T.b.length p → (fun h => Φ h - y (t0 + h)) =O[𝓝 0] fun h : ℝ => h ^ (p + 1)) ∧
      ∀ (bs : List ℝ) p, OrderConds T.a (fun i => bs.getD i 0) T.b.length p → ∃ Ψ : ℝ → E,
        (∀ h, sim.bc (t0 + h) (addStages h (fun i => bs.getD i 0) (ks h) (ks h).length u0) = some (Ψ h)) ∧
        (fun h => Ψ h - y (t0 + h)) =O[𝓝 0] fun h : ℝ => h ^ (p + 1) := by
  have hst := fun h : ℝ => C58_step sim (fun t u => P u + G t) F T linear { tp with t := t0 + h, dt := h } M u0 hI
  choose M' ks h1 h2 _ using hst
  have hks : ∀ h, IsStages (fun t u => P u + G t) F T.a (fun i => T.c.getD i 0) T.b.length t0 h u0 (ks h) := by
    intro h
    have := h2 h
    dsimp only at this
    rwa [add_sub_cancel_right] at this
  refine ⟨M', _, ks, h1, fun p hc => order_prescribed hF hG hy hyG hu hc hrow ks hks, fun bs p hc => ⟨_, fun h => hI.bc _ _, ?_⟩⟩
  have e : ∀ h, (ks h).length = T.b.length := fun h => (hks h).1
  simp only [addStages_eq, e]
  exact order_prescribed hF hG hy hyG hu hc hrow ks hks

/-- **C58** (order). Euler, Heun, RK3 and RK4 are of order 1, 2, 3 and 4, also for time dependent problems and time dependent prescribed values: for a
problem with an analytic right-hand side (near the solution), the local error of a step of size `h` is of order `h^(p+1)`, where `p` is the order
that `TimeIntegration::Order` reports. -/
theorem C58_order (m : TimeMethod) (hm : m = .euler ∨ m = .heun ∨ m = .rk3 ∨ m = .rk4)
    (sim : RKSim ℝ E L) (F : ℝ → E → E) (P : E →L[ℝ] E) (G : ℝ → E) (t0 : ℝ) (u0 : E) (y : ℝ → E)
    (hF : AnalyticAt ℝ (fun x : ℝ × E => F x.1 x.2) (t0, y t0)) (hG : AnalyticAt ℝ G t0)
    (hy : ∀ᶠ t in 𝓝 t0, HasDerivAt (fun t => P (y t)) (P (F t (y t))) t) (hyG : ∀ᶠ t in 𝓝 t0, y t = P (y t) + G t)
    (hu : P u0 = P (y t0)) (linear : Bool) (tp : TimeStep ℝ) (M : Option L)
    (hI : Integrates sim (fun t u => P u + G t) F linear tp.step M) :
    ∃ (M' : ℝ → Option L) (Φ : ℝ → E) (ks : ℝ → List E),
      (∀ h, solveRK sim (rkTableau m) linear { tp with t := t0 + h, dt := h } M u0 = some (M' h, Φ h, ks h)) ∧
      (fun h => Φ h - y (t0 + h)) =O[𝓝 0] fun h : ℝ => h ^ (m.order + 1) := by
  have key : (∀ i < (rkTableau (K := ℝ) m).b.length, (rkTableau (K := ℝ) m).c.getD i 0 = ∑ j ∈ Finset.range i, (rkTableau (K := ℝ) m).a i j) ∧
      OrderConds (rkTableau (K := ℝ) m).a (fun i => (rkTableau (K := ℝ) m).b.getD i 0) (rkTableau (K := ℝ) m).b.length m.order := by
    rcases hm with rfl | rfl | rfl | rfl
    · exact ⟨euler_row, euler_conds⟩
    · exact ⟨heun_row, heun_conds⟩
    · exact ⟨rk3_row, rk3_conds⟩
    · exact ⟨rk4_row, rk4_conds⟩
  obtain ⟨M', Φ, ks, h1, h2, _⟩ := order_step sim hF hG hy hyG hu linear tp M hI (rkTableau m) key.1
  exact ⟨M', Φ, ks, h1, h2 _ key.2⟩

/-- **C58** (order of the embedded pairs). The solution of the pairs Heun-Euler, Bogacki-Shampine and Fehlberg is of order 1, 2 and 4, and the embedded
solution, which the error estimate is based on, is of one order higher. -/
theorem C58_embedded_order (m : TimeMethod) (p : Nat)
    (hm : (m = .heunEuler ∧ p = 1) ∨ (m = .bogackiShampine ∧ p = 2) ∨ (m = .fehlberg ∧ p = 4))
    (sim : RKSim ℝ E L) (F : ℝ → E → E) (P : E →L[ℝ] E) (G : ℝ → E) (t0 : ℝ) (u0 : E) (y : ℝ → E)
    (hF : AnalyticAt ℝ (fun x : ℝ × E => F x.1 x.2) (t0, y t0)) (hG : AnalyticAt ℝ G t0)
    (hy : ∀ᶠ t in 𝓝 t0, HasDerivAt (fun t => P (y t)) (P (F t (y t))) t) (hyG : ∀ᶠ t in 𝓝 t0, y t = P (y t) + G t)
    (hu : P u0 = P (y t0)) (linear : Bool) (tp : TimeStep ℝ) (M : Option L)
    (hI : Integrates sim (fun t u => P u + G t) F linear tp.step M) :
    (rkeTableau (K := ℝ) m).1.order = p ∧ ∃ (M' : ℝ → Option L) (Φ Ψ : ℝ → E) (ks : ℝ → List E),
      (∀ h, solveRK sim (rkeTableau m).1 linear { tp with t := t0 + h, dt := h } M u0 = some (M' h, Φ h, ks h)) ∧
      (fun h => Φ h - y (t0 + h)) =O[𝓝 0] (fun h : ℝ => h ^ (p + 1)) ∧
      (fun h => Ψ h - y (t0 + h)) =O[𝓝 0] (fun h : ℝ => h ^ (p + 2)) ∧
      ∀ h, ∀ norm : E → ℝ, rkeEstimate sim norm (rkeTableau m).2 { tp with t := t0 + h, dt := h } u0 (Φ h) (ks h) = some (norm (Ψ h - Φ h)) := by
  have key : (rkeTableau (K := ℝ) m).1.order = p ∧
      (∀ i < (rkeTableau (K := ℝ) m).1.b.length, (rkeTableau (K := ℝ) m).1.c.getD i 0 = ∑ j ∈ Finset.range i, (rkeTableau (K := ℝ) m).1.a i j) ∧
      OrderConds (rkeTableau (K := ℝ) m).1.a (fun i => (rkeTableau (K := ℝ) m).1.b.getD i 0) (rkeTableau (K := ℝ) m).1.b.length p ∧
      OrderConds (rkeTableau (K := ℝ) m).1.a (fun i => (rkeTableau (K := ℝ) m).2.getD i 0) (rkeTableau (K := ℝ) m).1.b.length (p + 1) := by
    rcases hm with ⟨rfl, rfl⟩ | ⟨rfl, rfl⟩ | ⟨rfl, rfl⟩
    · exact ⟨rfl, heunEuler_row, heunEuler_conds, heunEuler_conds_bs⟩
    · exact ⟨rfl, bogackiShampine_row, bogackiShampine_conds, bogackiShampine_conds_bs⟩
    · exact ⟨rfl, fehlberg_row, fehlberg_conds, fehlberg_conds_bs⟩
  obtain ⟨M', Φ, ks, h1, h2, h3⟩ := order_step sim hF hG hy hyG hu linear tp M hI (rkeTableau m).1 key.2.1
  obtain ⟨Ψ, h4, h5⟩ := h3 _ _ key.2.2.2
  refine ⟨key.1, M', Φ, Ψ, ks, h1, h2 _ key.2.2.1, h5, fun h norm => ?_⟩
  unfold rkeEstimate
  dsimp only
  rw [h4 h]
  rfl

end
end IFEM.Props
