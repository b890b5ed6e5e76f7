import Verif.Lemmas.Driver
/-!
# Lemmas: the start of a run, and the restart file
-/
namespace IFEM.Drv
variable {τ σ δ : Type}

theorem dump_init (sim : Sim τ σ δ) (st : St τ σ δ) (nd : Option Int) (t : Int) (hn : ∀ n ∈ nd, 1 ≤ n ∧ n ∣ t) (h0 : 0 ≤ t)
    (he : st.exp = nd.map fun n => ⟨n, t / n - 1, -1⟩) (hb : st.bound = true) (hs : sim.step st.tp = t) :
    dump sim st = ({ st with exp := expAt nd t, disk := { st.disk with exported := st.disk.exported ++ resultsO sim nd [(st.tp, st.s)] } }, true) := by
  unfold dump
  cases nd with
  | none => rw [he]; simp [expAt, resultsO]; cases st; simp_all [expAt]
  | some n =>
    rw [he]
    obtain ⟨hn1, hn2⟩ := hn n rfl
    dsimp only [expAt, Option.map_some]
    have hsk : Exp.skips ⟨n, t / n - 1, -1⟩ t = false := by
      unfold Exp.skips
      refine decide_eq_false ?_
      dsimp only
      rintro ⟨a, b⟩
      have := Int.le_of_dvd a hn2
      omega
    rw [hs, hsk]
    rw [if_neg (by simp), hb]
    simp only [if_true, resultsO, results, hs, List.filter_cons, hn2, decide_true, List.filter_nil, List.map_cons, List.map_nil]
    rw [Int.ediv_mul_cancel hn2, show t / n - 1 + 1 = t / n by omega]

theorem dumpRestart_init (sim : Sim τ σ δ) (st : St τ σ δ) (nd : Option Int) (stride t : Int) (h0 : 0 ≤ t) (hd : 1 ≤ stride → stride ∣ t)
    (he : st.exp = expAt nd t) (ha : st.adm = if stride < 1 then none else some ⟨stride, if t = 0 then -1 else t / stride - 2, 0⟩)
    (hs : sim.step st.tp = t) (hser : Savable sim (st.tp, st.s)) :
    dumpRestart sim st = { st with adm := admAt stride t, disk := { st.disk with
      rst := (restartFile sim nd stride [(st.tp, st.s)]).foldl put1 st.disk.rst } } := by
  unfold dumpRestart admAt restartFile
  by_cases hst : stride < 1
  · rw [if_pos hst] at ha ⊢
    rw [ha, if_pos hst]
    cases st; simp_all
  · rw [if_neg hst] at ha ⊢
    rw [ha, if_neg hst]
    dsimp only
    obtain ⟨d, hd', _⟩ := hser.ser
    dsimp only at hd'
    have hdv := hd (by omega)
    by_cases h1 : t = 0
    · subst h1
      rw [hs, if_pos (by omega)]
      simp only [List.filter_cons, List.filter_nil, hs]
      rw [if_neg (by simp)]
      simp only [List.flatMap_nil, List.foldl_nil, Int.zero_ediv]
      cases st; simp_all
    · have hle := Int.le_of_dvd (by omega) hdv
      rw [hs, if_neg (by omega), hd', if_neg h1]
      simp only [List.filter_cons, List.filter_nil, hs, hdv, true_and]
      rw [if_pos (by simpa using h1)]
      simp only [List.flatMap_cons, List.flatMap_nil, List.append_nil, hs, hd', Option.getD_some]
      rw [he, items_eq, Int.ediv_mul_cancel hdv]
      have : Option.map (fun x => x.level) (expAt nd t) = Option.map (fun n => t/n) nd := by
        unfold expAt; cases nd <;> rfl
      rw [this, show t/stride - 2 + 1 = t/stride - 1 by omega]

/-- A run, when everything can be saved. -/
theorem run_spec (sim : Sim τ σ δ) (sd : Bool) (nd : Option Int) (stride : Int) (code : Int) (t : Int) (hn : ∀ n ∈ nd, 1 ≤ n ∧ n ∣ t)
    (hsd : sd = false ∨ code = 0) (k : Nat) (ys : List (τ × σ)) (st : St τ σ δ) (h0 : 0 ≤ t) (hd : 1 ≤ stride → stride ∣ t)
    (hst : Steps sim ((st.tp, st.s) :: ys)) (hnum : ∀ (i : Nat) y, ((st.tp, st.s) :: ys)[i]? = some y → sim.step y.1 = t + i)
    (hm : sim.multi st.tp = true) (hmod : sim.saveModel st.s = true) (hsav : ∀ y ∈ (st.tp, st.s) :: ys, Savable sim y)
    (he : st.exp = nd.map fun n => ⟨n, t / n - 1, -1⟩)
    (ha : st.adm = if stride < 1 then none else some ⟨stride, if t = 0 then -1 else t / stride - 2, 0⟩)
    (hb : st.bound = true) (hend : Ends sim (ys.getLastD (st.tp, st.s)) code) :
    ∃ st', solveProblem sim sd (ys.length + 1 + k) st = some (code, st') ∧ st'.disk =
        ⟨st.disk.saved ++ (st.tp, st.s) :: ys, st.disk.exported ++ resultsO sim nd ((st.tp, st.s) :: ys),
          (restartFile sim nd stride ((st.tp, st.s) :: ys)).foldl put1 st.disk.rst⟩ := by
  have hser := hsav _ (List.mem_cons_self)
  have hs : sim.step st.tp = t := by simpa using hnum 0 (st.tp, st.s) rfl
  have hsave : saveState sim true (sim.multi st.tp) st = ({ st with exp := expAt nd t, adm := admAt stride t, disk :=
      ⟨st.disk.saved ++ [(st.tp, st.s)], st.disk.exported ++ resultsO sim nd [(st.tp, st.s)],
       (restartFile sim nd stride [(st.tp, st.s)]).foldl put1 st.disk.rst⟩ }, true) := by
    unfold saveState
    rw [if_neg (by simp [hmod]), if_neg (by simp [hm])]
    unfold saveResults
    have h1 := hser.save
    dsimp only at h1
    rw [if_neg (by simp [h1])]
    have hd1 := dump_init sim { st with disk := { st.disk with saved := st.disk.saved ++ [(st.tp, st.s)] } } nd t hn h0 he hb hs
    dsimp only at hd1 ⊢
    rw [hd1, if_pos rfl]
    have hr := dumpRestart_init sim { st with exp := expAt nd t, disk := ⟨st.disk.saved ++ [(st.tp, st.s)], st.disk.exported ++ resultsO sim nd [(st.tp, st.s)], st.disk.rst⟩ }
      nd stride t h0 hd rfl ha hs hser
    dsimp only at hr ⊢
    rw [hr]
  unfold solveProblem
  rw [hsave]
  dsimp only
  rw [if_neg (by simp)]
  obtain ⟨st', h1, h2⟩ := loop_run sim sd nd stride code (fun n h => (hn n h).1) hsd k ys t { st with exp := expAt nd t, adm := admAt stride t, disk :=
      ⟨st.disk.saved ++ [(st.tp, st.s)], st.disk.exported ++ resultsO sim nd [(st.tp, st.s)],
       (restartFile sim nd stride [(st.tp, st.s)]).foldl put1 st.disk.rst⟩ } h0 hst (by
        intro i z hz
        have := hnum (i+1) z (by simpa using hz)
        rw [this]; push_cast; omega) (fun z hz => hsav z (List.mem_cons_of_mem _ hz)) rfl rfl hb hend
  refine ⟨st', h1, h2.trans ?_⟩
  have e1 : restartFile sim nd stride ((st.tp, st.s) :: ys) = restartFile sim nd stride [(st.tp, st.s)] ++ restartFile sim nd stride ys :=
    restartFile_append sim nd stride [(st.tp, st.s)] ys
  rw [resultsO_cons sim nd (st.tp, st.s) ys, e1, List.foldl_append]
  simp only [List.append_assoc, List.singleton_append]

theorem mem_levelOf {l : Int} {e : Option Int} {d : List (String × δ)} {p : Int × String × Val δ} (h : p ∈ levelOf l e d) : p.1 = l := by
  unfold levelOf at h
  simp only [List.mem_append, List.mem_singleton, List.mem_map, Option.mem_toList, Option.map_eq_some_iff] at h
  rcases h with (rfl | ⟨a, _, rfl⟩) | ⟨a, _, rfl⟩ <;> rfl

theorem mem_restartFile {sim : Sim τ σ δ} {nd : Option Int} {stride : Int} {xs : List (τ × σ)} {p : Int × String × Val δ}
    (h : p ∈ restartFile sim nd stride xs) : ∃ x ∈ xs, 1 ≤ stride ∧ stride ∣ sim.step x.1 ∧ p.1 = sim.step x.1 / stride - 1 := by
  unfold restartFile at h
  split at h
  · simp at h
  · rename_i hs
    obtain ⟨x, hx, hp⟩ := List.mem_flatMap.1 h
    rw [List.mem_filter] at hx
    refine ⟨x, hx.1, by omega, ?_, mem_levelOf hp⟩
    have := hx.2
    simp only [decide_eq_true_eq] at this
    exact this.1

theorem levelOf_nodup (l : Int) (e : Option Int) (d : List (String × δ)) (h1 : (d.map Prod.fst).Nodup) (h2 : ∀ p ∈ d, p.1 ≠ "" ∧ p.1 ≠ "TimeLevel") :
    ((levelOf l e d).map fun p => (p.1, p.2.1)).Nodup := by
  have hd : (d.map fun p => (l, p.1)).Nodup := by
    have : (d.map fun p => (l, p.1)) = (d.map Prod.fst).map fun s => (l, s) := by rw [List.map_map]; rfl
    rw [this]
    exact h1.map fun a b h => by simpa using h
  have hc : (("TimeLevel" : String) = "") = False := by decide
  unfold levelOf
  cases e with
  | none =>
    simp only [Option.map_none, Option.toList_none, List.append_nil, List.singleton_append, List.map_cons, List.map_map, Function.comp_def, List.nodup_cons]
    refine ⟨?_, hd⟩
    simp only [List.mem_map, Prod.mk.injEq, true_and, not_exists, not_and]
    exact fun p hp => (h2 p hp).1
  | some a =>
    simp only [Option.map_some, Option.toList_some, List.cons_append, List.nil_append, List.map_cons, List.map_map, Function.comp_def, List.nodup_cons, List.mem_cons]
    refine ⟨?_, ?_, hd⟩
    · simp only [List.mem_map, Prod.mk.injEq, true_and, not_or, not_exists, not_and]
      exact ⟨by decide, fun p hp => (h2 p hp).1⟩
    · simp only [List.mem_map, Prod.mk.injEq, true_and, not_exists, not_and]
      exact fun p hp => (h2 p hp).2

theorem restartFile_nodup (sim : Sim τ σ δ) (nd : Option Int) (stride : Int) (xs : List (τ × σ)) (hsav : ∀ x ∈ xs, Savable sim x)
    (hinc : xs.Pairwise fun x y => sim.step x.1 < sim.step y.1) : ((restartFile sim nd stride xs).map fun p => (p.1, p.2.1)).Nodup := by
  induction xs with
  | nil =>
    unfold restartFile
    split <;> simp
  | cons x xs ih =>
    have e1 : restartFile sim nd stride (x :: xs) = restartFile sim nd stride [x] ++ restartFile sim nd stride xs := restartFile_append sim nd stride [x] xs
    rw [List.pairwise_cons] at hinc
    rw [e1, List.map_append, List.nodup_append]
    refine ⟨?_, ih (fun y hy => hsav y (List.mem_cons_of_mem _ hy)) hinc.2, ?_⟩
    · unfold restartFile
      split
      · simp
      · rw [List.filter_cons]
        split
        · obtain ⟨d, hd, h1, h2⟩ := (hsav x (by simp)).ser
          simp only [List.filter_nil, List.flatMap_cons, List.flatMap_nil, List.append_nil, hd, Option.getD_some]
          exact levelOf_nodup _ _ _ h1 h2
        · simp
    · intro a ha b hb hab
      obtain ⟨p, hp, rfl⟩ := List.mem_map.1 ha
      obtain ⟨q, hq, rfl⟩ := List.mem_map.1 hb
      obtain ⟨x', hx', hs, hd, he⟩ := mem_restartFile hp
      obtain ⟨y, hy, _, hd2, he2⟩ := mem_restartFile hq
      simp only [List.mem_singleton] at hx'
      subst hx'
      have hlt := hinc.1 y hy
      have := congrArg Prod.fst hab
      dsimp only at this
      have e3 := Int.ediv_mul_cancel hd
      have e4 := Int.ediv_mul_cancel hd2
      rw [show sim.step x'.1 / stride = sim.step y.1 / stride by omega] at e3
      omega

theorem pairwise_steps {sim : Sim τ σ δ} {xs : List (τ × σ)} {t : Int} (h : ∀ (i : Nat) x, xs[i]? = some x → sim.step x.1 = t + i) :
    xs.Pairwise fun x y => sim.step x.1 < sim.step y.1 := by
  rw [List.pairwise_iff_getElem]
  intro i j hi hj hij
  rw [h i _ (List.getElem?_eq_getElem hi), h j _ (List.getElem?_eq_getElem hj)]
  omega

end IFEM.Drv
