import Verif.Spec.Driver
import Mathlib.Tactic.Common
import Mathlib.Data.List.Nodup
/-!
# Lemmas: the time stepping driver
-/
namespace IFEM.Drv
variable {τ σ δ : Type}

/-- Exporter after step `t`. -/
def expAt (nd : Option Int) (t : Int) : Option Exp := nd.map fun n => ⟨n, t / n, t / n * n⟩

/-- Restart handler after step `t`. -/
def admAt (stride t : Int) : Option Rst := if stride < 1 then none else some ⟨stride, t / stride - 1, t / stride * stride⟩

/-- The levels of the result file, if any. -/
def resultsO (sim : Sim τ σ δ) (nd : Option Int) (xs : List (τ × σ)) : List (Int × τ × σ) :=
  match nd with
  | none => []
  | some n => results sim n xs

theorem div_succ (n t : Int) (hn : 1 ≤ n) (h0 : 0 ≤ t) :
    (n ∣ t + 1 ∧ (t+1)/n = t/n + 1 ∧ ¬ t + 1 < t/n*n + n ∧ (t/n+1)*n = t+1) ∨ (¬ n ∣ t + 1 ∧ (t+1)/n = t/n ∧ t + 1 < t/n*n + n) := by
  have e1 := Int.mul_ediv_add_emod t n
  have e2 := Int.emod_nonneg t (show n ≠ 0 by omega)
  have e3 := Int.emod_lt_of_pos t (show 0 < n by omega)
  have e4 : t/n*n = n*(t/n) := Int.mul_comm _ _
  have e5 : (t/n+1)*n = n*(t/n) + n := by rw [Int.add_mul, e4]; omega
  by_cases h : t % n + 1 = n
  · left
    have hd : t + 1 = n * (t/n+1) := by rw [Int.mul_comm, e5]; omega
    refine ⟨⟨_, hd⟩, ?_, by omega, by omega⟩
    rw [hd, Int.mul_ediv_cancel_left _ (by omega)]
  · right
    have e6 : (t+1)/n = t/n := by
      have : t + 1 = (t % n + 1) + n * (t/n) := by omega
      rw [this, Int.add_mul_ediv_left _ _ (by omega), Int.ediv_eq_zero_of_lt (by omega) (by omega)]
      omega
    refine ⟨?_, e6, by omega⟩
    intro hd
    have := Int.ediv_mul_cancel hd
    rw [e6, e4] at this
    omega

theorem items_eq (l : Int) (e : Option Int) (d : List (String × δ)) : items l e d = levelOf l e d := by
  cases e <;> rfl

theorem dump_at (sim : Sim τ σ δ) (st : St τ σ δ) (nd : Option Int) (t : Int) (hn : ∀ n ∈ nd, 1 ≤ n) (h0 : 0 ≤ t)
    (he : st.exp = expAt nd t) (hb : st.bound = true) (hs : sim.step st.tp = t + 1) :
    dump sim st = ({ st with exp := expAt nd (t+1), disk := { st.disk with exported := st.disk.exported ++ resultsO sim nd [(st.tp, st.s)] } }, true) := by
  unfold dump
  cases nd with
  | none => rw [he]; simp [expAt, resultsO]; cases st; simp_all [expAt]
  | some n =>
    rw [he]
    have hn' := hn n rfl
    dsimp only [expAt, Option.map_some]
    have hp : 0 ≤ t / n * n := Int.mul_nonneg (Int.ediv_nonneg h0 (by omega)) (by omega)
    have hsk : Exp.skips ⟨n, t / n, t / n * n⟩ (t+1) = decide (t + 1 < t / n * n + n) := by
      unfold Exp.skips
      dsimp only
      rw [Int.max_eq_right hp]
      exact decide_eq_decide.2 ⟨fun h => h.2, fun h => ⟨by omega, h⟩⟩
    rw [hs, hsk]
    rcases div_succ n t hn' h0 with ⟨a, b, c, d⟩ | ⟨a, b, c⟩
    · rw [if_neg (by simp; omega), hb]
      simp only [if_true, resultsO, results, hs, List.filter_cons, a, decide_true, List.filter_nil, List.map_cons, List.map_nil]
      rw [b, d]
    · rw [if_pos (by simp; omega)]
      simp only [resultsO, results, hs, List.filter_cons, a, decide_false, List.filter_nil, List.map_nil]
      rw [b]
      cases st
      simp_all [expAt]

theorem dumpRestart_at (sim : Sim τ σ δ) (st : St τ σ δ) (nd : Option Int) (stride t : Int) (h0 : 0 ≤ t)
    (he : st.exp = expAt nd (t+1)) (ha : st.adm = admAt stride t) (hs : sim.step st.tp = t + 1) (hser : Savable sim (st.tp, st.s)) :
    dumpRestart sim st = { st with adm := admAt stride (t+1), disk := { st.disk with
      rst := (restartFile sim nd stride [(st.tp, st.s)]).foldl put1 st.disk.rst } } := by
  unfold dumpRestart
  by_cases hst : stride < 1
  · have : admAt stride t = none := if_pos hst
    have h2 : admAt stride (t+1) = none := if_pos hst
    rw [ha, this, h2]
    unfold restartFile
    rw [if_pos hst]
    cases st; simp_all
  · have : admAt stride t = some ⟨stride, t / stride - 1, t / stride * stride⟩ := if_neg hst
    have h2 : admAt stride (t+1) = some ⟨stride, (t+1) / stride - 1, (t+1) / stride * stride⟩ := if_neg hst
    rw [ha, this]
    dsimp only
    obtain ⟨d, hd, _⟩ := hser.ser
    dsimp only at hd
    unfold restartFile
    rw [if_neg hst]
    rcases div_succ stride t (by omega) h0 with ⟨a, b, c, e⟩ | ⟨a, b, c⟩
    · rw [hs, if_neg c, hd]
      simp only [List.filter_cons, List.filter_nil, hs, a, true_and]
      rw [if_pos (by simp; omega)]
      simp only [List.flatMap_cons, List.flatMap_nil, List.append_nil, hs, hd, Option.getD_some, h2, b, e]
      rw [he, items_eq]
      have : Option.map (fun x => x.level) (expAt nd (t+1)) = Option.map (fun n => (t+1)/n) nd := by
        unfold expAt; cases nd <;> rfl
      rw [this, show t/stride - 1 + 1 = t/stride + 1 - 1 by omega]
    · rw [hs, if_pos c]
      simp only [List.filter_cons, List.filter_nil, hs, a, false_and]
      rw [if_neg (by simp)]
      simp only [List.flatMap_nil, List.foldl_nil]
      rw [h2, b, ← this, ← ha]

theorem save_at (sim : Sim τ σ δ) (st : St τ σ δ) (nd : Option Int) (stride t : Int) (hn : ∀ n ∈ nd, 1 ≤ n) (h0 : 0 ≤ t)
    (he : st.exp = expAt nd t) (ha : st.adm = admAt stride t) (hb : st.bound = true) (hs : sim.step st.tp = t + 1) (hser : Savable sim (st.tp, st.s)) :
    saveState sim false true st = ({ st with exp := expAt nd (t+1), adm := admAt stride (t+1), disk :=
      ⟨st.disk.saved ++ [(st.tp, st.s)], st.disk.exported ++ resultsO sim nd [(st.tp, st.s)],
       (restartFile sim nd stride [(st.tp, st.s)]).foldl put1 st.disk.rst⟩ }, true) := by
  unfold saveState
  rw [if_neg (by simp), if_neg (by simp)]
  unfold saveResults
  have h1 := hser.save
  dsimp only at h1
  rw [if_neg (by simp [h1])]
  have hd := dump_at sim { st with disk := { st.disk with saved := st.disk.saved ++ [(st.tp, st.s)] } } nd t hn h0 he hb hs
  dsimp only at hd ⊢
  rw [hd, if_pos rfl]
  have hr := dumpRestart_at sim { st with exp := expAt nd (t+1), disk := ⟨st.disk.saved ++ [(st.tp, st.s)], st.disk.exported ++ resultsO sim nd [(st.tp, st.s)], st.disk.rst⟩ }
    nd stride t h0 rfl ha hs hser
  dsimp only at hr ⊢
  rw [hr]

theorem resultsO_cons (sim : Sim τ σ δ) (nd : Option Int) (x : τ × σ) (xs : List (τ × σ)) :
    resultsO sim nd (x :: xs) = resultsO sim nd [x] ++ resultsO sim nd xs := by
  cases nd with
  | none => rfl
  | some n => simp only [resultsO, results, ← List.map_append, ← List.filter_append, List.singleton_append]

theorem restartFile_append (sim : Sim τ σ δ) (nd : Option Int) (stride : Int) (xs ys : List (τ × σ)) :
    restartFile sim nd stride (xs ++ ys) = restartFile sim nd stride xs ++ restartFile sim nd stride ys := by
  unfold restartFile
  split
  · rfl
  · rw [List.filter_append, List.flatMap_append]

theorem steps_tail {sim : Sim τ σ δ} {x : τ × σ} {xs : List (τ × σ)} (h : Steps sim (x :: xs)) : Steps sim xs :=
  fun i a b ha hb => h (i+1) a b (by simpa using ha) (by simpa using hb)

theorem loop_step (sim : Sim τ σ δ) (sd : Bool) (n : Nat) (st : St τ σ δ) (y : τ × σ) (h : Step sim (st.tp, st.s) y) :
    loop sim sd (n+1) st = (let v := saveState sim false true { st with tp := y.1, s := y.2 }
      if !v.2 then some (4, v.1) else loop sim sd n v.1) := by
  have h1 := h.incr
  have h2 := h.adv
  have h3 := h.solve
  dsimp only at h1 h2 h3
  rw [loop]
  dsimp only
  rw [if_neg (by simp [h1]), if_neg (by simp [h2]), h3]
  dsimp only
  rw [if_neg (by simp)]

/-- The loop, when everything can be saved. -/
theorem loop_run (sim : Sim τ σ δ) (sd : Bool) (nd : Option Int) (stride : Int) (code : Int) (hn : ∀ n ∈ nd, 1 ≤ n) (hsd : sd = false ∨ code = 0) (k : Nat) :
    ∀ (ys : List (τ × σ)) (t : Int) (st : St τ σ δ), 0 ≤ t → Steps sim ((st.tp, st.s) :: ys) → (∀ (i : Nat) y, ys[i]? = some y → sim.step y.1 = t + 1 + i) →
      (∀ y ∈ ys, Savable sim y) → st.exp = expAt nd t → st.adm = admAt stride t → st.bound = true → Ends sim (ys.getLastD (st.tp, st.s)) code →
      ∃ st', loop sim sd (ys.length + 1 + k) st = some (code, st') ∧ st'.disk =
        ⟨st.disk.saved ++ ys, st.disk.exported ++ resultsO sim nd ys, (restartFile sim nd stride ys).foldl put1 st.disk.rst⟩ := by
  intro ys
  induction ys with
  | nil =>
    intro t st h0 _ _ _ _ _ _ hend
    have hdisk : st.disk = ⟨st.disk.saved ++ [], st.disk.exported ++ resultsO sim nd [], (restartFile sim nd stride []).foldl put1 st.disk.rst⟩ := by
      have e1 : resultsO sim nd [] = ([] : List (Int × τ × σ)) := by cases nd <;> rfl
      have e2 : restartFile sim nd stride [] = ([] : RFile δ) := by unfold restartFile; split <;> rfl
      rw [e1, e2, List.append_nil, List.append_nil]; rfl
    rw [← hdisk]
    simp only [List.length_nil, List.getLastD_nil] at hend ⊢
    rw [show 0 + 1 + k = k + 1 by omega, loop]
    dsimp only
    rcases hend with ⟨rfl, hs | hs⟩ | ⟨rfl, y, hy⟩
    · dsimp only at hs
      rw [if_pos (by simp [hs])]
      exact ⟨_, rfl, rfl⟩
    · dsimp only at hs
      by_cases hi : (sim.incr st.tp).2 = true
      · rw [if_neg (by simp [hi]), if_pos (by simp [hs])]
        exact ⟨_, rfl, rfl⟩
      · rw [if_pos (by simp [hi])]
        exact ⟨_, rfl, rfl⟩
    · have h1 := hy.incr
      have h2 := hy.adv
      have h3 := hy.solve
      dsimp only at h1 h2 h3
      rw [if_neg (by simp [h1]), if_neg (by simp [h2]), h3]
      dsimp only
      rw [if_pos (by simp)]
      rcases hsd with hsd | hsd
      · rw [hsd, if_neg (by simp), if_neg (by simp)]
        exact ⟨_, rfl, rfl⟩
      · omega
  | cons y ys ih =>
    intro t st h0 hst hnum hsav he ha hb hend
    have hstep := hst 0 _ y rfl rfl
    rw [show (y :: ys).length + 1 + k = (ys.length + 1 + k) + 1 by simp; omega, loop_step sim sd _ st y hstep]
    have hy := hnum 0 y rfl
    rw [save_at sim { st with tp := y.1, s := y.2 } nd stride t hn h0 he ha hb (by simpa using hy) (hsav y (by simp))]
    dsimp only
    rw [if_neg (by simp)]
    obtain ⟨st', h1, h2⟩ := ih (t+1) { st with tp := y.1, s := y.2, exp := expAt nd (t+1), adm := admAt stride (t+1), disk :=
      ⟨st.disk.saved ++ [(y.1, y.2)], st.disk.exported ++ resultsO sim nd [(y.1, y.2)],
       (restartFile sim nd stride [(y.1, y.2)]).foldl put1 st.disk.rst⟩ } (by omega) (steps_tail hst) (by
        intro i z hz
        have := hnum (i+1) z (by simpa using hz)
        rw [this]; push_cast; omega) (fun z hz => hsav z (List.mem_cons_of_mem _ hz)) rfl rfl hb (by
        rw [List.getLastD_cons] at hend
        exact hend)
    refine ⟨st', h1, h2.trans ?_⟩
    have e1 : restartFile sim nd stride (y :: ys) = restartFile sim nd stride [y] ++ restartFile sim nd stride ys := restartFile_append sim nd stride [y] ys
    rw [resultsO_cons sim nd y ys, e1, List.foldl_append]
    simp only [List.append_assoc, List.singleton_append]

/-- Writing again what is in the file, and then the rest, completes the file: a file cut off after `j` items and then written from
item `i ≤ j` on is the complete file. -/
theorem put_again (F : RFile δ) (hF : (F.map fun p => (p.1, p.2.1)).Nodup) (i j : Nat) (hij : i ≤ j) :
    (F.drop i).foldl put1 (F.take j) = F := by
  have key1 : ∀ (L G : RFile δ), (∀ p ∈ L, p ∈ G) → L.foldl put1 G = G := by
    intro L
    induction L with
    | nil => intro G _; rfl
    | cons p L ih =>
      intro G h
      have : put1 G p = G := if_pos (List.any_eq_true.2 ⟨p, h p (by simp), by simp⟩)
      rw [List.foldl_cons, this]
      exact ih G fun q hq => h q (by simp [hq])
  have key2 : ∀ (L G : RFile δ), ((G ++ L).map fun p => (p.1, p.2.1)).Nodup → L.foldl put1 G = G ++ L := by
    intro L
    induction L with
    | nil => intro G _; simp
    | cons p L ih =>
      intro G h
      have hp : put1 G p = G ++ [p] := by
        refine if_neg ?_
        intro ha
        obtain ⟨q, hq, hqp⟩ := List.any_eq_true.1 ha
        simp only [Bool.and_eq_true, beq_iff_eq] at hqp
        rw [List.map_append, List.nodup_append] at h
        exact h.2.2 _ (List.mem_map_of_mem hq) _ (List.mem_map_of_mem (List.mem_cons_self (a := p))) (by rw [hqp.1, hqp.2])
      rw [List.foldl_cons, hp, ih (G ++ [p]) (by simpa using h)]
      simp
  have e : F.drop i = (F.drop i).take (j - i) ++ F.drop j := by
    conv_lhs => rw [← List.take_append_drop (j - i) (F.drop i)]
    rw [List.drop_drop, show i + (j - i) = j by omega]
  rw [e, List.foldl_append, key1 ((F.drop i).take (j-i)), key2 _ _ (by rw [List.take_append_drop]; exact hF), List.take_append_drop]
  intro p hp
  have : (F.drop i).take (j - i) = (F.take j).drop i := by rw [List.drop_take]
  rw [this] at hp
  exact List.mem_of_mem_drop hp

end IFEM.Drv
