import Verif.Props.Driver
/-!
# C75: outcomes of the driver
-/
namespace IFEM.Props
open Drv
variable {τ σ δ : Type}

/-- Saving a state, in any case. -/
theorem saveResults_cases (sim : Sim τ σ δ) (st : St τ σ δ) :
    (sim.save st.tp st.s = false ∧ saveResults sim st = (st, false)) ∨
    (sim.save st.tp st.s = true ∧ (saveResults sim st).1.disk.saved = st.disk.saved ++ [(st.tp, st.s)] ∧
      (saveResults sim st).1.tp = st.tp ∧ (saveResults sim st).1.s = st.s ∧ (saveResults sim st).1.bound = st.bound ∧
      (saveResults sim st).1.exp.isSome = st.exp.isSome ∧ ((saveResults sim st).2 = false → st.bound = false ∧ st.exp.isSome = true)) := by
  by_cases h : sim.save st.tp st.s = true
  · right
    refine ⟨h, ?_⟩
    have hR : ∀ s1 : St τ σ δ, (dumpRestart sim s1).disk.saved = s1.disk.saved ∧ (dumpRestart sim s1).tp = s1.tp ∧ (dumpRestart sim s1).s = s1.s ∧
        (dumpRestart sim s1).bound = s1.bound ∧ (dumpRestart sim s1).exp = s1.exp := by
      intro s1
      unfold dumpRestart
      split
      · exact ⟨rfl, rfl, rfl, rfl, rfl⟩
      · split
        · exact ⟨rfl, rfl, rfl, rfl, rfl⟩
        · split <;> exact ⟨rfl, rfl, rfl, rfl, rfl⟩
    have hD : ∀ s1 : St τ σ δ, (dump sim s1).1.disk.saved = s1.disk.saved ∧ (dump sim s1).1.tp = s1.tp ∧ (dump sim s1).1.s = s1.s ∧
        (dump sim s1).1.bound = s1.bound ∧ (dump sim s1).1.exp.isSome = s1.exp.isSome ∧ ((dump sim s1).2 = false → s1.bound = false ∧ s1.exp.isSome = true) := by
      intro s1
      unfold dump
      split
      · rename_i he; exact ⟨rfl, rfl, rfl, rfl, rfl, fun h => by simp at h⟩
      · rename_i E he
        split
        · exact ⟨rfl, rfl, rfl, rfl, rfl, fun h => by simp at h⟩
        · dsimp only
          split
          · exact ⟨rfl, rfl, rfl, rfl, by rw [he]; rfl, fun h => by simp at h⟩
          · rename_i hb
            exact ⟨rfl, rfl, rfl, rfl, by rw [he]; rfl, fun _ => ⟨by simpa using hb, by rw [he]; rfl⟩⟩
    unfold saveResults
    rw [if_neg (by simp [h])]
    dsimp only
    obtain ⟨d1, d2, d3, d4, d5, d6⟩ := hD { st with disk := { st.disk with saved := st.disk.saved ++ [(st.tp, st.s)] } }
    dsimp only at d1 d2 d3 d4 d5 d6
    by_cases hd : (dump sim { st with disk := { st.disk with saved := st.disk.saved ++ [(st.tp, st.s)] } }).2 = true
    · rw [if_pos hd]
      obtain ⟨r1, r2, r3, r4, r5⟩ := hR (dump sim { st with disk := { st.disk with saved := st.disk.saved ++ [(st.tp, st.s)] } }).1
      exact ⟨r1.trans d1, r2.trans d2, r3.trans d3, r4.trans d4, by rw [r5]; exact d5, fun h => by simp at h⟩
    · rw [if_neg hd]
      exact ⟨d1, d2, d3, d4, d5, fun _ => d6 (by simpa using hd)⟩
  · left
    refine ⟨by simpa using h, ?_⟩
    unfold saveResults
    rw [if_pos (by simp [h])]

/-- How a run can end after the states `x :: ys` have been handled: exit code, and the steps saved after `init`. -/
inductive Outcome (sim : Sim τ σ δ) (sd noData : Bool) (x : τ × σ) (init : List (τ × σ)) : Int → List (τ × σ) → Prop
  | stopped (ys) : Steps sim (x :: ys) → (∀ y ∈ ys, sim.save y.1 y.2 = true) → Stops sim (ys.getLastD x) → Outcome sim sd noData x init 0 (init ++ ys)
  | diverged (ys y) : Steps sim (x :: ys) → (∀ y ∈ ys, sim.save y.1 y.2 = true) → Fails sim (ys.getLastD x) y →
      (sd = true → sim.save y.1 y.2 = true) → Outcome sim sd noData x init 3 (init ++ ys ++ if sd then [y] else [])
  | unsavedDiverged (ys y) : Steps sim (x :: ys) → (∀ y ∈ ys, sim.save y.1 y.2 = true) → Fails sim (ys.getLastD x) y →
      sd = true → sim.save y.1 y.2 = false → Outcome sim sd noData x init 4 (init ++ ys)
  | unsaved (ys y) : Steps sim (x :: ys) → (∀ y ∈ ys, sim.save y.1 y.2 = true) → Step sim (ys.getLastD x) y →
      sim.save y.1 y.2 = false → Outcome sim sd noData x init 4 (init ++ ys)
  | unwritten (ys y) : Steps sim (x :: ys) → (∀ y ∈ ys, sim.save y.1 y.2 = true) → Step sim (ys.getLastD x) y →
      sim.save y.1 y.2 = true → noData = true → Outcome sim sd noData x init 4 (init ++ (ys ++ [y]))

theorem steps_one (sim : Sim τ σ δ) (x : τ × σ) : Steps sim [x] := fun i a b _ hb => by simp at hb

theorem steps_cons {sim : Sim τ σ δ} {x y : τ × σ} {ys : List (τ × σ)} (h : Step sim x y) (hs : Steps sim (y :: ys)) : Steps sim (x :: y :: ys) := by
  intro i a b ha hb
  cases i with
  | zero => simp only [List.getElem?_cons_zero, Option.some.injEq, List.getElem?_cons_succ, Nat.zero_add] at ha hb; subst ha; subst hb; exact h
  | succ i => exact hs i a b (by simpa using ha) (by simpa using hb)

theorem outcome_cons {sim : Sim τ σ δ} {sd nb : Bool} {x y : τ × σ} {init : List (τ × σ)} {c : Int} {sv : List (τ × σ)} (h : Step sim x y)
    (hy : sim.save y.1 y.2 = true) (ho : Outcome sim sd nb y (init ++ [y]) c sv) : Outcome sim sd nb x init c sv := by
  have hm : ∀ ys : List (τ × σ), (∀ y ∈ ys, sim.save y.1 y.2 = true) → ∀ w ∈ y :: ys, sim.save w.1 w.2 = true := by
    intro ys hys w hw
    rcases List.mem_cons.1 hw with rfl | hw
    · exact hy
    · exact hys w hw
  have hl : ∀ ys : List (τ × σ), (y :: ys).getLastD x = ys.getLastD y := fun ys => List.getLastD_cons ..
  cases ho with
  | stopped ys a b d =>
    rw [List.append_assoc]
    exact Outcome.stopped (y :: ys) (steps_cons h a) (hm ys b) (by rw [hl]; exact d)
  | diverged ys w a b d e =>
    have := Outcome.diverged (init := init) (noData := nb) (y :: ys) w (steps_cons h a) (hm ys b) (by rw [hl]; exact d) e
    simpa using this
  | unsavedDiverged ys w a b d e f =>
    rw [List.append_assoc]
    exact Outcome.unsavedDiverged (y :: ys) w (steps_cons h a) (hm ys b) (by rw [hl]; exact d) e f
  | unsaved ys w a b d e =>
    rw [List.append_assoc]
    exact Outcome.unsaved (y :: ys) w (steps_cons h a) (hm ys b) (by rw [hl]; exact d) e
  | unwritten ys w a b d e f =>
    rw [List.append_assoc]
    exact Outcome.unwritten (y :: ys) w (steps_cons h a) (hm ys b) (by rw [hl]; exact d) e f

theorem loop_outcome (sim : Sim τ σ δ) (sd : Bool) : ∀ (n : Nat) (st : St τ σ δ) (c : Int) (st' : St τ σ δ), loop sim sd n st = some (c, st') →
    Outcome sim sd (st.exp.isSome && !st.bound) (st.tp, st.s) st.disk.saved c st'.disk.saved := by
  intro n
  induction n with
  | zero => intro st c st' h; simp [loop] at h
  | succ n ih =>
    intro st c st' h
    have h1n : Steps sim [(st.tp, st.s)] := steps_one sim _
    have h2n : ∀ y ∈ ([] : List (τ × σ)), sim.save y.1 y.2 = true := fun y hy => by simp at hy
    rw [loop] at h
    dsimp only at h
    by_cases h1 : (sim.incr st.tp).2 = true
    · rw [if_neg (by simp [h1])] at h
      by_cases h2 : (sim.adv (sim.incr st.tp).1 st.s).2.2 = true
      · rw [if_neg (by simp [h2])] at h
        obtain ⟨y1, y2, ok, hr⟩ : ∃ y1 y2 ok, sim.solve (sim.adv (sim.incr st.tp).1 st.s).1 (sim.adv (sim.incr st.tp).1 st.s).2.1 = (y1, y2, ok) := ⟨_, _, _, rfl⟩
        rw [hr] at h
        dsimp only at h
        cases ok with
        | false =>
          have hF : Fails sim (st.tp, st.s) (y1, y2) := ⟨h1, h2, hr⟩
          rw [if_pos (by simp)] at h
          cases sd with
          | false =>
            rw [if_neg (by simp), if_neg (by simp)] at h
            cases Option.some.inj h
            have := Outcome.diverged (sim := sim) (sd := false) (noData := st.exp.isSome && !st.bound) (x := (st.tp, st.s)) (init := st.disk.saved) [] (y1, y2) h1n h2n hF (by simp)
            simpa using this
          | true =>
            by_cases h3 : sim.save y1 y2 = true
            · rw [if_neg (by simp [h3]), if_pos rfl] at h
              cases Option.some.inj h
              have := Outcome.diverged (sim := sim) (sd := true) (noData := st.exp.isSome && !st.bound) (x := (st.tp, st.s)) (init := st.disk.saved) [] (y1, y2) h1n h2n hF (fun _ => h3)
              simpa using this
            · rw [if_pos (by simp [h3])] at h
              cases Option.some.inj h
              have := Outcome.unsavedDiverged (sim := sim) (sd := true) (noData := st.exp.isSome && !st.bound) (x := (st.tp, st.s)) (init := st.disk.saved) [] (y1, y2) h1n h2n hF rfl (by simpa using h3)
              simpa using this
        | true =>
          have hS : Step sim (st.tp, st.s) (y1, y2) := ⟨h1, h2, hr⟩
          rw [if_neg (by simp)] at h
          have hss : saveState sim false true { st with tp := y1, s := y2 } = saveResults sim { st with tp := y1, s := y2 } := by
            unfold saveState
            rw [if_neg (by simp), if_neg (by simp)]
          rw [hss] at h
          rcases saveResults_cases sim { st with tp := y1, s := y2 } with ⟨a, b⟩ | ⟨a, b, b1, b2, b3, b4, b5⟩
          · rw [b, if_pos (by simp)] at h
            cases Option.some.inj h
            have := Outcome.unsaved (sim := sim) (sd := sd) (noData := st.exp.isSome && !st.bound) (x := (st.tp, st.s)) (init := st.disk.saved) [] (y1, y2) h1n h2n hS a
            simpa using this
          · dsimp only at a b b1 b2 b3 b4 b5
            by_cases h4 : (saveResults sim { st with tp := y1, s := y2 }).2 = true
            · rw [if_neg (by simp [h4])] at h
              have := ih _ c st' h
              rw [b, b1, b2, b3, b4] at this
              exact outcome_cons hS a this
            · rw [if_pos (by simp [h4])] at h
              cases Option.some.inj h
              obtain ⟨b6, b7⟩ := b5 (by simpa using h4)
              have := Outcome.unwritten (sim := sim) (sd := sd) (noData := st.exp.isSome && !st.bound) (x := (st.tp, st.s)) (init := st.disk.saved) [] (y1, y2) h1n h2n hS a (by rw [b6, b7]; rfl)
              rw [b]
              simpa using this
      · rw [if_pos (by simp [h2])] at h
        cases Option.some.inj h
        have := Outcome.stopped (sim := sim) (sd := sd) (noData := st.exp.isSome && !st.bound) (x := (st.tp, st.s)) (init := st.disk.saved) [] h1n h2n (Or.inr (by simpa using h2))
        simpa using this
    · rw [if_pos (by simp [h1])] at h
      cases Option.some.inj h
      have := Outcome.stopped (sim := sim) (sd := sd) (noData := st.exp.isSome && !st.bound) (x := (st.tp, st.s)) (init := st.disk.saved) [] h1n h2n (Or.inl (by simpa using h1))
      simpa using this

/-- **C75**, exit codes: in any run that ends, the code is 2 when the model or the initial state could not be saved, and otherwise 0 when there is
no further step, 3 when a step could not be solved and 4 when one could not be saved, and all steps carried out before have been
saved, in order, after the initial state of a multi-step simulation. -/
theorem C75_outcome (sim : Sim τ σ δ) (sd : Bool) (n : Nat) (st : St τ σ δ) (c : Int) (st' : St τ σ δ) (h : solveProblem sim sd n st = some (c, st')) :
    (c = 2 ∧ (sim.saveModel st.s = false ∨ sim.multi st.tp = true ∧ (sim.save st.tp st.s = false ∨ st.exp.isSome = true ∧ st.bound = false))) ∨
    (sim.saveModel st.s = true ∧ (sim.multi st.tp = true → sim.save st.tp st.s = true) ∧
      Outcome sim sd (st.exp.isSome && !st.bound) (st.tp, st.s) (st.disk.saved ++ if sim.multi st.tp then [(st.tp, st.s)] else []) c st'.disk.saved) := by
  unfold solveProblem at h
  dsimp only at h
  by_cases h1 : sim.saveModel st.s = true
  · by_cases h2 : sim.multi st.tp = true
    · have hss : saveState sim true (sim.multi st.tp) st = saveResults sim st := by
        unfold saveState
        rw [if_neg (by simp [h1]), if_neg (by simp [h2])]
      rw [hss] at h
      rcases saveResults_cases sim st with ⟨a, b⟩ | ⟨a, b, b1, b2, b3, b4, b5⟩
      · rw [b, if_pos (by simp)] at h
        cases Option.some.inj h
        exact Or.inl ⟨rfl, Or.inr ⟨h2, Or.inl a⟩⟩
      · by_cases h4 : (saveResults sim st).2 = true
        · rw [if_neg (by simp [h4])] at h
          have := loop_outcome sim sd n _ c st' h
          rw [b, b1, b2, b3, b4] at this
          refine Or.inr ⟨h1, fun _ => a, ?_⟩
          rw [if_pos h2]
          exact this
        · rw [if_pos (by simp [h4])] at h
          cases Option.some.inj h
          have := b5 (by simpa using h4)
          exact Or.inl ⟨rfl, Or.inr ⟨h2, Or.inr ⟨this.2, this.1⟩⟩⟩
    · have hss : saveState sim true (sim.multi st.tp) st = (st, true) := by
        unfold saveState
        rw [if_neg (by simp [h1]), if_pos (by simp [h2])]
      rw [hss, if_neg (by simp)] at h
      have := loop_outcome sim sd n _ c st' h
      refine Or.inr ⟨h1, fun h => absurd h h2, ?_⟩
      rw [if_neg h2, List.append_nil]
      exact this
  · have hss : saveState sim true (sim.multi st.tp) st = (st, false) := by
      unfold saveState
      rw [if_pos (by simp [h1])]
    rw [hss, if_pos (by simp)] at h
    cases Option.some.inj h
    exact Or.inl ⟨rfl, Or.inl (by simpa using h1)⟩

/-- **C75**, stationary driver: the exit code tells which of saving the model, solving, saving the results and writing the result file failed
first, and nothing is written after that. -/
theorem C75_stationary (sim : Sim τ σ δ) (tp : τ) (s : σ) (exp : Option Exp) (bound : Bool) (levels : List Int) (y : τ × σ) (ok : Bool)
    (hs : sim.solve tp s = (y.1, y.2, ok)) :
    let r := solveStat sim tp s exp bound levels
    (r.1 = 1 ↔ sim.saveModel s = false) ∧
    (r.1 = 2 ↔ sim.saveModel s = true ∧ ok = false) ∧
    (r.1 = 4 ↔ sim.saveModel s = true ∧ ok = true ∧ sim.save y.1 y.2 = false) ∧
    (r.1 = 5 ↔ sim.saveModel s = true ∧ ok = true ∧ sim.save y.1 y.2 = true ∧ exp.isSome = true ∧ bound = false) ∧
    (r.1 = 0 ↔ sim.saveModel s = true ∧ ok = true ∧ sim.save y.1 y.2 = true ∧ (exp.isSome = true → bound = true)) ∧
    (r.2.saved = if r.1 = 0 ∨ r.1 = 5 then [y] else []) ∧
    (r.2.exported.map Prod.snd = if r.1 = 0 ∧ exp.isSome = true then [y] else []) ∧ r.2.rst = [] := by
  dsimp only
  unfold solveStat
  rw [hs]
  dsimp only
  by_cases h1 : sim.saveModel s = true <;> simp only [h1, Bool.not_true, Bool.not_false, Bool.false_eq_true, if_false, if_true]
  · cases ok <;> simp only [Bool.not_true, Bool.not_false, Bool.false_eq_true, if_false, if_true]
    · simp
    · by_cases h2 : sim.save y.1 y.2 = true <;> simp only [h2, Bool.not_true, Bool.not_false, Bool.false_eq_true, if_false, if_true]
      · cases exp with
        | none => simp
        | some E => cases bound <;> simp
      · simp
  · simp

/-- **C75**, latest state: with a restart level zero (or negative), the restart is done from the last level in the file. -/
theorem C75_latest (sim : Sim τ σ δ) (file : RFile δ) (tp : τ) (s : σ) (m : Int) (hm : m ≤ 0) (L : Int) (h0 : 0 ≤ L) (hL : ∃ p ∈ file, p.1 = L) (hall : ∀ p ∈ file, p.1 ≤ L) :
    restart sim file m tp s = restart sim file (L+1) tp s := by
  have key : ∀ (G : RFile δ) (a : Int), a ≤ L → (∀ p ∈ G, p.1 ≤ L) → (a = L ∨ ∃ p ∈ G, p.1 = L) →
      G.foldl (fun l p => if p.1 > l then p.1 else l) a = L := by
    intro G
    induction G with
    | nil => intro a _ _ h; rcases h with h | ⟨p, hp, _⟩
             · exact h
             · simp at hp
    | cons q G ih =>
      intro a ha hG h
      rw [List.foldl_cons]
      have hq := hG q (by simp)
      have hG' : ∀ p ∈ G, p.1 ≤ L := fun p hp => hG p (by simp [hp])
      by_cases h1 : q.1 > a
      · rw [if_pos h1]
        refine ih _ hq hG' ?_
        rcases h with h | ⟨p, hp, hpl⟩
        · omega
        · rcases List.mem_cons.1 hp with rfl | hp
          · exact Or.inl hpl
          · exact Or.inr ⟨p, hp, hpl⟩
      · rw [if_neg h1]
        refine ih _ ha hG' ?_
        rcases h with h | ⟨p, hp, hpl⟩
        · exact Or.inl h
        · rcases List.mem_cons.1 hp with rfl | hp
          · left; omega
          · exact Or.inr ⟨p, hp, hpl⟩
  have hr : readLevel file (m-1) = L := by
    unfold readLevel
    rw [if_pos (by omega)]
    exact key file _ (by omega) hall (Or.inr hL)
  have hr2 : readLevel file (L+1-1) = L := by
    unfold readLevel
    rw [if_neg (by omega)]; omega
  unfold restart readData
  rw [hr, hr2]

/-- **C75**, refused restarts: without data of the wanted level the return value is `-1` and nothing is changed; if the data cannot be restored, it is `-2` and the levels of the
files are left at zero; otherwise it is the zero-based number of the level read, which is where the levels of the restart file continue. -/
theorem C75_restart_codes (sim : Sim τ σ δ) (file : RFile δ) (m : Int) (hm : 1 ≤ m) (tp : τ) (s : σ) :
    ((∀ p ∈ file, p.1 ≠ m - 1) → restart sim file m tp s = (-1, tp, s, 0, 0)) ∧
    ((∃ p ∈ file, p.1 = m - 1) → ∀ tp' s' ok, sim.deser (simData ((file.filter fun p => p.1 == m - 1).map Prod.snd)) tp s = (tp', s', ok) →
      (ok = false → restart sim file m tp s = (-2, tp', s', 0, 0)) ∧
      (ok = true → ∃ e, restart sim file m tp s = (m - 1, tp', s', e, m - 1))) := by
  have hr : readLevel file (m-1) = m - 1 := by
    unfold readLevel
    rw [if_neg (by omega)]
  unfold restart readData
  rw [hr]
  constructor
  · intro h
    rw [if_neg (by rw [List.any_eq_true]; rintro ⟨p, hp, hq⟩; exact h p hp (by simpa using hq))]
  · rintro ⟨p, hp, hq⟩ tp' s' ok hd
    rw [if_pos (by simpa using ⟨_, _, show (m - 1, p.2.1, p.2.2) ∈ file from hq ▸ hp⟩)]
    dsimp only
    rw [hd]
    constructor
    · rintro rfl; rfl
    · rintro rfl; exact ⟨_, rfl⟩

/-- **C75**, level of a stationary result: a fresh exporter continues after the lowest of the last levels in the files of its writers, or starts at level zero if
the files are empty; otherwise the next level is used. -/
theorem C75_stationary_level (sim : Sim τ σ δ) (tp : τ) (s : σ) (E : Exp) (levels : List Int) (h : (solveStat sim tp s (some E) true levels).1 = 0) :
    ∃ (l : Int) (x : τ × σ), (solveStat sim tp s (some E) true levels).2.exported = [(l, x)] ∧
      (0 ≤ E.level ∨ levels = [] → l = E.level + 1) ∧
      (E.level < 0 → levels ≠ [] → (∀ k ∈ levels, 0 ≤ k) → l - 1 ∈ levels ∧ ∀ k ∈ levels, l - 1 ≤ k) ∧
      (E.level < 0 → levels ≠ [] → (∀ k ∈ levels, k = -1) → l = 0) := by
  unfold solveStat at h ⊢
  split at h
  · simp at h
  rename_i h1
  rw [if_neg h1]
  dsimp only at h ⊢
  split at h
  · simp at h
  rename_i h2
  rw [if_neg h2]
  split at h
  · simp at h
  rename_i h3
  rw [if_neg h3, if_pos rfl]
  refine ⟨_, (_, _), rfl, ?_, ?_, ?_⟩
  · rintro (hE | hl)
    · rw [if_neg (by omega)]
    · subst hl
      rw [List.foldl_nil, ite_self]
  · intro hE hne hall
    have key : ∀ (ls : List Int) (a : Int), 0 ≤ a → (∀ k ∈ ls, 0 ≤ k) →
        (ls.foldl (fun l k => if k < l ∨ l < 0 then k else l) a = a ∨ ls.foldl (fun l k => if k < l ∨ l < 0 then k else l) a ∈ ls) ∧
        ls.foldl (fun l k => if k < l ∨ l < 0 then k else l) a ≤ a ∧ ∀ k ∈ ls, ls.foldl (fun l k => if k < l ∨ l < 0 then k else l) a ≤ k := by
      intro ls
      induction ls with
      | nil => intro a _ _; simp
      | cons k ls ih =>
        intro a ha hk
        rw [List.foldl_cons]
        have hk0 := hk k (by simp)
        by_cases hlt : k < a
        · rw [if_pos (Or.inl hlt)]
          obtain ⟨i1, i2, i3⟩ := ih k hk0 (fun q hq => hk q (by simp [hq]))
          refine ⟨Or.inr ?_, by omega, ?_⟩
          · rcases i1 with i1 | i1
            · rw [i1]; simp
            · exact List.mem_cons_of_mem _ i1
          · intro q hq
            rcases List.mem_cons.1 hq with rfl | hq
            · exact i2
            · exact i3 q hq
        · rw [if_neg (by omega)]
          obtain ⟨i1, i2, i3⟩ := ih a ha (fun q hq => hk q (by simp [hq]))
          refine ⟨?_, i2, ?_⟩
          · rcases i1 with i1 | i1
            · exact Or.inl i1
            · exact Or.inr (List.mem_cons_of_mem _ i1)
          · intro q hq
            rcases List.mem_cons.1 hq with rfl | hq
            · omega
            · exact i3 q hq
    cases levels with
    | nil => exact absurd rfl hne
    | cons k ls =>
      rw [if_pos hE, List.foldl_cons, if_pos (Or.inr hE)]
      obtain ⟨i1, i2, i3⟩ := key ls k (hall k (by simp)) (fun q hq => hall q (by simp [hq]))
      rw [Int.add_sub_cancel]
      refine ⟨?_, ?_⟩
      · rcases i1 with i1 | i1
        · rw [i1]; simp
        · exact List.mem_cons_of_mem _ i1
      · intro q hq
        rcases List.mem_cons.1 hq with rfl | hq
        · exact i2
        · exact i3 q hq
  · intro hE hne hall
    have key : ∀ (ls : List Int), (∀ k ∈ ls, k = -1) → ls.foldl (fun l k => if k < l ∨ l < 0 then k else l) (-1) = -1 := by
      intro ls
      induction ls with
      | nil => intro _; rfl
      | cons k ls ih =>
        intro hk
        rw [List.foldl_cons, if_pos (Or.inr (by omega)), hk k (by simp)]
        exact ih fun q hq => hk q (by simp [hq])
    cases levels with
    | nil => exact absurd rfl hne
    | cons k ls =>
      rw [if_pos hE, List.foldl_cons, if_pos (Or.inr hE), hall k (by simp), key ls fun q hq => hall q (by simp [hq])]
      rfl

theorem put_mem (L : RFile δ) (G : RFile δ) (p : Int × String × Val δ) (h : p ∈ G) : p ∈ L.foldl put1 G := by
  induction L generalizing G with
  | nil => exact h
  | cons q L ih =>
    rw [List.foldl_cons]
    refine ih _ ?_
    unfold put1
    split
    · exact h
    · exact List.mem_append_left _ h

theorem save_kept (sim : Sim τ σ δ) (a b : Bool) (st : St τ σ δ) (p : Int × String × Val δ) (h : p ∈ st.disk.rst) : p ∈ (saveState sim a b st).1.disk.rst := by
  have hD : ∀ s1 : St τ σ δ, (dump sim s1).1.disk.rst = s1.disk.rst := by
    intro s1
    unfold dump
    split
    · rfl
    · split
      · rfl
      · dsimp only; split <;> rfl
  have hR : ∀ s1 : St τ σ δ, p ∈ s1.disk.rst → p ∈ (dumpRestart sim s1).disk.rst := by
    intro s1 h1
    unfold dumpRestart
    split
    · exact h1
    · split
      · exact h1
      · split
        · exact h1
        · exact put_mem _ _ p h1
  unfold saveState
  split
  · exact h
  · split
    · exact h
    · unfold saveResults
      split
      · exact h
      · dsimp only
        split
        · refine hR _ ?_
          rw [hD]; exact h
        · rw [hD]; exact h

/-- **C75**, kept restart data: whatever is in the restart file when a run starts is there when it ends (so restart data of an earlier
simulation is never replaced). -/
theorem C75_kept (sim : Sim τ σ δ) (sd : Bool) (n : Nat) (st : St τ σ δ) (c : Int) (st' : St τ σ δ) (h : solveProblem sim sd n st = some (c, st'))
    (p : Int × String × Val δ) (hp : p ∈ st.disk.rst) : p ∈ st'.disk.rst := by
  have hloop : ∀ (n : Nat) (st : St τ σ δ), p ∈ st.disk.rst → loop sim sd n st = some (c, st') → p ∈ st'.disk.rst := by
    intro n
    induction n with
    | zero => intro st _ h; simp [loop] at h
    | succ n ih =>
      intro st hp h
      rw [loop] at h
      dsimp only at h
      by_cases h1 : (sim.incr st.tp).2 = true
      · rw [if_neg (by simp [h1])] at h
        by_cases h2 : (sim.adv (sim.incr st.tp).1 st.s).2.2 = true
        · rw [if_neg (by simp [h2])] at h
          by_cases h3 : (sim.solve (sim.adv (sim.incr st.tp).1 st.s).1 (sim.adv (sim.incr st.tp).1 st.s).2.1).2.2 = true
          · rw [if_neg (by simp [h3])] at h
            obtain ⟨y1, hy1⟩ : ∃ y1, (sim.solve (sim.adv (sim.incr st.tp).1 st.s).1 (sim.adv (sim.incr st.tp).1 st.s).2.1).1 = y1 := ⟨_, rfl⟩
            obtain ⟨y2, hy2⟩ : ∃ y2, (sim.solve (sim.adv (sim.incr st.tp).1 st.s).1 (sim.adv (sim.incr st.tp).1 st.s).2.1).2.1 = y2 := ⟨_, rfl⟩
            rw [hy1, hy2] at h
            have hk := save_kept sim false true { st with tp := y1, s := y2 } p hp
            by_cases h4 : (saveState sim false true { st with tp := y1, s := y2 }).2 = true
            · rw [if_neg (by simp [h4])] at h
              exact ih _ hk h
            · rw [if_pos (by simp [h4])] at h
              cases Option.some.inj h
              exact hk
          · rw [if_pos (by simp [h3])] at h
            split at h
            · cases Option.some.inj h; exact hp
            · split at h <;> (cases Option.some.inj h; exact hp)
        · rw [if_pos (by simp [h2])] at h
          cases Option.some.inj h; exact hp
      · rw [if_pos (by simp [h1])] at h
        cases Option.some.inj h; exact hp
  unfold solveProblem at h
  dsimp only at h
  split at h
  · cases Option.some.inj h
    exact save_kept sim true _ st p hp
  · exact hloop n _ (save_kept sim true _ st p hp) h

end IFEM.Props
