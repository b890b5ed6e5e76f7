import Verif.Lemmas.TimeReset
import Verif.Spec.DriverTS
/-!
# A time stepping with a step table is a clock that can be set back
-/
namespace IFEM.TimeStep
open IFEM.Spec
variable {K : Type} [Field K] [LinearOrder K]

/-- The uninterrupted sequence of states. -/
def canon (s0 : TimeStep K) : Nat → TimeStep K
  | 0 => s0
  | k + 1 => (canon s0 k).increment.1

/-- The first `m` steps are all started. -/
def Valid (s0 : TimeStep K) (m : Nat) : Prop := ∀ j, j < m → (canon s0 j).increment.2 = true

/-- The parameters which never change. -/
structure SameSetup (a b : TimeStep K) : Prop where
  stop : b.stopTime = a.stopTime
  star : b.starTime = a.starTime
  cfl : b.maxCFL = a.maxCFL
  init : b.nInitStep = a.nInitStep
  maxStep : b.maxStep = a.maxStep
  dtMin : b.dtMin = a.dtMin
  dtMax : b.dtMax = a.dtMax
  f1 : b.f1 = a.f1
  f2 : b.f2 = a.f2

/-- At step `k`, with the table of step `m`. -/
def atStep (s0 : TimeStep K) (m k : Nat) (tp : TimeStep K) : Prop :=
  Valid s0 m ∧ k ≤ m ∧ ∃ i n f c, tp = relabel i n f c (retab (canon s0 m).mySteps (canon s0 k))

/-- The time of step `k`, with the table of step `m`. -/
structure atTime (s0 : TimeStep K) (m k : Nat) (tp : TimeStep K) : Prop where
  valid : Valid s0 m
  le : k ≤ m
  step : tp.step = k
  time : tp.t = (canon s0 k).t
  table : tp.mySteps = (canon s0 m).mySteps
  setup : SameSetup s0 tp

theorem SameSetup.refl (a : TimeStep K) : SameSetup a a := ⟨rfl, rfl, rfl, rfl, rfl, rfl, rfl, rfl, rfl⟩

theorem SameSetup.trans {a b c : TimeStep K} (h : SameSetup a b) (h' : SameSetup b c) : SameSetup a c :=
  ⟨h'.stop.trans h.stop, h'.star.trans h.star, h'.cfl.trans h.cfl, h'.init.trans h.init, h'.maxStep.trans h.maxStep, h'.dtMin.trans h.dtMin,
    h'.dtMax.trans h.dtMax, h'.f1.trans h.f1, h'.f2.trans h.f2⟩

/-- How the step size is chosen from a table. -/
theorem selectDt_tabular (a : TimeStep K) (h : Tabular a) : ∃ d l, a.selectDt = { a with dtn := a.dt, dt := d, lstep := l } := by
  unfold selectDt
  dsimp only
  rw [if_neg (fun h1 => absurd h.cfl (not_le.2 h1.1))]
  cases hcur : ({ a with dtn := a.dt } : TimeStep K).cur? with
  | none => exact ⟨a.dt, a.lstep, rfl⟩
  | some seg =>
    dsimp only
    cases hd : seg.1[a.lstep]? with
    | some d => exact ⟨d, a.lstep + 1, rfl⟩
    | none => exact ⟨a.dt, a.lstep + 1, rfl⟩

theorem update_setup (b : TimeStep K) : SameSetup b b.tableUpdate.stopUpdate ∧ b.tableUpdate.stopUpdate.step = b.step := by
  have h1 : SameSetup b b.tableUpdate ∧ b.tableUpdate.step = b.step := by
    cases hc : b.mySteps[b.pos]? with
    | none =>
      have hu : b.tableUpdate = b := by
        unfold tableUpdate
        rw [show b.cur? = none from hc]
      rw [hu]; exact ⟨SameSetup.refl b, rfl⟩
    | some seg =>
      rw [tableUpdate_after b seg hc]
      unfold after3
      split
      · split <;> exact ⟨⟨rfl, rfl, rfl, rfl, rfl, rfl, rfl, rfl, rfl⟩, rfl⟩
      · exact ⟨⟨rfl, rfl, rfl, rfl, rfl, rfl, rfl, rfl, rfl⟩, rfl⟩
  have h2 : ∀ c : TimeStep K, SameSetup c c.stopUpdate ∧ c.stopUpdate.step = c.step := by
    intro c
    unfold stopUpdate
    split <;> exact ⟨⟨rfl, rfl, rfl, rfl, rfl, rfl, rfl, rfl, rfl⟩, rfl⟩
  exact ⟨h1.1.trans (h2 _).1, (h2 _).2.trans h1.2⟩

theorem increment_setup (a : TimeStep K) (h : Tabular a) : SameSetup a a.increment.1 ∧ (a.increment.2 = true → a.increment.1.step = a.step + 1) ∧
    (a.increment.2 = false → a.increment.1.t = a.t ∧ a.increment.1.mySteps = a.mySteps ∧
      (a.increment.1.step = a.step ∧ a.increment.1.hasReached a.stopTime = true ∨ a.step = a.maxStep ∧ 0 < a.maxStep)) := by
  obtain ⟨d, l, hsel⟩ := selectDt_tabular a h
  by_cases hok : a.increment.2 = true
  · rw [increment_tabular a h hok d l hsel]
    obtain ⟨u1, u2⟩ := update_setup (moved a d l)
    have u0 : SameSetup a (moved a d l) := ⟨rfl, rfl, rfl, rfl, rfl, rfl, rfl, rfl, rfl⟩
    refine ⟨u0.trans u1, fun _ => u2, fun hf => ?_⟩
    rw [hok] at hf; cases hf
  · have hoff : ({ a with dtn := a.dt, dt := d, lstep := l } : TimeStep K).adaptDt = { a with dtn := a.dt, dt := d, lstep := l } :=
      adaptDt_off _ (Or.inl h.fixed)
    have hinc : a.increment = if ({ a with dtn := a.dt, dt := d, lstep := l } : TimeStep K).hasReached a.stopTime then
        ({ a with dtn := a.dt, dt := d, lstep := l }, false)
      else if a.step = a.maxStep ∧ a.maxStep > 0 then ({ a with dtn := a.dt, dt := d, lstep := l, step := a.step + 1 }, false)
      else ((moved a d l).tableUpdate.stopUpdate, true) := by
      unfold increment
      rw [hsel, hoff]
      rfl
    by_cases h1 : ({ a with dtn := a.dt, dt := d, lstep := l } : TimeStep K).hasReached a.stopTime = true
    · rw [if_pos h1] at hinc
      rw [hinc]
      exact ⟨⟨rfl, rfl, rfl, rfl, rfl, rfl, rfl, rfl, rfl⟩, fun hf => by simp at hf, fun _ => ⟨rfl, rfl, Or.inl ⟨rfl, h1⟩⟩⟩
    · rw [if_neg h1] at hinc
      by_cases h2 : a.step = a.maxStep ∧ a.maxStep > 0
      · rw [if_pos h2] at hinc
        rw [hinc]
        exact ⟨⟨rfl, rfl, rfl, rfl, rfl, rfl, rfl, rfl, rfl⟩, fun hf => by simp at hf, fun _ => ⟨rfl, rfl, Or.inr h2⟩⟩
      · rw [if_neg h2] at hinc
        rw [hinc] at hok
        exact absurd rfl hok

theorem Tabular.same {a b : TimeStep K} (h : Tabular a) (hs : SameSetup a b) : Tabular b :=
  ⟨by rw [hs.cfl]; exact h.cfl, by rw [hs.dtMin, hs.dtMax]; exact h.fixed⟩

theorem canon_setup (s0 : TimeStep K) (h : Tabular s0) (k : Nat) : SameSetup s0 (canon s0 k) := by
  induction k with
  | zero => exact SameSetup.refl s0
  | succ k ih => exact ih.trans (increment_setup _ (h.same ih)).1

theorem canon_step (s0 : TimeStep K) (h : Tabular s0) (h0 : s0.step = 0) (m : Nat) (hv : Valid s0 m) (k : Nat) (hk : k ≤ m) : (canon s0 k).step = k := by
  induction k with
  | zero => exact h0
  | succ k ih =>
    show (canon s0 k).increment.1.step = _
    rw [(increment_setup _ (h.same (canon_setup s0 h k))).2.1 (hv k (by omega)), ih (by omega)]
    push_cast; rfl

variable [IsStrictOrderedRing K]

theorem canon_stocked (s0 : TimeStep K) (h : Tabular s0) (hs : Stocked s0) (m : Nat) (hv : Valid s0 m) (k : Nat) (hk : k ≤ m) : Stocked (canon s0 k) ∧
    ∀ i : Nat, ((canon s0 k).mySteps[i]?).map (fun s => s.1[0]?) = (s0.mySteps[i]?).map (fun s => s.1[0]?) := by
  induction k with
  | zero => exact ⟨hs, fun _ => rfl⟩
  | succ k ih =>
    obtain ⟨i1, i2⟩ := ih (by omega)
    obtain ⟨g1, g2⟩ := increment_stocked _ (h.same (canon_setup s0 h k)) i1 (hv k (by omega))
    exact ⟨g1, fun i => (g2 i).trans (i2 i)⟩

theorem canon_ext (s0 : TimeStep K) (h : Tabular s0) (hs : Stocked s0) (m : Nat) (hv : Valid s0 m) (k : Nat) (hk : k ≤ m) :
    Ext (canon s0 (m - k)) (canon s0 m).mySteps := by
  induction k with
  | zero => exact Ext.refl (canon_stocked s0 h hs m hv m (Nat.le_refl _)).1
  | succ k ih =>
    have h1 := ih (by omega)
    have e : m - k = (m - (k + 1)) + 1 := by omega
    rw [e] at h1
    exact (increment_retab _ (h.same (canon_setup s0 h _)) (canon_stocked s0 h hs m hv _ (by omega)).1 (hv _ (by omega)) _ h1).2

/-- One step on the table of step `m`, before step `m`. -/
theorem canon_again (s0 : TimeStep K) (h : Tabular s0) (hs : Stocked s0) (m : Nat) (hv : Valid s0 m) (k : Nat) (hk : k < m) :
    (retab (canon s0 m).mySteps (canon s0 k)).increment = (retab (canon s0 m).mySteps (canon s0 (k + 1)), true) := by
  have he := canon_ext s0 h hs m hv (m - (k + 1)) (by omega)
  have e : m - (m - (k + 1)) = k + 1 := by omega
  rw [e] at he
  exact (increment_retab _ (h.same (canon_setup s0 h _)) (canon_stocked s0 h hs m hv _ (by omega)).1 (hv _ hk) _ he).1

theorem replay_canon (s0 : TimeStep K) (h : Tabular s0) (hs : Stocked s0) (hf : 0 < s0.f1) (m : Nat) (hv : Valid s0 m) (j a : Nat) (ha : a + j ≤ m)
    (i n : Int) (f : Char) (c : K) : ∃ n', replay j (relabel i n f c (retab (canon s0 m).mySteps (canon s0 a))) =
      (relabel i n' f c (retab (canon s0 m).mySteps (canon s0 (a + j))), true) := by
  induction j generalizing a n with
  | zero => exact ⟨n, rfl⟩
  | succ j ih =>
    have hst := canon_setup s0 h a
    obtain ⟨n', hn⟩ := increment_relabel (retab (canon s0 m).mySteps (canon s0 a)) i n f c (by show 0 < (canon s0 a).f1; rw [hst.f1]; exact hf)
      (Or.inl (h.same hst).fixed) (Or.inl (h.same hst).cfl)
    rw [canon_again s0 h hs m hv a (by omega)] at hn
    obtain ⟨n'', hr⟩ := ih (a + 1) (by omega) n'
    refine ⟨n'', ?_⟩
    unfold replay
    rw [hn]
    dsimp only
    rw [hr]
    have e : a + 1 + j = a + (j + 1) := by omega
    rw [e]

theorem reset_canon (s0 : TimeStep K) (h : Tabular s0) (hs : Stocked s0) (hf : 0 < s0.f1) (hp : Parsed s0) (seg : List K × K) (segs : List (List K × K))
    (hm : s0.mySteps = seg :: segs) (hstart : s0.starTime = 0) (hstop : s0.stopTime = (segs.getLastD seg).2)
    (m k : Nat) (tp : TimeStep K) (hw : atTime s0 m k tp) (j : Nat) (hj : j ≤ m) : atStep s0 m j (tp.reset j).1 := by
  refine ⟨hw.valid, hj, ?_⟩
  have he := canon_ext s0 h hs m hw.valid m (Nat.le_refl _)
  rw [Nat.sub_self] at he
  have he0 : Ext s0 (canon s0 m).mySteps := he
  have hheads := (canon_stocked s0 h hs m hw.valid m (Nat.le_refl _)).2
  cases hM : (canon s0 m).mySteps with
  | nil =>
    have := he0.len
    rw [hM, hm] at this
    simp at this
  | cons sg sgs =>
    -- the first entry and the end of the table
    have h1 : sg.1.headD 0 = seg.1.headD 0 := by
      have := hheads 0
      rw [hM, hm] at this
      simp only [List.getElem?_cons_zero, Option.map_some, Option.some.injEq] at this
      rw [← List.head?_eq_getElem?, ← List.head?_eq_getElem?] at this
      rw [List.headD_eq_head?_getD, List.headD_eq_head?_getD, this]
    have h2 : (sgs.getLastD sg).2 = (segs.getLastD seg).2 := by
      have hl := he0.len
      rw [hM, hm] at hl
      have := he0.ends segs.length
      rw [hM, hm] at this
      have e1 : (sg :: sgs)[segs.length]? = some (sgs.getLastD sg) := by
        have hlen : sgs.length = segs.length := by simpa using hl
        rw [← hlen]
        rw [List.getLastD_eq_getLast?, ← List.getLast?_cons, List.getLast?_eq_getElem?]
        simp
      have e2 : (seg :: segs)[segs.length]? = some (segs.getLastD seg) := by
        rw [List.getLastD_eq_getLast?, ← List.getLast?_cons, List.getLast?_eq_getElem?]
        simp
      rw [e1, e2] at this
      simpa using this
    have hstart : (tp.reset j) = replay j (relabel tp.iter tp.niter tp.first 0 (retab (canon s0 m).mySteps (canon s0 0))) := by
      unfold reset
      rw [hw.table, hM]
      dsimp only
      have hst := hw.setup
      have hd : s0.dt = sg.1.headD 0 := by rw [h1]; exact hp.dt seg segs hm
      have hstop' : (if (j : Int) = 0 then (sgs.getLastD sg).2 else tp.stopTime) = s0.stopTime := by
        split
        · rw [h2, hstop]
        · exact hst.stop
      rw [hstop', Int.toNat_natCast]
      refine congrArg (replay j) ?_
      show _ = relabel tp.iter tp.niter tp.first 0 (retab (sg :: sgs) s0)
      have ht0 : s0.t = 0 := by rw [hp.t, hstart]
      obtain ⟨a1, a2, a3, a4, a5, a6, a7, a8, a9⟩ := hst
      unfold relabel retab
      rw [← hd, a2, a3, a4, a5, a6, a7, a8, a9]
      dsimp only
      rw [hp.step, hp.lstep, hp.pos, hp.dtn, ht0]
    rw [hstart]
    obtain ⟨n', hr⟩ := replay_canon s0 h hs hf m hw.valid j 0 (by omega) tp.iter tp.niter tp.first 0
    rw [hr, Nat.zero_add, hM]
    exact ⟨_, _, _, _, rfl⟩

theorem atStep_time (s0 : TimeStep K) (h : Tabular s0) (h0 : s0.step = 0) (m k : Nat) (tp : TimeStep K) (hg : atStep s0 m k tp) : atTime s0 m k tp := by
  obtain ⟨h1, h2, i, n, f, c, h3⟩ := hg
  have hst := canon_setup s0 h k
  subst h3
  exact ⟨h1, h2, canon_step s0 h h0 m h1 k h2, rfl, rfl, ⟨hst.stop, hst.star, hst.cfl, hst.init, hst.maxStep, hst.dtMin, hst.dtMax, hst.f1, hst.f2⟩⟩

theorem atStep_incr (s0 : TimeStep K) (h : Tabular s0) (hs : Stocked s0) (hf : 0 < s0.f1) (h0 : s0.step = 0) (hmx : s0.maxStep ≤ 0) (m k : Nat)
    (tp : TimeStep K) (hg : atStep s0 m k tp) : (tp.increment.2 = true → atStep s0 (max m (k + 1)) (k + 1) tp.increment.1) ∧
    (tp.increment.2 = false → atTime s0 m k tp.increment.1 ∧ tp.increment.1.finished = true) := by
  have hT := atStep_time s0 h h0 m k tp hg
  obtain ⟨h1, h2, i, n, f, c, h3⟩ := hg
  have hst := canon_setup s0 h k
  obtain ⟨n', hn⟩ := increment_relabel (retab (canon s0 m).mySteps (canon s0 k)) i n f c (by show 0 < (canon s0 k).f1; rw [hst.f1]; exact hf)
    (Or.inl (h.same hst).fixed) (Or.inl (h.same hst).cfl)
  rw [← h3] at hn
  rcases Nat.lt_or_ge k m with hk | hk
  · rw [canon_again s0 h hs m h1 k hk] at hn
    rw [hn]
    refine ⟨fun _ => ?_, fun hf => by simp at hf⟩
    rw [Nat.max_eq_left (by omega)]
    exact ⟨h1, by omega, i, n', f, c, rfl⟩
  · have hkm : k = m := by omega
    subst hkm
    have hr : retab (canon s0 k).mySteps (canon s0 k) = canon s0 k := rfl
    rw [hr] at hn
    refine ⟨fun hok => ?_, fun hno => ?_⟩
    · rw [hn] at hok ⊢
      rw [Nat.max_eq_right (by omega)]
      refine ⟨fun j hj => ?_, Nat.le_refl _, i, n', f, c, rfl⟩
      rcases Nat.lt_or_ge j k with hj2 | hj2
      · exact h1 j hj2
      · have : j = k := by omega
        rw [this]; exact hok
    · have htab : Tabular tp := h.same hT.setup
      obtain ⟨g1, -, g3⟩ := increment_setup tp htab
      obtain ⟨g4, g5, g6⟩ := g3 hno
      have hms : ¬ 0 < tp.maxStep := by rw [hT.setup.maxStep]; omega
      have g7 := g6.resolve_right (fun h => hms h.2)
      refine ⟨⟨h1, h2, by rw [g7.1]; exact hT.step, by rw [g4]; exact hT.time, by rw [g5]; exact hT.table, hT.setup.trans g1⟩, ?_⟩
      unfold finished
      rw [if_neg (fun h => hms (by rw [← g1.maxStep]; exact h.2)), g1.stop, g7.2]
      rfl

end IFEM.TimeStep
