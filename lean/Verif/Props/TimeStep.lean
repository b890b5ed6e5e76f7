import Verif.Lemmas.TimeStep
import Mathlib.Algebra.Order.Archimedean.Basic
import Mathlib.Data.Rat.Defs
import Mathlib.Algebra.Order.Ring.Unbundled.Rat
import Mathlib.Algebra.Field.Rat
/-!
# C25–C27, C44, C45: time step control
-/
namespace IFEM.Props
open IFEM.Spec IFEM.TimeStep
variable {K : Type} [Field K] [LinearOrder K] [IsStrictOrderedRing K]

/-- **C25** (one step). A started step advances the time by exactly its step size, which is positive, never passes the stop
time, remembers the previous step size and increments the step number; a refused step leaves the time unchanged, and is refused
only if the stop time is reached (up to the tolerance) or the maximum number of steps is. -/
theorem C25_increment (s : TimeStep K) (h : Legal s) :
    (s.increment.2 = true → s.increment.1.t = s.t + s.increment.1.dt ∧ 0 < s.increment.1.dt ∧
      s.increment.1.t ≤ s.stopTime ∧ s.increment.1.stopTime = s.stopTime ∧
      s.increment.1.step = s.step + 1 ∧ s.increment.1.dtn = s.dt ∧ s.t < s.stopTime ∧ ¬ (s.step = s.maxStep ∧ 0 < s.maxStep)) ∧
    (s.increment.2 = false → s.increment.1.t = s.t ∧
      (s.stopTime < s.t + 1/1000000 * max (1/1000000) s.increment.1.dt ∨ (s.step = s.maxStep ∧ 0 < s.maxStep))) := by
  obtain ⟨h1, h2⟩ := increment_spec s h
  refine ⟨fun hok => ?_, fun hno => ?_⟩
  · obtain ⟨a1, a2, a3, -, a5, a6, a7, a8, a9⟩ := h1 hok
    exact ⟨a1, a2, a3, a5, a6, a7, a8, a9⟩
  · obtain ⟨a1, -, a3⟩ := h2 hno
    refine ⟨a1, a3.imp (fun hr => ?_) id⟩
    have := (reached_pos h.stop).1 hr
    rw [a1] at this
    exact this

/-- **C25** (all histories). In every history of steps and cut-backs, whatever iteration counts and CFL numbers are reported, the
current step starts at or after the initial time, has positive size and ends no later than the stop time. -/
theorem C25_history (s0 s : TimeStep K) (h0 : Legal s0) (hh : Hist s0 s) :
    Legal s ∧ s0.t ≤ s.t - s.dt ∧ s0.t < s.t ∧ s.t ≤ s0.stopTime ∧ s.stopTime = s0.stopTime := by
  have key : Legal s ∧ s0.t ≤ s.t - s.dt ∧ s.t ≤ s0.stopTime ∧ s.stopTime = s0.stopTime := by
    induction hh with
    | first s hs =>
      have := (increment_spec s0 h0).1 (by rw [hs])
      rw [hs] at this
      obtain ⟨a1, a2, a3, a4, a5, -⟩ := this
      dsimp only at *
      exact ⟨a4, by linarith, a3, a5⟩
    | step s s' it cfl _ hs ih =>
      obtain ⟨i1, i2, i3, i4⟩ := ih
      have := (increment_spec _ (legal_report i1 it cfl)).1 (by rw [hs])
      rw [hs] at this
      obtain ⟨a1, a2, a3, a4, a5, -⟩ := this
      have e1 : (report s it cfl).t = s.t := rfl
      have e2 : (report s it cfl).stopTime = s.stopTime := rfl
      rw [e1] at a1
      rw [e2] at a3 a5
      dsimp only at *
      have := i1.dt
      exact ⟨a4, by linarith, by rw [← i4]; exact a3, by rw [a5, i4]⟩
    | cut s s' _ hs ih =>
      obtain ⟨i1, i2, i3, i4⟩ := ih
      have := (cutback_spec s i1).2.2 (by rw [hs])
      rw [hs] at this
      obtain ⟨a1, a2, a3, a4, a5, a6, a7⟩ := this
      dsimp only at *
      refine ⟨a7, by linarith, by linarith, ?_⟩
      rw [← i4]
      have : s' = s.cutback.1 := by rw [hs]
      rw [this]
      unfold cutback
      split
      · rfl
      · dsimp only
        split <;> rfl
  obtain ⟨k1, k2, k3, k4⟩ := key
  exact ⟨k1, k2, by linarith [k1.dt], k3, k4⟩

/-- **C25** (termination). With step sizes bounded below by `lo`, no more than `(stop - start)/lo` plus the number of series
plus one steps are taken, whatever iteration counts and CFL numbers are reported. -/
theorem C25_terminates (s s' : TimeStep K) (lo : K) (ts : List K) (h : Legal s) (hb : LowerBound lo s) (hle : s.t ≤ s.stopTime)
    (hpos : s.pos ≤ s.mySteps.length) (hr : Run s ts s') :
    lo * ts.length ≤ s.stopTime - s.t + lo * (s.mySteps.length - s.pos) + lo := by
  have key : ∀ (s s' : TimeStep K) (ts : List K), Run s ts s' → Legal s → LowerBound lo s → s.t ≤ s.stopTime →
      s.pos ≤ s.mySteps.length →
      potential lo s + lo * ts.length ≤ potential lo s' ∧ s'.t ≤ s.stopTime ∧ s'.pos ≤ s.mySteps.length := by
    intro s s' ts hr
    induction hr with
    | done s => intro _ _ h1 h2; exact ⟨by simp, h1, h2⟩
    | step s s1 s' it cfl ts hs _ ih =>
      intro hl hb hle hpos
      have hl' := legal_report hl it cfl
      have hb' := lb_report hb it cfl
      have hok : (report s it cfl).increment.2 = true := by rw [hs]
      obtain ⟨p1, p2, p3, p4⟩ := increment_potential _ lo hl' hb' hok
      obtain ⟨-, -, g3, g4, g5, -⟩ := (increment_spec _ hl').1 hok
      rw [hs] at p1 p2 p3 p4 g3 g4 g5
      dsimp only at p1 p2 p3 p4 g3 g4 g5
      have e1 : (report s it cfl).mySteps = s.mySteps := rfl
      have e2 : (report s it cfl).pos = s.pos := rfl
      have e3 : (report s it cfl).stopTime = s.stopTime := rfl
      have e4 : potential lo (report s it cfl) = potential lo s := rfl
      rw [e4] at p1
      rw [e1] at p3
      rw [e1, e2] at p4
      rw [e3] at g3 g5
      obtain ⟨i1, i2, i3⟩ := ih g4 p2 (by rw [g5]; exact g3) (by omega)
      refine ⟨?_, by rw [← g5]; exact i2, by omega⟩
      simp only [List.length_cons]
      push_cast
      linarith
  obtain ⟨k1, k2, k3⟩ := key s s' ts hr h hb hle hpos
  unfold potential at k1
  have hlo := hb.pos
  have n1 : (if s'.stopTime ≤ s'.t then lo else 0) ≤ lo := by split <;> linarith
  have n2 : 0 ≤ (if s.stopTime ≤ s.t then lo else 0) := by split <;> linarith
  have n3 : lo * (s'.pos : K) ≤ lo * s.mySteps.length :=
    mul_le_mul_of_nonneg_left (by exact_mod_cast k3) hlo.le
  have : lo * ((s.mySteps.length : K) - s.pos) = lo * s.mySteps.length - lo * s.pos := by ring
  rw [this]
  linarith

/-- **C25** (step limit). With a maximum number of steps, at most that many steps are taken. -/
theorem C25_max_steps (s s' : TimeStep K) (ts : List K) (h : Legal s) (hm : 0 < s.maxStep) (hst : s.step ≤ s.maxStep)
    (hr : Run s ts s') : s'.step = s.step + ts.length ∧ s'.step ≤ s.maxStep := by
  have hmax : ∀ a : TimeStep K, Legal a → a.increment.1.maxStep = a.maxStep := by
    intro s h
    obtain ⟨d1, m, l, hd1, hsel⟩ := selectDt_frame s h
    obtain ⟨d, hd, had⟩ := adaptDt_frame s.selectDt (by rw [hsel]; exact hd1) (by rw [hsel]; exact h.f1)
      (by rw [hsel]; exact h.f2) (by rw [hsel]; exact h.dtMax)
    rw [hsel] at had
    unfold increment
    rw [hsel, had]
    dsimp only
    have t1 : ∀ S : TimeStep K, S.tableUpdate.stopUpdate.maxStep = S.maxStep := by
      intro S
      have : ∀ S : TimeStep K, S.stopUpdate.maxStep = S.maxStep := by
        intro S; unfold stopUpdate; split <;> rfl
      rw [this]
      unfold tableUpdate
      cases S.cur? with
      | none => rfl
      | some seg =>
        dsimp only
        generalize (if seg.1.length ≤ S.lstep then seg.1 ++ [S.dt] else seg.1) = l
        by_cases hr : (S.setCur (l, seg.2)).hasReached seg.2 = true
        · rw [if_pos hr]
          by_cases h : (S.setCur (l, seg.2)).t ≠ seg.2
          · rw [if_pos h]; rfl
          · rw [if_neg h]; rfl
        · rw [if_neg hr]; rfl
    split
    · rfl
    · split
      · rfl
      · rw [t1]
  induction hr with
  | done s => exact ⟨by simp, hst⟩
  | step s s1 s' it cfl ts hs _ ih =>
    have hl' := legal_report h it cfl
    have hok : (report s it cfl).increment.2 = true := by rw [hs]
    obtain ⟨-, -, -, g4, -, g6, -, -, g9⟩ := (increment_spec _ hl').1 hok
    have gm := hmax _ hl'
    rw [hs] at g4 g6 gm
    have e1 : (report s it cfl).step = s.step := rfl
    have e2 : (report s it cfl).maxStep = s.maxStep := rfl
    rw [e1] at g6
    rw [e2] at gm
    rw [e1, e2] at g9
    dsimp only at *
    obtain ⟨i1, i2⟩ := ih g4 (by omega) (by omega)
    rw [gm] at i2
    refine ⟨?_, i2⟩
    rw [i1, g6]; simp only [List.length_cons]; push_cast; ring

/-- **C25** (end of the simulation). The simulation is reported finished exactly if the maximum number of steps is reached, or the stop time is (up to the
tolerance), or, for path-following, the negative stop time is. -/
theorem C25_finished (s : TimeStep K) (h : 0 < s.stopTime) :
    s.finished = true ↔ (0 < s.maxStep ∧ s.maxStep ≤ s.step) ∨ s.stopTime < s.t + 1/1000000 * max (1/1000000) s.dt ∨
      (s.t < 0 ∧ s.t - 1/1000000 * (1/1000000) < -s.stopTime) := by
  have h' : ¬ (-s.stopTime > 0) := not_lt.2 (neg_nonpos.2 h.le)
  have h'' : -s.stopTime < 0 := neg_neg_of_pos h
  unfold finished hasReached epsT
  rw [if_pos h, if_neg h', if_pos h'']
  by_cases hm : s.step ≥ s.maxStep ∧ s.maxStep > 0
  · rw [if_pos hm]
    exact ⟨fun _ => .inl ⟨hm.2, hm.1⟩, fun _ => rfl⟩
  · rw [if_neg hm]
    simp only [Bool.or_eq_true, decide_eq_true_eq]
    refine ⟨fun hr => .inr hr, fun hr => hr.resolve_left fun hx => hm ⟨hx.2, hx.1⟩⟩

/-- **C25** (a refused step). Whenever a step is refused, the simulation is reported finished. -/
theorem C25_refused_finished (s : TimeStep K) (hr : s.increment.2 = false) : s.increment.1.finished = true := by
  unfold increment at hr ⊢
  dsimp only at hr ⊢
  generalize s.selectDt.adaptDt = S at hr ⊢
  by_cases h1 : S.hasReached S.stopTime = true
  · rw [if_pos h1]
    unfold finished
    split
    · rfl
    · show (S.hasReached S.stopTime || _) = true
      rw [h1]; rfl
  · rw [if_neg h1] at hr ⊢
    by_cases h2 : S.step = S.maxStep ∧ S.maxStep > 0
    · rw [if_pos h2]
      unfold finished
      rw [if_pos ⟨by show S.maxStep ≤ S.step + 1; omega, h2.2⟩]
    · rw [if_neg h2] at hr; cases hr

/-- **C25** (single-step simulations). The simulation is reported as having several steps exactly if a step of the current size from the start time ends before the stop time
(up to the relative tolerance); if not, a first step of that size ends at the stop time up to the tolerance. -/
theorem C25_multi_steps (s : TimeStep K) (h : Legal s) :
    (s.multiSteps = true ↔ s.starTime + (1 + 1/1000000) * s.dt < s.stopTime) ∧
    (s.multiSteps = false → s.t = s.starTime → s.increment.2 = true → s.increment.1.dt = s.dt →
      s.increment.1.t ≤ s.stopTime ∧ s.stopTime ≤ s.increment.1.t + 1/1000000 * s.dt) := by
  have h1 : s.multiSteps = true ↔ s.starTime + (1 + 1/1000000) * s.dt < s.stopTime := by
    unfold multiSteps epsT; simp
  refine ⟨h1, fun hm ht hok hdt => ?_⟩
  obtain ⟨a1, -, a3, -⟩ := (C25_increment s h).1 hok
  refine ⟨a3, ?_⟩
  rw [a1, hdt, ht]
  have h2 : ¬ (s.starTime + (1 + 1/1000000) * s.dt < s.stopTime) := fun hc => by rw [h1.2 hc] at hm; cases hm
  calc s.stopTime ≤ _ := not_lt.1 h2
    _ = _ := by ring

/-- **C26**. A cut-back is refused only at the minimum step size, leaving everything unchanged; otherwise the time goes back
to the start of the step plus the reduced step size, which is the old one times the reduction factor, but not below the minimum. -/
theorem C26_cutback (s : TimeStep K) (h : Legal s) :
    (s.cutback.2 = false ↔ s.dt ≤ s.dtMin) ∧ (s.cutback.2 = false → s.cutback.1 = s) ∧
    (s.cutback.2 = true → s.cutback.1.t - s.cutback.1.dt = s.t - s.dt ∧ s.cutback.1.dt < s.dt ∧ s.dtMin ≤ s.cutback.1.dt ∧
      s.cutback.1.t < s.t ∧ s.cutback.1.step = s.step ∧
      s.cutback.1.dt = max s.dtMin (s.dt * (if s.f2 < 1 then s.f2 else 1 / 2)) ∧ Legal s.cutback.1) :=
  cutback_spec s h

/-- **C26** (termination). With a positive minimum step size, only finitely many cut-backs in a row succeed. -/
theorem C26_terminates [Archimedean K] (s : TimeStep K) (h : Legal s) (hmin : 0 < s.dtMin) :
    ∃ N, ∀ n s', Cuts s n s' → n ≤ N := by
  set q := if s.f2 < 1 then s.f2 else (1:K) / 2 with hq
  have hq1 : q < 1 := by
    rw [hq]; split
    · assumption
    · rw [div_lt_one (by positivity)]; exact one_lt_two
  have hq0 : 0 < q := by
    rw [hq]; split
    · exact h.f2
    · positivity
  have inv : ∀ n s', Cuts s n s' → Legal s' ∧ s'.dtMin = s.dtMin ∧ s'.f2 = s.f2 ∧ s'.dt ≤ max s.dtMin (s.dt * q ^ n) := by
    intro n s' hc
    induction hc with
    | zero => exact ⟨h, rfl, rfl, by simp⟩
    | succ n s1 s' _ hs ih =>
      obtain ⟨i1, i2, i3, i4⟩ := ih
      have hs' : s' = s1.cutback.1 := by rw [hs]
      have hc : s'.dtMin = s1.dtMin ∧ s'.f2 = s1.f2 := by
        rw [hs']
        unfold cutback
        split
        · exact ⟨rfl, rfl⟩
        · dsimp only
          split <;> exact ⟨rfl, rfl⟩
      obtain ⟨-, -, -, -, -, a6, a7⟩ := (cutback_spec s1 i1).2.2 (by rw [hs])
      rw [← hs'] at a6 a7
      refine ⟨a7, by rw [hc.1, i2], by rw [hc.2, i3], ?_⟩
      rw [a6, i2, i3, ← hq]
      apply max_le (le_max_left _ _)
      rcases le_max_iff.1 i4 with h1 | h1
      · apply le_max_of_le_left
        calc s1.dt * q ≤ s.dtMin * q := mul_le_mul_of_nonneg_right h1 hq0.le
          _ ≤ s.dtMin * 1 := mul_le_mul_of_nonneg_left hq1.le hmin.le
          _ = s.dtMin := mul_one _
      · apply le_max_of_le_right
        calc s1.dt * q ≤ (s.dt * q ^ n) * q := mul_le_mul_of_nonneg_right h1 hq0.le
          _ = s.dt * q ^ (n+1) := by ring
  obtain ⟨N, hN⟩ := exists_pow_lt_of_lt_one (show 0 < s.dtMin / s.dt from div_pos hmin h.dt) hq1
  refine ⟨N, ?_⟩
  intro n s' hc
  by_contra hlt
  push Not at hlt
  cases hc with
  | zero => omega
  | succ n s1 s' hc1 hs =>
    obtain ⟨i1, i2, i3, i4⟩ := inv n s1 hc1
    have h1 : ¬ s1.dt ≤ s1.dtMin := by
      intro hle
      have := (cutback_spec s1 i1).1.2 hle
      rw [hs] at this; cases this
    apply h1
    rw [i2]
    refine le_trans i4 (max_le le_rfl ?_)
    have hp : q ^ n ≤ q ^ N := pow_le_pow_of_le_one hq0.le hq1.le (by omega)
    have : s.dt * q ^ N ≤ s.dtMin := by
      have := (lt_div_iff₀ h.dt).1 hN
      linarith
    calc s.dt * q ^ n ≤ s.dt * q ^ N := mul_le_mul_of_nonneg_left hp h.dt.le
      _ ≤ s.dtMin := this

/-- **C44**. Without cut-backs no end of a series of steps is jumped over: every end time (not
beyond the final time) of a remaining series is the time of one of the steps taken. -/
theorem C44_series_ends_hit (s s' : TimeStep K) (ts : List K) (h : Legal s) (hr : Run s ts s')
    (i : Nat) (seg : List K × K) (hi : s.pos ≤ i) (hs : s.mySteps[i]? = some seg) (hle : seg.2 ≤ s'.t) : seg.2 ∈ ts := by
  have hend : ∀ (s s' : TimeStep K) (ts : List K), Run s ts s' → Legal s → s'.t ≤ max s.t s.stopTime := by
    intro s s' ts hr
    induction hr with
    | done s => intro _; exact le_max_left _ _
    | step s s1 s' it cfl ts hs _ ih =>
      intro hl
      have hl' := legal_report hl it cfl
      obtain ⟨-, -, g3, g4, g5, -⟩ := (increment_spec _ hl').1 (by rw [hs])
      rw [hs] at g3 g4 g5
      have e3 : (report s it cfl).stopTime = s.stopTime := rfl
      rw [e3] at g3 g5
      dsimp only at g3 g4 g5
      have := ih g4
      rw [g5] at this
      exact le_trans this (max_le (le_max_of_le_right g3) (le_max_right _ _))
  induction hr generalizing seg i with
  | done s =>
    exfalso
    have hc : ∃ c, s.mySteps[s.pos]? = some c := by
      have := (List.getElem?_eq_some_iff.1 hs).1
      exact ⟨_, List.getElem?_eq_getElem (by omega)⟩
    obtain ⟨c, hc⟩ := hc
    have h1 := h.time c hc
    rcases Nat.eq_or_lt_of_le hi with e | e
    · subst e; rw [hc] at hs; cases hs; exact absurd hle (not_le.2 h1)
    · exact absurd hle (not_le.2 (lt_trans h1 (h.incr s.pos i c seg le_rfl e hc hs)))
  | step s s1 s' it cfl ts hstep hrun ih =>
    have hl' := legal_report h it cfl
    obtain ⟨-, -, g3, g4, g5, -⟩ := (increment_spec _ hl').1 (by rw [hstep])
    obtain ⟨q1, q2⟩ := increment_series _ hl' (by rw [hstep])
    rw [hstep] at g3 g4 g5 q1 q2
    dsimp only at g3 g4 g5 q1 q2
    have e1 : (report s it cfl).mySteps = s.mySteps := rfl
    have e2 : (report s it cfl).pos = s.pos := rfl
    have e3 : (report s it cfl).stopTime = s.stopTime := rfl
    rw [e1] at q1
    rw [e1, e2, e3] at q2
    rw [e3] at g3 g5
    have hq := q1 i
    rw [hs] at hq
    cases hsi : s1.mySteps[i]? with
    | none => rw [hsi] at hq; cases hq
    | some sg =>
      rw [hsi] at hq
      have hq' : sg.2 = seg.2 := Option.some.inj hq
      by_cases hip : s1.pos ≤ i
      · have := ih g4 i sg hip hsi (by rw [hq']; exact hle)
        rw [hq'] at this
        exact List.mem_cons_of_mem _ this
      · rcases q2 with e | ⟨e, hm⟩
        · omega
        · have hii : i = s.pos := by omega
          subst hii
          have ht := hm seg hs
          have hst : seg.2 ≤ s.stopTime := by
            have := hend _ _ _ hrun g4
            rw [g5] at this
            exact le_trans hle (le_trans this (max_le g3 le_rfl))
          rw [min_eq_left hst] at ht
          rw [← ht]
          exact List.mem_cons_self

/-! ## Restart -/

/-- What is observed does not depend on iteration counts or (without CFL control) the CFL number, without
iteration-based control. -/
theorem observed_relabel (rs : List (Int × K)) (a : TimeStep K) (i n : Int) (f : Char) (c : K) (hf : 0 < a.f1)
    (had : ¬ a.dtMin < a.dtMax ∨ 0 < a.maxCFL) (hc : a.maxCFL ≤ 0 ∨ c = a.CFL) :
    observed (relabel i n f c a) rs = observed a rs := by
  induction rs generalizing a i n f c with
  | nil => rfl
  | cons r rs ih =>
    obtain ⟨it, cfl⟩ := r
    obtain ⟨n', hn⟩ := increment_relabel a i n f c hf had hc
    obtain ⟨c1, c2, c3, c4, c5, -⟩ := increment_const a hf had
    unfold observed
    rw [hn]
    dsimp only
    congr 1
    cases hok : a.increment.2 with
    | false => simp
    | true =>
      rw [if_pos rfl, if_pos rfl]
      have e : report (relabel i n' f c a.increment.1) it cfl = relabel it n' f cfl (report a.increment.1 it cfl) := rfl
      rw [e]
      apply ih
      · exact lt_of_lt_of_eq hf c3.symm
      · exact had.imp (fun h => by
          intro h'; apply h
          have h1 : (report a.increment.1 it cfl).dtMin = a.dtMin := c1
          have h2 : (report a.increment.1 it cfl).dtMax = a.dtMax := c2
          rw [h1, h2] at h'; exact h') (fun h => c4 h)
      · right; rfl

/-- Without a step table, an increment changes only the following members. -/
theorem increment_notable (a : TimeStep K) (h : a.mySteps = []) : ∃ st it t dt dtn m,
    a.increment.1 = { a with step := st, niter := it, t := t, dt := dt, dtn := dtn, maxCFL := m } := by
  have hsel : ∃ d m, a.selectDt = { a with dtn := a.dt, dt := d, maxCFL := m } := by
    unfold selectDt
    dsimp only
    by_cases h : a.maxCFL > 0 ∧ a.CFL > 1 / 1000000000000
    · rw [if_pos h]
      by_cases h1 : a.step > a.nInitStep
      · rw [if_pos h1]
        by_cases h2 : a.maxCFL / a.CFL > a.dt * a.f1
        · rw [if_pos h2]; exact ⟨_, _, rfl⟩
        · rw [if_neg h2]; exact ⟨_, _, rfl⟩
      · rw [if_neg h1]; exact ⟨_, _, rfl⟩
    · rw [if_neg h]
      have : cur? { a with dtn := a.dt } = none := by unfold cur?; simp [*]
      rw [this]; exact ⟨_, _, rfl⟩
  have hada : ∀ b : TimeStep K, ∃ d, b.adaptDt = { b with dt := d } := by
    intro b; unfold adaptDt; split
    · exact ⟨_, rfl⟩
    · exact ⟨b.dt, rfl⟩
  obtain ⟨d, m, hsel⟩ := hsel
  obtain ⟨d2, had⟩ := hada a.selectDt
  unfold increment
  rw [had, hsel]
  dsimp only
  by_cases hr : hasReached { a with dtn := a.dt, dt := d2, maxCFL := m } a.stopTime = true
  · rw [if_pos hr]; exact ⟨_, _, _, _, _, _, rfl⟩
  rw [if_neg hr]
  by_cases hm : a.step = a.maxStep ∧ a.maxStep > 0
  · rw [if_pos hm]; exact ⟨_, _, _, _, _, _, rfl⟩
  rw [if_neg hm]
  dsimp only
  have ht : ∀ S : TimeStep K, S.mySteps = [] → S.tableUpdate = S := by
    intro S hS
    unfold tableUpdate
    have : S.cur? = none := by unfold cur?; rw [hS]; rfl
    rw [this]
  rw [ht _ (by exact h)]
  unfold stopUpdate
  split <;> exact ⟨_, _, _, _, _, _, rfl⟩

/-- Without a step table, a history changes only the following members. -/
theorem hist_notable (s0 s : TimeStep K) (h : s0.mySteps = []) (hh : Hist s0 s) : ∃ st it ni t dt dtn m c f,
    s = { s0 with step := st, iter := it, niter := ni, t := t, dt := dt, dtn := dtn, maxCFL := m, CFL := c, first := f } := by
  induction hh with
  | first s hs =>
    obtain ⟨a1, a2, a3, a4, a5, a6, e⟩ := increment_notable s0 h
    rw [hs] at e
    exact ⟨_, _, _, _, _, _, _, _, _, e⟩
  | step s s' it cfl _ hs ih =>
    obtain ⟨st, i, ni, t, dt, dtn, m, c, f, rfl⟩ := ih
    obtain ⟨a1, a2, a3, a4, a5, a6, e⟩ := increment_notable (report ({ s0 with step := st, iter := i, niter := ni, t := t, dt := dt, dtn := dtn, maxCFL := m, CFL := c, first := f } : TimeStep K) it cfl) h
    rw [hs] at e
    exact ⟨_, _, _, _, _, _, _, _, _, e⟩
  | cut s s' _ hs ih =>
    obtain ⟨st, i, ni, t, dt, dtn, m, c, f, rfl⟩ := ih
    unfold cutback at hs
    dsimp only at hs
    split at hs
    · cases hs
    · unfold cur? at hs
      dsimp only at hs
      rw [h] at hs
      cases hs
      rw [h]
      exact ⟨_, _, _, _, _, _, _, _, _, rfl⟩

/-- **C27** (no step table, no iteration-based control). After any history of steps and cut-backs, with or without CFL
control: restoring the saved data into a freshly configured time stepping succeeds, gives the same time, step size and step
number, and every continuation is the same as that of the uninterrupted run. -/
theorem C27_restart_partial (s0 s : TimeStep K) (h : s0.mySteps = []) (hf : 0 < s0.f1)
    (had : ¬ s0.dtMin < s0.dtMax ∨ 0 < s.maxCFL) (hh : Hist s0 s) :
    ∃ r, s0.deSerialize s.serialize = (r, true) ∧ r.t = s.t ∧ r.dt = s.dt ∧ r.dtn = s.dtn ∧ r.step = s.step ∧
      ∀ rs, observed r rs = observed s rs := by
  obtain ⟨st, i, ni, t, dt, dtn, m, c, f, rfl⟩ := hist_notable s0 s h hh
  unfold deSerialize reset serialize
  dsimp only
  rw [h]
  refine ⟨_, rfl, rfl, rfl, rfl, rfl, ?_⟩
  intro rs
  have key := observed_relabel rs ({ s0 with step := st, iter := i, niter := ni, t := t, dt := dt, dtn := dtn, maxCFL := m, CFL := c, first := f } : TimeStep K)
    s0.iter s0.niter f c hf had (Or.inr rfl)
  unfold relabel at key
  dsimp only at key
  rw [h] at key
  exact key

/-- **C27** (step table). Starting at time zero, with a table of series of steps and neither CFL- nor iteration-based
control nor cut-backs: restoring the saved data into a freshly parsed time stepping replays the table, gives the same time, step size and step
number, and every continuation is the same as that of the uninterrupted run. -/
theorem C27_restart_table_partial (s0 s : TimeStep K) (ts : List K) (seg : List K × K) (segs : List (List K × K))
    (h0 : Parsed s0) (hm : s0.mySteps = seg :: segs) (hstart : s0.starTime = 0) (hstop : s0.stopTime = (segs.getLastD seg).2)
    (hl : Legal s0) (hcfl : s0.maxCFL ≤ 0) (had : ¬ s0.dtMin < s0.dtMax) (hr : Run s0 ts s) :
    ∃ r, s0.deSerialize s.serialize = (r, true) ∧ r.t = s.t ∧ r.dt = s.dt ∧ r.dtn = s.dtn ∧ r.step = s.step ∧
      ∀ rs, observed r rs = observed s rs := by
  have key : ∀ (a b : TimeStep K) (ts : List K), Run a ts b → Legal a → a.maxCFL ≤ 0 → ¬ a.dtMin < a.dtMax →
      ∀ i n f c, (∃ i' n' c', replay ts.length (relabel i n f c a) = (relabel i' n' f c' b, true)) ∧
        b.maxCFL = a.maxCFL ∧ b.dtMin = a.dtMin ∧ b.dtMax = a.dtMax ∧ b.f1 = a.f1 ∧ b.step = a.step + ts.length := by
    intro a b ts hr
    induction hr with
    | done a => intro _ _ _ i n f c; exact ⟨⟨i, n, c, rfl⟩, rfl, rfl, rfl, rfl, by simp⟩
    | step a a1 b it cfl ts hs _ ih =>
      intro hl hcfl had i n f c
      have hf : 0 < a.f1 := lt_of_lt_of_le one_pos hl.f1
      have hl' := legal_report hl it cfl
      obtain ⟨-, -, -, g4, -, g6, -⟩ := (increment_spec _ hl').1 (by rw [hs])
      rw [hs] at g4 g6
      dsimp only at g4 g6
      have e6 : (report a it cfl).step = a.step := rfl
      rw [e6] at g6
      have ea : relabel i n f c a = relabel i n f c (report a it cfl) := rfl
      obtain ⟨n', hn⟩ := increment_relabel (report a it cfl) i n f c hf (Or.inl had) (Or.inl hcfl)
      obtain ⟨c1, c2, c3, -, c5, -⟩ := increment_const (report a it cfl) hf (Or.inl had)
      rw [hs] at hn c1 c2 c3 c5
      dsimp only at hn c1 c2 c3 c5
      have c5' : a1.maxCFL = a.maxCFL := c5 hcfl
      have c1' : a1.dtMin = a.dtMin := c1
      have c2' : a1.dtMax = a.dtMax := c2
      have c3' : a1.f1 = a.f1 := c3
      obtain ⟨⟨i', n2, c', hrep⟩, k2, k3, k4, k5, k6⟩ := ih g4 (by rw [c5']; exact hcfl) (by rw [c1', c2']; exact had) i n' f c
      refine ⟨⟨i', n2, c', ?_⟩, by rw [k2, c5'], by rw [k3, c1'], by rw [k4, c2'], by rw [k5, c3'], ?_⟩
      · rw [List.length_cons]
        unfold replay
        rw [ea, hn]
        exact hrep
      · rw [k6, g6]; simp only [List.length_cons]; push_cast; ring
  obtain ⟨-, k2, k3, k4, k5, k6⟩ := key s0 s ts hr hl hcfl had s0.iter s0.niter s.first 0
  obtain ⟨⟨i', n', c', hrep⟩, -⟩ := key s0 s ts hr hl hcfl had s0.iter s0.niter s.first 0
  have hstep : s.step.toNat = ts.length := by rw [k6, h0.step]; simp
  refine ⟨relabel i' n' s.first c' s, ?_, rfl, rfl, rfl, rfl, ?_⟩
  · rw [← hrep]
    unfold deSerialize reset serialize
    dsimp only
    rw [hm]
    dsimp only
    rw [hstep]
    congr 1
    unfold relabel
    have e1 : (if s.step = 0 then (segs.getLastD seg).2 else s0.stopTime) = s0.stopTime := by
      split
      · exact hstop.symm
      · rfl
    rw [e1, ← h0.dt seg segs hm, k2]
    have := h0.step; have := h0.lstep; have := h0.pos; have := h0.t; have := h0.dtn
    rw [hstart] at *
    cases s0
    simp_all
  · intro rs
    exact observed_relabel rs s i' n' s.first c' (by rw [k5]; exact lt_of_lt_of_le one_pos hl.f1)
      (Or.inl (by rw [k3, k4]; exact had)) (Or.inl (by rw [k2]; exact hcfl))

/-! ## Witnesses -/

/-- Two series of steps: sizes 1/2, then 1, ending at 1 and 3 (as after parsing). -/
def tsDemo : TimeStep Rat :=
  { step := 0, iter := 0, niter := 0, t := 0, dt := 1/2, dtn := 0, CFL := 0, first := 'i', starTime := 0, stopTime := 3,
    maxCFL := 0, nInitStep := 0, maxStep := 0, dtMin := 1/10, dtMax := 1/10, f1 := 3/2, f2 := 1/4,
    mySteps := [([1/2], 1), ([1], 3)], pos := 0, lstep := 0 }

theorem tsDemo_legal : Legal tsDemo where
  dt := by unfold tsDemo; norm_num
  ent := by
    intro i seg _ hs
    match i, hs with
    | 0, hs => cases hs; norm_num
    | 1, hs => cases hs; norm_num
    | i + 2, hs => simp [tsDemo] at hs
  time := by intro seg hs; cases hs; decide +kernel
  incr := by
    intro i j a b _ hij ha hb
    match i, j, hij, ha, hb with
    | 0, 1, _, ha, hb => cases ha; cases hb; norm_num
    | 0, j + 2, _, _, hb => simp [tsDemo] at hb
    | 1, j + 2, _, _, hb => simp [tsDemo] at hb
    | i + 2, j, _, ha, _ => simp [tsDemo] at ha
  f1 := by unfold tsDemo; norm_num
  f2 := by unfold tsDemo; norm_num
  dtMax := by unfold tsDemo; norm_num
  stop := by unfold tsDemo; norm_num

/-- Successful steps with iteration count 3 and CFL number 0 reported. -/
def steps : Nat → TimeStep Rat → List Rat × TimeStep Rat
  | 0, s => ([], s)
  | n + 1, s =>
    let s1 := (report s 3 0).increment.1
    let r := steps n s1
    (s1.t :: r.1, r.2)

/-- All of these `n` steps are started. -/
def stepsOk : Nat → TimeStep Rat → Bool
  | 0, _ => true
  | n + 1, s => (report s 3 0).increment.2 && stepsOk n (report s 3 0).increment.1

theorem run_steps (n : Nat) (s : TimeStep Rat) (h : stepsOk n s = true) : Run s (steps n s).1 (steps n s).2 := by
  induction n generalizing s with
  | zero => exact Run.done s
  | succ n ih =>
    unfold stepsOk at h
    rw [Bool.and_eq_true] at h
    unfold steps
    exact Run.step s _ _ 3 0 _ (by rw [← h.1]) (ih _ h.2)

/-- The demonstration takes the steps 1/2, 1, 2, 3 and then stops. -/
theorem tsDemo_run : Run tsDemo [1/2, 1, 2, 3] (steps 4 tsDemo).2 := by
  have h : (steps 4 tsDemo).1 = [1/2, 1, 2, 3] := by decide +kernel
  have := run_steps 4 tsDemo (by decide +kernel)
  rwa [h] at this

theorem tsDemo_stop : (steps 4 tsDemo).2.increment.2 = false ∧ (steps 4 tsDemo).2.finished = true := by decide +kernel

theorem tsDemo_lb : LowerBound (1/2) tsDemo where
  pos := by norm_num
  cfl := by unfold tsDemo; norm_num
  dtMin := by unfold tsDemo; norm_num
  ent := by
    intro i seg _ hs
    match i, hs with
    | 0, hs => cases hs; norm_num
    | 1, hs => cases hs; norm_num
    | i + 2, hs => simp [tsDemo] at hs
  table := by intro seg hs; cases hs; decide
  cover := by intro seg hs; cases hs; decide +kernel
  dt := by left; unfold tsDemo; norm_num

theorem tsDemo_parsed : Parsed tsDemo :=
  ⟨rfl, rfl, rfl, rfl, rfl, rfl, by intro seg rest h; cases h; rfl⟩

/-- The hypotheses of the termination theorem and of the restart theorem hold for the demonstration. -/
example : (1:Rat)/2 * (4:Nat) ≤ tsDemo.stopTime - tsDemo.t + 1/2 * ((2:Nat) - (0:Nat)) + 1/2 :=
  C25_terminates tsDemo _ (1/2) _ tsDemo_legal tsDemo_lb (by decide +kernel) (by decide) tsDemo_run

example : ∃ r, tsDemo.deSerialize (steps 4 tsDemo).2.serialize = (r, true) ∧ r.t = 3 := by
  obtain ⟨r, h1, h2, -⟩ := C27_restart_table_partial tsDemo _ _ _ _ tsDemo_parsed rfl rfl rfl tsDemo_legal (by decide +kernel)
    (by decide +kernel) tsDemo_run
  exact ⟨r, h1, by rw [h2]; decide +kernel⟩

/-- A history with a cut-back. -/
theorem tsDemo_hist : Hist tsDemo tsDemo.increment.1.cutback.1 :=
  Hist.cut _ _ (Hist.first _ (show _ = (_, true) from by rw [← (by decide +kernel : tsDemo.increment.2 = true)]))
    (show _ = (_, true) from by rw [← (by decide +kernel : tsDemo.increment.1.cutback.2 = true)])

/-- Time stepping without table, with CFL control. -/
def tsCfl : TimeStep Rat := { tsDemo with mySteps := [], maxCFL := 1, dt := 1/4, stopTime := 10 }

theorem tsCfl_hist : Hist tsCfl (report tsCfl.increment.1 2 3).increment.1 :=
  Hist.step _ _ 2 3 (Hist.first _ (show _ = (_, true) from by rw [← (by decide +kernel : tsCfl.increment.2 = true)]))
    (show _ = (_, true) from by rw [← (by decide +kernel : (report tsCfl.increment.1 2 3).increment.2 = true)])

example : ∃ r, tsCfl.deSerialize (report tsCfl.increment.1 2 3).increment.1.serialize = (r, true) ∧ r.t = 7/12 := by
  obtain ⟨r, h1, h2, -⟩ := C27_restart_partial tsCfl _ rfl (by decide +kernel) (Or.inl (by decide +kernel)) tsCfl_hist
  exact ⟨r, h1, by rw [h2]; decide +kernel⟩

/-! ## Cases in which the code violates the properties -/

/-- **C27 fails** (F19) for a table of steps with a non-zero start time: the replay starts at time zero. -/
theorem C27_counterexample_start_time : ∃ (s0 s : TimeStep Rat), Parsed s0 ∧ Run s0 [3/2] s ∧
    (s0.deSerialize s.serialize).2 = true ∧ (s0.deSerialize s.serialize).1.t = 1/2 ∧ s.t = 3/2 := by
  let s0 : TimeStep Rat := { tsDemo with starTime := 1, t := 1, mySteps := [([1/2], 2)], stopTime := 2 }
  refine ⟨s0, (steps 1 s0).2, ⟨rfl, rfl, rfl, rfl, rfl, rfl, by intro seg rest h; cases h; rfl⟩, ?_, ?_⟩
  · have h : (steps 1 s0).1 = [3/2] := by decide +kernel
    have := run_steps 1 s0 (by decide +kernel)
    rwa [h] at this
  · decide +kernel

/-- **C27 fails** (F33) for a table of steps after a cut-back: the replay uses the original table. -/
theorem C27_counterexample_cutback : ∃ (s : TimeStep Rat), Hist tsDemo s ∧
    (tsDemo.deSerialize s.serialize).2 = true ∧ (tsDemo.deSerialize s.serialize).1.t = 1/2 ∧ s.t = 1/8 :=
  ⟨_, tsDemo_hist, by decide +kernel⟩

/-- **C27 fails** (F32) with iteration-based step size control: the iteration counts are not saved. -/
theorem C27_counterexample_iterations : ∃ (s0 s : TimeStep Rat), s0.mySteps = [] ∧ Hist s0 s ∧
    (s0.deSerialize (report s 12 0).serialize).2 = true ∧
    (observed (s0.deSerialize (report s 12 0).serialize).1 [(3, 0)]).map (fun x => x.2.1) = [3/2] ∧
    (observed (report s 12 0) [(3, 0)]).map (fun x => x.2.1) = [1/4] := by
  let s0 : TimeStep Rat := { tsDemo with mySteps := [], dt := 1, stopTime := 100, dtMax := 100 }
  refine ⟨s0, (report s0.increment.1 12 0).increment.1, rfl, ?_, ?_⟩
  · exact Hist.step _ _ 12 0 (Hist.first _ (show _ = (_, true) from by
      rw [← (by decide +kernel : s0.increment.2 = true)]))
      (show _ = (_, true) from by rw [← (by decide +kernel : (report s0.increment.1 12 0).increment.2 = true)])
  · decide +kernel

/-- **C44 fails** (F31) after cut-backs: a step that ended exactly at the end of a series is cut back, and that
end time is then jumped over (no later step ends there). -/
theorem C44_counterexample_cutback : ∃ (s0 s1 s2 s3 : TimeStep Rat), Legal s0 ∧ s0.mySteps.map Prod.snd = [1, 2] ∧
    s0.increment = (s1, true) ∧ s1.t = 1 ∧ s1.cutback = (s2, true) ∧ s2.t = 3/10 ∧ Run s2 [3/5, 9/10, 6/5] s3 := by
  let s0 : TimeStep Rat := { tsDemo with f2 := 3/10, dt := 1, mySteps := [([1], 1), ([1], 2)], stopTime := 2 }
  refine ⟨s0, s0.increment.1, s0.increment.1.cutback.1, (steps 3 s0.increment.1.cutback.1).2, ?_, rfl, ?_, ?_, ?_, ?_, ?_⟩
  · exact
    { dt := by decide +kernel
      ent := by
        intro i seg _ hs
        match i, hs with
        | 0, hs => cases hs; norm_num
        | 1, hs => cases hs; norm_num
        | i + 2, hs => simp [s0] at hs
      time := by intro seg hs; cases hs; decide +kernel
      incr := by
        intro i j a b _ hij ha hb
        match i, j, hij, ha, hb with
        | 0, 1, _, ha, hb => cases ha; cases hb; norm_num
        | 0, j + 2, _, _, hb => simp [s0] at hb
        | 1, j + 2, _, _, hb => simp [s0] at hb
        | i + 2, j, _, ha, _ => simp [s0] at ha
      f1 := by decide +kernel
      f2 := by decide +kernel
      dtMax := by decide +kernel
      stop := by decide +kernel }
  · rw [← (by decide +kernel : s0.increment.2 = true)]
  · decide +kernel
  · rw [← (by decide +kernel : s0.increment.1.cutback.2 = true)]
  · decide +kernel
  · have h : (steps 3 s0.increment.1.cutback.1).1 = [3/5, 9/10, 6/5] := by decide +kernel
    have := run_steps 3 s0.increment.1.cutback.1 (by decide +kernel)
    rwa [h] at this

/-- **C45** (partial). A copy made by assignment continues exactly like the original if no series of steps has been completed. -/
theorem C45_copy_partial (s : TimeStep K) (h : s.pos = 0) (rs : List (Int × K)) : observed s.assign rs = observed s rs := by
  have : s.assign = s := by unfold assign; cases s; simp_all
  rw [this]

/-- **C45** (partial). A copy made by assignment continues exactly like the original if there is no step table. -/
theorem C45_copy_no_table_partial (s : TimeStep K) (h : s.mySteps = []) (rs : List (Int × K)) :
    observed s.assign rs = observed s rs := by
  have key : ∀ (a : TimeStep K) (p : Nat), a.mySteps = [] →
      ({ a with pos := p } : TimeStep K).increment = ({ a.increment.1 with pos := p }, a.increment.2) := by
    intro a p h
    have hsel : ({ a with pos := p } : TimeStep K).selectDt = { a.selectDt with pos := p } ∧ a.selectDt.mySteps = [] := by
      unfold selectDt
      dsimp only
      by_cases h0 : a.maxCFL > 0 ∧ a.CFL > 1 / 1000000000000
      · rw [if_pos h0, if_pos h0]
        by_cases h1 : a.step > a.nInitStep
        · rw [if_pos h1, if_pos h1]
          by_cases h2 : a.maxCFL / a.CFL > a.dt * a.f1
          · rw [if_pos h2, if_pos h2]; exact ⟨rfl, h⟩
          · rw [if_neg h2, if_neg h2]; exact ⟨rfl, h⟩
        · rw [if_neg h1, if_neg h1]; exact ⟨rfl, h⟩
      · rw [if_neg h0, if_neg h0]
        have e1 : cur? { a with dtn := a.dt } = none := by unfold cur?; simp [h]
        have e2 : cur? { a with dtn := a.dt, pos := p } = none := by unfold cur?; simp [h]
        rw [e1, e2]; exact ⟨rfl, h⟩
    have hada : ∀ b : TimeStep K, ({ b with pos := p } : TimeStep K).adaptDt = { b.adaptDt with pos := p } ∧
        b.adaptDt.mySteps = b.mySteps := by
      intro b; unfold adaptDt; dsimp only
      split <;> exact ⟨rfl, rfl⟩
    have ht : ∀ S : TimeStep K, S.mySteps = [] → S.tableUpdate = S := by
      intro S hS
      unfold tableUpdate
      have : S.cur? = none := by unfold cur?; rw [hS]; rfl
      rw [this]
    unfold increment
    rw [hsel.1, (hada _).1]
    have hms : a.selectDt.adaptDt.mySteps = [] := by rw [(hada _).2]; exact hsel.2
    generalize a.selectDt.adaptDt = S at hms
    dsimp only
    by_cases hr : S.hasReached S.stopTime = true
    · rw [if_pos hr, if_pos (show hasReached { S with pos := p } S.stopTime = true from hr)]
    rw [if_neg hr, if_neg (show ¬ hasReached { S with pos := p } S.stopTime = true from hr)]
    by_cases hm : S.step = S.maxStep ∧ S.maxStep > 0
    · rw [if_pos hm, if_pos hm]
    rw [if_neg hm, if_neg hm, ht _ (by exact hms), ht _ (by exact hms)]
    unfold stopUpdate
    dsimp only
    split <;> rfl
  unfold assign
  generalize 0 = p
  induction rs generalizing s p with
  | nil => rfl
  | cons r rs ih =>
    obtain ⟨it, cfl⟩ := r
    obtain ⟨a1, a2, a3, a4, a5, a6, e⟩ := increment_notable s h
    unfold observed
    rw [key s p h]
    dsimp only
    congr 1
    split
    · exact ih (report s.increment.1 it cfl) (by rw [e]; exact h) p
    · rfl

/-- **C45 fails** (F18): after the first series of steps the copy uses the step sizes of the first series again. -/
theorem C45_counterexample : ∃ (s : TimeStep Rat), Run tsDemo [1/2, 1] s ∧
    (observed s [(3, 0)]).map (fun x => x.2.1) = [1] ∧ (observed s.assign [(3, 0)]).map (fun x => x.2.1) = [0] := by
  refine ⟨(steps 2 tsDemo).2, ?_, ?_⟩
  · have h : (steps 2 tsDemo).1 = [1/2, 1] := by decide +kernel
    have := run_steps 2 tsDemo (by decide +kernel)
    rwa [h] at this
  · decide +kernel

end IFEM.Props
