import Verif.Spec.TimeStep
import Mathlib.Tactic.Linarith
import Mathlib.Tactic.Ring
import Mathlib.Tactic.FieldSimp
import Mathlib.Tactic.Positivity
/-! Time step control: invariants. -/
namespace IFEM.TimeStep
open IFEM.Spec
variable {K : Type} [Field K] [LinearOrder K] [IsStrictOrderedRing K]

omit [LinearOrder K] [IsStrictOrderedRing K] in
theorem cur_eq [LinearOrder K] (s : TimeStep K) : s.cur? = s.mySteps[s.pos]? := rfl

theorem eps_pos : (0 : K) < epsT := by unfold epsT; positivity

theorem reached_pos {s : TimeStep K} {t : K} (ht : 0 < t) : s.hasReached t = true ↔ t < s.t + epsT * max epsT s.dt := by
  unfold hasReached
  rw [if_pos ht]; simp

theorem not_reached {s : TimeStep K} {t : K} (ht : 0 < t) (h : s.hasReached t = false) : s.t < t := by
  have h2 : ¬ (t < s.t + epsT * max epsT s.dt) := by
    rw [← reached_pos ht, h]; simp
  have : 0 < epsT * max epsT s.dt := mul_pos eps_pos (lt_of_lt_of_le eps_pos (le_max_left _ _))
  linarith [not_lt.1 h2]

theorem selectDt_frame (s : TimeStep K) (h : Legal s) : ∃ d m l, 0 < d ∧
    s.selectDt = { s with dtn := s.dt, dt := d, maxCFL := m, lstep := l } := by
  unfold selectDt
  dsimp only
  by_cases hc : s.maxCFL > 0 ∧ s.CFL > 1 / 1000000000000
  · rw [if_pos hc]
    have hcfl : 0 < s.CFL := lt_trans (by positivity) hc.2
    by_cases h1 : s.step > s.nInitStep
    · rw [if_pos h1]
      by_cases h2 : s.maxCFL / s.CFL > s.dt * s.f1
      · rw [if_pos h2]
        exact ⟨_, _, _, mul_pos h.dt (lt_of_lt_of_le one_pos h.f1), rfl⟩
      · rw [if_neg h2]
        exact ⟨_, _, _, div_pos hc.1 hcfl, rfl⟩
    · rw [if_neg h1]; exact ⟨_, _, _, h.dt, rfl⟩
  · rw [if_neg hc]
    cases hcur : s.cur? with
    | none =>
      have : cur? { s with dtn := s.dt } = none := hcur
      rw [this]; exact ⟨_, _, _, h.dt, rfl⟩
    | some seg =>
      have : cur? { s with dtn := s.dt } = some seg := hcur
      rw [this]
      dsimp only
      cases hl : seg.1[s.lstep]? with
      | none => exact ⟨_, _, _, h.dt, rfl⟩
      | some x => exact ⟨_, _, _, (h.ent s.pos seg le_rfl hcur).2.2 x (List.mem_of_getElem? hl), rfl⟩

theorem adaptDt_frame (s : TimeStep K) (h1 : 0 < s.dt) (hf1 : 1 ≤ s.f1) (hf2 : 0 < s.f2) (hm : 0 < s.dtMax) :
    ∃ d, 0 < d ∧ s.adaptDt = { s with dt := d } := by
  unfold adaptDt
  split
  · dsimp only
    have key : 0 < (if s.iter ≤ 4 ∧ s.niter ≤ 4 then s.dt * s.f1 else if s.iter > 10 then s.dt * s.f2 else s.dt) := by
      split
      · exact mul_pos h1 (lt_of_lt_of_le one_pos hf1)
      · split
        · exact mul_pos h1 hf2
        · exact h1
    refine ⟨_, ?_, rfl⟩
    generalize (if s.iter ≤ 4 ∧ s.niter ≤ 4 then s.dt * s.f1 else if s.iter > 10 then s.dt * s.f2 else s.dt) = x at *
    by_cases h : x < s.dtMin
    · rw [if_pos h]; exact lt_trans key h
    · rw [if_neg h]
      split
      · exact hm
      · exact key
  · exact ⟨_, h1, rfl⟩

/-- The step table bookkeeping after the time was advanced. -/
theorem tableUpdate_frame (s : TimeStep K) (hdt : 0 < s.dt)
    (ent : ∀ (i : Nat) (seg : List K × K), s.pos ≤ i → s.mySteps[i]? = some seg → seg.1 ≠ [] ∧ 0 < seg.2 ∧ ∀ x ∈ seg.1, 0 < x)
    (time : ∀ seg, s.mySteps[s.pos]? = some seg → s.t - s.dt < seg.2)
    (incr : ∀ (i j : Nat) (a b : List K × K), s.pos ≤ i → i < j → s.mySteps[i]? = some a → s.mySteps[j]? = some b → a.2 < b.2) :
    ∃ d t ms p l, s.tableUpdate = { s with dt := d, t := t, mySteps := ms, pos := p, lstep := l } ∧
      0 < d ∧ t - d = s.t - s.dt ∧ ms.length = s.mySteps.length ∧ s.pos ≤ p ∧
      (∀ (i : Nat) (seg : List K × K), p ≤ i → ms[i]? = some seg → seg.1 ≠ [] ∧ 0 < seg.2 ∧ ∀ x ∈ seg.1, 0 < x) ∧
      (∀ seg, ms[p]? = some seg → t < seg.2) ∧
      (∀ (i j : Nat) (a b : List K × K), p ≤ i → i < j → ms[i]? = some a → ms[j]? = some b → a.2 < b.2) := by
  unfold tableUpdate
  cases hcur : s.cur? with
  | none =>
    dsimp only
    have hno : ∀ seg, s.mySteps[s.pos]? = some seg → False := by
      intro seg h; have hh := hcur; rw [cur_eq] at hh; rw [hh] at h; cases h
    exact ⟨s.dt, s.t, s.mySteps, s.pos, s.lstep, rfl, hdt, rfl, rfl, le_rfl, ent,
      fun seg h => (hno seg h).elim, incr⟩
  | some seg =>
    dsimp only
    have hseg : s.mySteps[s.pos]? = some seg := hcur
    have hlen := (List.getElem?_eq_some_iff.1 hseg).1
    obtain ⟨e1, e2, e3⟩ := ent s.pos seg le_rfl hseg
    -- the list after the possible push_back
    let l := if seg.1.length ≤ s.lstep then seg.1 ++ [s.dt] else seg.1
    have hl : l ≠ [] ∧ ∀ x ∈ l, 0 < x := by
      simp only [l]
      split
      · refine ⟨by simp, ?_⟩
        intro x hx
        rcases List.mem_append.1 hx with h | h
        · exact e3 x h
        · rw [List.mem_singleton.1 h]; exact hdt
      · exact ⟨e1, e3⟩
    have hset : ∀ (a : List K × K) (i : Nat), s.pos ≤ i →
        (s.mySteps.set s.pos a)[i]? = if i = s.pos then some a else s.mySteps[i]? := by
      intro a i hi
      rw [List.getElem?_set]
      by_cases h : i = s.pos
      · rw [if_pos h.symm, if_pos h, if_pos (by omega)]
      · rw [if_neg (fun h' => h h'.symm), if_neg h]
    by_cases hr : (s.setCur (l, seg.2)).hasReached seg.2 = true
    · have hr' : (s.setCur (if seg.1.length ≤ s.lstep then seg.1 ++ [s.dt] else seg.1, seg.2)).hasReached seg.2 = true := hr
      rw [if_pos hr']
      have hnext : ∀ sg, s.mySteps[s.pos+1]? = some sg → seg.2 < sg.2 := fun sg h =>
        incr s.pos (s.pos+1) seg sg le_rfl (by omega) hseg h
      have hget : ∀ (a : List K × K) (i : Nat), s.pos + 1 ≤ i → (s.mySteps.set s.pos a)[i]? = s.mySteps[i]? := by
        intro a i hi
        rw [hset a i (by omega), if_neg (by omega)]
      by_cases ht : s.t ≠ seg.2
      · have ht' : (s.setCur (if seg.1.length ≤ s.lstep then seg.1 ++ [s.dt] else seg.1, seg.2)).t ≠ seg.2 := ht
        rw [if_pos ht']
        refine ⟨s.dt + (seg.2 - s.t), seg.2, (s.mySteps.set s.pos (l, seg.2)).set s.pos (setBack l (s.dt + (seg.2 - s.t)), seg.2),
          s.pos + 1, 0, rfl, ?_, by ring, by simp, by omega, ?_, ?_, ?_⟩
        · have := time seg hseg; linarith
        · intro i sg hi h
          rw [List.set_set, hget _ i hi] at h
          exact ent i sg (by omega) h
        · intro sg h
          rw [List.set_set, hget _ _ le_rfl] at h
          exact hnext sg h
        · intro i j a b hi hij ha hb
          rw [List.set_set, hget _ _ hi] at ha
          rw [List.set_set, hget _ _ (by omega)] at hb
          exact incr i j a b (by omega) hij ha hb
      · have ht' : ¬ (s.setCur (if seg.1.length ≤ s.lstep then seg.1 ++ [s.dt] else seg.1, seg.2)).t ≠ seg.2 := ht
        rw [if_neg ht']
        rw [not_not] at ht
        refine ⟨s.dt, s.t, s.mySteps.set s.pos (l, seg.2), s.pos + 1, 0, rfl, hdt, rfl, by simp, by omega, ?_, ?_, ?_⟩
        · intro i sg hi h
          rw [hget _ i hi] at h
          exact ent i sg (by omega) h
        · intro sg h
          rw [hget _ _ le_rfl] at h
          rw [ht]; exact hnext sg h
        · intro i j a b hi hij ha hb
          rw [hget _ _ hi] at ha
          rw [hget _ _ (by omega)] at hb
          exact incr i j a b (by omega) hij ha hb
    · have hr' : ¬ (s.setCur (if seg.1.length ≤ s.lstep then seg.1 ++ [s.dt] else seg.1, seg.2)).hasReached seg.2 = true := hr
      rw [if_neg hr']
      have hlt : s.t < seg.2 := not_reached (s := s.setCur (l, seg.2)) e2 (by simpa using hr)
      refine ⟨s.dt, s.t, s.mySteps.set s.pos (l, seg.2), s.pos, s.lstep, rfl, hdt, rfl, by simp, le_rfl, ?_, ?_, ?_⟩
      · intro i sg hi h
        rw [hset _ i hi] at h
        by_cases hip : i = s.pos
        · rw [if_pos hip] at h
          cases h
          exact ⟨hl.1, e2, hl.2⟩
        · rw [if_neg hip] at h; exact ent i sg hi h
      · intro sg h
        rw [hset _ _ le_rfl, if_pos rfl] at h
        cases h; exact hlt
      · intro i j a b hi hij ha hb
        rw [hset _ i hi] at ha
        rw [hset _ j (by omega), if_neg (by omega)] at hb
        by_cases hip : i = s.pos
        · rw [if_pos hip] at ha
          cases ha
          exact incr s.pos j seg b le_rfl (by omega) hseg hb
        · rw [if_neg hip] at ha; exact incr i j a b hi hij ha hb

/-- One call of `increment` from a legal state. -/
theorem increment_spec (s : TimeStep K) (h : Legal s) :
    (s.increment.2 = true → (s.increment.1).t = s.t + (s.increment.1).dt ∧ 0 < (s.increment.1).dt ∧
      (s.increment.1).t ≤ s.stopTime ∧ Legal s.increment.1 ∧ s.increment.1.stopTime = s.stopTime ∧
      s.increment.1.step = s.step + 1 ∧ s.increment.1.dtn = s.dt ∧ s.t < s.stopTime ∧ ¬ (s.step = s.maxStep ∧ s.maxStep > 0)) ∧
    (s.increment.2 = false → (s.increment.1).t = s.t ∧ Legal s.increment.1 ∧
      (s.increment.1.hasReached s.stopTime = true ∨ (s.step = s.maxStep ∧ 0 < s.maxStep))) := by
  obtain ⟨d1, m, l, hd1, hsel⟩ := selectDt_frame s h
  obtain ⟨d, hd, had⟩ := adaptDt_frame s.selectDt (by rw [hsel]; exact hd1) (by rw [hsel]; exact h.f1)
    (by rw [hsel]; exact h.f2) (by rw [hsel]; exact h.dtMax)
  rw [hsel] at had
  unfold increment
  rw [hsel, had]
  dsimp only
  by_cases hr : hasReached { s with dtn := s.dt, dt := d, maxCFL := m, lstep := l } s.stopTime = true
  · rw [if_pos hr]
    refine ⟨fun h => (by cases h), fun _ => ⟨rfl, ⟨hd, h.ent, h.time, h.incr, h.f1, h.f2, h.dtMax, h.stop⟩, Or.inl hr⟩⟩
  rw [if_neg hr]
  by_cases hm : s.step = s.maxStep ∧ s.maxStep > 0
  · rw [if_pos hm]
    refine ⟨fun h => (by cases h), fun _ => ⟨rfl, ⟨hd, h.ent, h.time, h.incr, h.f1, h.f2, h.dtMax, h.stop⟩, Or.inr hm⟩⟩
  rw [if_neg hm]
  refine ⟨fun _ => ?_, fun h => (by cases h)⟩
  have hstop : s.t < s.stopTime := not_reached (s := { s with dtn := s.dt, dt := d, maxCFL := m, lstep := l }) h.stop (by simpa using hr)
  obtain ⟨d', t', ms, p, l', e, q1, q2, q3, q4, q5, q6, q7⟩ := tableUpdate_frame
    ({ s with dtn := s.dt, dt := d, maxCFL := m, lstep := l, step := s.step + 1, niter := s.iter, t := s.t + d })
    hd h.ent (fun seg hs => by have := h.time seg hs; show s.t + d - d < seg.2; linarith) h.incr
  dsimp only
  rw [e]
  dsimp only at q2 q3 q4 ⊢
  unfold stopUpdate
  dsimp only
  by_cases hlast : t' > s.stopTime
  · rw [if_pos hlast]
    dsimp only
    refine ⟨?_, ?_, le_rfl, ⟨?_, q5, ?_, q7, h.f1, h.f2, h.dtMax, h.stop⟩, rfl, rfl, rfl, hstop, hm⟩
    · linarith
    · linarith
    · show 0 < d' + (s.stopTime - t'); linarith
    · intro seg hs
      exact lt_trans hlast (q6 seg hs)
  · rw [if_neg hlast]
    refine ⟨?_, q1, not_lt.1 hlast, ⟨q1, q5, q6, q7, h.f1, h.f2, h.dtMax, h.stop⟩, rfl, rfl, rfl, hstop, hm⟩
    show t' = s.t + d'; linarith

theorem cutback_spec (s : TimeStep K) (h : Legal s) :
    (s.cutback.2 = false ↔ s.dt ≤ s.dtMin) ∧ (s.cutback.2 = false → s.cutback.1 = s) ∧
    (s.cutback.2 = true → s.cutback.1.t - s.cutback.1.dt = s.t - s.dt ∧ s.cutback.1.dt < s.dt ∧ s.dtMin ≤ s.cutback.1.dt ∧
      s.cutback.1.t < s.t ∧ s.cutback.1.step = s.step ∧
      s.cutback.1.dt = max s.dtMin (s.dt * (if s.f2 < 1 then s.f2 else 1 / 2)) ∧ Legal s.cutback.1) := by
  have hq : (if s.f2 < 1 then s.f2 else 1 / 2) < 1 := by
    split
    · assumption
    · rw [div_lt_one (by positivity)]; exact one_lt_two
  have hq0 : 0 < (if s.f2 < 1 then s.f2 else 1 / 2) := by
    split
    · exact h.f2
    · positivity
  unfold cutback
  by_cases hc : s.dt ≤ s.dtMin
  · rw [if_pos hc]
    exact ⟨⟨fun _ => hc, fun _ => rfl⟩, fun _ => rfl, fun h => by cases h⟩
  rw [if_neg hc]
  dsimp only
  generalize (if s.f2 < 1 then s.f2 else 1 / 2) = q at *
  have hdm : (if s.dt * q < s.dtMin then s.dtMin else s.dt * q) = max s.dtMin (s.dt * q) := by
    by_cases h' : s.dt * q < s.dtMin
    · rw [if_pos h', max_eq_left h'.le]
    · rw [if_neg h', max_eq_right (not_lt.1 h')]
  rw [hdm]
  have hlt : max s.dtMin (s.dt * q) < s.dt := by
    rw [max_lt_iff]
    refine ⟨not_le.1 hc, ?_⟩
    have := mul_lt_mul_of_pos_left hq h.dt
    linarith
  have hpos : 0 < max s.dtMin (s.dt * q) := lt_of_lt_of_le (mul_pos h.dt hq0) (le_max_right _ _)
  have hge : s.dtMin ≤ max s.dtMin (s.dt * q) := le_max_left _ _
  generalize max s.dtMin (s.dt * q) = d at *
  cases hcur : s.cur? with
  | none =>
    have : cur? { s with dt := d, iter := 0, niter := 10, first := 'c', t := s.t + (d - s.dt) } = none := hcur
    rw [this]
    dsimp only
    have hno : ∀ seg, s.mySteps[s.pos]? = some seg → False := by
      intro seg h; have hh := hcur; rw [cur_eq] at hh; rw [hh] at h; cases h
    refine ⟨⟨fun h => (by cases h), fun h => absurd h hc⟩, fun h => (by cases h), fun _ => ⟨by ring, hlt, hge, by linarith, by first | rfl | trivial, by first | rfl | trivial, ?_⟩⟩
    exact ⟨hpos, h.ent, fun seg hs => (hno seg hs).elim, h.incr, h.f1, h.f2, h.dtMax, h.stop⟩
  | some seg =>
    have : cur? { s with dt := d, iter := 0, niter := 10, first := 'c', t := s.t + (d - s.dt) } = some seg := hcur
    rw [this]
    dsimp only [setCur]
    have hseg : s.mySteps[s.pos]? = some seg := hcur
    have hlen := (List.getElem?_eq_some_iff.1 hseg).1
    obtain ⟨e1, e2, e3⟩ := h.ent s.pos seg le_rfl hseg
    have hset : ∀ (a : List K × K) (i : Nat), s.pos ≤ i →
        (s.mySteps.set s.pos a)[i]? = if i = s.pos then some a else s.mySteps[i]? := by
      intro a i hi
      rw [List.getElem?_set]
      by_cases h : i = s.pos
      · rw [if_pos h.symm, if_pos h, if_pos (by omega)]
      · rw [if_neg (fun h' => h h'.symm), if_neg h]
    refine ⟨⟨fun h => (by cases h), fun h => absurd h hc⟩, fun h => (by cases h), fun _ => ⟨by ring, hlt, hge, by linarith, by first | rfl | trivial, by first | rfl | trivial, ?_⟩⟩
    refine ⟨hpos, ?_, ?_, ?_, h.f1, h.f2, h.dtMax, h.stop⟩
    · intro i sg hi hs
      dsimp only at hs
      rw [hset _ i hi] at hs
      by_cases hip : i = s.pos
      · rw [if_pos hip] at hs
        cases hs
        refine ⟨by simp [setBack], e2, ?_⟩
        intro x hx
        unfold setBack at hx
        rcases List.mem_append.1 hx with h' | h'
        · exact e3 x (List.mem_of_mem_dropLast h')
        · rw [List.mem_singleton.1 h']; exact hpos
      · rw [if_neg hip] at hs; exact h.ent i sg hi hs
    · intro sg hs
      dsimp only at hs ⊢
      rw [hset _ _ le_rfl, if_pos rfl] at hs
      cases hs
      have := h.time seg hseg
      dsimp only
      linarith
    · intro i j a b hi hij ha hb
      dsimp only at ha hb
      rw [hset _ i hi] at ha
      rw [hset _ j (by dsimp only at hi; omega), if_neg (by dsimp only at hi; omega)] at hb
      by_cases hip : i = s.pos
      · rw [if_pos hip] at ha
        cases ha
        exact h.incr s.pos j seg b le_rfl (by omega) hseg hb
      · rw [if_neg hip] at ha; exact h.incr i j a b hi hij ha hb

/-! ## Termination -/

/-- The end time of the series of steps in progress is never passed. -/
theorem tableUpdate_le (s : TimeStep K) (seg : List K × K) (hseg : s.mySteps[s.pos]? = some seg) (h0 : 0 < seg.2) :
    s.tableUpdate.t ≤ seg.2 ∧ (s.tableUpdate.pos = s.pos → s.tableUpdate.t = s.t ∧ s.tableUpdate.dt = s.dt ∧
      s.tableUpdate.lstep = s.lstep ∧
      s.tableUpdate.mySteps = s.mySteps.set s.pos (if seg.1.length ≤ s.lstep then seg.1 ++ [s.dt] else seg.1, seg.2)) ∧
    (s.tableUpdate.pos ≠ s.pos → s.tableUpdate.pos = s.pos + 1 ∧ s.tableUpdate.t = seg.2 ∧ s.tableUpdate.lstep = 0 ∧
      ∃ l, s.tableUpdate.mySteps = s.mySteps.set s.pos (l, seg.2)) := by
  have hcur : s.cur? = some seg := hseg
  unfold tableUpdate
  rw [hcur]
  dsimp only
  generalize (if seg.1.length ≤ s.lstep then seg.1 ++ [s.dt] else seg.1) = l
  by_cases hr : (s.setCur (l, seg.2)).hasReached seg.2 = true
  · rw [if_pos hr]
    by_cases ht : s.t ≠ seg.2
    · have ht' : (s.setCur (l, seg.2)).t ≠ seg.2 := ht
      rw [if_pos ht']
      refine ⟨le_rfl, ?_, ?_⟩
      · intro h
        have : s.pos + 1 = s.pos := h
        omega
      · intro _
        refine ⟨rfl, rfl, rfl, setBack l (s.dt + (seg.2 - s.t)), ?_⟩
        show (s.mySteps.set s.pos (l, seg.2)).set s.pos _ = _
        rw [List.set_set]; rfl
    · have ht' : ¬ (s.setCur (l, seg.2)).t ≠ seg.2 := ht
      rw [if_neg ht']
      rw [not_not] at ht
      refine ⟨le_of_eq ht, ?_, ?_⟩
      · intro h
        have : s.pos + 1 = s.pos := h
        omega
      · intro _
        exact ⟨rfl, ht, rfl, l, rfl⟩
  · rw [if_neg hr]
    have hlt : s.t < seg.2 := not_reached (s := s.setCur (l, seg.2)) h0 (by simpa using hr)
    exact ⟨hlt.le, fun _ => ⟨rfl, rfl, rfl, rfl⟩, fun h => absurd rfl h⟩

/-- Potential: time plus `lo` per finished series, plus `lo` when the stop time is reached. -/
def potential (lo : K) (s : TimeStep K) : K := s.t + lo * s.pos + if s.stopTime ≤ s.t then lo else 0

theorem selectDt_table (s : TimeStep K) (lo : K) (hb : LowerBound lo s) :
    ∃ d l, s.selectDt = { s with dtn := s.dt, dt := d, lstep := l } ∧
      (s.t < s.stopTime → lo ≤ d) ∧ ∀ seg, s.mySteps[s.pos]? = some seg → l = s.lstep + 1 := by
  unfold selectDt
  dsimp only
  rw [if_neg (fun h => absurd hb.cfl (not_le.2 h.1))]
  cases hcur : s.cur? with
  | none =>
    have : cur? { s with dtn := s.dt } = none := hcur
    have hnone : s.mySteps[s.pos]? = none := hcur
    rw [this]
    refine ⟨s.dt, s.lstep, rfl, ?_, ?_⟩
    · intro ht
      rcases hb.dt with h | h | h
      · exact h
      · rw [List.getElem?_eq_none_iff] at hnone; omega
      · exact absurd ht (not_lt.2 h)
    · intro seg h; rw [hnone] at h; cases h
  | some seg =>
    have : cur? { s with dtn := s.dt } = some seg := hcur
    rw [this]
    dsimp only
    have hl := hb.table seg hcur
    rw [List.getElem?_eq_getElem hl]
    refine ⟨seg.1[s.lstep], s.lstep + 1, rfl, ?_, fun _ _ => rfl⟩
    intro _
    exact hb.ent s.pos seg le_rfl hcur _ (List.getElem_mem hl)

omit [IsStrictOrderedRing K] in
theorem adaptDt_lo (s : TimeStep K) (lo : K) (h : s.dtMin < s.dtMax → lo ≤ s.dtMin) :
    ∃ d, s.adaptDt = { s with dt := d } ∧ (lo ≤ s.dt → lo ≤ d) := by
  unfold adaptDt
  split
  · rename_i hc
    dsimp only
    refine ⟨_, rfl, fun _ => ?_⟩
    have hm := h hc.1
    generalize (if s.iter ≤ 4 ∧ s.niter ≤ 4 then s.dt * s.f1 else if s.iter > 10 then s.dt * s.f2 else s.dt) = x
    by_cases h1 : x < s.dtMin
    · rw [if_pos h1]; exact hm
    · rw [if_neg h1]
      split
      · exact le_trans hm hc.1.le
      · exact le_trans hm (not_lt.1 h1)
  · exact ⟨_, rfl, id⟩

omit [IsStrictOrderedRing K] in
theorem tableUpdate_const (S : TimeStep K) : S.tableUpdate.stopTime = S.stopTime ∧ S.tableUpdate.dtMin = S.dtMin ∧
    S.tableUpdate.dtMax = S.dtMax ∧ S.tableUpdate.maxCFL = S.maxCFL := by
  unfold tableUpdate
  cases S.cur? with
  | none => exact ⟨rfl, rfl, rfl, rfl⟩
  | some seg =>
    dsimp only
    generalize (if seg.1.length ≤ S.lstep then seg.1 ++ [S.dt] else seg.1) = l
    by_cases hr : (S.setCur (l, seg.2)).hasReached seg.2 = true
    · rw [if_pos hr]
      by_cases h : (S.setCur (l, seg.2)).t ≠ seg.2
      · rw [if_pos h]; exact ⟨rfl, rfl, rfl, rfl⟩
      · rw [if_neg h]; exact ⟨rfl, rfl, rfl, rfl⟩
    · rw [if_neg hr]; exact ⟨rfl, rfl, rfl, rfl⟩

theorem increment_potential (s : TimeStep K) (lo : K) (h : Legal s) (hb : LowerBound lo s) (hok : s.increment.2 = true) :
    potential lo s + lo ≤ potential lo s.increment.1 ∧ LowerBound lo s.increment.1 ∧
    s.increment.1.mySteps.length = s.mySteps.length ∧ s.increment.1.pos ≤ max s.pos s.mySteps.length := by
  obtain ⟨g1, g2, g3, -, g5, -, -, g8, -⟩ := (increment_spec s h).1 hok
  obtain ⟨d1, l, hsel, hlo, hl⟩ := selectDt_table s lo hb
  obtain ⟨d, had, hlo2⟩ := adaptDt_lo s.selectDt lo (by rw [hsel]; exact hb.dtMin)
  rw [hsel] at had hlo2
  dsimp only at hlo2
  have hd : lo ≤ d := hlo2 (hlo g8)
  obtain ⟨S, hS, hinc⟩ : ∃ S, ({ s with dtn := s.dt, dt := d, lstep := l, step := s.step + 1, niter := s.iter, t := s.t + d } : TimeStep K) = S ∧
      s.increment = (S.tableUpdate.stopUpdate, true) := by
    refine ⟨_, rfl, ?_⟩
    unfold increment at hok ⊢
    rw [hsel, had] at hok ⊢
    dsimp only at hok ⊢
    by_cases hr : hasReached { s with dtn := s.dt, dt := d, lstep := l } s.stopTime = true
    · rw [if_pos hr] at hok; cases hok
    rw [if_neg hr] at hok ⊢
    by_cases hm : s.step = s.maxStep ∧ s.maxStep > 0
    · rw [if_pos hm] at hok; cases hok
    rw [if_neg hm]
  have hSt : S.t = s.t + d := by rw [← hS]
  have hSd : S.dt = d := by rw [← hS]
  have hSm : S.mySteps = s.mySteps := by rw [← hS]
  have hSp : S.pos = s.pos := by rw [← hS]
  have hSl : S.lstep = l := by rw [← hS]
  -- facts on the table update
  have key : ∃ T : TimeStep K, S.tableUpdate = T ∧ T.mySteps.length = s.mySteps.length ∧ T.stopTime = s.stopTime ∧
      T.dtMin = s.dtMin ∧ T.dtMax = s.dtMax ∧ T.maxCFL = s.maxCFL ∧
      ((T.pos = s.pos ∧ T.t = s.t + d ∧ T.dt = d) ∨
        (T.pos = s.pos + 1 ∧ s.t ≤ T.t ∧ s.pos < s.mySteps.length ∧
          (s.pos + 1 = s.mySteps.length → s.stopTime ≤ T.t))) ∧
      (∀ (i : Nat) (seg : List K × K), T.pos ≤ i → T.mySteps[i]? = some seg → ∀ x ∈ seg.1, lo ≤ x) ∧
      (∀ seg, T.mySteps[T.pos]? = some seg → T.lstep < seg.1.length) ∧
      (∀ seg, T.mySteps[T.mySteps.length - 1]? = some seg → s.stopTime ≤ seg.2) := by
    cases hcur : s.mySteps[s.pos]? with
    | none =>
      have : S.tableUpdate = S := by
        unfold tableUpdate
        have : S.cur? = none := by unfold cur?; rw [hSm, hSp]; exact hcur
        rw [this]
      refine ⟨S, this, by rw [hSm], by rw [← hS], by rw [← hS], by rw [← hS], by rw [← hS],
        Or.inl ⟨hSp, hSt, hSd⟩, ?_, ?_, ?_⟩
      · intro i seg hi hs; rw [hSm] at hs; rw [hSp] at hi; exact hb.ent i seg hi hs
      · intro seg hs; rw [hSm, hSp, hcur] at hs; cases hs
      · rw [hSm]; exact hb.cover
    | some seg =>
      have hseg : S.mySteps[S.pos]? = some seg := by rw [hSm, hSp]; exact hcur
      have hlen := (List.getElem?_eq_some_iff.1 hcur).1
      obtain ⟨u1, u2, u3⟩ := tableUpdate_le S seg hseg (h.ent s.pos seg le_rfl hcur).2.1
      have hconst : S.tableUpdate.stopTime = s.stopTime ∧ S.tableUpdate.dtMin = s.dtMin ∧
          S.tableUpdate.dtMax = s.dtMax ∧ S.tableUpdate.maxCFL = s.maxCFL := by
        rw [← hS]; exact tableUpdate_const _
      have hset : ∀ (a : List K × K) (i : Nat),
          (s.mySteps.set s.pos a)[i]? = if i = s.pos then some a else s.mySteps[i]? := by
        intro a i
        rw [List.getElem?_set]
        by_cases h : i = s.pos
        · rw [if_pos h.symm, if_pos h, if_pos (by omega)]
        · rw [if_neg (fun h' => h h'.symm), if_neg h]
      refine ⟨S.tableUpdate, rfl, ?_, hconst.1, hconst.2.1, hconst.2.2.1, hconst.2.2.2, ?_, ?_, ?_, ?_⟩
      · by_cases hp : S.tableUpdate.pos = S.pos
        · rw [(u2 hp).2.2.2]; simp [hSm]
        · obtain ⟨l', hl'⟩ := (u3 hp).2.2.2
          rw [hl']; simp [hSm]
      · by_cases hp : S.tableUpdate.pos = S.pos
        · left; exact ⟨by rw [hp, hSp], by rw [(u2 hp).1, hSt], by rw [(u2 hp).2.1, hSd]⟩
        · right
          have ht := (u3 hp).2.1
          refine ⟨by rw [(u3 hp).1, hSp], ?_, hlen, ?_⟩
          · rw [ht]; exact (h.time seg hcur).le
          · intro hlast
            rw [ht]
            apply hb.cover seg
            rw [← hlast]
            simpa using hcur
      · intro i sg hi hs x hx
        by_cases hp : S.tableUpdate.pos = S.pos
        · rw [(u2 hp).2.2.2, hSm, hSp, hset] at hs
          rw [hp, hSp] at hi
          by_cases hip : i = s.pos
          · rw [if_pos hip] at hs
            cases hs
            dsimp only at hx
            split at hx
            · rcases List.mem_append.1 hx with h' | h'
              · exact hb.ent s.pos seg le_rfl hcur x h'
              · rw [List.mem_singleton.1 h', hSd]; exact hd
            · exact hb.ent s.pos seg le_rfl hcur x hx
          · rw [if_neg hip] at hs; exact hb.ent i sg hi hs x hx
        · obtain ⟨l', hl'⟩ := (u3 hp).2.2.2
          have hp' := (u3 hp).1
          rw [hl', hSm, hSp, hset, if_neg (by omega)] at hs
          exact hb.ent i sg (by omega) hs x hx
      · intro sg hs
        by_cases hp : S.tableUpdate.pos = S.pos
        · rw [(u2 hp).2.2.2, hp, hSm, hSp, hset, if_pos rfl] at hs
          rw [(u2 hp).2.2.1]
          cases hs
          dsimp only
          split
          · rw [List.length_append, hSl, hl seg hcur]
            have := hb.table seg hcur
            simp only [List.length_singleton]; omega
          · rename_i hnl; omega
        · obtain ⟨l', hl'⟩ := (u3 hp).2.2.2
          have hp' := (u3 hp).1
          rw [(u3 hp).2.2.1]
          rw [hl', hp', hSm, hSp, hset, if_neg (by omega)] at hs
          exact List.length_pos_iff.2 (h.ent _ sg (by omega) hs).1
      · intro sg hs
        have hll : ∀ a : List K × K, (s.mySteps.set s.pos a).length = s.mySteps.length := fun a => by simp
        have hcov : ∀ l' : List K, (s.mySteps.set s.pos (l', seg.2))[(s.mySteps.set s.pos (l', seg.2)).length - 1]? = some sg →
            s.stopTime ≤ sg.2 := by
          intro l' hs
          rw [hll, hset] at hs
          by_cases hip : s.mySteps.length - 1 = s.pos
          · rw [if_pos hip] at hs
            cases hs
            apply hb.cover seg
            rw [hip]; exact hcur
          · rw [if_neg hip] at hs; exact hb.cover sg hs
        by_cases hp : S.tableUpdate.pos = S.pos
        · rw [(u2 hp).2.2.2, hSm, hSp] at hs; exact hcov _ hs
        · obtain ⟨l', hl'⟩ := (u3 hp).2.2.2
          rw [hl', hSm, hSp] at hs; exact hcov _ hs
  obtain ⟨T, hT, k1, k2, k3, k4, k5, k6, k7, k8, k9⟩ := key
  rw [hinc, hT]
  dsimp only
  have hlop := hb.pos
  have hflag : (if s.stopTime ≤ s.t then lo else 0) = 0 := if_neg (not_le.2 g8)
  unfold stopUpdate
  rw [k2]
  by_cases hlast : T.t > s.stopTime
  · rw [if_pos hlast]
    dsimp only
    refine ⟨?_, ⟨hlop, by rw [k5]; exact hb.cfl, by rw [k3, k4]; exact hb.dtMin, k7, k8, k9, Or.inr (Or.inr le_rfl)⟩, k1, ?_⟩
    · unfold potential
      dsimp only
      rw [hflag, if_pos le_rfl]
      have : lo * (s.pos : K) ≤ lo * (T.pos : K) := by
        apply mul_le_mul_of_nonneg_left _ hlop.le
        rcases k6 with ⟨e, -⟩ | ⟨e, -⟩ <;> rw [e] <;> simp
      linarith
    · rcases k6 with ⟨e, -⟩ | ⟨e, -, e3, -⟩ <;> omega
  · rw [if_neg hlast]
    refine ⟨?_, ⟨hlop, by rw [k5]; exact hb.cfl, by rw [k3, k4]; exact hb.dtMin, k7, k8, by rw [k2]; exact k9, ?_⟩, k1, ?_⟩
    · unfold potential
      rw [hflag, k2]
      have hnn : 0 ≤ (if s.stopTime ≤ T.t then lo else 0) := by split <;> linarith
      rcases k6 with ⟨e, e2, -⟩ | ⟨e, e2, -⟩
      · rw [e2] at hnn; rw [e, e2]; linarith
      · rw [e]; push_cast; linarith
    · rw [k2, k1]
      rcases k6 with ⟨e, e2, e3⟩ | ⟨e, e2, e3, e4⟩
      · left; rw [e3]; exact hd
      · by_cases hend : s.pos + 1 = s.mySteps.length
        · right; right; exact e4 hend
        · right; left; omega
    · rcases k6 with ⟨e, -⟩ | ⟨e, -, e3, -⟩ <;> omega

end IFEM.TimeStep

namespace IFEM.TimeStep
open IFEM.Spec
variable {K : Type} [Field K] [LinearOrder K] [IsStrictOrderedRing K]

theorem legal_report {s : TimeStep K} (h : Legal s) (it : Int) (cfl : K) : Legal (report s it cfl) :=
  ⟨h.dt, h.ent, h.time, h.incr, h.f1, h.f2, h.dtMax, h.stop⟩

omit [IsStrictOrderedRing K] in
theorem lb_report {s : TimeStep K} {lo : K} (h : LowerBound lo s) (it : Int) (cfl : K) : LowerBound lo (report s it cfl) :=
  ⟨h.pos, h.cfl, h.dtMin, h.ent, h.table, h.cover, h.dt⟩

/-- A successful increment is: change `t`, `dt` etc., table update, stop time update. -/
theorem increment_struct (s : TimeStep K) (h : Legal s) (hok : s.increment.2 = true) :
    ∃ S : TimeStep K, S.mySteps = s.mySteps ∧ S.pos = s.pos ∧ S.stopTime = s.stopTime ∧
      s.increment.1 = S.tableUpdate.stopUpdate := by
  obtain ⟨d1, m, l, hd1, hsel⟩ := selectDt_frame s h
  obtain ⟨d, hd, had⟩ := adaptDt_frame s.selectDt (by rw [hsel]; exact hd1) (by rw [hsel]; exact h.f1)
    (by rw [hsel]; exact h.f2) (by rw [hsel]; exact h.dtMax)
  rw [hsel] at had
  unfold increment at hok ⊢
  rw [hsel, had] at hok ⊢
  dsimp only at hok ⊢
  by_cases hr : hasReached { s with dtn := s.dt, dt := d, maxCFL := m, lstep := l } s.stopTime = true
  · rw [if_pos hr] at hok; cases hok
  rw [if_neg hr] at hok ⊢
  by_cases hm : s.step = s.maxStep ∧ s.maxStep > 0
  · rw [if_pos hm] at hok; cases hok
  rw [if_neg hm]
  exact ⟨{ s with dtn := s.dt, dt := d, maxCFL := m, lstep := l, step := s.step + 1, niter := s.iter, t := s.t + d },
    rfl, rfl, rfl, rfl⟩

/-- A successful step does not pass the end of the current series, and either stays within it or ends exactly there. -/
theorem increment_series (s : TimeStep K) (h : Legal s) (hok : s.increment.2 = true) :
    (∀ i : Nat, (s.increment.1.mySteps[i]?).map Prod.snd = (s.mySteps[i]?).map Prod.snd) ∧
    (s.increment.1.pos = s.pos ∨ (s.increment.1.pos = s.pos + 1 ∧ ∀ seg, s.mySteps[s.pos]? = some seg →
      s.increment.1.t = min seg.2 s.stopTime)) := by
  obtain ⟨S, h1, h2, h3, h4⟩ := increment_struct s h hok
  rw [h4]
  have hu : ∀ T : TimeStep K, T.stopUpdate.mySteps = T.mySteps ∧ T.stopUpdate.pos = T.pos ∧ T.stopUpdate.t = min T.t T.stopTime := by
    intro T
    unfold stopUpdate
    split
    · rename_i hc; exact ⟨rfl, rfl, (min_eq_right hc.le).symm⟩
    · rename_i hc; exact ⟨rfl, rfl, (min_eq_left (not_lt.1 hc)).symm⟩
  obtain ⟨e1, e2, e3⟩ := hu S.tableUpdate
  rw [e1, e2, e3, (tableUpdate_const S).1, h3]
  cases hcur : s.mySteps[s.pos]? with
  | none =>
    have : S.tableUpdate = S := by
      unfold tableUpdate
      have : S.cur? = none := by unfold cur?; rw [h1, h2]; exact hcur
      rw [this]
    rw [this]
    exact ⟨fun i => by rw [h1], Or.inl h2⟩
  | some seg =>
    have hseg : S.mySteps[S.pos]? = some seg := by rw [h1, h2]; exact hcur
    obtain ⟨-, u2, u3⟩ := tableUpdate_le S seg hseg (h.ent s.pos seg le_rfl hcur).2.1
    have hset : ∀ (l : List K) (i : Nat), ((s.mySteps.set s.pos (l, seg.2))[i]?).map Prod.snd = (s.mySteps[i]?).map Prod.snd := by
      intro l i
      rw [List.getElem?_set]
      by_cases hi : s.pos = i
      · rw [if_pos hi, ← hi, if_pos (List.getElem?_eq_some_iff.1 hcur).1, hcur]; rfl
      · rw [if_neg hi]
    by_cases hp : S.tableUpdate.pos = S.pos
    · refine ⟨fun i => ?_, Or.inl (by rw [hp, h2])⟩
      rw [(u2 hp).2.2.2, h1, h2]; exact hset _ i
    · obtain ⟨a1, a2, -, l, a3⟩ := u3 hp
      refine ⟨fun i => by rw [a3, h1, h2]; exact hset l i, Or.inr ⟨by rw [a1, h2], ?_⟩⟩
      intro sg hsg
      cases hsg
      rw [a2]

/-- Change the data that an increment without iteration-based and CFL-based control never looks at. -/
def relabel (i n : Int) (f : Char) (c : K) (a : TimeStep K) : TimeStep K :=
  { a with iter := i, niter := n, first := f, CFL := c }

omit [IsStrictOrderedRing K] in
theorem selectDt_relabel (a : TimeStep K) (i n : Int) (f : Char) (c : K) (hc : a.maxCFL ≤ 0 ∨ c = a.CFL) :
    (relabel i n f c a).selectDt = relabel i n f c a.selectDt := by
  unfold selectDt
  dsimp only
  by_cases h : a.maxCFL > 0 ∧ a.CFL > 1 / 1000000000000
  · have hca : c = a.CFL := by
      rcases hc with hc | hc
      · exact absurd h.1 (not_lt.2 hc)
      · exact hc
    subst hca
    rw [if_pos h, if_pos (show (relabel i n f a.CFL a).maxCFL > 0 ∧ (relabel i n f a.CFL a).CFL > 1 / 1000000000000 from h)]
    by_cases h1 : a.step > a.nInitStep
    · rw [if_pos h1, if_pos (show (relabel i n f a.CFL a).step > (relabel i n f a.CFL a).nInitStep from h1)]
      by_cases h2 : a.maxCFL / a.CFL > a.dt * a.f1
      · rw [if_pos h2, if_pos (show (relabel i n f a.CFL a).maxCFL / (relabel i n f a.CFL a).CFL >
          (relabel i n f a.CFL a).dt * (relabel i n f a.CFL a).f1 from h2)]
        rfl
      · rw [if_neg h2, if_neg (show ¬ (relabel i n f a.CFL a).maxCFL / (relabel i n f a.CFL a).CFL >
          (relabel i n f a.CFL a).dt * (relabel i n f a.CFL a).f1 from h2)]
        rfl
    · rw [if_neg h1, if_neg (show ¬ (relabel i n f a.CFL a).step > (relabel i n f a.CFL a).nInitStep from h1)]
      rfl
  · have h' : ¬ ((relabel i n f c a).maxCFL > 0 ∧ (relabel i n f c a).CFL > 1 / 1000000000000) := by
      rcases hc with hc | hc
      · intro h; exact absurd h.1 (not_lt.2 hc)
      · subst hc; exact h
    rw [if_neg h, if_neg h']
    have e1 : cur? { relabel i n f c a with dtn := (relabel i n f c a).dt } = a.mySteps[a.pos]? := rfl
    have e2 : cur? { a with dtn := a.dt } = a.mySteps[a.pos]? := rfl
    rw [e1, e2]
    cases a.mySteps[a.pos]? with
    | none => rfl
    | some seg =>
      dsimp only
      have e3 : (relabel i n f c a).lstep = a.lstep := rfl
      rw [e3]
      cases seg.1[a.lstep]? with
      | none => rfl
      | some x => rfl

omit [IsStrictOrderedRing K] in
theorem adaptDt_off (a : TimeStep K) (had : ¬ a.dtMin < a.dtMax ∨ 0 < a.maxCFL) : a.adaptDt = a := by
  unfold adaptDt
  rw [if_neg]
  rintro ⟨h1, h2, -⟩
  rcases had with h | h
  · exact h h1
  · exact absurd h (not_lt.2 h2)

omit [IsStrictOrderedRing K] in
theorem tableUpdate_relabel (a : TimeStep K) (i n : Int) (f : Char) (c : K) :
    (relabel i n f c a).tableUpdate = relabel i n f c a.tableUpdate := by
  unfold tableUpdate
  have e1 : (relabel i n f c a).cur? = a.cur? := rfl
  rw [e1]
  cases a.cur? with
  | none => rfl
  | some seg =>
    dsimp only
    have e2 : (if seg.1.length ≤ (relabel i n f c a).lstep then seg.1 ++ [(relabel i n f c a).dt] else seg.1) =
      (if seg.1.length ≤ a.lstep then seg.1 ++ [a.dt] else seg.1) := rfl
    rw [e2]
    generalize (if seg.1.length ≤ a.lstep then seg.1 ++ [a.dt] else seg.1) = l
    have e3 : ((relabel i n f c a).setCur (l, seg.2)).hasReached seg.2 = (a.setCur (l, seg.2)).hasReached seg.2 := rfl
    rw [e3]
    by_cases hr : (a.setCur (l, seg.2)).hasReached seg.2 = true
    · rw [if_pos hr, if_pos hr]
      by_cases h : (a.setCur (l, seg.2)).t ≠ seg.2
      · rw [if_pos h, if_pos (show ((relabel i n f c a).setCur (l, seg.2)).t ≠ seg.2 from h)]; rfl
      · rw [if_neg h, if_neg (show ¬ ((relabel i n f c a).setCur (l, seg.2)).t ≠ seg.2 from h)]; rfl
    · rw [if_neg hr, if_neg hr]; rfl

omit [IsStrictOrderedRing K] in
theorem stopUpdate_relabel (a : TimeStep K) (i n : Int) (f : Char) (c : K) :
    (relabel i n f c a).stopUpdate = relabel i n f c a.stopUpdate := by
  unfold stopUpdate
  by_cases h : a.t > a.stopTime
  · rw [if_pos h, if_pos (show (relabel i n f c a).t > (relabel i n f c a).stopTime from h)]; rfl
  · rw [if_neg h, if_neg (show ¬ (relabel i n f c a).t > (relabel i n f c a).stopTime from h)]

theorem selectDt_maxCFL (a : TimeStep K) (hf : 0 < a.f1) :
    (0 < a.maxCFL → 0 < a.selectDt.maxCFL) ∧ (a.maxCFL ≤ 0 → a.selectDt.maxCFL = a.maxCFL) ∧
    a.selectDt.dtMin = a.dtMin ∧ a.selectDt.dtMax = a.dtMax ∧ a.selectDt.f1 = a.f1 ∧ a.selectDt.stopTime = a.stopTime ∧
    a.selectDt.mySteps = a.mySteps ∧ a.selectDt.pos = a.pos := by
  unfold selectDt
  dsimp only
  by_cases h : a.maxCFL > 0 ∧ a.CFL > 1 / 1000000000000
  · rw [if_pos h]
    by_cases h1 : a.step > a.nInitStep
    · rw [if_pos h1]
      by_cases h2 : a.maxCFL / a.CFL > a.dt * a.f1
      · rw [if_pos h2]; exact ⟨id, fun _ => rfl, rfl, rfl, rfl, rfl, rfl, rfl⟩
      · rw [if_neg h2]
        exact ⟨fun h => mul_pos h hf, fun h' => absurd h.1 (not_lt.2 h'), rfl, rfl, rfl, rfl, rfl, rfl⟩
    · rw [if_neg h1]; exact ⟨id, fun _ => rfl, rfl, rfl, rfl, rfl, rfl, rfl⟩
  · rw [if_neg h]
    cases cur? { a with dtn := a.dt } with
    | none => exact ⟨id, fun _ => rfl, rfl, rfl, rfl, rfl, rfl, rfl⟩
    | some seg =>
      dsimp only
      cases seg.1[a.lstep]? with
      | none => exact ⟨id, fun _ => rfl, rfl, rfl, rfl, rfl, rfl, rfl⟩
      | some x => exact ⟨id, fun _ => rfl, rfl, rfl, rfl, rfl, rfl, rfl⟩

/-- Without iteration-based control, iteration counts, the phase flag and (without CFL control) the CFL number have no
effect on the next step. -/
theorem increment_relabel (a : TimeStep K) (i n : Int) (f : Char) (c : K) (hf : 0 < a.f1)
    (had : ¬ a.dtMin < a.dtMax ∨ 0 < a.maxCFL) (hc : a.maxCFL ≤ 0 ∨ c = a.CFL) :
    ∃ n', (relabel i n f c a).increment = (relabel i n' f c a.increment.1, a.increment.2) := by
  obtain ⟨m1, -, m2, m3, -⟩ := selectDt_maxCFL a hf
  have had' : ¬ a.selectDt.dtMin < a.selectDt.dtMax ∨ 0 < a.selectDt.maxCFL := by
    rw [m2, m3]; exact had.imp id m1
  unfold increment
  rw [selectDt_relabel a i n f c hc, adaptDt_off _ had', adaptDt_off (relabel i n f c a.selectDt) had']
  generalize a.selectDt = S
  dsimp only
  by_cases hr : S.hasReached S.stopTime = true
  · rw [if_pos hr, if_pos (show (relabel i n f c S).hasReached (relabel i n f c S).stopTime = true from hr)]
    exact ⟨n, rfl⟩
  rw [if_neg hr, if_neg (show ¬ (relabel i n f c S).hasReached (relabel i n f c S).stopTime = true from hr)]
  by_cases hm : S.step = S.maxStep ∧ S.maxStep > 0
  · rw [if_pos hm, if_pos (show (relabel i n f c S).step = (relabel i n f c S).maxStep ∧ (relabel i n f c S).maxStep > 0 from hm)]
    exact ⟨n, rfl⟩
  rw [if_neg hm, if_neg (show ¬ ((relabel i n f c S).step = (relabel i n f c S).maxStep ∧ (relabel i n f c S).maxStep > 0) from hm)]
  dsimp only
  refine ⟨i, ?_⟩
  have : ({ relabel i n f c S with
      step := (relabel i n f c S).step + 1
      niter := (relabel i n f c S).iter
      t := (relabel i n f c S).t + (relabel i n f c S).dt } : TimeStep K) =
      relabel i i f c { S with step := S.step + 1, niter := S.iter, t := S.t + S.dt } := rfl
  rw [this, tableUpdate_relabel, stopUpdate_relabel]

omit [IsStrictOrderedRing K] in
theorem stopUpdate_const (S : TimeStep K) : S.stopUpdate.dtMin = S.dtMin ∧ S.stopUpdate.dtMax = S.dtMax ∧
    S.stopUpdate.maxCFL = S.maxCFL ∧ S.stopUpdate.mySteps = S.mySteps ∧ S.stopUpdate.f1 = S.f1 := by
  unfold stopUpdate
  split <;> exact ⟨rfl, rfl, rfl, rfl, rfl⟩

omit [IsStrictOrderedRing K] in
theorem tableUpdate_const' (S : TimeStep K) : S.tableUpdate.f1 = S.f1 ∧ (S.mySteps = [] → S.tableUpdate.mySteps = []) := by
  unfold tableUpdate
  cases hc : S.cur? with
  | none => exact ⟨rfl, id⟩
  | some seg =>
    have hne : S.mySteps ≠ [] := by
      intro h; unfold cur? at hc; rw [h] at hc; cases hc
    dsimp only
    generalize (if seg.1.length ≤ S.lstep then seg.1 ++ [S.dt] else seg.1) = l
    by_cases hr : (S.setCur (l, seg.2)).hasReached seg.2 = true
    · rw [if_pos hr]
      by_cases h : (S.setCur (l, seg.2)).t ≠ seg.2
      · rw [if_pos h]; exact ⟨rfl, fun h => absurd h hne⟩
      · rw [if_neg h]; exact ⟨rfl, fun h => absurd h hne⟩
    · rw [if_neg hr]; exact ⟨rfl, fun h => absurd h hne⟩

/-- Configuration data never changed by an increment (without iteration-based control). -/
theorem increment_const (a : TimeStep K) (hf : 0 < a.f1) (had : ¬ a.dtMin < a.dtMax ∨ 0 < a.maxCFL) :
    a.increment.1.dtMin = a.dtMin ∧ a.increment.1.dtMax = a.dtMax ∧ a.increment.1.f1 = a.f1 ∧
    (0 < a.maxCFL → 0 < a.increment.1.maxCFL) ∧ (a.maxCFL ≤ 0 → a.increment.1.maxCFL = a.maxCFL) ∧
    (a.mySteps = [] → a.increment.1.mySteps = []) := by
  obtain ⟨m1, m0, m2, m3, m4, m5, m6, m7⟩ := selectDt_maxCFL a hf
  have had' : ¬ a.selectDt.dtMin < a.selectDt.dtMax ∨ 0 < a.selectDt.maxCFL := by
    rw [m2, m3]; exact had.imp id m1
  rw [← m2, ← m3, ← m4, ← m6]
  unfold increment
  rw [adaptDt_off _ had']
  generalize a.selectDt = S at *
  dsimp only
  by_cases hr : S.hasReached S.stopTime = true
  · rw [if_pos hr]; exact ⟨rfl, rfl, rfl, m1, m0, id⟩
  rw [if_neg hr]
  by_cases hm : S.step = S.maxStep ∧ S.maxStep > 0
  · rw [if_pos hm]; exact ⟨rfl, rfl, rfl, m1, m0, id⟩
  rw [if_neg hm]
  dsimp only
  generalize hT : ({ S with step := S.step + 1, niter := S.iter, t := S.t + S.dt } : TimeStep K) = T
  obtain ⟨s1, s2, s3, s4, s5⟩ := stopUpdate_const T.tableUpdate
  obtain ⟨t1, t2, t3, t4⟩ := tableUpdate_const T
  obtain ⟨t5, t6⟩ := tableUpdate_const' T
  rw [s1, s2, s3, s4, s5, t2, t3, t4, t5]
  subst hT
  exact ⟨rfl, rfl, rfl, m1, m0, t6⟩

end IFEM.TimeStep
