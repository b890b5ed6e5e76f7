import Verif.Lemmas.TimeStep
/-!
# Setting the time stepping back: replay on the step table left behind by a longer run
-/
namespace IFEM.TimeStep
open IFEM.Spec
variable {K : Type} [Field K] [LinearOrder K] [IsStrictOrderedRing K]

/-- The same with another step table. -/
def retab (M : List (List K × K)) (a : TimeStep K) : TimeStep K := { a with mySteps := M }

/-- Step control by the table only. -/
structure Tabular (a : TimeStep K) : Prop where
  cfl : a.maxCFL ≤ 0
  fixed : ¬ a.dtMin < a.dtMax

/-- The table has an entry for the next step, and no series is empty. -/
structure Stocked (a : TimeStep K) : Prop where
  next : ∀ seg, a.mySteps[a.pos]? = some seg → a.lstep < seg.1.length
  ne : ∀ (i : Nat) (seg : List K × K), a.pos ≤ i → a.mySteps[i]? = some seg → 0 < seg.1.length

/-- The table `M` is what some continuation of `a` leaves behind. -/
structure Ext (a : TimeStep K) (M : List (List K × K)) : Prop where
  len : M.length = a.mySteps.length
  past : ∀ i, i < a.pos → M[i]? = a.mySteps[i]?
  ends : ∀ i : Nat, (M[i]?).map Prod.snd = (a.mySteps[i]?).map Prod.snd
  cur : ∀ seg seg', a.mySteps[a.pos]? = some seg → M[a.pos]? = some seg' → a.lstep < seg'.1.length ∧ ∀ j < a.lstep, seg'.1[j]? = seg.1[j]?
  ne : ∀ (i : Nat) (seg' : List K × K), a.pos ≤ i → M[i]? = some seg' → 0 < seg'.1.length

omit [Field K] [LinearOrder K] [IsStrictOrderedRing K] in
theorem Ext.refl {a : TimeStep K} (h : Stocked a) : Ext a a.mySteps :=
  ⟨rfl, fun _ _ => rfl, fun _ => rfl, fun seg seg' h1 h2 => by
    rw [h1] at h2; cases Option.some.inj h2; exact ⟨h.next seg h1, fun _ _ => rfl⟩, h.ne⟩

/-- State after the choice of the step size and the time increment. -/
def moved (a : TimeStep K) (d : K) (l : Nat) : TimeStep K :=
  { a with dtn := a.dt, dt := d, lstep := l, step := a.step + 1, niter := a.iter, t := a.t + d }

omit [IsStrictOrderedRing K] in
theorem increment_tabular (a : TimeStep K) (h : Tabular a) (hok : a.increment.2 = true) (d : K) (l : Nat)
    (hsel : a.selectDt = { a with dtn := a.dt, dt := d, lstep := l }) : a.increment.1 = (moved a d l).tableUpdate.stopUpdate := by
  unfold increment at hok ⊢
  have hoff : ({ a with dtn := a.dt, dt := d, lstep := l } : TimeStep K).adaptDt = { a with dtn := a.dt, dt := d, lstep := l } :=
    adaptDt_off _ (Or.inl h.fixed)
  rw [hsel, hoff] at hok ⊢
  dsimp only at hok ⊢
  split at hok
  · cases hok
  · rename_i h1
    rw [if_neg h1]
    split at hok
    · cases hok
    · rename_i h2
      rw [if_neg h2]
      rfl

omit [IsStrictOrderedRing K] in
theorem increment_tabular_ok (a : TimeStep K) (h : Tabular a) (d : K) (l : Nat) (hsel : a.selectDt = { a with dtn := a.dt, dt := d, lstep := l }) :
    a.increment.2 = true ↔ ((!({ a with dtn := a.dt, dt := d, lstep := l } : TimeStep K).hasReached a.stopTime) = true ∧ ¬ (a.step = a.maxStep ∧ a.maxStep > 0)) := by
  unfold increment
  have hoff : ({ a with dtn := a.dt, dt := d, lstep := l } : TimeStep K).adaptDt = { a with dtn := a.dt, dt := d, lstep := l } :=
    adaptDt_off _ (Or.inl h.fixed)
  rw [hsel, hoff]
  dsimp only
  by_cases h1 : ({ a with dtn := a.dt, dt := d, lstep := l } : TimeStep K).hasReached a.stopTime = true
  · rw [if_pos h1]; simp [h1]
  · rw [if_neg h1]
    by_cases h2 : a.step = a.maxStep ∧ a.maxStep > 0
    · rw [if_pos h2]; simp [h2]
    · rw [if_neg h2]; simp [h1]; simpa using h2

omit [IsStrictOrderedRing K] in
theorem selectDt_none (a : TimeStep K) (h : Tabular a) (hc : a.mySteps[a.pos]? = none) : a.selectDt = { a with dtn := a.dt, dt := a.dt, lstep := a.lstep } := by
  unfold selectDt
  dsimp only
  rw [if_neg (fun h1 => absurd h.cfl (not_le.2 h1.1))]
  have : ({ a with dtn := a.dt } : TimeStep K).cur? = none := hc
  rw [this]

omit [IsStrictOrderedRing K] in
theorem selectDt_some (a : TimeStep K) (h : Tabular a) (seg : List K × K) (d : K) (hc : a.mySteps[a.pos]? = some seg) (hd : seg.1[a.lstep]? = some d) :
    a.selectDt = { a with dtn := a.dt, dt := d, lstep := a.lstep + 1 } := by
  unfold selectDt
  dsimp only
  rw [if_neg (fun h1 => absurd h.cfl (not_le.2 h1.1))]
  have : ({ a with dtn := a.dt } : TimeStep K).cur? = some seg := hc
  rw [this]
  dsimp only
  rw [hd]

/-- The list of the current series after the push. -/
def pushed (b : TimeStep K) (seg : List K × K) : List K := if seg.1.length ≤ b.lstep then seg.1 ++ [b.dt] else seg.1

/-- The outcome of the table bookkeeping. -/
def after3 (b : TimeStep K) (e : K) (l : List K) : TimeStep K :=
  if b.hasReached e then
    if b.t ≠ e then { b with
        dt := b.dt + (e - b.t), t := e, mySteps := b.mySteps.set b.pos (setBack l (b.dt + (e - b.t)), e), lstep := 0, pos := b.pos + 1 }
    else { b with mySteps := b.mySteps.set b.pos (l, e), lstep := 0, pos := b.pos + 1 }
  else { b with mySteps := b.mySteps.set b.pos (l, e) }

omit [IsStrictOrderedRing K] in
theorem tableUpdate_after (b : TimeStep K) (seg : List K × K) (hc : b.mySteps[b.pos]? = some seg) :
    b.tableUpdate = after3 b seg.2 (pushed b seg) := by
  have hcur : b.cur? = some seg := hc
  unfold tableUpdate
  rw [hcur]
  dsimp only
  have e0 : (if seg.1.length ≤ b.lstep then seg.1 ++ [b.dt] else seg.1) = pushed b seg := rfl
  rw [e0]
  have e1 : (b.setCur (pushed b seg, seg.2)).hasReached seg.2 = b.hasReached seg.2 := rfl
  rw [e1]
  unfold after3
  by_cases h1 : b.hasReached seg.2 = true
  · rw [if_pos h1, if_pos h1]
    have e2 : (b.setCur (pushed b seg, seg.2)).t = b.t := rfl
    rw [e2]
    by_cases h2 : b.t ≠ seg.2
    · rw [if_pos h2, if_pos h2]
      unfold setCur
      dsimp only
      rw [List.set_set]
    · rw [if_neg h2, if_neg h2]
      rfl
  · rw [if_neg h1, if_neg h1]
    rfl

omit [Field K] [LinearOrder K] [IsStrictOrderedRing K] in
theorem setBack_get (l : List K) (x : K) (j : Nat) (hj : j + 1 < l.length) : (setBack l x)[j]? = l[j]? := by
  unfold setBack
  rw [List.getElem?_append_left (by rw [List.length_dropLast]; omega), List.getElem?_dropLast, if_pos (by omega)]

omit [Field K] [LinearOrder K] [IsStrictOrderedRing K] in
theorem setBack_len (l : List K) (x : K) (hl : 0 < l.length) : (setBack l x).length = l.length := by
  unfold setBack
  rw [List.length_append, List.length_dropLast]; simp; omega

omit [Field K] [LinearOrder K] [IsStrictOrderedRing K] in
theorem setBack_setBack (l : List K) (x : K) : setBack (setBack l x) x = setBack l x := by
  unfold setBack
  rw [List.dropLast_concat]

omit [IsStrictOrderedRing K] in
theorem pushed_spec (b : TimeStep K) (seg : List K × K) (h : b.lstep ≤ seg.1.length) :
    b.lstep < (pushed b seg).length ∧ ∀ j, j < seg.1.length → (pushed b seg)[j]? = seg.1[j]? := by
  unfold pushed
  split
  · exact ⟨by simp; omega, fun j hj => List.getElem?_append_left hj⟩
  · exact ⟨by omega, fun _ _ => rfl⟩

omit [IsStrictOrderedRing K] in
theorem pushed_long (b : TimeStep K) (seg : List K × K) (h : b.lstep < seg.1.length) : pushed b seg = seg.1 := by
  unfold pushed
  rw [if_neg (by omega)]

omit [IsStrictOrderedRing K] in
/-- Time bookkeeping at the stop time does not touch the table. -/
theorem stopUpdate_frame (b : TimeStep K) : b.stopUpdate.mySteps = b.mySteps ∧ b.stopUpdate.pos = b.pos ∧ b.stopUpdate.lstep = b.lstep ∧
    ∀ M, (retab M b).stopUpdate = retab M b.stopUpdate := by
  unfold stopUpdate
  by_cases h : b.t > b.stopTime
  · rw [if_pos h]
    exact ⟨rfl, rfl, rfl, fun M => by rw [if_pos (show (retab M b).t > (retab M b).stopTime from h)]; rfl⟩
  · rw [if_neg h]
    exact ⟨rfl, rfl, rfl, fun M => by rw [if_neg (show ¬ (retab M b).t > (retab M b).stopTime from h)]⟩

/-- The table bookkeeping leaves an entry for the next step, and the first entries as they are. -/
theorem after3_stocked (b : TimeStep K) (seg : List K × K) (hc : b.mySteps[b.pos]? = some seg) (hl : 0 < b.lstep) (hlen : b.lstep ≤ seg.1.length)
    (hne : ∀ (i : Nat) (s : List K × K), b.pos ≤ i → b.mySteps[i]? = some s → 0 < s.1.length) :
    Stocked (after3 b seg.2 (pushed b seg)) ∧
    (∀ i : Nat, ((after3 b seg.2 (pushed b seg)).mySteps[i]?).map (fun s => s.1[0]?) = (b.mySteps[i]?).map (fun s => s.1[0]?)) := by
  obtain ⟨p1, p2⟩ := pushed_spec b seg hlen
  have hpos : b.pos < b.mySteps.length := (List.getElem?_eq_some_iff.1 hc).1
  have hset : ∀ (x : List K × K) (i : Nat), i ≠ b.pos → (b.mySteps.set b.pos x)[i]? = b.mySteps[i]? := by
    intro x i hi
    rw [List.getElem?_set_ne (Ne.symm hi)]
  have hset2 : ∀ x : List K × K, (b.mySteps.set b.pos x)[b.pos]? = some x := by
    intro x; rw [List.getElem?_set_self hpos]
  have hheads : ∀ (x : List K × K), x.1[0]? = seg.1[0]? → ∀ i : Nat,
      ((b.mySteps.set b.pos x)[i]?).map (fun s => s.1[0]?) = (b.mySteps[i]?).map (fun s => s.1[0]?) := by
    intro x hx i
    by_cases hi : i = b.pos
    · rw [hi, hset2, hc]; simp [hx]
    · rw [hset x i hi]
  have hnext : ∀ (c : TimeStep K) (x : List K × K), c.mySteps = b.mySteps.set b.pos x → c.pos = b.pos + 1 → c.lstep = 0 → Stocked c := by
    intro c x c1 c2 c3
    refine ⟨fun s hs => ?_, fun i s hi hs => ?_⟩
    · rw [c1, c2, hset _ _ (by omega)] at hs
      rw [c3]
      exact hne _ s (by omega) hs
    · rw [c1, hset _ _ (by omega)] at hs
      exact hne _ s (by omega) hs
  unfold after3
  by_cases h1 : b.hasReached seg.2 = true
  · rw [if_pos h1]
    by_cases h2 : b.t ≠ seg.2
    · rw [if_pos h2]
      refine ⟨hnext _ _ rfl rfl rfl, hheads _ ?_⟩
      show (setBack _ _)[0]? = _
      rw [setBack_get _ _ _ (by omega), p2 0 (by omega)]
    · rw [if_neg h2]
      exact ⟨hnext _ _ rfl rfl rfl, hheads _ (p2 0 (by omega))⟩
  · rw [if_neg h1]
    refine ⟨⟨fun s hs => ?_, fun i s hi hs => ?_⟩, hheads _ (p2 0 (by omega))⟩
    · dsimp only at hs ⊢
      rw [hset2] at hs
      cases Option.some.inj hs
      exact p1
    · dsimp only at hs hi ⊢
      rcases Nat.eq_or_lt_of_le hi with hi | hi
      · rw [← hi, hset2] at hs
        cases Option.some.inj hs
        show 0 < (pushed b seg).length
        omega
      · rw [hset _ _ (by omega)] at hs
        exact hne _ s (by omega) hs

/-- What the table bookkeeping does to the table, from the entry used (number `b.lstep - 1`) on. -/
theorem after3_ext (b : TimeStep K) (seg : List K × K) (hc : b.mySteps[b.pos]? = some seg) (hl : 0 < b.lstep) (hlen : b.lstep ≤ seg.1.length)
    (hne : ∀ (i : Nat) (s : List K × K), b.pos ≤ i → b.mySteps[i]? = some s → 0 < s.1.length) (M : List (List K × K))
    (hE : Ext (after3 b seg.2 (pushed b seg)) M) :
    M.length = b.mySteps.length ∧ (∀ i, i < b.pos → M[i]? = b.mySteps[i]?) ∧
    (∀ i : Nat, (M[i]?).map Prod.snd = (b.mySteps[i]?).map Prod.snd) ∧
    (∃ seg', M[b.pos]? = some seg' ∧ seg'.2 = seg.2 ∧ b.lstep < seg'.1.length ∧ (∀ j < b.lstep, seg'.1[j]? = seg.1[j]?) ∧
      after3 (retab M b) seg'.2 (pushed b seg') = retab M (after3 b seg.2 (pushed b seg))) ∧
    (∀ (i : Nat) (s : List K × K), b.pos ≤ i → M[i]? = some s → 0 < s.1.length) := by
  obtain ⟨p1, p2⟩ := pushed_spec b seg hlen
  have hpos : b.pos < b.mySteps.length := (List.getElem?_eq_some_iff.1 hc).1
  have hset : ∀ (x : List K × K) (i : Nat), i ≠ b.pos → (b.mySteps.set b.pos x)[i]? = b.mySteps[i]? := by
    intro x i hi
    rw [List.getElem?_set_ne (Ne.symm hi)]
  have hset2 : ∀ x : List K × K, (b.mySteps.set b.pos x)[b.pos]? = some x := by
    intro x; rw [List.getElem?_set_self hpos]
  have hends : ∀ (x : List K × K), x.2 = seg.2 → ∀ i : Nat, ((b.mySteps.set b.pos x)[i]?).map Prod.snd = (b.mySteps[i]?).map Prod.snd := by
    intro x hx i
    by_cases hi : i = b.pos
    · rw [hi, hset2, hc]; simp [hx]
    · rw [hset x i hi]
  unfold after3 at hE ⊢
  by_cases h1 : b.hasReached seg.2 = true
  · rw [if_pos h1] at hE ⊢
    by_cases h2 : b.t ≠ seg.2
    · rw [if_pos h2] at hE ⊢
      obtain ⟨x1, x2, x3, x4, x5⟩ := hE
      dsimp only at x1 x2 x3 x4 x5
      have hM : M[b.pos]? = some (setBack (pushed b seg) (b.dt + (seg.2 - b.t)), seg.2) := by
        rw [x2 b.pos (Nat.lt_succ_self _), hset2]
      have hsl : (setBack (pushed b seg) (b.dt + (seg.2 - b.t))).length = (pushed b seg).length := setBack_len _ _ (by omega)
      have hsj : ∀ j < b.lstep, (setBack (pushed b seg) (b.dt + (seg.2 - b.t)))[j]? = seg.1[j]? := by
        intro j hj
        rw [setBack_get _ _ _ (by omega), p2 j (by omega)]
      refine ⟨by rw [x1, List.length_set], fun i hi => by rw [x2 i (by omega), hset _ i (by omega)], fun i => (x3 i).trans (by apply hends; rfl), ?_, ?_⟩
      · refine ⟨_, hM, rfl, by show b.lstep < (setBack _ _).length; rw [hsl]; exact p1, hsj, ?_⟩
        have hr : (retab M b).hasReached seg.2 = true := h1
        rw [if_pos hr, if_pos (show (retab M b).t ≠ seg.2 from h2)]
        have hpp : pushed b (setBack (pushed b seg) (b.dt + (seg.2 - b.t)), seg.2) = setBack (pushed b seg) (b.dt + (seg.2 - b.t)) := by
          exact pushed_long b _ (by show b.lstep < (setBack _ _).length; rw [hsl]; exact p1)
        rw [hpp]
        have hMs : M.set b.pos (setBack (setBack (pushed b seg) (b.dt + (seg.2 - b.t))) (b.dt + (seg.2 - b.t)), seg.2) = M := by
          rw [setBack_setBack]
          refine List.ext_getElem? fun i => ?_
          by_cases hi : i = b.pos
          · rw [hi, List.getElem?_set_self (List.getElem?_eq_some_iff.1 hM).1, hM]
          · rw [List.getElem?_set_ne (Ne.symm hi)]
        unfold retab
        dsimp only
        rw [hMs]
      · intro i s hi hs
        rcases Nat.eq_or_lt_of_le hi with hi | hi
        · rw [← hi, hM] at hs
          cases Option.some.inj hs
          show 0 < (setBack _ _).length
          rw [hsl]; omega
        · exact x5 i s hi hs
    · rw [if_neg h2] at hE ⊢
      obtain ⟨x1, x2, x3, x4, x5⟩ := hE
      dsimp only at x1 x2 x3 x4 x5
      have hM : M[b.pos]? = some (pushed b seg, seg.2) := by
        rw [x2 b.pos (Nat.lt_succ_self _), hset2]
      refine ⟨by rw [x1, List.length_set], fun i hi => by rw [x2 i (by omega), hset _ i (by omega)], fun i => (x3 i).trans (by apply hends; rfl), ?_, ?_⟩
      · refine ⟨_, hM, rfl, p1, fun j hj => p2 j (by omega), ?_⟩
        have hr : (retab M b).hasReached seg.2 = true := h1
        rw [if_pos hr, if_neg (show ¬ (retab M b).t ≠ seg.2 from h2)]
        have hpp : pushed b (pushed b seg, seg.2) = pushed b seg := by
          exact pushed_long b (pushed b seg, seg.2) p1
        rw [hpp]
        have hMs : M.set b.pos (pushed b seg, seg.2) = M := by
          refine List.ext_getElem? fun i => ?_
          by_cases hi : i = b.pos
          · rw [hi, List.getElem?_set_self (List.getElem?_eq_some_iff.1 hM).1, hM]
          · rw [List.getElem?_set_ne (Ne.symm hi)]
        unfold retab
        dsimp only
        rw [hMs]
      · intro i s hi hs
        rcases Nat.eq_or_lt_of_le hi with hi | hi
        · rw [← hi, hM] at hs
          cases Option.some.inj hs
          show 0 < (pushed b seg).length
          omega
        · exact x5 i s hi hs
  · rw [if_neg h1] at hE ⊢
    obtain ⟨x1, x2, x3, x4, x5⟩ := hE
    dsimp only at x1 x2 x3 x4 x5
    have hlt : b.pos < M.length := by rw [x1, List.length_set]; exact hpos
    obtain ⟨seg', hM⟩ : ∃ seg', M[b.pos]? = some seg' := ⟨_, List.getElem?_eq_getElem hlt⟩
    have h2e : seg'.2 = seg.2 := by
      have := x3 b.pos
      rw [hM, hset2] at this
      simpa using this
    obtain ⟨y1, y2⟩ := x4 _ seg' (hset2 _) hM
    refine ⟨by rw [x1, List.length_set], fun i hi => by rw [x2 i (by omega), hset _ i (by omega)], fun i => (x3 i).trans (by apply hends; rfl), ?_, ?_⟩
    · refine ⟨seg', hM, h2e, y1, fun j hj => by rw [y2 j hj, p2 j (by omega)], ?_⟩
      have hr : ¬ (retab M b).hasReached seg'.2 = true := by rw [h2e]; exact h1
      rw [if_neg hr]
      have hpp : pushed b seg' = seg'.1 := by
        unfold pushed
        rw [if_neg (by omega)]
      rw [hpp]
      have hMs : M.set b.pos (seg'.1, seg'.2) = M := by
        refine List.ext_getElem? fun i => ?_
        by_cases hi : i = b.pos
        · rw [hi, List.getElem?_set_self hlt, hM]
        · rw [List.getElem?_set_ne (Ne.symm hi)]
      unfold retab
      dsimp only
      rw [hMs]
    · intro i s hi hs
      exact x5 i s hi hs

/-- One step more: the next state has an entry for its next step. -/
theorem increment_stocked (a : TimeStep K) (ht : Tabular a) (hs : Stocked a) (hok : a.increment.2 = true) :
    Stocked a.increment.1 ∧ ∀ i : Nat, (a.increment.1.mySteps[i]?).map (fun s => s.1[0]?) = (a.mySteps[i]?).map (fun s => s.1[0]?) := by
  cases hc : a.mySteps[a.pos]? with
  | none =>
    rw [increment_tabular a ht hok _ _ (selectDt_none a ht hc)]
    have hu : (moved a a.dt a.lstep).tableUpdate = moved a a.dt a.lstep := by
      unfold tableUpdate
      have : (moved a a.dt a.lstep).cur? = none := hc
      rw [this]
    rw [hu]
    obtain ⟨f1, f2, f3, -⟩ := stopUpdate_frame (moved a a.dt a.lstep)
    refine ⟨⟨?_, ?_⟩, ?_⟩
    · rw [f1, f2, f3]; exact hs.next
    · rw [f1, f2]; exact hs.ne
    · rw [f1]; exact fun _ => rfl
  | some seg =>
    have hl := hs.next seg hc
    rw [increment_tabular a ht hok _ _ (selectDt_some a ht seg _ hc (List.getElem?_eq_getElem hl))]
    have hu := tableUpdate_after (moved a seg.1[a.lstep] (a.lstep + 1)) seg hc
    rw [hu]
    obtain ⟨g1, g2⟩ := after3_stocked (moved a seg.1[a.lstep] (a.lstep + 1)) seg hc (Nat.succ_pos _) hl hs.ne
    obtain ⟨f1, f2, f3, -⟩ := stopUpdate_frame (after3 (moved a seg.1[a.lstep] (a.lstep + 1)) seg.2 (pushed (moved a seg.1[a.lstep] (a.lstep + 1)) seg))
    refine ⟨⟨?_, ?_⟩, ?_⟩
    · rw [f1, f2, f3]; exact g1.next
    · rw [f1, f2]; exact g1.ne
    · rw [f1]; exact g2

/-- One step on the table of a later state: the same step, and the table remains as it is. -/
theorem increment_retab (a : TimeStep K) (ht : Tabular a) (hs : Stocked a) (hok : a.increment.2 = true) (M : List (List K × K))
    (hE : Ext a.increment.1 M) : (retab M a).increment = (retab M a.increment.1, true) ∧ Ext a M := by
  have htM : Tabular (retab M a) := ⟨ht.cfl, ht.fixed⟩
  cases hc : a.mySteps[a.pos]? with
  | none =>
    have hsel := selectDt_none a ht hc
    rw [increment_tabular a ht hok _ _ hsel] at hE ⊢
    have hu : (moved a a.dt a.lstep).tableUpdate = moved a a.dt a.lstep := by
      unfold tableUpdate
      have : (moved a a.dt a.lstep).cur? = none := hc
      rw [this]
    rw [hu] at hE ⊢
    obtain ⟨f1, f2, f3, f4⟩ := stopUpdate_frame (moved a a.dt a.lstep)
    have hEa : Ext a M := by
      obtain ⟨x1, x2, x3, x4, x5⟩ := hE
      rw [f1] at x1 x2 x3 x4
      rw [f2] at x2 x4 x5
      rw [f3] at x4
      exact ⟨x1, x2, x3, x4, x5⟩
    have hcM : (retab M a).mySteps[(retab M a).pos]? = none := by
      show M[a.pos]? = none
      rw [List.getElem?_eq_none_iff] at hc ⊢
      rw [hEa.len]; exact hc
    have hselM := selectDt_none (retab M a) htM hcM
    have hokM : (retab M a).increment.2 = true := by
      rw [increment_tabular_ok _ htM _ _ hselM]
      exact (increment_tabular_ok a ht _ _ hsel).1 hok
    refine ⟨?_, hEa⟩
    refine Prod.ext ?_ hokM
    show (retab M a).increment.1 = retab M (moved a a.dt a.lstep).stopUpdate
    rw [increment_tabular _ htM hokM _ _ hselM, ← f4 M]
    have hu2 : (moved (retab M a) a.dt a.lstep).tableUpdate = retab M (moved a a.dt a.lstep) := by
      unfold tableUpdate
      have : (moved (retab M a) a.dt a.lstep).cur? = none := hcM
      rw [this]
      rfl
    exact congrArg stopUpdate hu2
  | some seg =>
    have hl := hs.next seg hc
    obtain ⟨d, hd⟩ : ∃ d, seg.1[a.lstep]? = some d := ⟨_, List.getElem?_eq_getElem hl⟩
    have hsel := selectDt_some a ht seg d hc hd
    rw [increment_tabular a ht hok _ _ hsel] at hE ⊢
    have hu := tableUpdate_after (moved a d (a.lstep + 1)) seg hc
    rw [hu] at hE ⊢
    obtain ⟨f1, f2, f3, f4⟩ := stopUpdate_frame (after3 (moved a d (a.lstep + 1)) seg.2 (pushed (moved a d (a.lstep + 1)) seg))
    have hE' : Ext (after3 (moved a d (a.lstep + 1)) seg.2 (pushed (moved a d (a.lstep + 1)) seg)) M := by
      obtain ⟨x1, x2, x3, x4, x5⟩ := hE
      rw [f1] at x1 x2 x3 x4
      rw [f2] at x2 x4 x5
      rw [f3] at x4
      exact ⟨x1, x2, x3, x4, x5⟩
    obtain ⟨g1, g2, g3, ⟨seg', g4, g5, g6, g7, g8⟩, g9⟩ := after3_ext (moved a d (a.lstep + 1)) seg hc (Nat.succ_pos _) hl hs.ne M hE'
    have g4' : M[a.pos]? = some seg' := g4
    have g6' : a.lstep + 1 < seg'.1.length := g6
    have g7' : ∀ j < a.lstep + 1, seg'.1[j]? = seg.1[j]? := g7
    have hEa : Ext a M := by
      refine ⟨g1, g2, g3, fun s s' h1 h2 => ?_, g9⟩
      rw [hc] at h1
      rw [g4'] at h2
      cases Option.some.inj h1
      cases Option.some.inj h2
      exact ⟨by omega, fun j hj => g7' j (by omega)⟩
    have hdM : seg'.1[(retab M a).lstep]? = some d := by
      show seg'.1[a.lstep]? = some d
      rw [g7' a.lstep (by omega), hd]
    have hselM := selectDt_some (retab M a) htM seg' d g4' hdM
    have hokM : (retab M a).increment.2 = true := by
      rw [increment_tabular_ok _ htM _ _ hselM]
      exact (increment_tabular_ok a ht _ _ hsel).1 hok
    refine ⟨Prod.ext ?_ hokM, hEa⟩
    show (retab M a).increment.1 = retab M (after3 (moved a d (a.lstep + 1)) seg.2 (pushed (moved a d (a.lstep + 1)) seg)).stopUpdate
    rw [increment_tabular _ htM hokM _ _ hselM, ← f4 M, ← g8]
    exact congrArg stopUpdate (tableUpdate_after (moved (retab M a) d (a.lstep + 1)) seg' g4')

end IFEM.TimeStep
