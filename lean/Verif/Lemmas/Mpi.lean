import Verif.Model.Mpi
import Mathlib.Tactic.Common

/-! # Executions of communicating processes are confluent -/
namespace IFEM.Mpi

variable {R : Type}

theorem upd_same {A : Type} (st : Nat → A) (p : Nat) (x : A) : upd st p x p = x := by simp [upd]

theorem upd_ne {A : Type} (st : Nat → A) {p r : Nat} (x : A) (h : r ≠ p) : upd st p x r = st r := by simp [upd, h]

theorem upd_comm {A : Type} (st : Nat → A) {p q : Nat} (x y : A) (h : p ≠ q) : upd (upd st p x) q y = upd (upd st q y) p x := by
  funext r
  unfold upd
  by_cases h1 : r = q <;> by_cases h2 : r = p <;> simp [h1, h2]
  · omega
  all_goals (intro h3; omega)

theorem updQ_same (ch : Queues) (c : Nat × Nat × Tag) (x : List (List Int)) : updQ ch c x c = x := by simp [updQ]

theorem updQ_ne (ch : Queues) {c d : Nat × Nat × Tag} (x : List (List Int)) (h : d ≠ c) : updQ ch c x d = ch d := by simp [updQ, h]

theorem updQ_comm (ch : Queues) {c d : Nat × Nat × Tag} (x y : List (List Int)) (h : c ≠ d) : updQ (updQ ch c x) d y = updQ (updQ ch d y) c x := by
  funext e
  unfold updQ
  by_cases h1 : e = d <;> by_cases h2 : e = c <;> simp [h1, h2]
  · exact absurd (h2.symm.trans h1) h
  all_goals (intro h3; exact absurd h3 (by first | exact h | exact fun h' => h h'.symm))

theorem updQ_twice (ch : Queues) (c : Nat × Nat × Tag) (x y : List (List Int)) : updQ (updQ ch c x) c y = updQ ch c y := by
  funext e
  unfold updQ
  by_cases h1 : e = c <;> simp [h1]

/-- Two different steps from the same state can be joined by one step each. -/
def Diamond {S : Type} (step : S → S → Prop) : Prop := ∀ a b c, step a b → step a c → b = c ∨ ∃ d, step b d ∧ step c d

theorem sync_diamond : Diamond (SyncStep (R := R)) := by
  intro a b c hb hc
  cases hb with
  | comm p q t m k k' hp hq =>
    cases hc with
    | comm p' q' t' m' k₂ k₂' hp' hq' =>
      by_cases h1 : p = p'
      · subst h1
        rw [hp] at hp'
        injection hp' with e1 e2 e3 e4
        subst e1; subst e2; subst e3; subst e4
        rw [hq] at hq'
        injection hq' with e5 e6 e7
        subst e7
        exact Or.inl rfl
      · have h2 : q ≠ q' := by
          rintro rfl
          rw [hq] at hq'
          injection hq' with e5 e6 e7
          exact h1 e5
        have h3 : p ≠ q' := by rintro rfl; rw [hp] at hq'; cases hq'
        have h4 : p' ≠ q := by rintro rfl; rw [hp'] at hq; cases hq
        have h5 : p ≠ q := by rintro rfl; rw [hp] at hq; cases hq
        have h6 : p' ≠ q' := by rintro rfl; rw [hp'] at hq'; cases hq'
        refine Or.inr ⟨upd (upd (upd (upd a p k) q (k' m)) p' k₂) q' (k₂' m'), ?_, ?_⟩
        · refine SyncStep.comm _ p' q' t' m' k₂ k₂' ?_ ?_
          · rw [upd_ne _ _ h4, upd_ne _ _ (Ne.symm h1), hp']
          · rw [upd_ne _ _ (Ne.symm h2), upd_ne _ _ (Ne.symm h3), hq']
        · have : upd (upd (upd (upd a p k) q (k' m)) p' k₂) q' (k₂' m') = upd (upd (upd (upd a p' k₂) q' (k₂' m')) p k) q (k' m) := by
            rw [upd_comm _ _ _ (Ne.symm h4), upd_comm _ _ _ h1, upd_comm _ _ _ h2, upd_comm _ _ _ h3]
          rw [this]
          refine SyncStep.comm _ p q t m k k' ?_ ?_
          · rw [upd_ne _ _ h3, upd_ne _ _ h1, hp]
          · rw [upd_ne _ _ h2, upd_ne _ _ (Ne.symm h4), hq]

theorem buf_diamond : Diamond (BufStep (R := R)) := by
  intro a b c hb hc
  cases hb with
  | send st ch p q t m k hp =>
    cases hc with
    | send _ _ p' q' t' m' k' hp' =>
      by_cases h1 : p = p'
      · subst h1
        rw [hp] at hp'
        injection hp' with e1 e2 e3 e4
        subst e1; subst e2; subst e3; subst e4
        exact Or.inl rfl
      · have hc : ((p, q, t) : Nat × Nat × Tag) ≠ (p', q', t') := fun h => h1 (congrArg Prod.fst h)
        refine Or.inr ⟨(upd (upd st p k) p' k', updQ (updQ ch (p, q, t) (ch (p, q, t) ++ [m])) (p', q', t') (ch (p', q', t') ++ [m'])), ?_, ?_⟩
        · have := BufStep.send (upd st p k) (updQ ch (p, q, t) (ch (p, q, t) ++ [m])) p' q' t' m' k' (by rw [upd_ne _ _ (Ne.symm h1), hp'])
          rwa [updQ_ne _ _ (Ne.symm hc)] at this
        · have := BufStep.send (upd st p' k') (updQ ch (p', q', t') (ch (p', q', t') ++ [m'])) p q t m k (by rw [upd_ne _ _ h1, hp])
          rw [updQ_ne _ _ hc] at this
          rwa [upd_comm _ _ _ h1, updQ_comm _ _ _ hc]
    | recv _ _ p' q' t' m' ms k' hq' hch =>
      have h1 : p ≠ q' := by rintro rfl; rw [hp] at hq'; cases hq'
      by_cases hc : ((p, q, t) : Nat × Nat × Tag) = (p', q', t')
      · injection hc with e1 e2
        injection e2 with e2 e3
        subst e1; subst e2; subst e3
        refine Or.inr ⟨(upd (upd st p k) q (k' m'), updQ ch (p, q, t) (ms ++ [m])), ?_, ?_⟩
        · have := BufStep.recv (upd st p k) (updQ ch (p, q, t) (ch (p, q, t) ++ [m])) p q t m' (ms ++ [m]) k' (by rw [upd_ne _ _ (Ne.symm h1), hq'])
            (by rw [updQ_same, hch]; rfl)
          rwa [updQ_twice] at this
        · have := BufStep.send (upd st q (k' m')) (updQ ch (p, q, t) ms) p q t m k (by rw [upd_ne _ _ h1, hp])
          rw [updQ_same, updQ_twice] at this
          rwa [upd_comm _ _ _ h1]
      · refine Or.inr ⟨(upd (upd st p k) q' (k' m'), updQ (updQ ch (p, q, t) (ch (p, q, t) ++ [m])) (p', q', t') ms), ?_, ?_⟩
        · exact BufStep.recv (upd st p k) _ p' q' t' m' ms k' (by rw [upd_ne _ _ (Ne.symm h1), hq']) (by rw [updQ_ne _ _ (Ne.symm hc), hch])
        · have := BufStep.send (upd st q' (k' m')) (updQ ch (p', q', t') ms) p q t m k (by rw [upd_ne _ _ h1, hp])
          rw [updQ_ne _ _ hc] at this
          rwa [upd_comm _ _ _ h1, updQ_comm _ _ _ hc]
  | recv st ch p q t m ms k hq hch =>
    cases hc with
    | send _ _ p' q' t' m' k' hp' =>
      have h1 : p' ≠ q := by rintro rfl; rw [hp'] at hq; cases hq
      by_cases hc : ((p, q, t) : Nat × Nat × Tag) = (p', q', t')
      · injection hc with e1 e2
        injection e2 with e2 e3
        subst e1; subst e2; subst e3
        refine Or.inr ⟨(upd (upd st p k') q (k m), updQ ch (p, q, t) (ms ++ [m'])), ?_, ?_⟩
        · have := BufStep.send (upd st q (k m)) (updQ ch (p, q, t) ms) p q t m' k' (by rw [upd_ne _ _ h1, hp'])
          rw [updQ_same, updQ_twice] at this
          rwa [upd_comm _ _ _ h1]
        · have := BufStep.recv (upd st p k') (updQ ch (p, q, t) (ch (p, q, t) ++ [m'])) p q t m (ms ++ [m']) k (by rw [upd_ne _ _ (Ne.symm h1), hq])
            (by rw [updQ_same, hch]; rfl)
          rwa [updQ_twice] at this
      · refine Or.inr ⟨(upd (upd st p' k') q (k m), updQ (updQ ch (p', q', t') (ch (p', q', t') ++ [m'])) (p, q, t) ms), ?_, ?_⟩
        · have := BufStep.send (upd st q (k m)) (updQ ch (p, q, t) ms) p' q' t' m' k' (by rw [upd_ne _ _ h1, hp'])
          rw [updQ_ne _ _ (Ne.symm hc)] at this
          rwa [upd_comm _ _ _ h1, updQ_comm _ _ _ (Ne.symm hc)]
        · exact BufStep.recv (upd st p' k') _ p q t m ms k (by rw [upd_ne _ _ (Ne.symm h1), hq]) (by rw [updQ_ne _ _ hc, hch])
    | recv _ _ p' q' t' m' ms' k' hq' hch' =>
      by_cases h1 : q = q'
      · subst h1
        rw [hq] at hq'
        injection hq' with e1 e2 e3
        subst e1; subst e2; subst e3
        rw [hch] at hch'
        injection hch' with e4 e5
        subst e4; subst e5
        exact Or.inl rfl
      · have hc : ((p, q, t) : Nat × Nat × Tag) ≠ (p', q', t') := fun h => h1 (congrArg (fun x => x.2.1) h)
        refine Or.inr ⟨(upd (upd st q (k m)) q' (k' m'), updQ (updQ ch (p, q, t) ms) (p', q', t') ms'), ?_, ?_⟩
        · exact BufStep.recv (upd st q (k m)) _ p' q' t' m' ms' k' (by rw [upd_ne _ _ (Ne.symm h1), hq']) (by rw [updQ_ne _ _ (Ne.symm hc), hch'])
        · rw [upd_comm _ _ _ h1, updQ_comm _ _ _ hc]
          exact BufStep.recv (upd st q' (k' m')) _ p q t m ms k (by rw [upd_ne _ _ h1, hq]) (by rw [updQ_ne _ _ hc, hch])

/-- If one execution ends in a state without successors, every execution can be continued to this state, and takes the same number of steps to it. -/
theorem run_confluent {S : Type} {step : S → S → Prop} (hd : Diamond step) : ∀ (n : Nat) (a f : S), Run step n a f → (∀ g, ¬ step f g) →
    ∀ (k : Nat) (b : S), Run step k a b → k ≤ n ∧ Run step (n-k) b f
  | 0, a, f, h, hf, k, b, hk => by
    cases h
    cases hk with
    | refl => exact ⟨Nat.le_refl _, Run.refl _⟩
    | tail h1 _ => exact absurd h1 (hf _)
  | n+1, a, f, h, hf, k, b, hk => by
    cases hk with
    | refl => exact ⟨Nat.zero_le _, h⟩
    | tail h1 h2 =>
      rename_i k c
      -- the first step of the given execution can be brought to the front
      have key : Run step n c f := by
        clear h2
        cases h with
        | tail g1 g2 =>
          rename_i c'
          rcases hd _ _ _ g1 h1 with rfl | ⟨d, hd1, hd2⟩
          · exact g2
          · have := run_confluent hd n c' f g2 hf 1 d (Run.tail hd1 (Run.refl _))
            obtain ⟨h1n, h3⟩ := this
            have := Run.tail hd2 h3
            rwa [Nat.sub_add_cancel h1n] at this
      obtain ⟨h4, h5⟩ := run_confluent hd n c f key hf k b h2
      exact ⟨by omega, by rwa [Nat.add_sub_add_right]⟩

theorem run_trans {S : Type} {step : S → S → Prop} {n m : Nat} {a b c : S} (h1 : Run step n a b) (h2 : Run step m b c) : Run step (n+m) a c := by
  induction h1 with
  | refl => simpa using h2
  | tail h _ ih =>
    have := Run.tail h (ih h2)
    rwa [Nat.add_right_comm] at this

/-- The queues are empty. -/
def noMsg : Queues := fun _ => []

/-- A rendezvous is a send followed by a receive. -/
theorem sync_buf {st st' : Nat → Prog R} {n : Nat} (h : Run SyncStep n st st') : Run BufStep (2*n) (st, noMsg) (st', noMsg) := by
  induction h with
  | refl => exact Run.refl _
  | tail h _ ih =>
    rename_i a0 _ _ _
    cases h with
    | comm p q t m k k' hp hq =>
      have hne : q ≠ p := by rintro rfl; rw [hp] at hq; cases hq
      have s1 := BufStep.send _ noMsg p q t m k hp
      have s2 := BufStep.recv (upd a0 p k) (updQ noMsg (p, q, t) (noMsg (p, q, t) ++ [m])) p q t m [] k' (by rw [upd_ne _ _ hne, hq]) (by rw [updQ_same]; rfl)
      have e : updQ (updQ noMsg (p, q, t) (noMsg (p, q, t) ++ [m])) (p, q, t) [] = noMsg := by
        rw [updQ_twice]
        funext d
        unfold updQ noMsg
        split <;> rfl
      rw [e] at s2
      exact Run.tail s1 (Run.tail s2 ih)

theorem sync_final {st : Nat → Prog R} (h : ∀ p, ∃ r, st p = .done r) (g : Nat → Prog R) : ¬ SyncStep st g := by
  intro hs
  cases hs with
  | comm p q t m k k' hp hq =>
    obtain ⟨r, hr⟩ := h p
    rw [hr] at hp
    cases hp

theorem buf_final {st : Nat → Prog R} (ch : Queues) (h : ∀ p, ∃ r, st p = .done r) (g : (Nat → Prog R) × Queues) : ¬ BufStep (st, ch) g := by
  intro hs
  cases hs with
  | send _ _ p q t m k hp =>
    obtain ⟨r, hr⟩ := h p
    rw [hr] at hp
    cases hp
  | recv _ _ p q t m ms k hq _ =>
    obtain ⟨r, hr⟩ := h q
    rw [hr] at hq
    cases hq

end IFEM.Mpi
