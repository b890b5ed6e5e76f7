import Verif.Lemmas.DriverTS
/-!
# The adaptive driver: the whole simulation
-/
namespace IFEM.Ada
open Spec
variable {τ σ μ ρ ω : Type} (E : Env τ σ μ ρ ω)

theorem Env.preLoop_inv (n : Nat) (st : TS τ σ μ) {m k : Nat} (h : E.Head m k st) (r : TS τ σ μ × Option Int)
    (hr : preLoop E.sim E.P n st = some r) : E.Post k r := by
  induction n generalizing st m k with
  | zero => cases hr
  | succ n ih =>
    obtain ⟨h1, h2, x, h3, h4⟩ := h
    obtain ⟨a1, a2, a3, a4, a5, a6⟩ := E.advance_inv st h1
    unfold preLoop at hr
    dsimp only at hr
    by_cases c0 : (!E.sim.before st.tp) = true
    · rw [if_pos c0] at hr
      cases Option.some.inj hr
      exact ⟨⟨_, _, h3⟩, fun _ => Or.inl ⟨m, k, Nat.le_refl _, h1, h2, x, h3, h4⟩⟩
    rw [if_neg c0] at hr
    by_cases c1 : (!(advance E.sim st).2) = true
    · rw [if_pos c1] at hr
      cases Option.some.inj hr
      obtain ⟨f1, f2⟩ := a6 (by simpa using c1)
      exact ⟨⟨k, x, by rw [a1]; exact h3⟩, fun _ => Or.inr ⟨f2, k, x, by rw [a1]; exact h3⟩⟩
    rw [if_neg c1] at hr
    have hadv : (advance E.sim st).2 = true := by simpa using c1
    obtain ⟨b1, b2, b3⟩ := E.solve1_inv (advance E.sim st).1 (a5 hadv) (by rw [a2]; exact h2) (by rw [a1]; exact h3)
    by_cases c2 : (!(solve1 E.sim (advance E.sim st).1).2) = true
    · rw [if_pos c2] at hr
      cases Option.some.inj hr
      exact ⟨⟨_, _, b1⟩, fun hf => by simp at hf⟩
    rw [if_neg c2] at hr
    obtain ⟨d1, d2, d3⟩ := b3 (by simpa using c2)
    obtain ⟨q, hq⟩ : ∃ q, (solve1 E.sim (advance E.sim st).1).1 = q := ⟨_, rfl⟩
    rw [hq] at b1 b2 d1 d2 d3 hr
    obtain ⟨s1, s2, s3, s4⟩ := E.saveState_inv q false true b1 (E.hC.good_obs _ _ _ b2).2 d1
      (fun hn _ => by rw [d3, a4]; exact (h4 hn).symm) (by omega) (by omega) (fun hf => by simp at hf)
    by_cases c3 : (!(saveState E.sim E.P false true q).2) = true
    · rw [if_pos c3] at hr
      cases Option.some.inj hr
      exact ⟨s3, fun hf => by simp at hf⟩
    rw [if_neg c3] at hr
    obtain ⟨y, y1, y2⟩ := s4 (by simpa using c3)
    obtain ⟨i1, i2⟩ := ih _ (m := max m (k + 1)) (k := k + 1) ⟨by rw [s1]; exact b2, by rw [s2]; exact d1, y, y1, fun hn => by rw [s2]; exact y2 hn⟩ hr
    refine ⟨i1, fun hn => ?_⟩
    rcases i2 hn with ⟨m', k', h8, h9⟩ | h8
    · exact Or.inl ⟨m', k', by omega, h9⟩
    · exact Or.inr h8

theorem Env.outer_inv (n : Nat) (st : TS τ σ μ) (h : (∃ m k, E.Head m k st) ∨ E.Over st) (c : Int) (st' : TS τ σ μ)
    (hr : outer E.sim E.P n st = some (c, st')) : ∃ q y, E.Inv st'.log q y := by
  induction n generalizing st with
  | zero => cases hr
  | succ n ih =>
    unfold outer at hr
    dsimp only at hr
    by_cases c0 : E.sim.finished st.tp = true
    · rw [if_pos c0] at hr
      cases Option.some.inj hr
      have : ∃ q y, E.Inv st.log q y := by
        rcases h with ⟨m, k, -, -, x, h, -⟩ | ⟨-, k, x, h⟩ <;> exact ⟨_, _, h⟩
      obtain ⟨q, y, hi⟩ := this
      exact ⟨q, y, hi.quiet trivial trivial⟩
    rw [if_neg c0] at hr
    rcases h with ⟨m, k, hh⟩ | h
    · obtain ⟨t1, t2⟩ := E.turn_inv st hh
      cases ht : (turn E.sim E.P st).2 with
      | some d =>
        rw [ht] at hr
        dsimp only at hr
        cases Option.some.inj hr
        exact t1
      | none =>
        rw [ht] at hr
        dsimp only at hr
        refine ih _ ?_ hr
        rcases t2 ht with ⟨m', k', -, h5⟩ | h5
        · exact Or.inl ⟨m', k', h5⟩
        · exact Or.inr h5
    · exact absurd h.1 c0

/-- The start of the simulation. -/
theorem Env.start_inv (tp : τ) (s : σ) {m : Nat} (hg : E.good m E.k0 tp) (ha : E.age s = E.k0) :
    let i := initRefine E.sim E.P (initTS tp s : TS τ σ μ)
    let v := saveState E.sim E.P true E.P.saveInit i.1
    (i.2 = false → ∃ q y, E.Inv i.1.log q y) ∧ (i.2 = true → (∃ q y, E.Inv v.1.log q y) ∧ (v.2 = true → E.Head m E.k0 v.1)) := by
  intro i v
  have h0 : E.Inv (initTS tp s : TS τ σ μ).log E.k0 none := by
    refine ⟨?_, List.IsChain.singleton _, rfl, fun _ l1 tp s ok l2 hl => ?_, fun _ => rfl⟩
    · intro e he; cases he
    · cases l1 <;> cases hl
  have hi : i.1.tp = tp ∧ E.Inv i.1.log E.k0 none ∧ (i.2 = true → E.age i.1.s = E.k0) := by
    show (initRefine E.sim E.P _).1.tp = tp ∧ E.Inv (initRefine E.sim E.P _).1.log E.k0 none ∧ ((initRefine E.sim E.P _).2 = true → E.age (initRefine E.sim E.P _).1.s = E.k0)
    unfold initRefine
    split
    · exact ⟨rfl, h0.quiet trivial trivial, fun hok => by
        show E.age (E.sim.initRef s).1 = _
        rw [E.hA.init s hok, ha]⟩
    · exact ⟨rfl, h0, fun _ => ha⟩
  obtain ⟨i1, i2, i3⟩ := hi
  refine ⟨fun _ => ⟨_, _, i2⟩, fun hok => ?_⟩
  obtain ⟨s1, s2, s3, s4⟩ := E.saveState_inv i.1 true E.P.saveInit i2 (m := m) (k' := E.k0) (by rw [i1]; exact (E.hC.good_obs _ _ _ hg).2) (i3 hok)
    (fun _ hf => by cases hf) (Nat.le_refl _) (by omega) (fun _ => rfl)
  refine ⟨s3, fun hv => ?_⟩
  obtain ⟨y, y1, y2⟩ := s4 hv
  exact ⟨by rw [s1, i1]; exact hg, by rw [s2]; exact i3 hok, y, y1, fun hn => by rw [s2]; exact y2 hn⟩

/-- Everything that happens. -/
theorem Env.run_inv (n : Nat) (tp : τ) (s : σ) {m : Nat} (hg : E.good m E.k0 tp) (ha : E.age s = E.k0) (c : Int) (st' : TS τ σ μ)
    (hr : solveProblem E.sim E.P n (initTS tp s) = some (c, st')) : ∃ q y, E.Inv st'.log q y := by
  obtain ⟨h1, h2⟩ := E.start_inv tp s hg ha
  unfold solveProblem at hr
  dsimp only at hr h1 h2
  by_cases c0 : (!(initRefine E.sim E.P (initTS tp s : TS τ σ μ)).2) = true
  · rw [if_pos c0] at hr
    cases Option.some.inj hr
    exact h1 (by simpa using c0)
  rw [if_neg c0] at hr
  obtain ⟨h3, h4⟩ := h2 (by simpa using c0)
  obtain ⟨v, hv⟩ : ∃ v, saveState E.sim E.P true E.P.saveInit (initRefine E.sim E.P (initTS tp s : TS τ σ μ)).1 = v := ⟨_, rfl⟩
  rw [hv] at hr h3 h4
  by_cases c1 : (!v.2) = true
  · rw [if_pos c1] at hr
    cases Option.some.inj hr
    exact h3
  rw [if_neg c1] at hr
  have hh := h4 (by simpa using c1)
  cases hp : preLoop E.sim E.P n v.1 with
  | none => rw [hp] at hr; cases hr
  | some r =>
    obtain ⟨p1, p2⟩ := E.preLoop_inv n v.1 hh r hp
    rw [hp] at hr
    obtain ⟨st1, o⟩ := r
    cases o with
    | some d =>
      dsimp only at hr
      cases Option.some.inj hr
      exact p1
    | none =>
      dsimp only at hr
      refine E.outer_inv n st1 ?_ c st' hr
      rcases p2 rfl with ⟨m', k', -, h⟩ | h
      · exact Or.inl ⟨m', k', h⟩
      · exact Or.inr h

theorem Env.preLoop_ends {N : Nat} (hN : ∀ m k tp, E.good m k tp → k ≤ N) (n : Nat) (st : TS τ σ μ) {m k : Nat} (h : E.Head m k st) (hn : N + 1 ≤ k + n) :
    ∃ r, preLoop E.sim E.P n st = some r := by
  induction n generalizing st m k with
  | zero =>
    have := hN _ _ _ h.1
    omega
  | succ n ih =>
    obtain ⟨h1, h2, x, h3, h4⟩ := h
    obtain ⟨a1, a2, a3, a4, a5, a6⟩ := E.advance_inv st h1
    unfold preLoop
    dsimp only
    by_cases c0 : (!E.sim.before st.tp) = true
    · rw [if_pos c0]; exact ⟨_, rfl⟩
    rw [if_neg c0]
    by_cases c1 : (!(advance E.sim st).2) = true
    · rw [if_pos c1]; exact ⟨_, rfl⟩
    rw [if_neg c1]
    have hadv : (advance E.sim st).2 = true := by simpa using c1
    obtain ⟨b1, b2, b3⟩ := E.solve1_inv (advance E.sim st).1 (a5 hadv) (by rw [a2]; exact h2) (by rw [a1]; exact h3)
    by_cases c2 : (!(solve1 E.sim (advance E.sim st).1).2) = true
    · rw [if_pos c2]; exact ⟨_, rfl⟩
    rw [if_neg c2]
    obtain ⟨d1, d2, d3⟩ := b3 (by simpa using c2)
    obtain ⟨q, hq⟩ : ∃ q, (solve1 E.sim (advance E.sim st).1).1 = q := ⟨_, rfl⟩
    rw [hq] at b1 b2 d1 d2 d3 ⊢
    obtain ⟨s1, s2, s3, s4⟩ := E.saveState_inv q false true b1 (E.hC.good_obs _ _ _ b2).2 d1
      (fun hn _ => by rw [d3, a4]; exact (h4 hn).symm) (by omega) (by omega) (fun hf => by simp at hf)
    by_cases c3 : (!(saveState E.sim E.P false true q).2) = true
    · rw [if_pos c3]; exact ⟨_, rfl⟩
    rw [if_neg c3]
    obtain ⟨y, y1, y2⟩ := s4 (by simpa using c3)
    exact ih _ (m := max m (k + 1)) (k := k + 1) ⟨by rw [s1]; exact b2, by rw [s2]; exact d1, y, y1, fun hn => by rw [s2]; exact y2 hn⟩ (by omega)

theorem Env.outer_ends {N : Nat} (hN : ∀ m k tp, E.good m k tp → k ≤ N) (hp : 1 ≤ E.P.nPredict) (hf : 1 ≤ E.P.nForward) (n : Nat) (st : TS τ σ μ)
    (h : (∃ m k, E.Head m k st ∧ N + 2 ≤ k + n) ∨ (E.Over st ∧ 1 ≤ n)) : ∃ r, outer E.sim E.P n st = some r := by
  induction n generalizing st with
  | zero =>
    rcases h with ⟨m, k, h1, h2⟩ | ⟨-, h⟩
    · have := hN _ _ _ h1.1
      omega
    · omega
  | succ n ih =>
    unfold outer
    dsimp only
    by_cases c0 : E.sim.finished st.tp = true
    · rw [if_pos c0]; exact ⟨_, rfl⟩
    rw [if_neg c0]
    rcases h with ⟨m, k, hh, hk⟩ | ⟨h, -⟩
    · obtain ⟨t1, t2⟩ := E.turn_inv st hh
      have hkN := hN _ _ _ hh.1
      cases ht : (turn E.sim E.P st).2 with
      | some d => exact ⟨_, rfl⟩
      | none =>
        dsimp only
        refine ih _ ?_
        rcases t2 ht with ⟨m', k', h4, h5⟩ | h5
        · exact Or.inl ⟨m', k', h5, by omega⟩
        · exact Or.inr ⟨h5, by omega⟩
    · exact absurd h.1 c0

theorem Env.run_ends {N : Nat} (hN : ∀ m k tp, E.good m k tp → k ≤ N) (hp : 1 ≤ E.P.nPredict) (hf : 1 ≤ E.P.nForward) (n : Nat) (hn : N + 2 ≤ n)
    (tp : τ) (s : σ) {m : Nat} (hg : E.good m E.k0 tp) (ha : E.age s = E.k0) :
    ∃ r, solveProblem E.sim E.P n (initTS tp s : TS τ σ μ) = some r := by
  obtain ⟨h1, h2⟩ := E.start_inv tp s hg ha
  unfold solveProblem
  dsimp only at h1 h2 ⊢
  by_cases c0 : (!(initRefine E.sim E.P (initTS tp s : TS τ σ μ)).2) = true
  · rw [if_pos c0]; exact ⟨_, rfl⟩
  rw [if_neg c0]
  obtain ⟨h3, h4⟩ := h2 (by simpa using c0)
  obtain ⟨v, hv⟩ : ∃ v, saveState E.sim E.P true E.P.saveInit (initRefine E.sim E.P (initTS tp s : TS τ σ μ)).1 = v := ⟨_, rfl⟩
  rw [hv] at h3 h4 ⊢
  by_cases c1 : (!v.2) = true
  · rw [if_pos c1]; exact ⟨_, rfl⟩
  rw [if_neg c1]
  have hh := h4 (by simpa using c1)
  obtain ⟨r, hr⟩ := E.preLoop_ends hN n v.1 hh (by omega)
  obtain ⟨p1, p2⟩ := E.preLoop_inv n v.1 hh r hr
  rw [hr]
  obtain ⟨st1, o⟩ := r
  cases o with
  | some d => exact ⟨_, rfl⟩
  | none =>
    dsimp only
    refine E.outer_ends hN hp hf n st1 ?_
    rcases p2 rfl with ⟨m', k', h5, h⟩ | h
    · exact Or.inl ⟨m', k', h, by omega⟩
    · exact Or.inr ⟨h, by omega⟩

end IFEM.Ada
