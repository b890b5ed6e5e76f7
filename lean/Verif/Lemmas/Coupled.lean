import Verif.Spec.Coupled
import Mathlib.Tactic.Common
import Mathlib.Tactic.Ring
import Mathlib.Tactic.FieldSimp
import Mathlib.Tactic.LinearCombination
/-!
# Lemmas about staggered iterations: the invariant of the loop
-/
namespace IFEM.Cpl
open Spec
variable {K σ : Type} {n : Nat}

/-- One of the two simulators. -/
def pick (sim : Pair K σ n) (w : Bool) (k : Nat) (s : σ) : σ × ConvStatus := if w then sim.solve1 k s else sim.solve2 k s

theorem leads_append (sim : Pair K σ n) (l1 l2 : List (Ev K σ n)) (s s1 s2 : σ) (h1 : Leads sim s l1 s1) (h2 : Leads sim s1 l2 s2) :
    Leads sim s (l1 ++ l2) s2 := by
  induction l1 generalizing s with
  | nil => cases h1; exact h2
  | cons e l ih => exact ⟨h1.1, ih _ h1.2⟩

/-- How an iteration goes on. -/
inductive Sweep (sim : Pair K σ n) (f : Bool) (k : Nat) (st : St K σ n) : St K σ n → Option ConvStatus → Prop
  | ok (s1 s2 : σ) (ca cb c : ConvStatus) (h1 : pick sim f k st.s = (s1, ca)) (h2 : pick sim (!f) k s1 = (s2, cb))
      (hc : c = if f then sim.check k s2 ca cb else sim.check k s2 cb ca) (ha : bad ca = false) (hb : bad cb = false) (hd : bad c = false) :
      Sweep sim f k st { st with s := s2, log := st.log ++ [.solved f k st.s ca, .solved (!f) k s1 cb, .checked k s2 c] } (some c)
  | fail1 (s1 : σ) (ca : ConvStatus) (h1 : pick sim f k st.s = (s1, ca)) (ha : bad ca = true) :
      Sweep sim f k st { st with s := s1, log := st.log ++ [.solved f k st.s ca] } none
  | fail2 (s1 s2 : σ) (ca cb : ConvStatus) (h1 : pick sim f k st.s = (s1, ca)) (h2 : pick sim (!f) k s1 = (s2, cb)) (ha : bad ca = false) (hb : bad cb = true) :
      Sweep sim f k st { st with s := s2, log := st.log ++ [.solved f k st.s ca, .solved (!f) k s1 cb] } none
  | fail3 (s1 s2 : σ) (ca cb c : ConvStatus) (h1 : pick sim f k st.s = (s1, ca)) (h2 : pick sim (!f) k s1 = (s2, cb))
      (hc : c = if f then sim.check k s2 ca cb else sim.check k s2 cb ca) (ha : bad ca = false) (hb : bad cb = false) (hd : bad c = true) :
      Sweep sim f k st { st with s := s2, log := st.log ++ [.solved f k st.s ca, .solved (!f) k s1 cb, .checked k s2 c] } none

theorem sweep_spec (sim : Pair K σ n) (f : Bool) (k : Nat) (st : St K σ n) : Sweep sim f k st (sweep sim f k st).1 (sweep sim f k st).2 := by
  obtain ⟨s1, ca, h1⟩ : ∃ s1 ca, pick sim f k st.s = (s1, ca) := ⟨_, _, rfl⟩
  obtain ⟨s2, cb, h2⟩ : ∃ s2 cb, pick sim (!f) k s1 = (s2, cb) := ⟨_, _, rfl⟩
  have p1 : part sim f k st = ({ st with s := s1, log := st.log ++ [.solved f k st.s ca] }, ca) := by
    unfold part; unfold pick at h1; rw [h1]
  have p2 : part sim (!f) k ({ st with s := s1, log := st.log ++ [.solved f k st.s ca] } : St K σ n) =
      ({ st with s := s2, log := st.log ++ [.solved f k st.s ca] ++ [.solved (!f) k s1 cb] }, cb) := by
    unfold part; unfold pick at h2; dsimp only; rw [h2]
  unfold sweep
  rw [p1]
  dsimp only
  by_cases ha : bad ca = true
  · rw [if_pos ha]; exact .fail1 s1 ca h1 ha
  rw [if_neg ha, p2]
  dsimp only
  have ha' : bad ca = false := by simpa using ha
  by_cases hb : bad cb = true
  · rw [if_pos hb]
    have := Sweep.fail2 (sim := sim) (f := f) (k := k) (st := st) s1 s2 ca cb h1 h2 ha' hb
    simpa using this
  rw [if_neg hb]
  have hb' : bad cb = false := by simpa using hb
  obtain ⟨c, hc⟩ : ∃ c, c = if f then sim.check k s2 ca cb else sim.check k s2 cb ca := ⟨_, rfl⟩
  rw [← hc]
  by_cases hd : bad c = true
  · rw [if_pos hd]
    have := Sweep.fail3 (sim := sim) (f := f) (k := k) (st := st) s1 s2 ca cb c h1 h2 hc ha' hb' hd
    simpa using this
  · rw [if_neg hd]
    have := Sweep.ok (sim := sim) (f := f) (k := k) (st := st) s1 s2 ca cb c h1 h2 hc ha' hb' (by simpa using hd)
    simpa using this

theorem bad_iff (c : ConvStatus) : bad c = true ↔ c = .failure ∨ c = .diverged := by cases c <;> simp [bad]

theorem leads_sweep (sim : Pair K σ n) (f : Bool) (k : Nat) (s s1 s2 : σ) (ca cb : ConvStatus) (h1 : pick sim f k s = (s1, ca)) (h2 : pick sim (!f) k s1 = (s2, cb)) :
    Leads sim s [.solved f k s ca, .solved (!f) k s1 cb] s2 := by
  cases f
  · exact ⟨rfl, by simpa [pick, afterEv, before] using (congrArg Prod.fst h1).symm, by simpa [pick, afterEv, Leads] using congrArg Prod.fst h2⟩
  · exact ⟨rfl, by simpa [pick, afterEv, before] using (congrArg Prod.fst h1).symm, by simpa [pick, afterEv, Leads] using congrArg Prod.fst h2⟩

section
variable [Field K] [LinearOrder K]

theorem truth_mono (sim : Pair K σ n) (P : Prm K) (l l' : List (Ev K σ n)) (e : Ev K σ n) (h : Truth sim P l e) : Truth sim P (l ++ l') e := by
  have hm : ∀ x, x ∈ l → x ∈ l ++ l' := fun x hx => List.mem_append_left _ hx
  cases e with
  | solved w k s c => cases w <;> exact h
  | checked k s c =>
    obtain ⟨s1, c1, s2, c2, a, b, d⟩ := h
    exact ⟨s1, c1, s2, c2, hm _ a, hm _ b, d⟩
  | relaxed k w s x =>
    obtain ⟨h0, ⟨c, hc⟩, wp, xp, rp, hcur, h2⟩ := h
    refine ⟨h0, ⟨c, hm _ hc⟩, wp, xp, rp, ?_, h2⟩
    rcases hcur with ⟨hj, s', c', a, b⟩ | ⟨hj, s', a, b⟩
    · exact Or.inl ⟨hj, s', c', hm _ a, b⟩
    · exact Or.inr ⟨hj, s', hm _ a, b⟩
  | post w s => trivial

theorem truth_solved (sim : Pair K σ n) (P : Prm K) (l : List (Ev K σ n)) (f : Bool) (k : Nat) (s s1 : σ) (c : ConvStatus) (h : pick sim f k s = (s1, c)) :
    Truth sim P l (.solved f k s c) := by
  cases f
  · exact (congrArg Prod.snd h).symm
  · exact (congrArg Prod.snd h).symm

theorem truth_checked (sim : Pair K σ n) (P : Prm K) (l : List (Ev K σ n)) (f : Bool) (k : Nat) (s s1 s2 : σ) (ca cb c : ConvStatus)
    (h1 : Ev.solved f k s ca ∈ l) (h2 : Ev.solved (!f) k s1 cb ∈ l) (hc : c = if f then sim.check k s2 ca cb else sim.check k s2 cb ca) :
    Truth sim P l (.checked k s2 c) := by
  cases f
  · exact ⟨s1, cb, s, ca, h2, h1, by simpa using hc⟩
  · exact ⟨s, ca, s1, cb, h1, h2, by simpa using hc⟩

/-- The invariant of the loop, at the start of iteration `st.iter`. -/
structure Inv (sim : Pair K σ n) (P : Prm K) (f : Bool) (s0 : σ) (b0 : Bool) (st : St K σ n) (conv : ConvStatus) : Prop where
  first : st.first = b0
  leads : Leads sim s0 st.log st.s
  solvedK : st.log.filterMap solvedKey = (List.range st.iter).flatMap fun k => [(f, k), (!f, k)]
  checkedK : st.log.filterMap checkedKey = List.range st.iter
  relaxedK : st.log.filterMap relaxedKey = if P.omega0 = 0 then [] else List.range' 1 (st.iter - 1)
  postK : st.log.filterMap postKey = []
  good : ∀ e ∈ st.log, ¬ badEv e
  truth : ∀ e ∈ st.log, Truth sim P st.log e
  conv0 : st.iter = 0 → conv ≠ .converged
  last : 0 < st.iter → ∃ s, Ev.checked (st.iter - 1) s conv ∈ st.log
  notyet : ∀ j s, Ev.checked j s .converged ∈ st.log → j + 1 = st.iter ∧ conv = .converged
  cur : P.omega0 ≠ 0 → 0 < st.iter → (∃ r, Current sim P st.log (st.iter - 1) st.rlx.omega st.rlx.prevSol r ∧ (P.aitken = true → st.rlx.prevRes = r)) ∧
    (P.aitken = false → st.rlx.omega = P.omega0)

theorem current_mono (sim : Pair K σ n) (P : Prm K) (l l' : List (Ev K σ n)) (j : Nat) (w : K) (x r : Fin n → K) (h : Current sim P l j w x r) :
    Current sim P (l ++ l') j w x r := by
  rcases h with ⟨hj, s', c', a, b⟩ | ⟨hj, s', a, b⟩
  · exact Or.inl ⟨hj, s', c', List.mem_append_left _ a, b⟩
  · exact Or.inr ⟨hj, s', List.mem_append_left _ a, b⟩

end

section
variable [Field K] [LinearOrder K] [IsStrictOrderedRing K]

theorem aitken_rule (w0 wp : K) (rp r : Fin n → K) (w : K) (h : aitkenFactor w0 wp rp r = some w) : AitkenRule w0 wp rp r w := by
  unfold aitkenFactor at h
  dsimp only at h
  by_cases h0 : dotProduct (r - rp) (r - rp) = 0
  · rw [if_pos h0] at h; cases h
  rw [if_neg h0] at h
  have h := Option.some.inj h
  refine ⟨h0, -(dotProduct rp (r - rp)) / dotProduct (r - rp) (r - rp), ?_, ?_⟩
  · rw [add_dotProduct, smul_dotProduct, smul_eq_mul]
    field_simp
    ring
  · unfold tiny at h
    by_cases h1 : |wp * (-(dotProduct rp (r - rp)) / dotProduct (r - rp) (r - rp))| < 1 / 1000000
    · rw [if_pos h1] at h; exact Or.inl ⟨h1, h.symm⟩
    · rw [if_neg h1] at h; exact Or.inr ⟨not_lt.1 h1, h.symm⟩

end
end IFEM.Cpl
