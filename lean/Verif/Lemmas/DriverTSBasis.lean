import Verif.Lemmas.DriverTSCodes
/-!
# The adaptive driver: the basis in the restart file
-/
namespace IFEM.Ada
open Spec
variable {τ σ μ ρ ω : Type} (sim : TSim τ σ μ) (P : Prm)

/-- The entry for the basis leads to the mesh of the state. -/
def Leads (file : List (τ × σ × Basis μ)) (lv : Nat) (s : σ) : Basis μ → Prop
  | .none => sim.refined s = false
  | .full m => sim.refined s = true ∧ m = sim.mesh s
  | .level n => sim.refined s = true ∧ 0 ≤ n ∧ n ≤ lv ∧ ∃ tp' s', file[n.toNat]? = some (tp', s', Basis.full (sim.mesh s))

/-- All entries lead to their meshes. -/
def AllLead (file : List (τ × σ × Basis μ)) : Prop := ∀ lv tp s b, file[lv]? = some (tp, s, b) → Leads sim file lv s b

/-- The next entry will lead to its mesh. -/
structure NextOk (st : TS τ σ μ) : Prop where
  saved : sim.refined st.s = true → st.isSaved = true → 0 ≤ st.lastRLev ∧ st.lastRLev < st.file.length ∧
    ∃ tp' s', st.file[st.lastRLev.toNat]? = some (tp', s', Basis.full (sim.mesh st.s))
  unsaved : sim.refined st.s = true → st.isSaved = false → st.lastRLev < 0 ∨ st.lastRLev = st.file.length
  plain : sim.refined st.s = false → st.lastRLev < 0

theorem Leads.mono {file : List (τ × σ × Basis μ)} {lv : Nat} {s : σ} {b : Basis μ} (h : Leads sim file lv s b) (x : τ × σ × Basis μ) :
    Leads sim (file ++ [x]) lv s b := by
  cases b with
  | none => exact h
  | full m => exact h
  | level n =>
    obtain ⟨h1, h2, h3, tp', s', h4⟩ := h
    exact ⟨h1, h2, h3, tp', s', by rw [List.getElem?_append_left (List.getElem?_eq_some_iff.1 h4).1]; exact h4⟩

/-- Two driver states with the same restart data and mesh. -/
def SameBasis (st st' : TS τ σ μ) : Prop :=
  st'.file = st.file ∧ st'.isSaved = st.isSaved ∧ st'.lastRLev = st.lastRLev ∧ sim.mesh st'.s = sim.mesh st.s ∧ sim.refined st'.s = sim.refined st.s

theorem SameBasis.next {st st' : TS τ σ μ} (h : SameBasis sim st st') (hn : NextOk sim st) : NextOk sim st' := by
  obtain ⟨h1, h2, h3, h4, h5⟩ := h
  refine ⟨?_, ?_, ?_⟩
  · rw [h1, h2, h3, h4, h5]; exact hn.saved
  · rw [h1, h2, h3, h5]; exact hn.unsaved
  · rw [h3, h5]; exact hn.plain

theorem SameBasis.trans {a b c : TS τ σ μ} (h1 : SameBasis sim a b) (h2 : SameBasis sim b c) : SameBasis sim a c := by
  obtain ⟨a1, a2, a3, a4, a5⟩ := h1
  obtain ⟨b1, b2, b3, b4, b5⟩ := h2
  exact ⟨b1.trans a1, b2.trans a2, b3.trans a3, b4.trans a4, b5.trans a5⟩

theorem dumpRestart_basis (st : TS τ σ μ) (ha : AllLead sim st.file) (hn : NextOk sim st) :
    AllLead sim (dumpRestart sim P st).file ∧ NextOk sim (dumpRestart sim P st) := by
  unfold dumpRestart
  split
  · exact ⟨ha, hn⟩
  split
  · exact ⟨ha, hn⟩
  dsimp only
  -- what is added
  have hadd : Leads sim (st.file ++ [(st.tp, st.s, (serialBasis sim st).2)]) st.file.length st.s (serialBasis sim st).2 ∧
      NextOk sim { st with
        last := sim.step st.tp, lastRLev := (serialBasis sim st).1, isSaved := st.isSaved || sim.refined st.s,
        file := st.file ++ [(st.tp, st.s, (serialBasis sim st).2)] } := by
    cases hr : sim.refined st.s with
    | false =>
      have hl := hn.plain hr
      have hb : serialBasis sim st = (st.lastRLev, Basis.none) := by
        unfold serialBasis
        simp [hr]
        omega
      rw [hb]
      refine ⟨hr, ⟨fun h => ?_, fun h => ?_, fun _ => hl⟩⟩
      · rw [hr] at h; cases h
      · rw [hr] at h; cases h
    | true =>
      cases hs : st.isSaved with
      | false =>
        have hb : serialBasis sim st = ((st.file.length : Int), Basis.full (sim.mesh st.s)) := by
          unfold serialBasis
          have := hn.unsaved hr hs
          simp only [hr, hs]
          simp
          omega
        rw [hb]
        refine ⟨⟨hr, rfl⟩, ⟨fun _ _ => ?_, fun _ h => ?_, fun h => ?_⟩⟩
        · refine ⟨by show (0 : Int) ≤ (st.file.length : Int); omega, ?_, st.tp, st.s, ?_⟩
          · show (st.file.length : Int) < ((st.file ++ [_]).length : Int)
            rw [List.length_append]; simp; omega
          · show (st.file ++ [_])[((st.file.length : Int)).toNat]? = _
            rw [Int.toNat_natCast, List.getElem?_append_right (Nat.le_refl _)]
            simp
        · simp at h
        · rw [hr] at h; cases h
      | true =>
        obtain ⟨l1, l2, tp', s', l3⟩ := hn.saved hr hs
        have hb : serialBasis sim st = (st.lastRLev, Basis.level st.lastRLev) := by
          unfold serialBasis
          dsimp only
          rw [if_neg (show ¬ (st.lastRLev < 0 ∧ sim.refined st.s = true) from fun h => by omega), if_neg (by simp [hs]), if_pos l1]
        rw [hb]
        have l4 : ∀ x, (st.file ++ [x])[st.lastRLev.toNat]? = some (tp', s', Basis.full (sim.mesh st.s)) := by
          intro x
          rw [List.getElem?_append_left (List.getElem?_eq_some_iff.1 l3).1]; exact l3
        refine ⟨⟨hr, l1, by omega, tp', s', l4 _⟩, ⟨fun _ _ => ⟨l1, ?_, tp', s', l4 _⟩, fun _ h => ?_, fun h => ?_⟩⟩
        · show st.lastRLev < ((st.file ++ [_]).length : Int)
          rw [List.length_append]
          push_cast
          omega
        · simp at h
        · rw [hr] at h; cases h
  refine ⟨?_, hadd.2⟩
  intro lv tp s b h
  rcases Nat.lt_trichotomy lv st.file.length with h1 | h1 | h1
  · rw [List.getElem?_append_left h1] at h
    exact (ha lv tp s b h).mono sim _
  · rw [h1, List.getElem?_append_right (Nat.le_refl _), Nat.sub_self] at h
    simp at h
    obtain ⟨-, rfl, rfl⟩ := h
    rw [h1]
    exact hadd.1
  · rw [List.getElem?_eq_none (by simp; omega)] at h; cases h

theorem saveState_basis (newMesh res : Bool) (st : TS τ σ μ) (ha : AllLead sim st.file) (hn : NextOk sim st) :
    AllLead sim (saveState sim P newMesh res st).1.file ∧ NextOk sim (saveState sim P newMesh res st).1 ∧
    (saveState sim P newMesh res st).1.s = st.s := by
  obtain ⟨g, hg⟩ : ∃ g, (if newMesh then saveGeo sim st else (st, true)) = g := ⟨_, rfl⟩
  have hg' : SameBasis sim st g.1 ∧ g.1.s = st.s := by
    cases newMesh with
    | true =>
      rw [if_pos rfl] at hg
      subst hg
      exact ⟨⟨rfl, rfl, rfl, rfl, rfl⟩, rfl⟩
    | false =>
      rw [if_neg (by simp)] at hg
      subst hg
      exact ⟨⟨rfl, rfl, rfl, rfl, rfl⟩, rfl⟩
  have hga : AllLead sim g.1.file := by rw [hg'.1.1]; exact ha
  have hgn := hg'.1.next sim hn
  unfold saveState
  rw [hg]
  dsimp only
  split
  · exact ⟨hga, hgn, hg'.2⟩
  split
  · exact ⟨hga, hgn, hg'.2⟩
  unfold saveRes
  dsimp only
  have hs : SameBasis sim g.1 { g.1 with log := g.1.log ++ [Ev.saved g.1.tp g.1.s (sim.save g.1.tp g.1.s)] } := ⟨rfl, rfl, rfl, rfl, rfl⟩
  split
  · obtain ⟨d1, d2⟩ := dumpRestart_basis sim P { g.1 with log := g.1.log ++ [Ev.saved g.1.tp g.1.s (sim.save g.1.tp g.1.s)] } hga (hs.next sim hgn)
    exact ⟨d1, d2, by rw [(dumpRestart_frame sim P _).2.1]; exact hg'.2⟩
  · exact ⟨hga, hs.next sim hgn, hg'.2⟩

variable {age kept : σ → Nat} (hA : Ages sim age kept)
include hA

theorem advance_basis (st : TS τ σ μ) : SameBasis sim st (advance sim st).1 := by
  unfold advance
  dsimp only
  split
  · exact ⟨rfl, rfl, rfl, rfl, rfl⟩
  · obtain ⟨-, -, -, a, b⟩ := hA.adv (sim.incr st.tp).1 st.s
    exact ⟨rfl, rfl, rfl, a, b⟩

theorem solve1_basis (st : TS τ σ μ) : (solve1 sim st).1.file = st.file ∧ ((solve1 sim st).2 = true → SameBasis sim st (solve1 sim st).1) := by
  unfold solve1
  refine ⟨rfl, fun hok => ?_⟩
  obtain ⟨-, -, a, b⟩ := hA.solve st.tp st.s hok
  exact ⟨rfl, rfl, rfl, a, b⟩

theorem predict_basis (n : Nat) (st : TS τ σ μ) :
    (predict sim n st).1.file = st.file ∧ ((predict sim n st).2 = none → SameBasis sim st (predict sim n st).1) := by
  induction n generalizing st with
  | zero => exact ⟨rfl, fun _ => ⟨rfl, rfl, rfl, rfl, rfl⟩⟩
  | succ n ih =>
    have h1 := advance_basis sim hA st
    unfold predict
    dsimp only
    split
    · exact ⟨h1.1, fun _ => h1⟩
    obtain ⟨s1, s2⟩ := solve1_basis sim hA (advance sim st).1
    split
    · exact ⟨s1.trans h1.1, fun hf => by cases hf⟩
    · rename_i hs
      obtain ⟨i1, i2⟩ := ih (solve1 sim (advance sim st).1).1
      exact ⟨i1.trans (s1.trans h1.1), fun hn => (h1.trans sim (s2 (by simpa using hs))).trans sim (i2 hn)⟩

theorem forward_basis (n j : Nat) (st : TS τ σ μ) (ha : AllLead sim st.file) (hn : NextOk sim st) :
    AllLead sim (forward sim P n j st).1.file ∧ ((forward sim P n j st).2 = none → NextOk sim (forward sim P n j st).1) := by
  induction n generalizing st j with
  | zero => exact ⟨ha, fun _ => hn⟩
  | succ n ih =>
    have h1 := advance_basis sim hA st
    unfold forward
    dsimp only
    split
    · exact ⟨by rw [h1.1]; exact ha, fun _ => h1.next sim hn⟩
    obtain ⟨s1, s2⟩ := solve1_basis sim hA (advance sim st).1
    have ha2 : AllLead sim (solve1 sim (advance sim st).1).1.file := by rw [s1, h1.1]; exact ha
    split
    · exact ⟨ha2, fun hf => by cases hf⟩
    rename_i hs
    have hn2 := (s2 (by simpa using hs)).next sim (h1.next sim hn)
    obtain ⟨v1, v2, -⟩ := saveState_basis sim P (decide (j < 1)) true _ ha2 hn2
    split
    · exact ⟨v1, fun hf => by cases hf⟩
    · exact ih _ _ v1 v2

theorem preLoop_basis (n : Nat) (st : TS τ σ μ) (ha : AllLead sim st.file) (hn : NextOk sim st) (r : TS τ σ μ × Option Int)
    (hr : preLoop sim P n st = some r) : AllLead sim r.1.file ∧ (r.2 = none → NextOk sim r.1) := by
  induction n generalizing st with
  | zero => cases hr
  | succ n ih =>
    have h1 := advance_basis sim hA st
    unfold preLoop at hr
    dsimp only at hr
    split at hr
    · cases Option.some.inj hr
      exact ⟨ha, fun _ => hn⟩
    split at hr
    · cases Option.some.inj hr
      exact ⟨by rw [h1.1]; exact ha, fun _ => h1.next sim hn⟩
    obtain ⟨s1, s2⟩ := solve1_basis sim hA (advance sim st).1
    have ha2 : AllLead sim (solve1 sim (advance sim st).1).1.file := by rw [s1, h1.1]; exact ha
    split at hr
    · cases Option.some.inj hr
      exact ⟨ha2, fun hf => by cases hf⟩
    rename_i hs
    have hn2 := (s2 (by simpa using hs)).next sim (h1.next sim hn)
    obtain ⟨v1, v2, -⟩ := saveState_basis sim P false true _ ha2 hn2
    split at hr
    · cases Option.some.inj hr
      exact ⟨v1, fun hf => by cases hf⟩
    · exact ih _ v1 v2 hr

theorem turn_basis (hP : P.maxPred.natAbs = 1) (hS : P.stride.isSome = true) (st : TS τ σ μ) (ha : AllLead sim st.file) (hn : NextOk sim st) :
    AllLead sim (turn sim P st).1.file ∧ ((turn sim P st).2 = none → NextOk sim (turn sim P st).1) := by
  obtain ⟨c, hc⟩ : ∃ c, cycles sim P (sim.step st.tp) P.maxPred.natAbs 0 1 0 (startTurn sim P st) = c := ⟨_, rfl⟩
  have h0 : SameBasis sim st (startTurn sim P st) := by
    unfold startTurn
    obtain ⟨-, -, k3, k4⟩ := hA.keep st.s
    refine ⟨rfl, rfl, rfl, ?_⟩
    dsimp only
    split
    · obtain ⟨-, -, t3, t4⟩ := hA.stagger false (sim.keep st.s)
      exact ⟨t3.trans k3, t4.trans k4⟩
    · exact ⟨k3, k4⟩
  -- the single prediction cycle
  have hcyc : c.1.file = st.file ∧ (c.2.1 = none → 0 ≤ c.2.2.1 → (c.2.2.1 = 0 → SameBasis sim st c.1) ∧
      (0 < c.2.2.1 → sim.refined c.1.s = true ∧ c.1.isSaved = false)) := by
    rw [hP] at hc
    have hz : startCycle sim (sim.step st.tp) 0 (startTurn sim P st) = startTurn sim P st := rfl
    obtain ⟨p1, p2⟩ := predict_basis sim hA P.nPredict (startTurn sim P st)
    unfold cycles at hc
    rw [hz] at hc
    dsimp only at hc
    rw [if_neg (by omega)] at hc
    by_cases c1 : (predict sim P.nPredict (startTurn sim P st)).2.isSome = true
    · rw [if_pos c1] at hc
      subst hc
      refine ⟨p1.trans h0.1, fun hf => ?_⟩
      dsimp only at hf
      rw [hf] at c1; cases c1
    rw [if_neg c1] at hc
    have hnn : (predict sim P.nPredict (startTurn sim P st)).2 = none := by
      cases hq : (predict sim P.nPredict (startTurn sim P st)).2 with
      | none => rfl
      | some e => rw [hq] at c1; exact absurd rfl c1
    have hsame := h0.trans sim (p2 hnn)
    by_cases c2 : P.maxPred > 0 ∧ sim.stopped (predict sim P.nPredict (startTurn sim P st)).1.s = true
    · rw [if_pos c2] at hc
      subst hc
      exact ⟨p1.trans h0.1, fun _ _ => ⟨fun _ => hsame, fun hf => absurd hf (by simp)⟩⟩
    rw [if_neg c2] at hc
    by_cases c3 : sim.finished (predict sim P.nPredict (startTurn sim P st)).1.tp = true
    · rw [if_pos c3] at hc
      subst hc
      exact ⟨p1.trans h0.1, fun _ _ => ⟨fun _ => hsame, fun hf => absurd hf (by simp)⟩⟩
    rw [if_neg c3] at hc
    unfold cycles at hc
    subst hc
    refine ⟨p1.trans h0.1, fun _ _ => ⟨fun hz => hsame.trans sim ?_, fun hf => ?_⟩⟩
    · obtain ⟨-, -, t3, t4⟩ := hA.same _ hz
      refine ⟨rfl, ?_, rfl, t3, t4⟩
      show ((predict sim P.nPredict (startTurn sim P st)).1.isSaved && (sim.adapt _).2 == 0) = _
      have hz' : (sim.adapt (predict sim P.nPredict (startTurn sim P st)).1.s).2 = 0 := hz
      rw [hz']; simp
    · have hf' : 0 < (sim.adapt (predict sim P.nPredict (startTurn sim P st)).1.s).2 := hf
      obtain ⟨-, t2⟩ := hA.transfer _ hf'
      refine ⟨t2, ?_⟩
      show ((predict sim P.nPredict (startTurn sim P st)).1.isSaved && (sim.adapt _).2 == 0) = false
      have : ((sim.adapt (predict sim P.nPredict (startTurn sim P st)).1.s).2 == 0) = false := by simp; omega
      rw [this, Bool.and_false]
  unfold turn
  dsimp only
  rw [hc]
  obtain ⟨h1, h2⟩ := hcyc
  have ha1 : AllLead sim c.1.file := by rw [h1]; exact ha
  by_cases c1 : c.2.1.isSome = true
  · rw [if_pos c1]
    refine ⟨ha1, fun hf => ?_⟩
    dsimp only at hf
    rw [hf] at c1; cases c1
  rw [if_neg c1]
  have hnn : c.2.1 = none := by
    cases hq : c.2.1 with
    | none => rfl
    | some e => rw [hq] at c1; exact absurd rfl c1
  by_cases c2 : c.2.2.1 < 0
  · rw [if_pos c2]
    exact ⟨ha1, fun hf => by simp at hf⟩
  rw [if_neg c2]
  obtain ⟨h3, h4⟩ := h2 hnn (by omega)
  by_cases c3 : c.2.2.1 = 0 ∧ P.maxPred > 0
  · rw [if_pos c3]
    obtain ⟨v1, v2, -⟩ := saveState_basis sim P (decide (c.2.2.2 > 0)) true c.1 ha1 ((h3 c3.1).next sim hn)
    exact ⟨v1, fun _ => v2⟩
  rw [if_neg c3]
  have hres : (resume sim P (sim.step st.tp) c.2.2.1 c.1).file = c.1.file ∧ NextOk sim (resume sim P (sim.step st.tp) c.2.2.1 c.1) := by
    unfold resume
    dsimp only
    by_cases hl : c.2.2.1 > 0
    · rw [if_pos hl, if_pos hS]
      obtain ⟨r1, r2⟩ := h4 hl
      have hs4 := (hA.stagger true c.1.s).2.2.2
      refine ⟨rfl, ⟨fun _ hf => ?_, fun _ _ => Or.inr rfl, fun hf => ?_⟩⟩
      · exact absurd hf (by show ¬ c.1.isSaved = true; rw [r2]; simp)
      · have hf' : sim.refined (sim.stagger true c.1.s) = false := hf
        rw [hs4, r1] at hf'; cases hf'
    · rw [if_neg hl]
      refine ⟨rfl, SameBasis.next sim (st := c.1) ?_ ((h3 (by omega)).next sim hn)⟩
      obtain ⟨-, -, t3, t4⟩ := hA.stagger true (sim.restore c.1.s)
      obtain ⟨-, u3, u4⟩ := hA.restore c.1.s
      exact ⟨rfl, rfl, rfl, t3.trans u3, t4.trans u4⟩
  exact forward_basis sim P hA _ _ _ (by rw [hres.1]; exact ha1) hres.2

theorem outer_basis (hP : P.maxPred.natAbs = 1) (hS : P.stride.isSome = true) (n : Nat) (st : TS τ σ μ) (ha : AllLead sim st.file) (hn : NextOk sim st)
    (c : Int) (st' : TS τ σ μ) (hr : outer sim P n st = some (c, st')) : AllLead sim st'.file := by
  induction n generalizing st with
  | zero => cases hr
  | succ n ih =>
    unfold outer at hr
    dsimp only at hr
    split at hr
    · cases Option.some.inj hr
      exact ha
    obtain ⟨t1, t2⟩ := turn_basis sim P hA hP hS st ha hn
    cases hq : (turn sim P st).2 with
    | some d =>
      rw [hq] at hr
      dsimp only at hr
      cases Option.some.inj hr
      exact t1
    | none =>
      rw [hq] at hr
      exact ih _ t1 (t2 hq) hr

theorem run_basis (hP : P.maxPred.natAbs = 1) (hS : P.stride.isSome = true) (n : Nat) (tp : τ) (s : σ) (c : Int) (st' : TS τ σ μ)
    (hr : solveProblem sim P n (initTS tp s) = some (c, st')) : AllLead sim st'.file := by
  have hi : AllLead sim (initRefine sim P (initTS tp s : TS τ σ μ)).1.file ∧ NextOk sim (initRefine sim P (initTS tp s : TS τ σ μ)).1 := by
    unfold initRefine
    split
    · exact ⟨fun lv tp s b h => by simp [initTS] at h, ⟨fun _ h => by simp [initTS] at h, fun _ _ => Or.inl (by simp [initTS]), fun _ => by simp [initTS]⟩⟩
    · exact ⟨fun lv tp s b h => by simp [initTS] at h, ⟨fun _ h => by simp [initTS] at h, fun _ _ => Or.inl (by simp [initTS]), fun _ => by simp [initTS]⟩⟩
  unfold solveProblem at hr
  dsimp only at hr
  split at hr
  · cases Option.some.inj hr
    exact hi.1
  obtain ⟨v1, v2, -⟩ := saveState_basis sim P true P.saveInit _ hi.1 hi.2
  obtain ⟨v, hv⟩ : ∃ v, saveState sim P true P.saveInit (initRefine sim P (initTS tp s : TS τ σ μ)).1 = v := ⟨_, rfl⟩
  rw [hv] at hr v1 v2
  split at hr
  · cases Option.some.inj hr
    exact v1
  cases hp : preLoop sim P n v.1 with
  | none => rw [hp] at hr; cases hr
  | some r =>
    obtain ⟨p1, p2⟩ := preLoop_basis sim P hA n v.1 v1 v2 r hp
    rw [hp] at hr
    obtain ⟨st1, o⟩ := r
    cases o with
    | some d =>
      dsimp only at hr
      cases Option.some.inj hr
      exact p1
    | none => exact outer_basis sim P hA hP hS n st1 p1 (p2 rfl) c st' hr

end IFEM.Ada
