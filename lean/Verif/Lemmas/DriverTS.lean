import Verif.Spec.DriverTS
import Mathlib.Tactic.Common
/-!
# The adaptive driver: times, order and geometry of what is saved
-/
namespace IFEM.Ada
open Spec
variable {τ σ μ ρ ω : Type}

/-- Setting of the invariants. -/
structure Env (τ σ μ ρ ω : Type) where
  sim : TSim τ σ μ
  P : Prm
  time : τ → ρ
  size : τ → ω
  T : Nat → ρ
  D : Nat → ω
  age : σ → Nat
  kept : σ → Nat
  good : Nat → Nat → τ → Prop
  weak : Nat → Nat → τ → Prop
  k0 : Nat
  hA : Ages sim age kept
  hC : Clock sim time size T D good weak

variable (E : Env τ σ μ ρ ω)

/-- Allowed distance between saved steps. -/
def Env.gap (a b : Int) : Prop := a ≤ b ∧ b ≤ a + max 1 E.P.nPredict

/-- Every saved result is on the last saved mesh. -/
def Env.Geo (log : List (Ev τ σ)) : Prop :=
  ∀ l1 tp s ok l2, log = l1 ++ Ev.saved tp s ok :: l2 → shownMesh E.sim l1 = some (E.sim.mesh s)

/-- Invariant of what has happened: `k` is the last saved step, `x` the last saved mesh. -/
structure Env.Inv (log : List (Ev τ σ)) (k : Nat) (x : Option μ) : Prop where
  ok : ∀ e ∈ log, Timely E.sim E.time E.size E.T E.D E.age e
  chain : ((E.k0 : Int) :: savedSteps E.sim log).IsChain E.gap
  last : (savedSteps E.sim log).getLastD E.k0 = k
  geo : 1 ≤ E.P.nForward → E.Geo log
  shown : 1 ≤ E.P.nForward → shownMesh E.sim log = x

theorem Env.geo_snoc {log : List (Ev τ σ)} {e : Ev τ σ} (h : E.Geo log)
    (he : ∀ tp s ok, e = Ev.saved tp s ok → shownMesh E.sim log = some (E.sim.mesh s)) : E.Geo (log ++ [e]) := by
  intro l1 tp s ok l2 hl
  rcases List.eq_nil_or_concat l2 with rfl | ⟨l3, e3, rfl⟩
  · obtain ⟨h1, h2⟩ := List.append_inj' hl rfl
    subst h1
    exact he tp s ok (List.cons.inj h2).1
  · rw [List.concat_eq_append, ← List.cons_append, ← List.append_assoc] at hl
    obtain ⟨h1, -⟩ := List.append_inj' hl rfl
    exact h l1 tp s ok l3 h1

/-- Neither results nor a mesh saved. -/
def Quiet : Ev τ σ → Prop
  | .solved _ _ _ => True
  | .adapted _ => True
  | .initial _ => True
  | .dumped _ => True
  | _ => False

theorem quiet_step {sim : TSim τ σ μ} {e : Ev τ σ} (h : Quiet e) : savedStep sim e = none ∧ modelMesh sim e = none := by
  cases e <;> first | exact ⟨rfl, rfl⟩ | exact h.elim

theorem Env.Inv.quiet {E : Env τ σ μ ρ ω} {log : List (Ev τ σ)} {k : Nat} {x : Option μ} (h : E.Inv log k x) {e : Ev τ σ} (hq : Quiet e)
    (hok : Timely E.sim E.time E.size E.T E.D E.age e) : E.Inv (log ++ [e]) k x := by
  obtain ⟨q1, q2⟩ := quiet_step (sim := E.sim) hq
  have e1 : savedSteps E.sim (log ++ [e]) = savedSteps E.sim log := by
    unfold savedSteps; rw [List.filterMap_append]; simp [q1]
  have e2 : shownMesh E.sim (log ++ [e]) = shownMesh E.sim log := by
    unfold shownMesh; rw [List.filterMap_append]; simp [q2]
  refine ⟨?_, by rw [e1]; exact h.chain, by rw [e1]; exact h.last, fun hn => E.geo_snoc (h.geo hn) ?_, by rw [e2]; exact h.shown⟩
  · intro e' he'
    rcases List.mem_append.1 he' with h1 | h1
    · exact h.ok e' h1
    · rw [List.mem_singleton.1 h1]; exact hok
  · rintro tp s ok rfl
    exact hq.elim

theorem Env.Inv.model {E : Env τ σ μ ρ ω} {log : List (Ev τ σ)} {k : Nat} {x : Option μ} (h : E.Inv log k x) (s : σ) (b : Bool) :
    E.Inv (log ++ [Ev.model s b]) k (some (E.sim.mesh s)) := by
  have e1 : savedSteps E.sim (log ++ [Ev.model s b]) = savedSteps E.sim log := by
    unfold savedSteps; rw [List.filterMap_append]; simp [savedStep]
  have e2 : shownMesh E.sim (log ++ [Ev.model s b]) = some (E.sim.mesh s) := by
    unfold shownMesh; rw [List.filterMap_append]; simp [modelMesh]
  refine ⟨?_, by rw [e1]; exact h.chain, by rw [e1]; exact h.last, fun hn => E.geo_snoc (h.geo hn) ?_, fun _ => e2⟩
  · intro e' he'
    rcases List.mem_append.1 he' with h1 | h1
    · exact h.ok e' h1
    · rw [List.mem_singleton.1 h1]; exact trivial
  · intro tp s ok h1
    cases h1

theorem chain_snoc {R : Int → Int → Prop} {a b : Int} {l : List Int} (h : (a :: l).IsChain R) (hb : R (l.getLastD a) b) :
    (a :: (l ++ [b])).IsChain R := by
  induction l generalizing a with
  | nil => exact List.isChain_cons_cons.2 ⟨hb, List.IsChain.singleton _⟩
  | cons c l ih =>
    rw [List.isChain_cons_cons] at h
    rw [List.cons_append, List.isChain_cons_cons]
    exact ⟨h.1, ih h.2 (by rw [List.getLastD_cons] at hb; exact hb)⟩

theorem Env.Inv.save {E : Env τ σ μ ρ ω} {log : List (Ev τ σ)} {k : Nat} {x : Option μ} (h : E.Inv log k x) {tp : τ} {s : σ} {m k' : Nat} (b : Bool)
    (hw : E.weak m k' tp) (ha : E.age s = k') (hx : 1 ≤ E.P.nForward → some (E.sim.mesh s) = x) (h1 : k ≤ k') (h2 : k' ≤ k + max 1 E.P.nPredict) :
    E.Inv (log ++ [Ev.saved tp s b]) k' x := by
  obtain ⟨w1, w2, -⟩ := E.hC.weak_obs m k' tp hw
  have e1 : savedSteps E.sim (log ++ [Ev.saved tp s b]) = savedSteps E.sim log ++ [(k' : Int)] := by
    unfold savedSteps; rw [List.filterMap_append]; simp [savedStep, w1]
  have e2 : shownMesh E.sim (log ++ [Ev.saved tp s b]) = shownMesh E.sim log := by
    unfold shownMesh; rw [List.filterMap_append]; simp [modelMesh]
  refine ⟨?_, ?_, ?_, fun hn => E.geo_snoc (h.geo hn) ?_, by rw [e2]; exact h.shown⟩
  · intro e' he'
    rcases List.mem_append.1 he' with h1 | h1
    · exact h.ok e' h1
    · rw [List.mem_singleton.1 h1]
      show E.sim.step tp = E.age s ∧ E.time tp = E.T (E.age s)
      rw [ha]; exact ⟨w1, w2⟩
  · rw [e1]
    refine chain_snoc h.chain ?_
    rw [h.last]
    refine ⟨by omega, ?_⟩
    have : (k' : Int) ≤ ((k + max 1 E.P.nPredict : Nat) : Int) := by exact_mod_cast h2
    push_cast at this ⊢
    exact this
  · rw [e1]; simp
  · intro tp' s' ok' he
    cases he
    rw [h.shown hn, hx hn]

/-- Saving does not touch the time stepping data and the simulator. -/
theorem dumpRestart_frame (sim : TSim τ σ μ) (P : Prm) (st : TS τ σ μ) :
    (dumpRestart sim P st).tp = st.tp ∧ (dumpRestart sim P st).s = st.s ∧ (dumpRestart sim P st).log = st.log := by
  unfold dumpRestart
  split
  · exact ⟨rfl, rfl, rfl⟩
  · split <;> exact ⟨rfl, rfl, rfl⟩

theorem saveRes_frame (sim : TSim τ σ μ) (P : Prm) (st : TS τ σ μ) :
    (saveRes sim P st).1.tp = st.tp ∧ (saveRes sim P st).1.s = st.s ∧
    (saveRes sim P st).1.log = st.log ++ [Ev.saved st.tp st.s (sim.save st.tp st.s)] := by
  unfold saveRes
  dsimp only
  split
  · obtain ⟨h1, h2, h3⟩ := dumpRestart_frame sim P { st with log := st.log ++ [Ev.saved st.tp st.s (sim.save st.tp st.s)] }
    exact ⟨h1, h2, h3⟩
  · exact ⟨rfl, rfl, rfl⟩

/-- Saving: `x` is the mesh saved last. -/
theorem Env.saveState_inv (st : TS τ σ μ) (newMesh res : Bool) {k k' m : Nat} {x : Option μ} (h : E.Inv st.log k x)
    (hw : E.weak m k' st.tp) (ha : E.age st.s = k') (hx : 1 ≤ E.P.nForward → newMesh = false → some (E.sim.mesh st.s) = x)
    (h1 : k ≤ k') (h2 : k' ≤ k + max 1 E.P.nPredict) (hres : res = false → k' = k) :
    (saveState E.sim E.P newMesh res st).1.tp = st.tp ∧ (saveState E.sim E.P newMesh res st).1.s = st.s ∧
    (∃ q y, E.Inv (saveState E.sim E.P newMesh res st).1.log q y) ∧
    ((saveState E.sim E.P newMesh res st).2 = true → ∃ y, E.Inv (saveState E.sim E.P newMesh res st).1.log k' y ∧
      (1 ≤ E.P.nForward → y = some (E.sim.mesh st.s))) := by
  obtain ⟨g, hg⟩ : ∃ g, (if newMesh then saveGeo E.sim st else (st, true)) = g := ⟨_, rfl⟩
  have hg' : g.1.tp = st.tp ∧ g.1.s = st.s ∧ ∃ y, E.Inv g.1.log k y ∧ (1 ≤ E.P.nForward → y = some (E.sim.mesh st.s)) := by
    cases newMesh with
    | true =>
      rw [if_pos rfl] at hg
      subst hg
      exact ⟨rfl, rfl, _, h.model st.s _, fun _ => rfl⟩
    | false =>
      rw [if_neg (by simp)] at hg
      subst hg
      exact ⟨rfl, rfl, x, h, fun hn => (hx hn rfl).symm⟩
  obtain ⟨a1, a2, y, a3, a4⟩ := hg'
  unfold saveState
  rw [hg]
  dsimp only
  by_cases c1 : (!g.2) = true
  · rw [if_pos c1]
    exact ⟨a1, a2, ⟨_, _, a3⟩, fun hf => by simp at hf⟩
  rw [if_neg c1]
  by_cases c2 : (!res) = true
  · rw [if_pos c2]
    have hk : k' = k := hres (by simpa using c2)
    rw [hk]
    exact ⟨a1, a2, ⟨_, _, a3⟩, fun _ => ⟨y, a3, a4⟩⟩
  rw [if_neg c2]
  obtain ⟨b1, b2, b3⟩ := saveRes_frame E.sim E.P g.1
  have key := a3.save (tp := g.1.tp) (s := g.1.s) (E.sim.save g.1.tp g.1.s) (by rw [a1]; exact hw) (by rw [a2]; exact ha)
    (fun hn => by rw [a2]; exact (a4 hn).symm) h1 h2
  rw [b1, b2, b3]
  exact ⟨a1, a2, ⟨_, _, key⟩, fun _ => ⟨y, key, a4⟩⟩

/-- Advancing to the next step. -/
theorem Env.advance_inv (st : TS τ σ μ) {m k : Nat} (hg : E.good m k st.tp) :
    (advance E.sim st).1.log = st.log ∧ E.age (advance E.sim st).1.s = E.age st.s ∧ E.kept (advance E.sim st).1.s = E.kept st.s ∧
    E.sim.mesh (advance E.sim st).1.s = E.sim.mesh st.s ∧
    ((advance E.sim st).2 = true → E.good (max m (k + 1)) (k + 1) (advance E.sim st).1.tp) ∧
    ((advance E.sim st).2 = false → E.weak m k (advance E.sim st).1.tp ∧ E.sim.finished (advance E.sim st).1.tp = true) := by
  unfold advance
  dsimp only
  by_cases h : (E.sim.incr st.tp).2 = true
  · rw [if_neg (by simp [h])]
    obtain ⟨a1, a2, a3, a4, -⟩ := E.hA.adv (E.sim.incr st.tp).1 st.s
    refine ⟨rfl, a2, a3, a4, fun _ => E.hC.adv _ _ _ _ (E.hC.incr_ok _ _ _ hg h), fun hf => ?_⟩
    dsimp only at hf
    rw [a1] at hf; cases hf
  · have h' : (E.sim.incr st.tp).2 = false := by simpa using h
    rw [if_pos (by simp [h'])]
    exact ⟨rfl, rfl, rfl, rfl, fun hf => by simp at hf, fun _ => E.hC.incr_no _ _ _ hg h'⟩

/-- Solving a step. -/
theorem Env.solve1_inv (st : TS τ σ μ) {m k q : Nat} {x : Option μ} (hg : E.good m (k + 1) st.tp) (ha : E.age st.s = k) (h : E.Inv st.log q x) :
    E.Inv (solve1 E.sim st).1.log q x ∧ E.good m (k + 1) (solve1 E.sim st).1.tp ∧
    ((solve1 E.sim st).2 = true → E.age (solve1 E.sim st).1.s = k + 1 ∧ E.kept (solve1 E.sim st).1.s = E.kept st.s ∧
      E.sim.mesh (solve1 E.sim st).1.s = E.sim.mesh st.s) := by
  unfold solve1
  dsimp only
  obtain ⟨g1, g2⟩ := E.hC.good_obs _ _ _ hg
  obtain ⟨w1, w2, -⟩ := E.hC.weak_obs _ _ _ g2
  refine ⟨h.quiet trivial ?_, E.hC.solve _ _ _ _ hg, fun hok => ?_⟩
  · show E.sim.step st.tp = E.age st.s + 1 ∧ E.time st.tp = E.T (E.age st.s + 1) ∧ E.size st.tp = E.D (E.age st.s + 1)
    rw [ha]
    exact ⟨by rw [w1]; push_cast; rfl, w2, g1⟩
  · obtain ⟨a1, a2, a3, -⟩ := E.hA.solve _ _ hok
    exact ⟨by rw [a1, ha], a2, a3⟩

/-- The steps of a prediction. -/
theorem Env.predict_inv (n : Nat) (st : TS τ σ μ) {m k q : Nat} {x : Option μ} (hg : E.good m k st.tp) (ha : E.age st.s = k) (h : E.Inv st.log q x) :
    E.Inv (predict E.sim n st).1.log q x ∧
    ((predict E.sim n st).2 = none → ∃ m' k', m ≤ m' ∧ k ≤ k' ∧ k' ≤ k + n ∧ E.weak m' k' (predict E.sim n st).1.tp ∧
      ((k' = k + n ∧ E.good m' k' (predict E.sim n st).1.tp) ∨ E.sim.finished (predict E.sim n st).1.tp = true) ∧
      E.age (predict E.sim n st).1.s = k' ∧ E.kept (predict E.sim n st).1.s = E.kept st.s ∧
      E.sim.mesh (predict E.sim n st).1.s = E.sim.mesh st.s) := by
  induction n generalizing st m k with
  | zero =>
    refine ⟨h, fun _ => ⟨m, k, by omega, by omega, by omega, (E.hC.good_obs _ _ _ hg).2, Or.inl ⟨rfl, hg⟩, ha, rfl, rfl⟩⟩
  | succ n ih =>
    obtain ⟨a1, a2, a3, a4, a5, a6⟩ := E.advance_inv st hg
    unfold predict
    dsimp only
    by_cases c1 : (!(advance E.sim st).2) = true
    · rw [if_pos c1]
      obtain ⟨f1, f2⟩ := a6 (by simpa using c1)
      refine ⟨by rw [a1]; exact h, fun _ => ⟨m, k, by omega, by omega, by omega, f1, Or.inr f2, by rw [a2]; exact ha, a3, a4⟩⟩
    · rw [if_neg c1]
      have hadv : (advance E.sim st).2 = true := by simpa using c1
      obtain ⟨b1, b2, b3⟩ := E.solve1_inv (advance E.sim st).1 (a5 hadv) (by rw [a2]; exact ha) (by rw [a1]; exact h)
      by_cases c2 : (!(solve1 E.sim (advance E.sim st).1).2) = true
      · rw [if_pos c2]
        exact ⟨b1, fun hf => by simp at hf⟩
      · rw [if_neg c2]
        obtain ⟨d1, d2, d3⟩ := b3 (by simpa using c2)
        obtain ⟨i1, i2⟩ := ih _ b2 d1 b1
        refine ⟨i1, fun hn => ?_⟩
        obtain ⟨m', k', j1, j2, j3, j4, j5, j6, j7, j8⟩ := i2 hn
        refine ⟨m', k', by omega, by omega, by omega, j4, ?_, j6, by rw [j7, d2, a3], by rw [j8, d3, a4]⟩
        rcases j5 with ⟨e1, e2⟩ | e
        · exact Or.inl ⟨by omega, e2⟩
        · exact Or.inr e

/-- The result of the prediction cycles: state, code, `lastRef`, `refElms`. -/
def Env.CyclesPost (tran : Nat) (x : Option μ) (r : TS τ σ μ × Option Int × Int × Int) : Prop :=
  E.Inv r.1.log tran x ∧
  (r.2.1 = none → ∃ m k, tran ≤ m ∧ E.weak m k r.1.tp ∧
    (r.2.2.1 > 0 → E.age r.1.s = tran) ∧
    (r.2.2.1 = 0 → E.age r.1.s = k ∧ E.kept r.1.s = tran ∧ tran ≤ k ∧ k ≤ tran + E.P.nPredict ∧
      ((k = tran + E.P.nPredict ∧ E.good m k r.1.tp) ∨ E.sim.finished r.1.tp = true)) ∧
    (0 ≤ r.2.2.1 → 0 ≤ r.2.2.2 ∧ (r.2.2.2 = 0 → some (E.sim.mesh r.1.s) = x)))

theorem Env.cycles_inv (n iPred : Nat) (lastRef refElms : Int) (st : TS τ σ μ) {tran : Nat} {x : Option μ}
    (hin : (lastRef ≤ 0 ∧ E.CyclesPost tran x (st, none, lastRef, refElms)) ∨
      (0 < lastRef ∧ E.Inv st.log tran x ∧ E.age st.s = tran ∧ 0 ≤ refElms ∧ (refElms = 0 → some (E.sim.mesh st.s) = x) ∧
        (∃ m k, tran ≤ m ∧ E.weak m k st.tp ∧ (iPred = 0 → E.good m tran st.tp ∧ E.kept st.s = tran)))) :
    E.CyclesPost tran x (cycles E.sim E.P tran n iPred lastRef refElms st) := by
  induction n generalizing iPred lastRef refElms st with
  | zero =>
    unfold cycles
    rcases hin with ⟨-, h⟩ | ⟨h0, h1, h2, h3, h4, m, k, h5, h6, -⟩
    · exact h
    · exact ⟨h1, fun _ => ⟨m, k, h5, h6, fun _ => h2, fun hz => absurd hz (by dsimp only; omega), fun _ => ⟨h3, h4⟩⟩⟩
  | succ n ih =>
    unfold cycles
    dsimp only
    rcases hin with ⟨h0, h⟩ | ⟨h0, h1, h2, h3, h4, m, k, h5, h6, h7⟩
    · rw [if_pos h0]; exact h
    rw [if_neg (by omega)]
    obtain ⟨sc, hsc⟩ : ∃ sc, startCycle E.sim tran iPred st = sc := ⟨_, rfl⟩
    have hs : E.good m tran sc.tp ∧ E.age sc.s = tran ∧ E.kept sc.s = tran ∧ E.sim.mesh sc.s = E.sim.mesh st.s ∧ sc.log = st.log := by
      unfold startCycle at hsc
      by_cases hi : iPred > 0
      · rw [if_pos hi] at hsc
        subst hsc
        obtain ⟨k1, k2, k3, -⟩ := E.hA.keep st.s
        exact ⟨E.hC.reset _ _ _ _ h6 h5, by rw [k1]; exact h2, by rw [k2]; exact h2, k3, rfl⟩
      · rw [if_neg hi] at hsc
        subst hsc
        obtain ⟨g1, g2⟩ := h7 (by omega)
        exact ⟨g1, h2, g2, rfl, rfl⟩
    obtain ⟨s1, s2, s3, s4, s5⟩ := hs
    rw [hsc]
    obtain ⟨p, hp⟩ : ∃ p, predict E.sim E.P.nPredict sc = p := ⟨_, rfl⟩
    have hpi := E.predict_inv E.P.nPredict sc s1 s2 (q := tran) (x := x) (by rw [s5]; exact h1)
    rw [hp] at hpi
    obtain ⟨p1, p2⟩ := hpi
    rw [hp]
    by_cases c1 : p.2.isSome = true
    · rw [if_pos c1]
      refine ⟨p1, fun hn => ?_⟩
      dsimp only at hn
      rw [hn] at c1; cases c1
    rw [if_neg c1]
    have hn : p.2 = none := by
      cases hq : p.2 with
      | none => rfl
      | some c => rw [hq] at c1; exact absurd rfl c1
    obtain ⟨m', k', q1, q2, q3, q4, q5, q6, q7, q8⟩ := p2 hn
    have hex : E.CyclesPost tran x (p.1, none, 0, refElms) := by
      refine ⟨p1, fun _ => ⟨m', k', by omega, q4, fun hz => absurd hz (by simp), fun _ => ⟨q6, by rw [q7]; exact s3, q2, q3, q5⟩,
        fun _ => ⟨h3, fun hz => ?_⟩⟩⟩
      show some (E.sim.mesh p.1.s) = x
      rw [q8, s4]; exact h4 hz
    by_cases c2 : E.P.maxPred > 0 ∧ E.sim.stopped p.1.s = true
    · rw [if_pos c2]; exact hex
    rw [if_neg c2]
    by_cases c3 : E.sim.finished p.1.tp = true
    · rw [if_pos c3]; exact hex
    rw [if_neg c3]
    have q5' := q5.resolve_right c3
    have hlog : E.Inv (adaptMesh E.sim p.1).1.log tran x := p1.quiet trivial trivial
    apply ih
    by_cases hr : 0 < (E.sim.adapt p.1.s).2
    · right
      obtain ⟨t1, t2⟩ := E.hA.transfer p.1.s hr
      refine ⟨hr, hlog, ?_, ?_, ?_, m', k', by omega, q4, fun hz => absurd hz (by omega)⟩
      · show E.age (E.sim.adapt p.1.s).1 = tran
        rw [t1, q7]; exact s3
      · show 0 ≤ refElms + (E.sim.adapt p.1.s).2
        omega
      · show refElms + (E.sim.adapt p.1.s).2 = 0 → _
        intro hz; omega
    · left
      refine ⟨by show (E.sim.adapt p.1.s).2 ≤ 0; omega, hlog, fun _ => ⟨m', k', by omega, q4, fun hz => absurd hz hr, fun hz => ?_, fun hz => ?_⟩⟩
      · have hz' : (E.sim.adapt p.1.s).2 = 0 := hz
        obtain ⟨t1, t2, t3, -⟩ := E.hA.same p.1.s hz'
        refine ⟨?_, ?_, q2, q3, Or.inl q5'⟩
        · show E.age (E.sim.adapt p.1.s).1 = k'
          rw [t1, q6]
        · show E.kept (E.sim.adapt p.1.s).1 = tran
          rw [t2, q7]; exact s3
      · have hz' : (E.sim.adapt p.1.s).2 = 0 := by
          have h9 : 0 ≤ (E.sim.adapt p.1.s).2 := hz
          omega
        obtain ⟨t1, t2, t3, -⟩ := E.hA.same p.1.s hz'
        refine ⟨by show 0 ≤ refElms + (E.sim.adapt p.1.s).2; omega, fun hzz => ?_⟩
        have hzz' : refElms + (E.sim.adapt p.1.s).2 = 0 := hzz
        show some (E.sim.mesh (E.sim.adapt p.1.s).1) = x
        rw [t3, q8, s4]
        exact h4 (by omega)

/-- Where the adaptive loop is between two turns. -/
def Env.Head (m k : Nat) (st : TS τ σ μ) : Prop :=
  E.good m k st.tp ∧ E.age st.s = k ∧ ∃ x, E.Inv st.log k x ∧ (1 ≤ E.P.nForward → x = some (E.sim.mesh st.s))

/-- A simulation which has come to its end. -/
def Env.Over (st : TS τ σ μ) : Prop := E.sim.finished st.tp = true ∧ ∃ k x, E.Inv st.log k x

/-- The result of a piece of the simulation which started at step `k`. -/
def Env.Post (k : Nat) (r : TS τ σ μ × Option Int) : Prop :=
  (∃ q y, E.Inv r.1.log q y) ∧ (r.2 = none → (∃ m' k', k ≤ k' ∧ E.Head m' k' r.1) ∨ E.Over r.1)

theorem Env.forward_inv (n j : Nat) (st : TS τ σ μ) {m k : Nat} {x : Option μ} (hg : E.good m k st.tp) (ha : E.age st.s = k) (h : E.Inv st.log k x)
    (hx : 1 ≤ E.P.nForward → (0 < j ∨ n = 0) → x = some (E.sim.mesh st.s)) : E.Post (k + min n 1) (forward E.sim E.P n j st) := by
  induction n generalizing st m k x j with
  | zero =>
    unfold forward
    exact ⟨⟨k, x, h⟩, fun _ => Or.inl ⟨m, k, by simp, hg, ha, x, h, fun hn => hx hn (Or.inr rfl)⟩⟩
  | succ n ih =>
    obtain ⟨a1, a2, a3, a4, a5, a6⟩ := E.advance_inv st hg
    unfold forward
    dsimp only
    by_cases c1 : (!(advance E.sim st).2) = true
    · rw [if_pos c1]
      obtain ⟨f1, f2⟩ := a6 (by simpa using c1)
      exact ⟨⟨k, x, by rw [a1]; exact h⟩, fun _ => Or.inr ⟨f2, k, x, by rw [a1]; exact h⟩⟩
    rw [if_neg c1]
    have hadv : (advance E.sim st).2 = true := by simpa using c1
    obtain ⟨b1, b2, b3⟩ := E.solve1_inv (advance E.sim st).1 (a5 hadv) (by rw [a2]; exact ha) (by rw [a1]; exact h)
    by_cases c2 : (!(solve1 E.sim (advance E.sim st).1).2) = true
    · rw [if_pos c2]
      exact ⟨⟨_, _, b1⟩, fun hf => by simp at hf⟩
    rw [if_neg c2]
    obtain ⟨d1, d2, d3⟩ := b3 (by simpa using c2)
    obtain ⟨r, hr⟩ : ∃ r, (solve1 E.sim (advance E.sim st).1).1 = r := ⟨_, rfl⟩
    rw [hr] at b1 b2 d1 d2 d3 ⊢
    obtain ⟨s1, s2, s3, s4⟩ := E.saveState_inv r (decide (j < 1)) true b1 (E.hC.good_obs _ _ _ b2).2 d1
      (fun hn hj => by
        rw [d3, a4]
        exact (hx hn (Or.inl (by simp at hj; omega))).symm) (by omega) (by omega) (fun hf => by simp at hf)
    by_cases c3 : (!(saveState E.sim E.P (decide (j < 1)) true r).2) = true
    · rw [if_pos c3]
      exact ⟨s3, fun hf => by simp at hf⟩
    rw [if_neg c3]
    obtain ⟨y, y1, y2⟩ := s4 (by simpa using c3)
    obtain ⟨i1, i2⟩ := ih (j + 1) _ (by rw [s1]; exact b2) (by rw [s2]; exact d1) y1 (fun hn _ => by rw [s2]; exact y2 hn)
    refine ⟨i1, fun hn => ?_⟩
    rcases i2 hn with ⟨m', k', h8, h9⟩ | h8
    · exact Or.inl ⟨m', k', by omega, h9⟩
    · exact Or.inr h8

theorem Env.turn_inv (st : TS τ σ μ) {m k : Nat} (h : E.Head m k st) :
    E.Post (k + min 1 (min E.P.nPredict E.P.nForward)) (turn E.sim E.P st) := by
  obtain ⟨h1, h2, x, h3, h4⟩ := h
  obtain ⟨g1, g2⟩ := E.hC.good_obs _ _ _ h1
  obtain ⟨w1, w2, w3⟩ := E.hC.weak_obs _ _ _ g2
  obtain ⟨s0, hs0⟩ : ∃ s0, startTurn E.sim E.P st = s0 := ⟨_, rfl⟩
  have hst : s0.tp = st.tp ∧ s0.log = st.log ∧ E.age s0.s = k ∧ E.kept s0.s = k ∧ E.sim.mesh s0.s = E.sim.mesh st.s := by
    rw [← hs0]
    unfold startTurn
    obtain ⟨k1, k2, k3, -⟩ := E.hA.keep st.s
    refine ⟨rfl, rfl, ?_⟩
    dsimp only
    split
    · obtain ⟨t1, t2, t3, -⟩ := E.hA.stagger false (E.sim.keep st.s)
      exact ⟨by rw [t1, k1, h2], by rw [t2, k2, h2], by rw [t3, k3]⟩
    · exact ⟨by rw [k1, h2], by rw [k2, h2], k3⟩
  obtain ⟨t1, t2, t3, t4, t5⟩ := hst
  by_cases hx0 : 1 ≤ E.P.nForward ∧ ¬ x = some (E.sim.mesh st.s)
  · exact absurd (h4 hx0.1) hx0.2
  -- the mesh saved last
  have hinv : E.Inv st.log k (some (E.sim.mesh st.s)) := ⟨h3.ok, h3.chain, h3.last, h3.geo, fun hn => by rw [h3.shown hn, h4 hn]⟩
  have hcyc := E.cycles_inv E.P.maxPred.natAbs 0 1 0 s0 (tran := k) (x := some (E.sim.mesh st.s))
    (Or.inr ⟨by omega, by rw [t2]; exact hinv, t3, by omega, fun _ => by rw [t5], m, k, w3, by rw [t1]; exact g2, fun _ => ⟨by rw [t1]; exact h1, t4⟩⟩)
  unfold turn
  dsimp only
  rw [hs0, w1]
  obtain ⟨c, hc⟩ : ∃ c, cycles E.sim E.P (k : Int) E.P.maxPred.natAbs 0 1 0 s0 = c := ⟨_, rfl⟩
  rw [hc] at hcyc ⊢
  obtain ⟨p1, p2⟩ := hcyc
  by_cases c1 : c.2.1.isSome = true
  · rw [if_pos c1]
    refine ⟨⟨_, _, p1⟩, fun hn => ?_⟩
    dsimp only at hn
    rw [hn] at c1; cases c1
  rw [if_neg c1]
  have hn : c.2.1 = none := by
    cases hq : c.2.1 with
    | none => rfl
    | some e => rw [hq] at c1; exact absurd rfl c1
  obtain ⟨m', k', q1, q2, q3, q4, q5⟩ := p2 hn
  by_cases c2 : c.2.2.1 < 0
  · rw [if_pos c2]
    exact ⟨⟨_, _, p1⟩, fun hf => by simp at hf⟩
  rw [if_neg c2]
  obtain ⟨r1, r2⟩ := q5 (by omega)
  by_cases c3 : c.2.2.1 = 0 ∧ E.P.maxPred > 0
  · rw [if_pos c3]
    obtain ⟨v1, v2, v3, v4, v5⟩ := q4 c3.1
    obtain ⟨s1, s2, s3, s4⟩ := E.saveState_inv c.1 (decide (c.2.2.2 > 0)) true p1 q2 v1
      (fun _ hd => r2 (by simp at hd; omega)) v3 (by omega) (fun hf => by simp at hf)
    refine ⟨s3, fun hok => ?_⟩
    dsimp only at hok
    have hsv : (saveState E.sim E.P (decide (c.2.2.2 > 0)) true c.1).2 = true := by
      by_contra hne
      rw [if_neg hne] at hok; cases hok
    obtain ⟨y, y1, y2⟩ := s4 hsv
    rcases v5 with ⟨v5, v6⟩ | v5
    · left
      refine ⟨m', k', by omega, by rw [s1]; exact v6, by rw [s2]; exact v1, y, y1, fun hf => by rw [s2]; exact y2 hf⟩
    · right
      exact ⟨by rw [s1]; exact v5, k', y, y1⟩
  rw [if_neg c3]
  -- on with forward steps
  obtain ⟨u, hu⟩ : ∃ u, resume E.sim E.P (k : Int) c.2.2.1 c.1 = u := ⟨_, rfl⟩
  have hres : u.tp = E.sim.reset c.1.tp k ∧ u.log = c.1.log ∧ E.age u.s = k := by
    rw [← hu]
    unfold resume
    dsimp only
    by_cases hl : c.2.2.1 > 0
    · rw [if_pos hl]
      have hs := (E.hA.stagger true c.1.s).1
      split
      · exact ⟨rfl, rfl, by show E.age (E.sim.stagger true c.1.s) = k; rw [hs]; exact q3 hl⟩
      · exact ⟨rfl, rfl, by show E.age (E.sim.stagger true c.1.s) = k; rw [hs]; exact q3 hl⟩
    · rw [if_neg hl]
      obtain ⟨v1, v2, -⟩ := q4 (by omega)
      refine ⟨rfl, rfl, ?_⟩
      show E.age (E.sim.stagger true (E.sim.restore c.1.s)) = k
      rw [(E.hA.stagger true _).1, (E.hA.restore c.1.s).1, v2]
  obtain ⟨e1, e2, e3⟩ := hres
  rw [hu]
  have hf := E.forward_inv E.P.nForward 0 u (m := m') (k := k) (x := some (E.sim.mesh st.s)) (by rw [e1]; exact E.hC.reset _ _ _ _ q2 q1) e3
    (by rw [e2]; exact p1) (fun hf hz => by omega)
  refine ⟨hf.1, fun hz => ?_⟩
  rcases hf.2 hz with ⟨m'', k'', f1, f2⟩ | f1
  · exact Or.inl ⟨m'', k'', by omega, f2⟩
  · exact Or.inr f1

end IFEM.Ada
