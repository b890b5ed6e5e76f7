import Verif.Lemmas.DomainRun

/-!
# C66: global equation numbers of a domain decomposition

`calcGlobalEqNumbers` is executed by all processes, which send each other messages.  For all processes and connections that fulfil `Valid`: every execution, with any schedule
and with sends that wait for the receiver or not, ends, and always with the same numbers.  The numbers of all processes together are `1` to `N`, each process owns a range of
them, and two equations have the same number if and only if the connections (and the multipliers) say that they are the same equation.
-/
namespace IFEM.DomNum
open IFEM.Mpi

attribute [-simp] Fin.getElem_fin

variable {nproc : Nat} {procs : Nat → Proc} {conns : List Conn}

theorem links_iff {a : Eqn} : Owned procs conns a ↔ ∀ x ∈ links procs conns a.1, x.1 ≠ a.2 := by
  unfold Owned Linked
  constructor
  · intro h x hx h1
    refine h x.2 ?_
    rw [← h1]
    exact hx
  · intro h b hb
    exact h _ hb rfl

theorem count_take_succ (fl : List Bool) (k : Nat) (hk : k < fl.length) : (fl.take (k+1)).count false = (fl.take k).count false + if fl[k] = false then 1 else 0 := by
  rw [List.take_succ_eq_append_getElem hk, List.count_append]
  cases h : fl[k] <;> simp

/-- Every value up to the count is reached at a place that counts. -/
theorem count_onto (fl : List Bool) : ∀ (n : Nat), n ≤ fl.length → ∀ g, 1 ≤ g → g ≤ (fl.take n).count false → ∃ k < n, fl.getD k true = false ∧ (fl.take (k+1)).count false = g
  | 0, _, g, h1, h2 => by simp at h2; omega
  | n+1, hn, g, h1, h2 => by
    have h3 := count_take_succ fl n (by omega)
    by_cases hg : g ≤ (fl.take n).count false
    · obtain ⟨k, hk, h4⟩ := count_onto fl n (by omega) g h1 hg
      exact ⟨k, by omega, h4⟩
    · split at h3
      · rename_i hf
        refine ⟨n, by omega, ?_, by omega⟩
        rw [List.getD_eq_getElem _ _ (by omega), hf]
      · omega

theorem numbered_of_good (hv : Valid nproc procs conns) (hn : 0 < nproc) {out : Nat → Res} (hg : ∀ r < nproc, Good procs conns out r) : Numbered nproc procs conns out := by
  have own : ∀ p < nproc, ∀ fl : List Bool, fl.length = (procs p).neq → (∀ k < (procs p).neq, (fl.getD k false = true ↔ ∃ x ∈ links procs conns p, x.1 = (k : Int)+1)) →
      ∀ i : Int, 1 ≤ i → i ≤ (procs p).neq → (Owned procs conns (p, i) ↔ fl.getD (i-1).toNat true = false) := by
    intro p hp fl h1 h2 i hi1 hi2
    have hb : (i-1).toNat < fl.length := by omega
    have h3 := h2 (i-1).toNat (by omega)
    rw [links_iff]
    rw [List.getD_eq_getElem _ _ hb] at h3 ⊢
    constructor
    · intro h
      by_contra hc
      simp only [Bool.not_eq_false] at hc
      obtain ⟨x, hx, hx2⟩ := h3.1 hc
      exact h x hx (by clear h3 h2; simp only; omega)
    · intro h x hx hx2
      rw [h] at h3
      simp only at hx2
      exact absurd (h3.2 ⟨x, hx, by clear h3 h2; omega⟩) (by simp)
  have ownNum : ∀ p < nproc, ∀ fl : List Bool, ∀ i : Int, Owned procs conns (p, i) →
      eqNumber (prevMax out p) out (links procs conns p) fl i = prevMax out p + (fl.take i.toNat).count false := by
    intro p hp fl i ho
    unfold eqNumber
    rw [(lastLink_none _ _).2 (links_iff.1 ho)]
  refine ⟨?_, ?_, ?_, ?_, ?_, ?_, ?_, ?_⟩
  · intro p hp
    obtain ⟨fl, h1, h2, h3, h4, h5, h6⟩ := hg p hp
    exact h5
  · obtain ⟨fl, h1, h2, h3, h4, h5, h6⟩ := hg 0 hn
    rw [h3]
    rfl
  · intro p hp
    obtain ⟨fl, h1, h2, h3, h4, h5, h6⟩ := hg (p+1) hp
    rw [h3]
    rfl
  · intro p hp
    obtain ⟨fl, h1, h2, h3, h4, h5, h6⟩ := hg p hp
    omega
  · rintro ⟨p, i⟩ ⟨hp, hi1, hi2⟩ ho
    simp only at hp hi1 hi2
    obtain ⟨fl, h1, h2, h3, h4, h5, h6⟩ := hg p hp
    have hf := (own p hp fl h1 h2 i hi1 hi2).1 ho
    have hb : (i-1).toNat < fl.length := by omega
    rw [List.getD_eq_getElem _ _ hb] at hf
    have hc := count_take_succ fl (i-1).toNat hb
    rw [if_pos hf, show (i-1).toNat+1 = i.toNat by omega] at hc
    have hc2 : (fl.take i.toNat).count false ≤ fl.count false := (List.take_sublist _ _).count_le _
    rw [h6 i hi1 hi2, ownNum p hp fl i ho]
    simp only
    omega
  · intro p hp g g1 g2
    obtain ⟨fl, h1, h2, h3, h4, h5, h6⟩ := hg p hp
    obtain ⟨k, hk, hk2, hk3⟩ := count_onto fl fl.length (le_refl _) (g - prevMax out p).toNat (by omega) (by rw [List.take_length]; omega)
    have hi1 : (1 : Int) ≤ (k : Int)+1 := by omega
    have hi2 : (k : Int)+1 ≤ (procs p).neq := by omega
    have e : ((k : Int)+1-1).toNat = k := by omega
    have ho : Owned procs conns (p, (k : Int)+1) := (own p hp fl h1 h2 _ hi1 hi2).2 (by rw [e]; exact hk2)
    refine ⟨(k : Int)+1, ⟨hp, hi1, hi2⟩, ho, ?_⟩
    rw [h6 _ hi1 hi2, ownNum p hp fl _ ho, show ((k : Int)+1).toNat = k+1 by omega, hk3]
    omega
  · rintro p i j ⟨hp, hi1, hi2⟩ ⟨_, hj1, hj2⟩ hi hj hij
    simp only at hp hi1 hi2 hj1 hj2
    obtain ⟨fl, h1, h2, h3, h4, h5, h6⟩ := hg p hp
    have hf := (own p hp fl h1 h2 j hj1 hj2).1 hj
    have hb : (j-1).toNat < fl.length := by omega
    rw [List.getD_eq_getElem _ _ hb] at hf
    have hc := count_take_succ fl (j-1).toNat hb
    rw [if_pos hf, show (j-1).toNat+1 = j.toNat by omega] at hc
    have hc2 : (fl.take i.toNat).count false ≤ (fl.take (j-1).toNat).count false := by
      have : fl.take i.toNat = (fl.take (j-1).toNat).take i.toNat := by rw [List.take_take, min_eq_left (by omega)]
      rw [this]
      exact (List.take_sublist _ _).count_le _
    rw [h6 i hi1 hi2, h6 j hj1 hj2, ownNum p hp fl i hi, ownNum p hp fl j hj]
    omega
  · rintro ⟨p, i⟩ ⟨hp, hi1, hi2⟩ ho
    simp only at hp hi1 hi2
    obtain ⟨fl, h1, h2, h3, h4, h5, h6⟩ := hg p hp
    rw [h6 i hi1 hi2]
    unfold eqNumber
    cases hl : lastLink (links procs conns p) i with
    | none => exact absurd (links_iff.2 ((lastLink_none _ _).1 hl)) ho
    | some b => exact ⟨b, lastLink_some hl, rfl⟩

/-- **C66.** All executions end, and with the same numbers: there are numbers `out`, which are as they should be (`Numbered`), and a number of steps `N`, such that every
execution with sends that wait for the receiver takes at most `N` steps and can be continued to the end, where every process has its numbers, and every execution in which no
send waits takes at most `2 N` steps and can be continued to the same end, where also no message is left over. -/
theorem C66_all_schedules (hv : Valid nproc procs conns) (hn : 0 < nproc) : ∃ out N, Numbered nproc procs conns out ∧
    (∀ k st, Run SyncStep k (start nproc procs conns) st → k ≤ N ∧ Run SyncStep (N-k) st (finished nproc out)) ∧
    (∀ k s, Run BufStep k (start nproc procs conns, fun _ => []) s → k ≤ 2*N ∧ Run BufStep (2*N-k) s (finished nproc out, fun _ => [])) := by
  obtain ⟨N, out, hg, hr⟩ := run_exists hv hn
  change Run SyncStep N _ (finished nproc out) at hr
  have hf : ∀ p, ∃ r, finished nproc out p = .done r := by
    intro p
    unfold finished
    split
    · exact ⟨_, rfl⟩
    · exact ⟨_, rfl⟩
  refine ⟨out, N, numbered_of_good hv hn hg, ?_, ?_⟩
  · intro k st h
    exact run_confluent sync_diamond N _ _ hr (sync_final hf) k st h
  · intro k s h
    exact run_confluent buf_diamond (2*N) _ _ (sync_buf hr) (buf_final _ hf) k s h

/-- **C66.** No deadlock and no dependence on the schedule: in any state that is reached and from which no process can proceed, all processes are done, with the numbers `out`. -/
theorem C66_no_deadlock (hv : Valid nproc procs conns) (hn : 0 < nproc) : ∃ out, Numbered nproc procs conns out ∧
    (∀ k st, Run SyncStep k (start nproc procs conns) st → (∀ st', ¬ SyncStep st st') → st = finished nproc out) ∧
    (∀ k st ch, Run BufStep k (start nproc procs conns, fun _ => []) (st, ch) → (∀ s', ¬ BufStep (st, ch) s') → st = finished nproc out ∧ ch = fun _ => []) := by
  obtain ⟨out, N, h1, h2, h3⟩ := C66_all_schedules hv hn
  refine ⟨out, h1, ?_, ?_⟩
  · intro k st hr hs
    obtain ⟨_, h4⟩ := h2 k st hr
    generalize N - k = n at h4
    cases h4 with
    | refl => rfl
    | tail h _ => exact absurd h (hs _)
  · intro k st ch hr hs
    obtain ⟨_, h4⟩ := h3 k (st, ch) hr
    generalize 2*N - k = n at h4
    generalize hx : ((finished nproc out, fun _ => []) : (Nat → Prog (Option Res)) × Queues) = x at h4
    cases h4 with
    | refl => exact ⟨(congrArg Prod.fst hx).symm, (congrArg Prod.snd hx).symm⟩
    | tail h _ => exact absurd h (hs _)

theorem linked_valid (hv : Valid nproc procs conns) {a b : Eqn} (ha : a.1 < nproc) (h : Linked procs conns a b) : IsEqn nproc procs a ∧ IsEqn nproc procs b ∧ b.1 < a.1 := by
  obtain ⟨h1, h2, h3, h4, h5⟩ := links_valid hv h
  simp only at h1 h2 h3 h4 h5
  exact ⟨⟨ha, h1, h2⟩, ⟨by omega, h4, h5⟩, h3⟩

/-- Every equation has the number of an equation that is owned, and is linked to it. -/
theorem root_exists (hv : Valid nproc procs conns) {out : Nat → Res} (hN : Numbered nproc procs conns out) : ∀ (p : Nat) (i : Int), IsEqn nproc procs (p, i) →
    ∃ b, IsEqn nproc procs b ∧ Owned procs conns b ∧ number out b = number out (p, i) ∧ Relation.EqvGen (LinkedBelow procs conns nproc) (p, i) b := by
  intro p
  induction p using Nat.strong_induction_on with
  | _ p ih =>
    intro i hi
    by_cases ho : Owned procs conns (p, i)
    · exact ⟨_, hi, ho, rfl, Relation.EqvGen.refl _⟩
    · obtain ⟨b, hb, hb2⟩ := hN.linked _ hi ho
      obtain ⟨_, h2, h3⟩ := linked_valid hv hi.1 hb
      obtain ⟨c, hc, hc2, hc3, hc4⟩ := ih b.1 h3 b.2 h2
      exact ⟨c, hc, hc2, hc3.trans hb2.symm, Relation.EqvGen.trans _ _ _ (Relation.EqvGen.rel _ _ ⟨hi.1, hb⟩) hc4⟩

theorem ranges_apart {out : Nat → Res} (hN : Numbered nproc procs conns out) {p q : Nat} (hq : q < nproc) (h : p < q) : (out p).maxEq < (out q).minEq := by
  induction q with
  | zero => omega
  | succ q ih =>
    have h1 := hN.next q hq
    rcases Nat.lt_succ_iff_lt_or_eq.1 h with h2 | h2
    · have h3 := ih (by omega) h2
      have h4 := hN.range q (by omega)
      omega
    · subst h2; omega

/-- Two equations that are owned and have the same number are the same. -/
theorem owned_inj {out : Nat → Res} (hN : Numbered nproc procs conns out) {a b : Eqn} (ha : IsEqn nproc procs a) (hb : IsEqn nproc procs b)
    (oa : Owned procs conns a) (ob : Owned procs conns b) (h : number out a = number out b) : a = b := by
  have h1 := hN.owned a ha oa
  have h2 := hN.owned b hb ob
  obtain ⟨p, i⟩ := a
  obtain ⟨q, j⟩ := b
  simp only at h1 h2
  rcases Nat.lt_trichotomy p q with h3 | h3 | h3
  · have := ranges_apart hN hb.1 h3
    simp only at this
    omega
  · subst h3
    rcases Int.lt_trichotomy i j with h4 | h4 | h4
    · have := hN.order p i j ha hb oa ob h4
      omega
    · rw [h4]
    · have := hN.order p j i hb ha ob oa h4
      omega
  · have := ranges_apart hN ha.1 h3
    simp only at this
    omega

/-- **C66.** Equations with the same number are the same equation: they are connected by links (whether the connections are consistent or not). -/
theorem C66_same_number (hv : Valid nproc procs conns) {out : Nat → Res} (hN : Numbered nproc procs conns out) {a b : Eqn} (ha : IsEqn nproc procs a) (hb : IsEqn nproc procs b)
    (h : number out a = number out b) : Relation.EqvGen (LinkedBelow procs conns nproc) a b := by
  obtain ⟨c, hc, hc2, hc3, hc4⟩ := root_exists hv hN a.1 a.2 ha
  obtain ⟨d, hd, hd2, hd3, hd4⟩ := root_exists hv hN b.1 b.2 hb
  have : c = d := owned_inj hN hc hd hc2 hd2 (by rw [hc3, hd3]; exact h)
  subst this
  exact Relation.EqvGen.trans _ _ _ hc4 (Relation.EqvGen.symm _ _ hd4)

/-- **C66.** If the connections are consistent, two equations have the same number if and only if they are the same equation. -/
theorem C66_same_iff (hv : Valid nproc procs conns) (hc : Consistent nproc procs conns) {out : Nat → Res} (hN : Numbered nproc procs conns out) {a b : Eqn}
    (ha : IsEqn nproc procs a) (hb : IsEqn nproc procs b) :
    number out a = number out b ↔ Relation.EqvGen (LinkedBelow procs conns nproc) a b := by
  constructor
  · exact C66_same_number hv hN ha hb
  · have link : ∀ (p : Nat), p < nproc → ∀ a b : Eqn, a.1 = p → Linked procs conns a b → number out a = number out b := by
      intro p
      induction p using Nat.strong_induction_on with
      | _ p ih =>
        intro hp a b hap hab
        have hv1 := linked_valid hv (by omega) hab
        have ho : ¬ Owned procs conns a := fun ho => ho b hab
        obtain ⟨b', hb', hn'⟩ := hN.linked a hv1.1 ho
        have hE := hc a b' b (by omega) hb' hab
        have : ∀ x y, Relation.EqvGen (LinkedBelow procs conns a.1) x y → number out x = number out y := by
          intro x y h
          induction h with
          | rel x y hxy => exact ih x.1 (by rw [← hap]; exact hxy.1) (by have := hxy.1; omega) x y rfl hxy.2
          | refl x => rfl
          | symm x y _ ih => exact ih.symm
          | trans x y z _ _ ih1 ih2 => exact ih1.trans ih2
        rw [hn', this _ _ hE]
    intro h
    clear ha hb
    induction h with
    | rel x y hxy => exact link x.1 hxy.1 x y rfl hxy.2
    | refl x => rfl
    | symm x y _ ih => exact ih.symm
    | trans x y z h1 h2 ih1 ih2 => exact ih1.trans ih2

/-- **C66.** The numbers are `1` to `N`, where `N` is the last number of the last process, and none is left out. -/
theorem C66_one_to_N (hv : Valid nproc procs conns) (hn : 0 < nproc) {out : Nat → Res} (hN : Numbered nproc procs conns out) (g : Int) :
    (∃ a, IsEqn nproc procs a ∧ number out a = g) ↔ 1 ≤ g ∧ g ≤ (out (nproc-1)).maxEq := by
  have lo : ∀ p < nproc, 1 ≤ (out p).minEq := by
    intro p
    induction p with
    | zero => intro _; rw [hN.first]
    | succ p ih =>
      intro hp
      have h1 := ih (by omega)
      have h2 := hN.range p (by omega)
      rw [hN.next p hp]
      omega
  have hi : ∀ p < nproc, (out p).maxEq ≤ (out (nproc-1)).maxEq := by
    intro p hp
    by_cases h : p = nproc-1
    · rw [h]
    · have h1 := ranges_apart hN (p := p) (q := nproc-1) (by omega) (by omega)
      have h2 := hN.range (nproc-1) (by omega)
      omega
  constructor
  · rintro ⟨a, ha, rfl⟩
    obtain ⟨b, hb, ob, hb2, _⟩ := root_exists hv hN a.1 a.2 ha
    have h1 := hN.owned b hb ob
    have h2 := lo b.1 hb.1
    have h3 := hi b.1 hb.1
    have e : number out (a.1, a.2) = number out a := rfl
    rw [e] at hb2
    omega
  · rintro ⟨h1, h2⟩
    have key : ∀ p < nproc, g ≤ (out p).maxEq → ∃ a, IsEqn nproc procs a ∧ number out a = g := by
      intro p
      induction p with
      | zero =>
        intro hp hg
        obtain ⟨i, h3, _, h4⟩ := hN.onto 0 hp g (by rw [hN.first]; exact h1) hg
        exact ⟨_, h3, h4⟩
      | succ p ih =>
        intro hp hg
        by_cases h : g ≤ (out p).maxEq
        · exact ih (by omega) h
        · obtain ⟨i, h3, _, h4⟩ := hN.onto (p+1) hp g (by rw [hN.next p hp]; omega) hg
          exact ⟨_, h3, h4⟩
    exact key (nproc-1) (by omega) h2

/-! ### A case that meets the hypotheses -/

/-- Three processes with four, three and three equations, and a multiplier on each. -/
def exProcs : Nat → Proc := fun p =>
  if p = 0 then ⟨4, fun n _ => if n = 1 then 1 else if n = 2 then 2 else if n = 3 then 3 else if n = 9 then 4 else 0, [9]⟩
  else ⟨3, fun n _ => if n = 1 then 1 else if n = 2 then 2 else if n = 9 then 3 else 0, [9]⟩

/-- Two nodes of process 1 are those of process 0 in reverse order; one node of process 2 is one of process 1, and one of process 0. -/
def exConns : List Conn :=
  [⟨0, 1, 2, 1, 0, 1, [⟨[1, 2, 5], 1⟩], [⟨[5, 1, 2], 1⟩], [[2, 1, 0]], 1⟩, ⟨0, 2, 3, 0, 0, 1, [⟨[2], 1⟩], [⟨[1], 1⟩], [[0]], 1⟩,
   ⟨1, 2, 3, 0, 0, 1, [⟨[1], 1⟩], [⟨[1], 1⟩], [[0]], 1⟩]

theorem exValid : Valid 3 exProcs exConns where
  eq_le p n c := by unfold exProcs; split <;> simp only <;> (repeat' split) <;> simp
  lm_len p _ := by unfold exProcs; split <;> rfl
  lm_pos p n hn := by
    have : n = 9 := by
      revert hn
      unfold exProcs
      split <;> simp
    subst this
    unfold exProcs
    split <;> simp
  sorted := by simp [exConns, slaveOrder]
  owner := by simp [exConns]
  parts := by simp [exConns]
  ncmp := by simp [exConns]
  nodes := by simp [exConns]
  order := by simp [exConns]
  fixed := by decide

theorem exLinks (p : Nat) (hp : p < 3) : links exProcs exConns p =
    if p = 0 then [] else if p = 1 then [(3, (0, 4)), (1, (0, 2)), (2, (0, 1))] else [(3, (1, 3)), (1, (0, 2)), (1, (1, 1))] := by
  have : p = 0 ∨ p = 1 ∨ p = 2 := by omega
  rcases this with rfl | rfl | rfl <;> simp [links, lmLinks, connLinks, exConns, exProcs, partLinks, List.range_succ]

theorem exConsistent : Consistent 3 exProcs exConns := by
  intro a b b' ha h h'
  obtain ⟨p, i⟩ := a
  simp only at ha
  unfold Linked at h h'
  simp only at h h'
  rw [exLinks p ha] at h h'
  have hp : p = 0 ∨ p = 1 ∨ p = 2 := by omega
  have key : Relation.EqvGen (LinkedBelow exProcs exConns 2) (1, 1) (0, 2) := by
    refine Relation.EqvGen.rel _ _ ⟨by simp, ?_⟩
    unfold Linked
    rw [exLinks 1 (by omega)]
    simp
  rcases hp with rfl | rfl | rfl
  · simp at h
  · simp at h h'
    have : b = b' := by
      rcases h with ⟨h, rfl⟩ | ⟨h, rfl⟩ | ⟨h, rfl⟩ <;> rcases h' with ⟨h', rfl⟩ | ⟨h', rfl⟩ | ⟨h', rfl⟩ <;> first | rfl | omega
    rw [this]
    exact Relation.EqvGen.refl _
  · simp at h h'
    rcases h with ⟨h, rfl⟩ | ⟨h, rfl⟩ | ⟨h, rfl⟩ <;> rcases h' with ⟨h', rfl⟩ | ⟨h', rfl⟩ | ⟨h', rfl⟩ <;>
      first | omega | exact Relation.EqvGen.refl _ | exact Relation.EqvGen.symm _ _ key | exact key

/-- The theorems apply to this case: there are five different equations. -/
example : ∃ out, Numbered 3 exProcs exConns out ∧ number out (2, 1) = number out (0, 2) ∧ number out (1, 2) = number out (0, 1) ∧ number out (2, 3) = number out (0, 4) ∧
    (out 2).maxEq = (out 0).maxEq + 1 := by
  obtain ⟨out, hN, _⟩ := C66_no_deadlock exValid (by omega)
  have L : ∀ p, p < 3 → ∀ x ∈ links exProcs exConns p, number out (p, x.1) = number out x.2 := by
    intro p hp x hx
    have hx' : Linked exProcs exConns (p, x.1) x.2 := hx
    have := linked_valid exValid hp hx'
    exact (C66_same_iff exValid exConsistent hN this.1 this.2.1).2 (Relation.EqvGen.rel _ _ ⟨hp, hx'⟩)
  have a := L 2 (by omega) (1, (0, 2)) (by rw [exLinks 2 (by omega)]; simp)
  have b := L 1 (by omega) (2, (0, 1)) (by rw [exLinks 1 (by omega)]; simp)
  have c := L 2 (by omega) (3, (1, 3)) (by rw [exLinks 2 (by omega)]; simp)
  have d := L 1 (by omega) (3, (0, 4)) (by rw [exLinks 1 (by omega)]; simp)
  refine ⟨out, hN, a, b, c.trans d, ?_⟩
  -- process 1 owns nothing, and process 2 owns one equation
  have n1 := hN.next 0 (by omega)
  have n2 := hN.next 1 (by omega)
  have r1 := hN.range 1 (by omega)
  have r2 := hN.range 2 (by omega)
  simp only [Nat.zero_add, Nat.reduceAdd] at n1 n2
  have o1 : (out 1).maxEq = (out 0).maxEq := by
    by_contra hne
    obtain ⟨i, ⟨_, h1, h2⟩, h3, _⟩ := hN.onto 1 (by omega) (out 1).minEq (le_refl _) (by omega)
    simp only [exProcs] at h1 h2
    have h4 := links_iff.1 h3
    simp only at h4
    rw [exLinks 1 (by omega)] at h4
    simp at h4 h2
    omega
  have own : Owned exProcs exConns (2, 2) := by
    rw [links_iff, exLinks 2 (by omega)]
    simp
  have e2 := hN.owned (2, 2) ⟨by simp, by simp, by simp [exProcs]⟩ own
  simp only at e2
  by_contra hne
  obtain ⟨i, ⟨_, h1, h2⟩, h3, h5⟩ := hN.onto 2 (by omega) (out 2).minEq (le_refl _) (by omega)
  obtain ⟨j, ⟨_, g1, g2⟩, g3, g5⟩ := hN.onto 2 (by omega) ((out 2).minEq+1) (by omega) (by omega)
  have h4 := links_iff.1 h3
  have g4 := links_iff.1 g3
  simp only at h4 g4 h1 h2 g1 g2
  rw [exLinks 2 (by omega)] at h4 g4
  simp [exProcs] at h4 g4 h2 g2
  have : i = j := by omega
  rw [this] at h5
  omega

/-! ### What happens otherwise -/

/-- **C66, counterexample** to the claim without the requirement on the owners: if the first connection of which process 0 owns the slave has its master on another process,
no process can do anything, because process 0 waits for this other process and every other process waits for the process before (nothing in `SIM2D::connectPatches` or
`SIM3D::connectPatches` excludes such connections). -/
theorem C66_deadlock_counterexample (hn : 2 ≤ nproc) (hd : ∀ n c, (procs 0).getEq n c ≤ (procs 0).neq) (c : Conn) (cs : List Conn)
    (hc : conns.filter (fun c => c.slave = 0) = c :: cs) (hm : c.master ≠ 0) :
    (∀ st, ¬ SyncStep (start nproc procs conns) st) ∧ (∀ s, ¬ BufStep (start nproc procs conns, fun _ => []) s) ∧ ∀ out, start nproc procs conns ≠ finished nproc out := by
  have waits : ∀ r, (∃ p t k, start nproc procs conns r = .recv p t k) ∨ (∃ x, start nproc procs conns r = .done x) := by
    intro r
    unfold start
    split
    · left
      unfold calcGlobalEqNumbers
      split
      · unfold recvVec
        simp
      · have hr : r = 0 := by omega
        subst hr
        have e1 : applyLMs (procs 0) 0 (iota (procs 0).neq 0) [] ([], List.replicate (procs 0).neq false) = some ([], List.replicate (procs 0).neq false) := by simp [applyLMs]
        have hs : c.slave = 0 := by
          have : c ∈ conns.filter (fun c => c.slave = 0) := by rw [hc]; simp
          simpa using (List.mem_filter.1 this).2
        rw [body, e1]
        simp only
        rw [recvGhosts_filter, hc, recvGhosts, if_neg (by simpa using hs), setupEqs_ok _ _ _ hd (by simp [iota])]
        exact ⟨_, _, _, rfl⟩
    · exact Or.inr ⟨_, rfl⟩
  refine ⟨?_, ?_, ?_⟩
  · intro st h
    cases h with
    | comm p q t m k k' hp hq =>
      rcases waits p with ⟨_, _, _, h⟩ | ⟨_, h⟩ <;> rw [h] at hp <;> cases hp
  · intro s h
    cases h with
    | send _ _ p q t m k hp => rcases waits p with ⟨_, _, _, h⟩ | ⟨_, h⟩ <;> rw [h] at hp <;> cases hp
    | recv _ _ p q t m ms k hq hch => cases hch
  · intro out h
    have := congrFun h 1
    simp only [start, finished, if_pos (show 1 < nproc by omega), calcGlobalEqNumbers, recvVec] at this
    simp at this

example : (∀ st, ¬ SyncStep (start 2 exProcs [⟨1, 0, 1, 0, 0, 1, [⟨[1], 1⟩], [⟨[1], 1⟩], [[0]], 1⟩]) st) :=
  (C66_deadlock_counterexample (by omega) (fun n c => exValid.eq_le 0 n c) _ [] rfl (by simp)).1

end IFEM.DomNum
