import Verif.Lemmas.DomainNumbers
import Verif.Lemmas.Mpi

/-! # Lemmas for the global equation numbers: the messages -/
namespace IFEM.DomNum
open IFEM.Mpi

variable {R : Type}

theorem upd_self {A : Type} (st : Nat → A) (p : Nat) : upd st p (st p) = st := by
  funext r
  unfold upd
  split
  · simp_all
  · rfl

theorem comm_int {r : R} {st : Nat → Prog R} {p q : Nat} {v : Int} {k : Prog R} {k' : Int → Prog R}
    (hp : st p = sendInt q v k) (hq : st q = recvInt r p k') : Run SyncStep 1 st (upd (upd st p k) q (k' v)) :=
  Run.tail (SyncStep.comm st p q .int [v] k _ hp hq) (Run.refl _)

theorem comm_vec {r : R} {st : Nat → Prog R} {p q n : Nat} {v : List Int} {k : Prog R} {k' : List Int → Prog R} (hne : p ≠ q) (hn : v.length = n)
    (hp : st p = sendVec q v k) (hq : st q = recvVec r p n k') : ∃ N, Run SyncStep N st (upd (upd st p k) q (k' v)) := by
  unfold sendVec at hp
  unfold recvVec at hq
  by_cases h : v = []
  · subst h
    rw [if_pos rfl] at hp
    simp only [List.length_nil] at hn
    rw [if_pos hn.symm] at hq
    refine ⟨0, ?_⟩
    rw [← hp, upd_self, ← hq, upd_self]
    exact Run.refl _
  · have hn0 : ¬ n = 0 := by rw [← hn]; simpa using h
    rw [if_neg h] at hp
    rw [if_neg hn0] at hq
    refine ⟨1, Run.tail ?_ (Run.refl _)⟩
    have := SyncStep.comm st p q .vec v k _ hp hq
    simpa [hn] using this

/-- A state in which the programs of two processes are given. -/
def two {A : Type} (st : Nat → A) (p q : Nat) (a b : A) : Nat → A := upd (upd st p a) q b

theorem two_self {A : Type} (st : Nat → A) (p q : Nat) : two st p q (st p) (st q) = st := by
  unfold two
  rw [upd_self, upd_self]

theorem two_left {A : Type} (st : Nat → A) {p q : Nat} (a b : A) (h : p ≠ q) : two st p q a b p = a := by
  unfold two
  rw [upd_ne _ _ h, upd_same]

theorem two_right {A : Type} (st : Nat → A) (p q : Nat) (a b : A) : two st p q a b q = b := upd_same _ _ _

theorem two_ne {A : Type} (st : Nat → A) {p q r : Nat} (a b : A) (h : r ≠ p) (h' : r ≠ q) : two st p q a b r = st r := by
  unfold two
  rw [upd_ne _ _ h', upd_ne _ _ h]

theorem two_two {A : Type} (st : Nat → A) {p q : Nat} (a b a' b' : A) : two (two st p q a b) p q a' b' = two st p q a' b' := by
  funext r
  unfold two upd
  by_cases h1 : r = q <;> by_cases h2 : r = p <;> simp [h1, h2]

theorem two_int {r : R} (st : Nat → Prog R) {p q : Nat} (v : Int) (k : Prog R) (k' : Int → Prog R) (hne : p ≠ q) :
    Run SyncStep 1 (two st p q (sendInt q v k) (recvInt r p k')) (two st p q k (k' v)) := by
  have := comm_int (r := r) (two_left st (sendInt q v k) (recvInt r p k') hne) (two_right st p q (sendInt q v k) (recvInt r p k'))
  change Run SyncStep 1 _ (two _ p q k (k' v)) at this
  rwa [two_two] at this

theorem two_vec {r : R} (st : Nat → Prog R) {p q n : Nat} (v : List Int) (k : Prog R) (k' : List Int → Prog R) (hne : p ≠ q) (hn : v.length = n) :
    ∃ N, Run SyncStep N (two st p q (sendVec q v k) (recvVec r p n k')) (two st p q k (k' v)) := by
  obtain ⟨N, h⟩ := comm_vec (r := r) hne hn (two_left st (sendVec q v k) (recvVec r p n k') hne) (two_right st p q (sendVec q v k) (recvVec r p n k'))
  change Run SyncStep N _ (two _ p q k (k' v)) at h
  rw [two_two] at h
  exact ⟨N, h⟩

/-- The last number used by the processes before. -/
def prevMax (out : Nat → Res) (r : Nat) : Int := if r = 0 then 0 else (out (r-1)).maxEq

/-- The result of the process `r` is what it should be, in terms of the results of the processes before. -/
def Good (procs : Nat → Proc) (conns : List Conn) (out : Nat → Res) (r : Nat) : Prop :=
  ∃ fl : List Bool, fl.length = (procs r).neq ∧ (∀ k < (procs r).neq, (fl.getD k false = true ↔ ∃ x ∈ links procs conns r, x.1 = (k : Int)+1)) ∧
    (out r).minEq = prevMax out r + 1 ∧ (out r).maxEq = prevMax out r + fl.count false ∧ (out r).mlgeq.length = (procs r).neq ∧
    ∀ i : Int, 1 ≤ i → i ≤ (procs r).neq → number out (r, i) = eqNumber (prevMax out r) out (links procs conns r) fl i

variable {nproc : Nat} {procs : Nat → Proc} {conns : List Conn}

theorem connLinks_valid (hv : Valid nproc procs conns) {c : Conn} (hc : c ∈ conns) {x : Int × Eqn} (hx : x ∈ connLinks procs c) :
    1 ≤ x.1 ∧ x.1 ≤ (procs c.slave).neq ∧ x.2.1 = c.master ∧ 1 ≤ x.2.2 ∧ x.2.2 ≤ (procs c.master).neq := by
  unfold connLinks at hx
  obtain ⟨y, hy, hx⟩ := List.mem_filterMap.1 hx
  obtain ⟨z, hz, hy⟩ := List.mem_flatMap.1 hy
  have hf := hv.fixed c hc z hz y hy
  have h1 := hv.eq_le c.slave y.1.1 y.1.2
  have h2 := hv.eq_le c.master y.2.1 y.2.2
  split at hx
  · rename_i h
    have h3 := hf.1 h
    simp only [Option.some.injEq] at hx
    subst hx
    simp only
    exact ⟨by omega, h1, trivial, by omega, h2⟩
  · cases hx

theorem links_valid (hv : Valid nproc procs conns) {r : Nat} {x : Int × Eqn} (hx : x ∈ links procs conns r) :
    1 ≤ x.1 ∧ x.1 ≤ (procs r).neq ∧ x.2.1 < r ∧ 1 ≤ x.2.2 ∧ x.2.2 ≤ (procs x.2.1).neq := by
  unfold links at hx
  rcases List.mem_append.1 hx with hx | hx
  · unfold lmLinks at hx
    split at hx
    · cases hx
    · obtain ⟨y, hy, rfl⟩ := List.mem_map.1 hx
      have h1 := hv.lm_pos r y.1 (List.of_mem_zip hy).1
      have h2 := hv.lm_pos (r-1) y.2 (List.of_mem_zip hy).2
      have h3 := hv.eq_le r y.1 1
      have h4 := hv.eq_le (r-1) y.2 1
      simp only
      exact ⟨by omega, h3, by omega, by omega, h4⟩
  · obtain ⟨c, hc, hx⟩ := List.mem_flatMap.1 hx
    obtain ⟨hc, hs⟩ := List.mem_filter.1 hc
    simp only [decide_eq_true_eq] at hs
    have h := connLinks_valid hv hc hx
    have ho := hv.owner c hc
    obtain ⟨h1, h2, h3, h4, h5⟩ := h
    rw [hs] at h2 ho
    rw [h3]
    exact ⟨h1, h2, ho.1, h4, h5⟩

theorem good_bounds (hv : Valid nproc procs conns) {out : Nat → Res} : ∀ (r : Nat), (∀ r' ≤ r, Good procs conns out r') →
    0 ≤ prevMax out r ∧ prevMax out r ≤ (out r).maxEq ∧ ∀ i : Int, 1 ≤ i → i ≤ (procs r).neq → 1 ≤ number out (r, i) ∧ number out (r, i) ≤ (out r).maxEq := by
  intro r
  induction r using Nat.strong_induction_on with
  | _ r ih =>
    intro hg
    obtain ⟨fl, h1, h2, h3, h4, h5, h6⟩ := hg r (le_refl _)
    have hpm : ∀ r' < r, (out r').maxEq ≤ prevMax out r := by
      intro r' hr'
      -- the maximum does not decrease
      have mono : ∀ k, r' + k < r → (out r').maxEq ≤ (out (r'+k)).maxEq := by
        intro k
        induction k with
        | zero => intro _; exact le_refl _
        | succ k ihk =>
          intro hk
          have a := ihk (by omega)
          have b := (ih (r'+(k+1)) hk (fun s hs => hg s (by omega))).2.1
          have e : prevMax out (r'+(k+1)) = (out (r'+k)).maxEq := by unfold prevMax; rw [if_neg (by omega)]; rfl
          rw [e] at b
          omega
      have := mono (r-1-r') (by omega)
      rw [show r' + (r-1-r') = r-1 by omega] at this
      unfold prevMax
      rw [if_neg (by omega)]
      exact this
    have h0 : 0 ≤ prevMax out r := by
      unfold prevMax
      split
      · exact le_refl _
      · have := ih (r-1) (by omega) (fun s hs => hg s (by omega))
        omega
    refine ⟨h0, by omega, ?_⟩
    intro i hi1 hi2
    rw [h6 i hi1 hi2]
    unfold eqNumber
    cases hl : lastLink (links procs conns r) i with
    | some b =>
      simp only
      obtain ⟨_, _, v3, v4, v5⟩ := links_valid hv (lastLink_some hl)
      simp only at v3 v4 v5
      have := (ih b.1 v3 (fun s hs => hg s (by omega))).2.2 b.2 v4 v5
      have h7 := hpm b.1 v3
      have e : number out (b.1, b.2) = number out b := rfl
      rw [e] at this
      omega
    | none =>
      simp only
      have hnone := (lastLink_none _ _).1 hl
      have hb : (i-1).toNat < fl.length := by omega
      have hf : fl[(i-1).toNat] = false := by
        have : fl.getD (i-1).toNat false ≠ true := fun hh => by
          obtain ⟨x, hx, hx2⟩ := (h2 (i-1).toNat (by omega)).1 hh
          exact hnone x hx (by omega)
        rw [List.getD_eq_getElem _ _ hb] at this
        simpa using this
      have hc : 1 ≤ (fl.take i.toNat).count false := by
        refine List.count_pos_iff.2 ?_
        rw [← hf]
        exact List.mem_take_iff_getElem.2 ⟨(i-1).toNat, by omega, rfl⟩
      have hc2 : (fl.take i.toNat).count false ≤ fl.count false := (List.take_sublist _ _).count_le _
      omega

theorem good_prev (hv : Valid nproc procs conns) {out : Nat → Res} {r q : Nat} (hg : ∀ r' < q, Good procs conns out r') (h : r < q) :
    (out r).maxEq ≤ prevMax out q := by
  have mono : ∀ k, r + k < q → (out r).maxEq ≤ (out (r+k)).maxEq := by
    intro k
    induction k with
    | zero => intro _; exact le_refl _
    | succ k ihk =>
      intro hk
      have a := ihk (by omega)
      have b := (good_bounds hv (r+(k+1)) (fun s hs => hg s (by omega))).2.1
      have e : prevMax out (r+(k+1)) = (out (r+k)).maxEq := by unfold prevMax; rw [if_neg (by omega)]; rfl
      rw [e] at b
      omega
  have := mono (q-1-r) (by omega)
  rw [show r + (q-1-r) = q-1 by omega] at this
  unfold prevMax
  rw [if_neg (by omega)]
  exact this

theorem good_congr (hv : Valid nproc procs conns) {out out' : Nat → Res} {r : Nat} (h : ∀ s ≤ r, out' s = out s) (hg : Good procs conns out r) : Good procs conns out' r := by
  obtain ⟨fl, h1, h2, h3, h4, h5, h6⟩ := hg
  have hr := h r (le_refl _)
  have hp : prevMax out' r = prevMax out r := by
    unfold prevMax
    split
    · rfl
    · rw [h (r-1) (by omega)]
  refine ⟨fl, h1, h2, by rw [hr, hp, h3], by rw [hr, hp, h4], by rw [hr, h5], ?_⟩
  intro i hi1 hi2
  have e : number out' (r, i) = number out (r, i) := by unfold number; simp only [hr]
  rw [e, h6 i hi1 hi2, hp]
  unfold eqNumber
  cases hl : lastLink (links procs conns r) i with
  | some b =>
    have := (links_valid hv (lastLink_some hl)).2.2.1
    simp only at this
    simp only [number, h b.1 (by omega)]
  | none => rfl

theorem sendGhosts_filter (rank : Nat) (d : Proc) (res : Res) : ∀ cs : List Conn, sendGhosts rank d res cs = sendGhosts rank d res (cs.filter fun c => c.master = rank)
  | [] => rfl
  | c :: cs => by
    by_cases h : c.master = rank
    · rw [List.filter_cons_of_pos (by simpa using h), sendGhosts, sendGhosts, ← sendGhosts_filter rank d res cs]
    · rw [List.filter_cons_of_neg (by simpa using h), sendGhosts, if_pos h, sendGhosts_filter rank d res cs]

theorem recvGhosts_filter (rank : Nat) (d : Proc) (nEq : Int) (k : Remap → Prog (Option Res)) : ∀ (cs : List Conn) (rm : Remap),
    recvGhosts rank d nEq k cs rm = recvGhosts rank d nEq k (cs.filter fun c => c.slave = rank) rm
  | [], _ => rfl
  | c :: cs, rm => by
    by_cases h : c.slave = rank
    · rw [List.filter_cons_of_pos (by simpa using h), recvGhosts, recvGhosts, if_neg (by simpa using h), if_neg (by simpa using h)]
      cases setupEqs d (iota d.neq nEq) c.sParts with
      | none => rfl
      | some loc =>
        simp only
        congr 1
        funext n
        split
        · rfl
        · congr 1
          funext glb
          cases applyConn nEq c loc glb rm with
          | none => rfl
          | some rm' => exact recvGhosts_filter rank d nEq k cs rm'
    · rw [List.filter_cons_of_neg (by simpa using h), recvGhosts, if_pos h, recvGhosts_filter rank d nEq k cs rm]

/-- One connection. -/
theorem deliver_one (hv : Valid nproc procs conns) {out : Nat → Res} {q : Nat} (hg : ∀ r < q, Good procs conns out r) {c : Conn} (hc : c ∈ conns) (hs : c.slave = q)
    {k : Remap → Prog (Option Res)} {cs B : List Conn} {rm : Remap} (hrm : rm.2.length = (procs q).neq) {st : Nat → Prog (Option Res)}
    (hq : st q = recvGhosts q (procs q) (prevMax out q) k (c :: cs) rm)
    (hr : st c.master = sendGhosts c.master (procs c.master) (out c.master) (c :: B)) :
    ∃ N, Run SyncStep N st (two st c.master q (sendGhosts c.master (procs c.master) (out c.master) B)
      (recvGhosts q (procs q) (prevMax out q) k cs ((connLinks procs c).foldl (relink (prevMax out q) out) rm))) := by
  have hlt : c.master < q := hs ▸ (hv.owner c hc).1
  have hgm := good_bounds hv c.master (fun s hs => hg s (by omega))
  obtain ⟨_, _, _, _, _, hlen, _⟩ := hg c.master hlt
  have h0 : 0 ≤ prevMax out q := by
    have := good_prev hv hg hlt
    have := hgm.1
    have := hgm.2.1
    omega
  have e1 := setupEqs_ok (procs q) (iota (procs q).neq (prevMax out q)) c.sParts (hv.eq_le q) (by simp [iota])
  have e2 := setupEqs_ok (procs c.master) (out c.master).mlgeq c.mParts (hv.eq_le _) hlen
  have e3 := applyConn_ok procs out c (prevMax out q) rm h0 hv.eq_le hlen (fun i h1 h2 => (hgm.2.2 i h1 h2).1) (by rw [hs]; exact hrm)
    (hv.parts c hc) (hv.ncmp c hc) (hv.nodes c hc) (hv.order c hc) (hv.fixed c hc)
  rw [hs] at e3
  have hL := bdry_lengths c.orders c.thick c.sParts c.mParts (hv.parts c hc).1 (hv.parts c hc).2 (hv.ncmp c hc) (hv.nodes c hc).1 (hv.nodes c hc).2
  rw [recvGhosts, if_neg (by simpa using hs), e1] at hq
  rw [sendGhosts, if_neg (by simp), e2] at hr
  simp only [hs] at hq hr
  have hne : c.master ≠ q := by omega
  have s1 := comm_int hr hq
  change Run SyncStep 1 st (two st c.master q _ _) at s1
  simp only [List.length_map, hL, ne_eq, not_true, if_false] at s1
  obtain ⟨N, s2⟩ := two_vec (r := (none : Option Res)) st (n := (bdryDofs c.sParts).length) ((bdryDofs c.mParts).map (entry (procs c.master) (out c.master).mlgeq))
    (sendGhosts c.master (procs c.master) (out c.master) B) (fun glb =>
        match applyConn (prevMax out q) c ((bdryDofs c.sParts).map (entry (procs q) (iota (procs q).neq (prevMax out q)))) glb rm with
        | none => Prog.done none
        | some rm' => recvGhosts q (procs q) (prevMax out q) k cs rm') hne (by simp [hL])
  rw [e3] at s2
  exact ⟨1+N, run_trans s1 s2⟩

/-- All connections to the process `q`. -/
theorem deliver_all (hv : Valid nproc procs conns) {out : Nat → Res} {q : Nat} (hg : ∀ r < q, Good procs conns out r) {k : Remap → Prog (Option Res)} (B : Nat → List Conn) :
    ∀ (L : List Conn) (rm : Remap) (st : Nat → Prog (Option Res)), (∀ c ∈ L, c ∈ conns ∧ c.slave = q) → rm.2.length = (procs q).neq →
      st q = recvGhosts q (procs q) (prevMax out q) k L rm →
      (∀ r < q, st r = sendGhosts r (procs r) (out r) ((L.filter fun c => c.master = r) ++ B r)) →
      ∃ N st', Run SyncStep N st st' ∧ st' q = k ((L.flatMap (connLinks procs)).foldl (relink (prevMax out q) out) rm) ∧
        (∀ r < q, st' r = sendGhosts r (procs r) (out r) (B r)) ∧ ∀ r, q < r → st' r = st r
  | [], rm, st, _, _, hq, hs => ⟨0, st, Run.refl _, hq, fun r hr => by simpa using hs r hr, fun _ _ => rfl⟩
  | c :: L, rm, st, hL, hrm, hq, hs => by
    obtain ⟨hc, hcs⟩ := hL c (by simp)
    have hlt : c.master < q := hcs ▸ (hv.owner c hc).1
    have hm := hs c.master hlt
    rw [List.filter_cons_of_pos (by simp), List.cons_append] at hm
    obtain ⟨N, h1⟩ := deliver_one hv hg hc hcs hrm hq hm
    obtain ⟨M, st', h2, h3, h4, h5⟩ := deliver_all hv hg B L ((connLinks procs c).foldl (relink (prevMax out q) out) rm)
      (two st c.master q (sendGhosts c.master (procs c.master) (out c.master) ((L.filter fun x => x.master = c.master) ++ B c.master))
        (recvGhosts q (procs q) (prevMax out q) k L ((connLinks procs c).foldl (relink (prevMax out q) out) rm))) (fun x hx => hL x (by simp [hx]))
      (by rw [relinks_length, hrm]) (two_right _ _ _ _ _) (fun r hr => by
        by_cases h : r = c.master
        · subst h
          rw [two_left _ _ _ (by omega)]
        · rw [two_ne _ _ _ h (by omega), hs r hr, List.filter_cons_of_neg (by simpa using fun hh => h hh.symm)])
    refine ⟨N+M, st', run_trans h1 h2, ?_, h4, ?_⟩
    · rw [h3, List.flatMap_cons, List.foldl_append]
    · intro r hr
      rw [h5 r hr, two_ne _ _ _ (by omega) (by omega)]

theorem filter_split (l : List Conn) (r q : Nat) : l.Pairwise (fun a b => a.master = b.master → a.slave ≤ b.slave) →
    l.filter (fun c => c.master = r ∧ q ≤ c.slave) = (l.filter fun c => c.slave = q).filter (fun c => c.master = r) ++ l.filter (fun c => c.master = r ∧ q+1 ≤ c.slave) := by
  intro h
  induction l with
  | nil => rfl
  | cons c l ih =>
    rw [List.pairwise_cons] at h
    have ih := ih h.2
    by_cases hm : c.master = r
    · by_cases hs : c.slave = q
      · rw [List.filter_cons_of_pos (by simp [hm, hs]), List.filter_cons_of_pos (by simpa using hs), List.filter_cons_of_pos (by simpa using hm),
          List.filter_cons_of_neg (by simp [hs]), ih]
        rfl
      · by_cases hs' : q ≤ c.slave
        · -- all later ones of this master have a higher slave
          have hno : (l.filter fun c => c.slave = q).filter (fun c => c.master = r) = [] := by
            rw [List.filter_filter]
            refine List.filter_eq_nil_iff.2 fun x hx => ?_
            have := h.1 x hx
            simp only [Bool.and_eq_true, decide_eq_true_eq, not_and]
            intro h1 h2
            have := this (by omega)
            omega
          rw [hno, List.nil_append] at ih
          rw [List.filter_cons_of_pos (by simp [hm, hs']), List.filter_cons_of_neg (a := c) (by simpa using hs), hno,
            List.filter_cons_of_pos (by simp [hm]; omega), ih]
          rfl
        · rw [List.filter_cons_of_neg (by simp; omega), List.filter_cons_of_neg (a := c) (by simpa using hs), List.filter_cons_of_neg (by simp; omega), ih]
    · rw [List.filter_cons_of_neg (by simp [hm]), List.filter_cons_of_neg (a := c) (p := fun c => decide (c.master = r ∧ q+1 ≤ c.slave)) (by simp [hm]), ih]
      congr 1
      by_cases hs : c.slave = q
      · rw [List.filter_cons_of_pos (a := c) (by simpa using hs), List.filter_cons_of_neg (by simpa using hm)]
      · rw [List.filter_cons_of_neg (a := c) (by simpa using hs)]

theorem sorted_slaves (h : conns.Pairwise slaveOrder) : conns.Pairwise (fun a b => a.master = b.master → a.slave ≤ b.slave) := by
  refine h.imp fun {a b} hab hm => ?_
  unfold slaveOrder at hab
  rw [if_neg (by simpa using hm)] at hab
  split at hab <;> omega

/-- The state when the processes below `q` have their numbers. -/
structure Stage (nproc : Nat) (procs : Nat → Proc) (conns : List Conn) (out : Nat → Res) (q : Nat) (st : Nat → Prog (Option Res)) : Prop where
  below : ∀ r, r + 1 < q → st r = sendGhosts r (procs r) (out r) (conns.filter fun c => c.master = r ∧ q ≤ c.slave)
  last : ∀ r, r + 1 = q → st r = sendAll nproc r (procs r) conns (out r)
  above : ∀ r, q ≤ r → st r = start nproc procs conns r

/-- The state when the process `q` has got what it needs from the process before. -/
theorem stage_body (hv : Valid nproc procs conns) {out : Nat → Res} {q : Nat} (hq : q < nproc) (hg : ∀ r < q, Good procs conns out r)
    {st : Nat → Prog (Option Res)} (hst : Stage nproc procs conns out q st) :
    ∃ N st', Run SyncStep N st st' ∧
      st' q = recvGhosts q (procs q) (prevMax out q) (fun rm => sendAll nproc q (procs q) conns (finish q (procs q) (prevMax out q) rm)) conns
        ((lmLinks procs q).foldl (relink (prevMax out q) out) ([], List.replicate (procs q).neq false)) ∧
      (∀ r < q, st' r = sendGhosts r (procs r) (out r) (conns.filter fun c => c.master = r ∧ q ≤ c.slave)) ∧ ∀ r, q < r → st' r = st r := by
  have h1 := hst.above q (le_refl _)
  rw [start, if_pos hq] at h1
  cases q with
  | zero =>
    refine ⟨0, st, Run.refl _, ?_, fun r hr => by omega, fun _ _ => rfl⟩
    rw [h1, calcGlobalEqNumbers, if_neg (by omega), body]
    have : applyLMs (procs 0) 0 (iota (procs 0).neq 0) [] ([], List.replicate (procs 0).neq false) = some ([], List.replicate (procs 0).neq false) := by simp [applyLMs]
    rw [this]
    rfl
  | succ p =>
    have h2 := hst.last p rfl
    rw [sendAll, if_pos hq] at h2
    have hgp := hg p (by omega)
    have hlen : (out p).mlgeq.length = (procs p).neq := by
      obtain ⟨_, _, _, _, _, h, _⟩ := hgp
      exact h
    have e1 := lmNumbers_ok procs out p hv.eq_le (hv.lm_pos p) hlen
    rw [e1] at h2
    simp only [List.length_map] at h2
    rw [calcGlobalEqNumbers, if_pos (by omega), Nat.add_sub_cancel] at h1
    have hne : p ≠ p+1 := by omega
    have hlm : (procs p).lms.length = (procs (p+1)).lms.length := by rw [hv.lm_len p (by omega), hv.lm_len (p+1) hq]
    obtain ⟨N1, s1⟩ := comm_vec hne (by simp) h2 h1
    change Run SyncStep N1 st (two st p (p+1) _ _) at s1
    have s2 := two_int (r := (none : Option Res)) st ((procs p).lms.length : Int) (sendVec (p+1) ((procs p).lms.map fun n => number out (p, (procs p).getEq n 1))
        (sendGhosts p (procs p) (out p) conns)) (fun nLMs => if nLMs ≠ (procs (p+1)).lms.length then Prog.done none
          else recvVec none p (procs (p+1)).lms.length fun glbLMs => body nproc (p+1) (procs (p+1)) conns (([(out p).maxEq] : List Int).headD 0) glbLMs) hne
    simp only [hlm, ne_eq, not_true, if_false] at s1 s2
    obtain ⟨N3, s3⟩ := two_vec (r := (none : Option Res)) st (n := (procs (p+1)).lms.length) ((procs p).lms.map fun n => number out (p, (procs p).getEq n 1))
      (sendGhosts p (procs p) (out p) conns) (fun glbLMs => body nproc (p+1) (procs (p+1)) conns (([(out p).maxEq] : List Int).headD 0) glbLMs) hne (by simp [hlm])
    refine ⟨N1+(1+N3), _, run_trans s1 (run_trans s2 s3), ?_, ?_, ?_⟩
    · rw [two_right]
      have e2 := applyLMs_ok procs out p (prevMax out (p+1)) hv.eq_le (hv.lm_pos (p+1)) ([], List.replicate (procs (p+1)).neq false) (by simp)
      have e3 : prevMax out (p+1) = (out p).maxEq := by unfold prevMax; rw [if_neg (by omega)]; rfl
      rw [e3] at e2
      simp only [List.headD_cons]
      rw [body, e2, e3]
    · intro r hr
      by_cases h : r = p
      · subst h
        rw [two_left _ _ _ hne, sendGhosts_filter]
        congr 1
        refine List.filter_congr fun c hc => ?_
        have := (hv.owner c hc).1
        by_cases hm : c.master = r
        · simp [hm]; omega
        · simp [hm]
      · rw [two_ne _ _ _ h (by omega)]
        exact hst.below r (by omega)
    · intro r hr
      rw [two_ne _ _ _ (by omega) (by omega)]

theorem number_congr {out out' : Nat → Res} {b : Eqn} (h : out' b.1 = out b.1) : number out' b = number out b := by
  unfold number
  rw [h]

/-- The next process gets its numbers. -/
theorem stage_step (hv : Valid nproc procs conns) {out : Nat → Res} {q : Nat} (hq : q < nproc) (hg : ∀ r < q, Good procs conns out r)
    {st : Nat → Prog (Option Res)} (hst : Stage nproc procs conns out q st) :
    ∃ N st' out', Run SyncStep N st st' ∧ (∀ r < q+1, Good procs conns out' r) ∧ Stage nproc procs conns out' (q+1) st' := by
  obtain ⟨N, st1, r1, a1, a2, a3⟩ := stage_body hv hq hg hst
  rw [recvGhosts_filter] at a1
  have hcs : ∀ c ∈ conns.filter (fun c => c.slave = q), c ∈ conns ∧ c.slave = q := fun c hc => by
    obtain ⟨h1, h2⟩ := List.mem_filter.1 hc
    exact ⟨h1, by simpa using h2⟩
  obtain ⟨M, st2, r2, b1, b2, b3⟩ := deliver_all hv hg (fun r => conns.filter fun c => c.master = r ∧ q+1 ≤ c.slave) _ _ st1 hcs
    (by rw [relinks_length]; simp) a1 (fun r hr => by rw [a2 r hr, filter_split conns r q (sorted_slaves hv.sorted)])
  rw [← List.foldl_append] at b1
  change st2 q = sendAll nproc q (procs q) conns (finish q (procs q) (prevMax out q) ((links procs conns q).foldl (relink (prevMax out q) out) ([], List.replicate (procs q).neq false))) at b1
  set res := finish q (procs q) (prevMax out q) ((links procs conns q).foldl (relink (prevMax out q) out) ([], List.replicate (procs q).neq false)) with hres
  have hlq : q = 0 → links procs conns q = [] := by
    intro h0
    refine List.eq_nil_iff_forall_not_mem.2 fun x hx => ?_
    have := (links_valid hv hx).2.2.1
    omega
  obtain ⟨fl, f1, f2, f3, f4, f5, f6⟩ := finish_ok q (procs q) (prevMax out q) out (links procs conns q) (fun h0 => ⟨hlq h0, by simp [prevMax, h0]⟩)
    (fun x hx => (links_valid hv hx).1) (fun x hx => by
      obtain ⟨_, _, v3, v4, v5⟩ := links_valid hv hx
      have h1 := (good_bounds hv x.2.1 (fun s hs => hg s (by omega))).2.2 x.2.2 v4 v5
      have h2 := good_prev hv hg v3
      exact le_trans h1.2 h2)
  rw [← hres] at f3 f4 f5 f6
  have ho : ∀ s < q, (upd out q res) s = out s := fun s hs => upd_ne _ _ (by omega)
  have hpm : prevMax (upd out q res) q = prevMax out q := by
    unfold prevMax
    split
    · rfl
    · rw [ho (q-1) (by omega)]
  refine ⟨N+M, st2, upd out q res, run_trans r1 r2, ?_, ?_, ?_, ?_⟩
  · intro r hr
    by_cases h : r = q
    · subst h
      refine ⟨fl, f1, f2, by rw [upd_same, f3, hpm], by rw [upd_same, f4, hpm], by rw [upd_same, f5], ?_⟩
      intro i h1 h2
      have e : number (upd out r res) (r, i) = res.mlgeq.getD (i-1).toNat 0 := by unfold number; rw [upd_same]
      rw [e, f6 i h1 h2, hpm]
      unfold eqNumber
      cases hl : lastLink (links procs conns r) i with
      | some b =>
        have := (links_valid hv (lastLink_some hl)).2.2.1
        exact (number_congr (ho b.1 this)).symm
      | none => rfl
    · exact good_congr hv (fun s hs => ho s (by omega)) (hg r (by omega))
  · intro r hr
    rw [b2 r (by omega), ho r (by omega)]
  · intro r hr
    have : r = q := by omega
    subst this
    rw [b1, upd_same]
  · intro r hr
    rw [b3 r (by omega), a3 r (by omega)]
    exact hst.above r (by omega)

/-- Some schedule, with every send waiting for its receiver, gives every process its numbers. -/
theorem run_exists (hv : Valid nproc procs conns) (hn : 0 < nproc) : ∃ N out, (∀ r < nproc, Good procs conns out r) ∧
    Run SyncStep N (start nproc procs conns) (fun r => if r < nproc then .done (some (out r)) else .done none) := by
  have key : ∀ q ≤ nproc, ∃ N st out, Run SyncStep N (start nproc procs conns) st ∧ (∀ r < q, Good procs conns out r) ∧ Stage nproc procs conns out q st := by
    intro q
    induction q with
    | zero =>
      intro _
      exact ⟨0, _, fun _ => ⟨[], 0, 0⟩, Run.refl _, fun r hr => by omega, fun r hr => by omega, fun r hr => by omega, fun r _ => rfl⟩
    | succ q ih =>
      intro hq
      obtain ⟨N, st, out, h1, h2, h3⟩ := ih (by omega)
      obtain ⟨M, st', out', g1, g2, g3⟩ := stage_step hv (by omega) h2 h3
      exact ⟨N+M, st', out', run_trans h1 g1, g2, g3⟩
  obtain ⟨N, st, out, h1, h2, h3⟩ := key nproc (le_refl _)
  refine ⟨N, out, h2, ?_⟩
  convert h1 using 1
  funext r
  by_cases hr : r < nproc
  · rw [if_pos hr]
    by_cases hl : r + 1 = nproc
    · rw [h3.last r hl, sendAll, if_neg (by omega), sendGhosts_filter]
      have : conns.filter (fun c => c.master = r) = [] := by
        refine List.filter_eq_nil_iff.2 fun c hc => ?_
        have := hv.owner c hc
        simp only [decide_eq_true_eq]
        omega
      rw [this]
      rfl
    · rw [h3.below r (by omega)]
      have : conns.filter (fun c => c.master = r ∧ nproc ≤ c.slave) = [] := by
        refine List.filter_eq_nil_iff.2 fun c hc => ?_
        have := hv.owner c hc
        simp only [decide_eq_true_eq]
        omega
      rw [this]
      rfl
  · rw [if_neg hr, h3.above r (by omega), start, if_neg hr]

end IFEM.DomNum
