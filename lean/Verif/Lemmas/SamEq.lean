import Verif.Model.Sam
import Verif.Lemmas.Arrays
/-! Lemmas about `SAM::initSystemEquations`. -/
namespace IFEM.Sam
open IFEM

/-- Closed form of the status codes after the first pass. -/
def renum : Nat → List Int → List Int
  | _, [] => []
  | k, c :: cs => if c = 0 then (-((k : Int) + 1)) :: renum (k+1) cs else c :: renum k cs

def isBad (c : Int) : Bool := !(c == 0) && !(c == 1) && !(c == 2)

theorem statusFold (l : List Int) (a : StatusPass) :
    l.foldl statusStep a =
      ⟨a.msc ++ renum a.nspdof l, a.nspdof + l.count 0, a.ndof1 + l.count 1,
       a.ndof2 + l.count 2, a.nerr + l.countP isBad⟩ := by
  induction l generalizing a with
  | nil => simp [renum]
  | cons c cs ih =>
    rw [List.foldl_cons, ih]
    unfold statusStep
    split
    · rename_i h; subst h
      simp only [StatusPass.mk.injEq, List.count_cons, List.countP_cons, isBad]
      refine ⟨by simp [renum], by simp; omega, by simp, by simp, by simp⟩
    · split
      · rename_i h; subst h
        simp only [StatusPass.mk.injEq, List.count_cons, List.countP_cons, isBad]
        refine ⟨by simp [renum], by simp, by simp; omega, by simp, by simp⟩
      · split
        · rename_i h; subst h
          simp only [StatusPass.mk.injEq, List.count_cons, List.countP_cons, isBad]
          refine ⟨by simp [renum], by simp, by simp, by simp; omega, by simp⟩
        · rename_i h0 h1 h2
          have e0 : (c == 0) = false := by simpa using h0
          have e1 : (c == 1) = false := by simpa using h1
          have e2 : (c == 2) = false := by simpa using h2
          simp only [StatusPass.mk.injEq, List.count_cons, List.countP_cons, isBad, e0, e1, e2]
          refine ⟨by simp [renum, h0], by simp, by simp, by simp, by simp; omega⟩

theorem statusPass_eq (k : Nat) (l : List Int) :
    statusPass k l = ⟨renum k l, k + l.count 0, l.count 1, l.count 2, l.countP isBad⟩ := by
  simp [statusPass, statusFold]

@[simp] theorem renum_length (k : Nat) (l : List Int) : (renum k l).length = l.length := by
  induction l generalizing k with
  | nil => rfl
  | cons c cs ih => unfold renum; split <;> simp [ih]

theorem renum_getElem? (k : Nat) (l : List Int) (d : Nat) :
    (renum k l)[d]? = l[d]?.map (fun c => if c = 0 then -((k : Int) + (l.take d).count 0 + 1) else c) := by
  induction l generalizing k d with
  | nil => simp [renum]
  | cons c cs ih =>
    unfold renum
    cases d with
    | zero => split <;> simp_all
    | succ d =>
      split
      · rename_i h; subst h
        simp only [List.getElem?_cons_succ, ih, List.take_succ_cons, List.count_cons]
        congr 1; funext x; by_cases hx : x = 0 <;> simp [hx]; omega
      · rename_i h
        have e0 : (c == 0) = false := by simpa using h
        simp only [List.getElem?_cons_succ, ih, List.take_succ_cons, List.count_cons, e0]
        simp

theorem renum_take_count1 (k : Nat) (l : List Int) (d : Nat) (c : Int) (hc : 0 < c) :
    ((renum k l).take d).count c = (l.take d).count c := by
  induction l generalizing k d with
  | nil => simp [renum]
  | cons x xs ih =>
    unfold renum
    cases d with
    | zero => simp
    | succ d =>
      split
      · rename_i h; subst h
        simp only [List.take_succ_cons, List.count_cons, ih]
        have e1 : ((-((k : Int) + 1)) == c) = false := by simp; omega
        have e2 : ((0 : Int) == c) = false := by simp; omega
        rw [e1, e2]
      · simp only [List.take_succ_cons, List.count_cons, ih]

theorem numberLoop_length (cs es : List Int) (i j : Nat) (h : cs.length = es.length) :
    (numberLoop cs es i j).length = es.length := by
  induction cs generalizing es i j with
  | nil => cases es <;> simp_all [numberLoop]
  | cons c cs ih =>
    cases es with
    | nil => simp at h
    | cons e es =>
      unfold numberLoop
      have := fun i j => ih es i j (by simpa using h)
      split
      · simp [this]
      · split <;> simp [this]

theorem numberLoop_getElem? (cs es : List Int) (i j d : Nat) (h : cs.length = es.length) :
    (numberLoop cs es i j)[d]? =
      (match cs[d]?, es[d]? with
       | some c, some e =>
          some (if c = 1 then ((i + (cs.take d).count 1 : Nat) : Int)
          else if c = 2 then ((j + (cs.take d).count 2 : Nat) : Int) else e)
       | _, _ => none) := by
  induction cs generalizing es i j d with
  | nil => cases es <;> simp_all [numberLoop]
  | cons c cs ih =>
    cases es with
    | nil => simp at h
    | cons e es =>
      have ih' := fun i j d => ih es i j d (by simpa using h)
      unfold numberLoop
      cases d with
      | zero => split <;> (try split) <;> simp_all
      | succ d =>
        split
        · rename_i h1; subst h1
          simp only [List.getElem?_cons_succ, ih', List.take_succ_cons, List.count_cons]
          simp [Nat.add_assoc, Nat.add_comm 1]
        · split
          · rename_i h1 h2; subst h2
            simp only [List.getElem?_cons_succ, ih', List.take_succ_cons, List.count_cons]
            simp [Nat.add_assoc, Nat.add_comm 1]
          · rename_i h1 h2
            have e1 : (c == 1) = false := by simpa using h1
            have e2 : (c == 2) = false := by simpa using h2
            simp only [List.getElem?_cons_succ, ih', List.take_succ_cons, List.count_cons, e1, e2]
            simp

theorem ceqLoop_meqn_length (ndof : Nat) (msc mp mm : List Int) (is : List Nat) (a q : CeqPass)
    (h : ceqLoop ndof msc mp mm is a = some q) : q.meqn.length = a.meqn.length := by
  induction is generalizing a with
  | nil => simp [ceqLoop] at h; rw [h]
  | cons i is ih =>
    unfold ceqLoop at h
    simp only [Option.bind_eq_bind, Option.bind_eq_some_iff] at h
    obtain ⟨ip, _, jp1, _, idof, _, h⟩ := h
    split at h
    · simpa using ih _ h
    · simp only [Option.bind_eq_some_iff] at h
      obtain ⟨m, _, mq, hmq, h⟩ := h
      obtain ⟨_, _, rfl⟩ := set1?_eq_some hmq
      split at h
      · simpa using ih _ h
      · split at h
        · simpa using ih _ h
        · split at h
          · simp only [Option.bind_eq_some_iff] at h
            obtain ⟨n, _, h⟩ := h
            simpa using ih _ h
          · cases h; rfl

/-- All entries written by the constraint loop are negative, the others unchanged. -/
theorem ceqLoop_meqn_nonpos (ndof : Nat) (msc mp mm : List Int) (is : List Nat) (a q : CeqPass)
    (his : ∀ i ∈ is, 1 ≤ i)
    (h : ceqLoop ndof msc mp mm is a = some q) (ha : ∀ e ∈ a.meqn, e ≤ 0) : ∀ e ∈ q.meqn, e ≤ 0 := by
  induction is generalizing a with
  | nil => simp [ceqLoop] at h; subst h; exact ha
  | cons i is ih =>
    have ih := fun a => ih a (fun i hi => his i (List.mem_cons_of_mem _ hi))
    have hi := his i List.mem_cons_self
    unfold ceqLoop at h
    simp only [Option.bind_eq_bind, Option.bind_eq_some_iff] at h
    obtain ⟨ip, _, jp1, _, idof, _, h⟩ := h
    split at h
    · exact ih _ h ha
    · simp only [Option.bind_eq_some_iff] at h
      obtain ⟨m, _, mq, hmq, h⟩ := h
      obtain ⟨_, _, rfl⟩ := set1?_eq_some hmq
      have hset : ∀ e ∈ a.meqn.set (idof-1).toNat (-(i : Int)), e ≤ 0 := by
        intro e he
        rcases List.mem_or_eq_of_mem_set he with h | h
        · exact ha e h
        · omega
      split at h
      · exact ih _ h hset
      · split at h
        · exact ih _ h hset
        · split at h
          · simp only [Option.bind_eq_some_iff] at h
            obtain ⟨n, _, h⟩ := h
            exact ih _ h hset
          · cases h; exact ha

/-- Counting lemma: the k-th occurrence of `c` exists for every k below the count. -/
theorem exists_kth (c : Int) (l : List Int) (k : Nat) (hk : k < l.count c) :
    ∃ d, l[d]? = some c ∧ (l.take d).count c = k := by
  induction l generalizing k with
  | nil => simp at hk
  | cons x xs ih =>
    by_cases hx : x = c
    · subst hx
      cases k with
      | zero => exact ⟨0, by simp, by simp⟩
      | succ k =>
        obtain ⟨d, h1, h2⟩ := ih k (by simpa using hk)
        exact ⟨d+1, by simpa using h1, by simp [h2]⟩
    · obtain ⟨d, h1, h2⟩ := ih k (by simpa [List.count_cons, hx] using hk)
      exact ⟨d+1, by simpa using h1, by simp [hx, h2]⟩

theorem count_take_lt {c : Int} {l : List Int} {d d' : Nat} (hd : l[d]? = some c) (h : d < d') :
    (l.take d).count c < (l.take d').count c := by
  have h1 : (l.take (d+1)).count c = (l.take d).count c + 1 := by
    rw [List.take_add_one, hd]; simp
  have h2 : (l.take (d+1)).count c ≤ (l.take d').count c :=
    (List.take_sublist_take_left (by omega)).count_le c
  omega

theorem count_take_lt_count {c : Int} {l : List Int} {d : Nat} (hd : l[d]? = some c) :
    (l.take d).count c < l.count c := by
  have hlt : d < l.length := (List.getElem?_eq_some_iff.1 hd).1
  have := count_take_lt hd hlt
  simpa using this

end IFEM.Sam

namespace IFEM.Sam

theorem masterErrs_zero (ndof : Nat) (msc mm : List Int) (ips : List Int) :
    masterErrs ndof msc mm ips = some 0 ↔
      ∀ ip ∈ ips, ∃ jdof, at1? mm ip = some jdof ∧ 1 ≤ jdof ∧ jdof ≤ ndof ∧
        ∃ m, at1? msc jdof = some m ∧ 1 ≤ m := by
  induction ips with
  | nil => simp [masterErrs]
  | cons ip ips ih =>
    simp only [masterErrs, Option.bind_eq_bind, Option.bind_eq_some_iff, List.forall_mem_cons]
    rw [← ih]
    constructor
    · rintro ⟨jdof, h1, h⟩
      split at h
      · simp [Option.bind_eq_some_iff] at h
      · rename_i hr
        simp only [Option.bind_eq_some_iff] at h
        obtain ⟨m, h2, n, h3, h⟩ := h
        split at h
        · simp at h
        · simp at h; subst h
          exact ⟨⟨jdof, h1, by omega, by omega, m, h2, by omega⟩, h3⟩
    · rintro ⟨⟨jdof, h1, hl, hu, m, h2, hm⟩, h3⟩
      refine ⟨jdof, h1, ?_⟩
      rw [if_neg (by omega)]
      simp [h2, h3]
      omega

/-- Well-formedness of one constraint with respect to the rewritten status codes. -/
def CeqOK (ndof : Nat) (msc mp mm : List Int) (i : Nat) : Prop :=
  ∃ ip jp1 idof : Int, at1? mp i = some ip ∧ at1? mp ((i : Int) + 1) = some jp1 ∧ ip ≤ jp1 - 1 ∧
    at1? mm ip = some idof ∧ 1 ≤ idof ∧ idof ≤ ndof ∧ (∃ m, at1? msc idof = some m ∧ m ≤ 0) ∧
    ∀ k ∈ intRange (ip+1) jp1, ∃ jdof, at1? mm k = some jdof ∧ 1 ≤ jdof ∧ jdof ≤ ndof ∧
        ∃ m, at1? msc jdof = some m ∧ 1 ≤ m

/-- The slave DOF of constraint `i` in the tables. -/
def slave? (mp mm : List Int) (i : Nat) : Option Int := (at1? mp i).bind (at1? mm)

/-- Effect of the constraint loop on `meqn`. -/
def setSlaves (mp mm : List Int) (is : List Nat) (l : List Int) : List Int :=
  is.foldl (fun l i => l.set (((slave? mp mm i).getD 0) - 1).toNat (-(i : Int))) l

theorem ceqLoop_nerr_mono (ndof : Nat) (msc mp mm : List Int) (is : List Nat) (a q : CeqPass)
    (h : ceqLoop ndof msc mp mm is a = some q) : a.nerr ≤ q.nerr := by
  induction is generalizing a with
  | nil => simp [ceqLoop] at h; rw [h]
  | cons i is ih =>
    unfold ceqLoop at h
    simp only [Option.bind_eq_bind, Option.bind_eq_some_iff] at h
    obtain ⟨ip, _, jp1, _, idof, _, h⟩ := h
    split at h
    · have := ih _ h; simp at this; omega
    · simp only [Option.bind_eq_some_iff] at h
      obtain ⟨m, _, mq, hmq, h⟩ := h
      split at h
      · have := ih _ h; simp at this; omega
      · split at h
        · have := ih _ h; simpa using this
        · split at h
          · simp only [Option.bind_eq_some_iff] at h
            obtain ⟨n, _, h⟩ := h
            have := ih _ h; simp at this; omega
          · cases h; simp

theorem intRange_empty (a b : Int) (h : b ≤ a) : intRange a b = [] := by
  unfold intRange
  have : (b-a).toNat = 0 := by omega
  simp [this]

theorem ceqLoop_ok_iff (ndof : Nat) (msc mp mm : List Int) (is : List Nat) (a : CeqPass)
    (hl : a.meqn.length = ndof) (ha : a.nerr = 0) :
    (∃ q, ceqLoop ndof msc mp mm is a = some q ∧ q.nerr = 0) ↔ ∀ i ∈ is, CeqOK ndof msc mp mm i := by
  induction is generalizing a with
  | nil => simp [ceqLoop, ha]
  | cons i is ih =>
    rw [List.forall_mem_cons]
    constructor
    · rintro ⟨q, h, hq⟩
      unfold ceqLoop at h
      simp only [Option.bind_eq_bind, Option.bind_eq_some_iff] at h
      obtain ⟨ip, hip, jp1, hjp, idof, hid, h⟩ := h
      split at h
      · have := ceqLoop_nerr_mono _ _ _ _ _ _ _ h; simp at this; omega
      · rename_i hr
        simp only [Option.bind_eq_some_iff] at h
        obtain ⟨m, hm, mq, hmq, h⟩ := h
        obtain ⟨_, _, rfl⟩ := set1?_eq_some hmq
        split at h
        · have := ceqLoop_nerr_mono _ _ _ _ _ _ _ h; simp at this; omega
        · rename_i hm0
          split at h
          · rename_i hjip
            refine ⟨⟨ip, jp1, idof, hip, hjp, by omega, hid, by omega, by omega, ⟨m, hm, by omega⟩, ?_⟩, ?_⟩
            · rw [intRange_empty _ _ (by omega)]; simp
            · refine (ih _ ?_ ?_).1 ⟨q, h, hq⟩
              · simpa using hl
              · simpa using ha
          · split at h
            · simp only [Option.bind_eq_some_iff] at h
              obtain ⟨n, hn, h⟩ := h
              have hmono := ceqLoop_nerr_mono _ _ _ _ _ _ _ h
              simp at hmono
              have hn0 : n = 0 := by omega
              subst hn0
              have hmm := (masterErrs_zero _ _ _ _).1 hn
              have e : jp1 - 1 + 1 = jp1 := by omega
              rw [e] at hmm
              refine ⟨⟨ip, jp1, idof, hip, hjp, by omega, hid, by omega, by omega, ⟨m, hm, by omega⟩, hmm⟩, ?_⟩
              refine (ih _ ?_ ?_).1 ⟨q, h, hq⟩
              · simpa using hl
              · simpa using ha
            · cases h; simp at hq
    · rintro ⟨⟨ip, jp1, idof, hip, hjp, hle, hid, h1, h2, ⟨m, hm, hm0⟩, hmm⟩, his⟩
      unfold ceqLoop
      have hset : set1? a.meqn idof (-(i : Int)) = some (a.meqn.set (idof-1).toNat (-(i:Int))) := by
        unfold set1? set0?
        rw [if_pos]; omega
      simp only [hip, hjp, hid, hm, hset, Option.bind_eq_bind, Option.bind_some]
      rw [if_neg (by omega), if_neg (by omega)]
      split
      · refine (ih _ ?_ ?_).2 his
        · simpa using hl
        · simpa using ha
      · rw [if_pos (by omega)]
        have e : jp1 - 1 + 1 = jp1 := by omega
        rw [e, (masterErrs_zero _ _ _ _).2 hmm]
        simp only [Option.bind_some]
        refine (ih _ ?_ ?_).2 his
        · simpa using hl
        · simpa using ha

theorem ceqLoop_ok_meqn (ndof : Nat) (msc mp mm : List Int) (is : List Nat) (a q : CeqPass)
    (h : ceqLoop ndof msc mp mm is a = some q) (hq : q.nerr = 0) :
    q.meqn = setSlaves mp mm is a.meqn := by
  induction is generalizing a with
  | nil => simp [ceqLoop] at h; subst h; rfl
  | cons i is ih =>
    unfold ceqLoop at h
    simp only [Option.bind_eq_bind, Option.bind_eq_some_iff] at h
    obtain ⟨ip, hip, jp1, hjp, idof, hid, h⟩ := h
    have hs : slave? mp mm i = some idof := by simp [slave?, hip, hid]
    split at h
    · have := ceqLoop_nerr_mono _ _ _ _ _ _ _ h; simp at this; omega
    · simp only [Option.bind_eq_some_iff] at h
      obtain ⟨m, _, mq, hmq, h⟩ := h
      obtain ⟨_, _, rfl⟩ := set1?_eq_some hmq
      unfold setSlaves
      rw [List.foldl_cons, hs]
      simp only [Option.getD_some]
      split at h
      · have := ceqLoop_nerr_mono _ _ _ _ _ _ _ h; simp at this; omega
      · split at h
        · exact ih _ h
        · split at h
          · simp only [Option.bind_eq_some_iff] at h
            obtain ⟨n, _, h⟩ := h
            exact ih _ h
          · cases h; simp at hq

/-- Lookup in the slave table: the last constraint with that slave, or the old value. -/
theorem setSlaves_getElem? (mp mm : List Int) (is : List Nat) (l : List Int) (d : Nat)
    (hb : ∀ i ∈ is, ∃ x, slave? mp mm i = some x ∧ 1 ≤ x ∧ x ≤ l.length) (hd : d < l.length) :
    (∃ i is1 is2, is = is1 ++ i :: is2 ∧ slave? mp mm i = some ((d:Int)+1) ∧
      (∀ j ∈ is2, slave? mp mm j ≠ some ((d:Int)+1)) ∧ (setSlaves mp mm is l)[d]? = some (-(i:Int))) ∨
    ((∀ i ∈ is, slave? mp mm i ≠ some ((d:Int)+1)) ∧ (setSlaves mp mm is l)[d]? = l[d]?) := by
  induction is generalizing l with
  | nil => right; simp [setSlaves]
  | cons i is ih =>
    obtain ⟨x, hx, hx1, hx2⟩ := hb i List.mem_cons_self
    have hlen : (l.set (x-1).toNat (-(i:Int))).length = l.length := by simp
    have := ih (l.set (x-1).toNat (-(i:Int)))
      (fun j hj => by simpa using hb j (List.mem_cons_of_mem _ hj)) (by simpa using hd)
    have hfold : setSlaves mp mm (i::is) l = setSlaves mp mm is (l.set (x-1).toNat (-(i:Int))) := by
      simp [setSlaves, hx]
    rw [hfold]
    rcases this with ⟨j, is1, is2, rfl, h1, h2, h3⟩ | ⟨h1, h2⟩
    · left; exact ⟨j, i::is1, is2, by simp, h1, h2, h3⟩
    · by_cases hxd : x = (d:Int)+1
      · left
        refine ⟨i, [], is, by simp, by rw [hx, hxd], h1, ?_⟩
        rw [h2]
        have : (x-1).toNat = d := by omega
        rw [this, List.getElem?_set_self hd]
      · right
        constructor
        · intro j hj
          rcases List.mem_cons.1 hj with rfl | hj
          · rw [hx]; simpa using hxd
          · exact h1 j hj
        · rw [h2, List.getElem?_set_ne]; omega

/-- Decomposition of a successful run. -/
theorem init_eq_some {R : Type} {s s' : Sam R} {ok : Bool} (h : s.initSystemEquations = some (s', ok)) :
    s.msc.length = s.ndof ∧
    ∃ q, ceqLoop s.ndof (renum s.nspdof s.msc) s.mpmceq s.mmceq (List.range' 1 s.nceq)
          ⟨List.replicate s.ndof 0, 0, 0, s.msc.countP isBad⟩ = some q ∧
      ok = (q.nerr == 0) ∧
      s' = { s with msc := renum s.nspdof s.msc, nspdof := s.nspdof + s.msc.count 0,
                    neq := s.msc.count 1 + s.msc.count 2,
                    meqn := numberLoop (renum s.nspdof s.msc) q.meqn 1 (s.msc.count 1 + 1) } := by
  unfold initSystemEquations at h
  rw [statusPass_eq] at h
  split at h
  · cases h
  · rename_i hl
    simp only [Option.bind_eq_bind, Option.bind_eq_some_iff] at h
    obtain ⟨q, hq, h⟩ := h
    simp at h
    refine ⟨by omega, q, hq, ?_, ?_⟩
    · rw [← h.2]
    · rw [← h.1]

end IFEM.Sam
