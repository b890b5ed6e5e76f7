import Verif.Spec.FEModel
import Verif.Props.Numbering
import Verif.Lemmas.Assem
/-! The tables after equation numbering, in terms of the finite element model. -/
namespace IFEM.Spec
open IFEM.Sam IFEM.Props
variable {R : Type}

/-- What assembly and expansion need to know about the tables after `initSystemEquations`. -/
structure Ready (s : Sam R) (D : FEModel R) : Prop where
  nnod   : s.nnod = D.nndof.length
  nel    : s.nel = D.elems.length
  madof  : ∀ n, 1 ≤ n → n ≤ D.nndof.length + 1 → at1? s.madof n = some (D.firstDof n : Int)
  con    : ∀ (k : Nat) (c : Con R), D.cons[k]? = some c → ∃ ip : Int,
    at1? s.mpmceq (k+1) = some ip ∧ at1? s.mpmceq (k+2) = some (ip + 1 + c.masters.length) ∧
    at1? s.mmceq ip = some (c.slave : Int) ∧ at1? s.ttcc ip = some c.offset ∧
    ∀ (j : Nat) (m : Nat × R), c.masters[j]? = some m →
      at1? s.mmceq (ip + 1 + j) = some (m.1 : Int) ∧ at1? s.ttcc (ip + 1 + j) = some m.2
  elm    : ∀ (k : Nat) (e : List Int), D.elems[k]? = some e → ∃ ip : Int,
    at1? s.mpmnpc (k+1) = some ip ∧ at1? s.mpmnpc (k+2) = some (ip + e.length) ∧
    ∀ (j : Nat) (n : Int), e[j]? = some n → at1? s.mmnpc (ip + j) = some n
  len    : s.meqn.length = D.status.length
  free   : ∀ d, D.Free d → ∃ e, at1? s.meqn d = some e ∧ 1 ≤ e ∧ e ≤ s.neq
  inj    : ∀ d d' e, D.Free d → D.Free d' → at1? s.meqn d = some e → at1? s.meqn d' = some e → d = d'
  surj   : ∀ e : Int, 1 ≤ e → e ≤ s.neq → ∃ d, D.Free d ∧ at1? s.meqn d = some e
  slave  : ∀ (k : Nat) (c : Con R), D.cons[k]? = some c → at1? s.meqn c.slave = some (-((k:Int)+1))
  fixed  : ∀ d, D.Suppressed d → (∀ c ∈ D.cons, c.slave ≠ d) → at1? s.meqn d = some 0

theorem at1?_nat {α : Type _} (a : List α) (d : Nat) (h : 1 ≤ d) : at1? a (d : Int) = a[d-1]? := by
  unfold at1? at0?
  rw [if_pos (by omega)]
  congr 1; omega

theorem valid_constraintOK {s0 : Sam R} {D : FEModel R} (hp : Packs s0 D) (hv : D.Valid)
    (i : Nat) (h1 : 1 ≤ i) (h2 : i ≤ s0.nceq) : ConstraintOK s0.msc s0.mpmceq s0.mmceq i := by
  have hk : i - 1 < D.cons.length := by have := hp.nceq; omega
  obtain ⟨ip, a1, a2, a3, a4, a5⟩ := hp.con (i-1) _ (List.getElem?_eq_getElem hk)
  have hmem := List.getElem_mem hk
  generalize D.cons[i-1] = c at *
  have e1 : (((i-1 : Nat) : Int) + 1) = i := by omega
  have e2 : (((i-1 : Nat) : Int) + 2) = (i : Int) + 1 := by omega
  rw [e1] at a1
  rw [e2] at a2
  refine ⟨ip, ip + c.masters.length, c.slave, a1, by rw [a2]; congr 1; ring, by omega, a3, ?_, ?_⟩
  · obtain ⟨p1, p2⟩ := hv.slave c hmem
    rw [at1?_nat _ _ p1, hp.msc, p2]
  · intro k hk1 hk2
    have hj : (k - ip - 1).toNat < c.masters.length := by omega
    have := (a5 (k - ip - 1).toNat _ (List.getElem?_eq_getElem hj)).1
    refine ⟨_, by rw [← this]; congr 1; omega, ?_⟩
    obtain ⟨q1, q2⟩ := hv.master c hmem _ (List.getElem_mem hj)
    rw [at1?_nat _ _ q1, hp.msc]
    exact q2

/-- Tables of a valid model are accepted. -/
theorem init_accepts {s0 : Sam R} {D : FEModel R} (hp : Packs s0 D) (hv : D.Valid) :
    ∃ s, s0.initSystemEquations = some (s, true) := by
  rw [C02_accepts_iff_valid]
  refine ⟨by rw [hp.msc, hp.ndof], by rw [hp.msc]; exact hv.status, ?_⟩
  intro i h1 h2
  exact valid_constraintOK hp hv i h1 h2

theorem slaveOf_iff {s0 : Sam R} {D : FEModel R} (hp : Packs s0 D) (k : Nat) (c : Con R)
    (hc : D.cons[k]? = some c) (d : Int) :
    SlaveOf s0.mpmceq s0.mmceq (k+1) d ↔ d = c.slave := by
  obtain ⟨ip, a1, a2, a3, a4, a5⟩ := hp.con k c hc
  constructor
  · rintro ⟨jp, b1, b2⟩
    have : jp = ip := by
      have := b1.symm.trans (by simpa using a1)
      simpa using this
    subst this
    rw [a3] at b2; exact (Option.some.inj b2).symm
  · rintro rfl
    exact ⟨ip, by simpa using a1, a3⟩

theorem ready_of_init {s0 s : Sam R} {D : FEModel R} (hp : Packs s0 D) (hv : D.Valid)
    (h : s0.initSystemEquations = some (s, true)) : Ready s D := by
  have hn := C01_equation_numbering h
  have hown := C02_slave_owner h
  have hfree : ∀ d, D.Free d → IsFree s0.msc (d-1) := by
    rintro d ⟨_, h⟩; rw [← hp.msc] at h; exact h
  have hsame : s.nnod = s0.nnod ∧ s.nel = s0.nel ∧ s.madof = s0.madof ∧ s.mpmceq = s0.mpmceq ∧
      s.mmceq = s0.mmceq ∧ s.ttcc = s0.ttcc ∧ s.mpmnpc = s0.mpmnpc ∧ s.mmnpc = s0.mmnpc := by
    obtain ⟨-, q, -, -, rfl⟩ := init_eq_some h
    exact ⟨rfl, rfl, rfl, rfl, rfl, rfl, rfl, rfl⟩
  obtain ⟨t1, t2, t3, t4, t5, t6, t7, t8⟩ := hsame
  refine ⟨by rw [t1, hp.nnod], by rw [t2, hp.nel], by rw [t3]; exact hp.madof, by rw [t4, t5, t6]; exact hp.con,
    by rw [t7, t8]; exact hp.elm, by rw [hn.length, hp.msc], ?_, ?_, ?_, ?_, ?_⟩
  · rintro d hd
    have hlt : d - 1 < s.meqn.length := by
      rw [hn.length, hp.msc]
      rcases hd.2 with h | h <;> exact (List.getElem?_eq_some_iff.1 h).1
    refine ⟨s.meqn[d-1], by rw [at1?_nat _ _ hd.1, List.getElem?_eq_getElem hlt], ?_⟩
    exact hn.range (d-1) _ (hfree d hd) (List.getElem?_eq_getElem hlt)
  · intro d d' e hd hd' he he'
    rw [at1?_nat _ _ hd.1] at he
    rw [at1?_nat _ _ hd'.1] at he'
    have := hn.inj _ _ e (hfree d hd) (hfree d' hd') he he'
    have := hd.1; have := hd'.1; omega
  · intro e h1 h2
    obtain ⟨d, hd, he⟩ := hn.surj e h1 h2
    refine ⟨d+1, ⟨by omega, ?_⟩, ?_⟩
    · rw [← hp.msc]; exact hd
    · rw [at1?_nat _ _ (by omega)]; simpa using he
  · intro k c hc
    have hmem := List.mem_of_getElem? hc
    obtain ⟨p1, p2⟩ := hv.slave c hmem
    have hkl := (List.getElem?_eq_some_iff.1 hc).1
    rw [at1?_nat _ _ p1]
    have hd : ((c.slave - 1 : Nat) : Int) + 1 = c.slave := by omega
    rcases hown (c.slave - 1) (by rw [hp.msc]; exact p2) with ⟨i, hi1, hi2, hi3, hi4, hi5⟩ | ⟨hno, -⟩
    · rw [hi5]
      have hil : i - 1 < D.cons.length := by have := hp.nceq; omega
      rw [hd] at hi3
      have hi' : i = (i-1) + 1 := by omega
      rw [hi', slaveOf_iff hp (i-1) _ (List.getElem?_eq_getElem hil)] at hi3
      have heq : c.slave = D.cons[i-1].slave := by exact_mod_cast hi3
      have : i - 1 = k := by
        have hnd := hv.unique
        apply (List.Nodup.getElem_inj_iff hnd (i := i-1) (j := k) (hi := by simpa using hil) (hj := by simpa using hkl)).1
        have : D.cons[k] = c := by
          rw [List.getElem?_eq_getElem hkl] at hc; exact Option.some.inj hc
        simp [this, heq]
      congr 1; omega
    · exfalso
      apply hno (k+1) (by omega) (by have := hp.nceq; omega)
      rw [hd, slaveOf_iff hp k c hc]
  · intro d hd hno
    rw [at1?_nat _ _ hd.1]
    have hd1 : ((d - 1 : Nat) : Int) + 1 = d := by have := hd.1; omega
    rcases hown (d-1) (by rw [hp.msc]; exact hd.2) with ⟨i, hi1, hi2, hi3, hi4, hi5⟩ | ⟨_, h0⟩
    · exfalso
      have hil : i - 1 < D.cons.length := by have := hp.nceq; omega
      rw [hd1] at hi3
      have hi' : i = (i-1) + 1 := by omega
      rw [hi', slaveOf_iff hp (i-1) _ (List.getElem?_eq_getElem hil)] at hi3
      exact hno _ (List.getElem_mem hil) (by exact_mod_cast hi3.symm)
    · exact h0

end IFEM.Spec
