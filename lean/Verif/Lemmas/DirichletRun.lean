import Verif.Lemmas.DirichletConst
import Verif.Props.Assembly

/-!
# Lemmas: the tables after an update
-/
namespace IFEM.Dirichlet
open IFEM.Spec IFEM.Props Spec
variable {K : Type} [Field K] [LinearOrder K]

/-- The numbering of equations neither changes the constraint tables nor depends on the coefficients. -/
theorem init_form {s0 s : Sam K} {b : Bool} (h : s0.initSystemEquations = some (s, b)) :
    s.madof = s0.madof ∧ s.mpmceq = s0.mpmceq ∧ s.mmceq = s0.mmceq ∧ s.nceq = s0.nceq ∧ s.msc = Sam.renum s0.nspdof s0.msc ∧
    ∀ tt : List K, Sam.initSystemEquations ({ s0 with ttcc := tt } : Sam K) = some (({ s with ttcc := tt } : Sam K), b) := by
  unfold Sam.initSystemEquations at h ⊢
  by_cases hl : s0.msc.length ≠ s0.ndof
  · rw [if_pos hl] at h; simp at h
  · rw [if_neg hl] at h
    simp only [Option.bind_eq_bind] at h
    obtain ⟨q, h1, h2⟩ := Option.bind_eq_some_iff.1 h
    simp only [Option.pure_def, Option.some.injEq, Prod.mk.injEq] at h2
    obtain ⟨rfl, rfl⟩ := h2
    refine ⟨rfl, rfl, rfl, rfl, by rw [Sam.statusPass_eq], fun tt => ?_⟩
    dsimp only
    rw [if_neg hl]
    simp only [Option.bind_eq_bind]
    rw [h1]
    rfl

theorem renum_sign (l : List Int) : ∀ (k : Nat) (i : Nat) (c : Int), l[i]? = some c → (c = 1 → ∃ v, 0 < v ∧ (Sam.renum k l)[i]? = some v) ∧ (c = 0 → ∃ v, v ≤ 0 ∧ (Sam.renum k l)[i]? = some v) := by
  induction l with
  | nil => intro k i c h; simp at h
  | cons x l ih =>
    intro k i c h
    unfold Sam.renum
    cases i with
    | zero =>
      simp only [List.getElem?_cons_zero, Option.some.injEq] at h
      subst h
      by_cases h0 : x = 0
      · rw [if_pos h0]
        refine ⟨fun h => by omega, fun _ => ⟨-((k : Int) + 1), by omega, rfl⟩⟩
      · rw [if_neg h0]
        refine ⟨fun h => ⟨x, by omega, rfl⟩, fun h => absurd h h0⟩
    | succ i =>
      simp only [List.getElem?_cons_succ] at h
      by_cases h0 : x = 0
      · rw [if_pos h0, List.getElem?_cons_succ]; exact ih _ i c h
      · rw [if_neg h0, List.getElem?_cons_succ]; exact ih _ i c h

/-- Constraints of the same shape. -/
theorem same_mem {C C' : List (Con K)} (h : C'.map shape = C.map shape) {c : Con K} (hc : c ∈ C') : ∃ c0 ∈ C, c.slave = c0.slave ∧ c.masters = c0.masters := by
  have : shape c ∈ C.map shape := by rw [← h]; exact List.mem_map.2 ⟨c, hc, rfl⟩
  obtain ⟨c0, h0, e⟩ := List.mem_map.1 this
  exact ⟨c0, h0, (congrArg Prod.fst e).symm, (congrArg Prod.snd e).symm⟩

theorem same_tables {C C' : List (Con K)} (h : C'.map shape = C.map shape) : (C'.map fun c => 1 + c.masters.length) = (C.map fun c => 1 + c.masters.length) ∧ C'.flatMap mmB = C.flatMap mmB ∧
    C'.map Con.slave = C.map Con.slave ∧ C'.length = C.length := by
  have e1 : (fun c : Con K => 1 + c.masters.length) = (fun q : Nat × List (Nat × K) => 1 + q.2.length) ∘ shape := rfl
  have e2 : (mmB : Con K → List Int) = (fun q : Nat × List (Nat × K) => (q.1 : Int) :: q.2.map fun p => (p.1 : Int)) ∘ shape := rfl
  have e3 : (Con.slave : Con K → Nat) = Prod.fst ∘ shape := rfl
  refine ⟨?_, ?_, ?_, ?_⟩
  · rw [e1, ← List.map_map, h, List.map_map]
  · rw [List.flatMap_def, List.flatMap_def, e2, ← List.map_map, h, List.map_map]
  · rw [e3, ← List.map_map, h, List.map_map]
  · simpa using congrArg List.length h

/-- Everything about the tables of a model and of the models that differ in the constant terms. -/
structure Setting (P : List (SPatch K)) (nnod f : Nat) (msc st : List Int) (s0 s : Sam K) (is : List (Option Nat)) : Prop where
  build : buildTables nnod f P = some (s0, true)
  init  : s0.initSystemEquations = some (s, true)
  index : iceqsOf nnod f P = some is
  upd : ∀ P' : List (SPatch K), noConst P' = noConst P → ∀ (prev : Option (List K)) (C1 : List (Con K)), C1.map shape = (consOf (nodeCounts P nnod) msc (allMpcs P) f).map shape →
    updateConstraintEqs ({ s with ttcc := C1.flatMap ttB } : Sam K) f P' is prev = some (({ s with ttcc := ((consOf (nodeCounts P nnod) msc (allMpcs P') f).map (adj prev)).flatMap ttB } : Sam K), true)
  shp : ∀ P' : List (SPatch K), noConst P' = noConst P → (consOf (nodeCounts P nnod) msc (allMpcs P') f).map shape = (consOf (nodeCounts P nnod) msc (allMpcs P) f).map shape
  old : s.ttcc = (consOf (nodeCounts P nnod) msc (allMpcs P) f).flatMap ttB
  packs : ∀ C : List (Con K), C.map shape = (consOf (nodeCounts P nnod) msc (allMpcs P) f).map shape → Packs ({ s0 with ttcc := C.flatMap ttB } : Sam K) (⟨nodeCounts P nnod, st, C, elmsById (allElms P)⟩ : FEModel K)
  valid : ∀ C : List (Con K), C.map shape = (consOf (nodeCounts P nnod) msc (allMpcs P) f).map shape → FEModel.Valid (⟨nodeCounts P nnod, st, C, elmsById (allElms P)⟩ : FEModel K)
  adm : ∀ P' : List (SPatch K), noConst P' = noConst P → ∀ (scale : K) (u : Nat → K), FEModel.Admissible (⟨nodeCounts P nnod, st, consOf (nodeCounts P nnod) msc (allMpcs P') f, elmsById (allElms P)⟩ : FEModel K) scale u ↔
        (∀ k, IsDof P nnod k → FixedIn P k.1 k.2.toNat → u (dofIndex P k) = 0) ∧
        ∀ m ∈ allMpcs P', ¬ FixedIn P m.node m.dof.toNat → HoldsScaled scale m fun k => u (dofIndex P k)
  free : ∀ (C : List (Con K)) (d : Nat), FEModel.Free (⟨nodeCounts P nnod, st, C, elmsById (allElms P)⟩ : FEModel K) d ↔ ∃ k, OpenDof P nnod k ∧ dofIndex P k = d
  num : (nodeCounts P nnod).sum = st.length
  con : ∀ P' : List (SPatch K), noConst P' = noConst P → ∀ m ∈ allMpcs P', ¬ FixedIn P m.node m.dof.toNat → ∃ c ∈ consOf (nodeCounts P nnod) msc (allMpcs P') f, c.slave = dofIndex P (m.node, m.dof)
  con' : ∀ P' : List (SPatch K), noConst P' = noConst P → ∀ c ∈ consOf (nodeCounts P nnod) msc (allMpcs P') f, ∃ m ∈ allMpcs P', ¬ FixedIn P m.node m.dof.toNat ∧ c.slave = dofIndex P (m.node, m.dof)

theorem setting (P : List (SPatch K)) (nnod : Nat) (hg : GoodModel P nnod) : ∃ f0, ∀ f, f0 ≤ f → ∃ msc st s0 s is, Setting P nnod f msc st s0 s is := by
  obtain ⟨rank, hrank⟩ := hg.acyclic
  refine ⟨((allMpcs P).map fun m => rank m.key).foldr max 0 + 2, fun f hf => ?_⟩
  have hf' : ∀ m ∈ allMpcs P, rank m.key + 2 ≤ f := by
    intro m hm
    have := le_foldrMax ((allMpcs P).map fun m => rank m.key) _ (List.mem_map.mpr ⟨m, hm, rfl⟩)
    omega
  obtain ⟨msc, a, eN, hc, eC, c1, c2, c3, c5, hfx, hb, hp, hv, hsup, hadm⟩ := tables_model P nnod hg rank hrank f (by omega) hf'
  obtain ⟨s, hs⟩ := C05_tables_accepted hp hv
  obtain ⟨i1, i2, i3, i4, i5, i6⟩ := init_form hs
  -- models that differ in the constant terms
  have other : ∀ P' : List (SPatch K), noConst P' = noConst P → GoodModel P' nnod ∧ (∀ m ∈ allMpcs P', rank m.key + 2 ≤ f) ∧
      (∀ m ∈ allMpcs P', ∀ t ∈ m.master, IsSlave (allMpcs P') (t.node, t.dof) → rank (t.node, t.dof) < rank (m.node, m.dof)) ∧
      (consOf (nodeCounts P nnod) msc (allMpcs P') f).map shape = (consOf (nodeCounts P nnod) msc (allMpcs P) f).map shape ∧
      nodeCounts P' nnod = nodeCounts P nnod ∧ initNodeDofs nnod P' = initNodeDofs nnod P ∧ (∀ k, IsSlave (allMpcs P') k ↔ IsSlave (allMpcs P) k) ∧ (∀ n c, FixedIn P' n c ↔ FixedIn P n c) ∧
      (∀ k, IsDof P' nnod k ↔ IsDof P nnod k) ∧ (∀ k, dofIndex P' k = dofIndex P k) ∧ allElms P' = allElms P := by
    intro P' e
    have r1 := (nc_all P (fun m => rank m.key + 2 ≤ f) (fun m => Iff.rfl)).2 hf'
    have sl : ∀ k, IsSlave (allMpcs P') k ↔ IsSlave (allMpcs P) k := fun k => by rw [← nc_slave, e, nc_slave]
    have r2 := (nc_all P (fun m => ∀ t ∈ m.master, IsSlave (allMpcs P) (t.node, t.dof) → rank (t.node, t.dof) < rank (m.node, m.dof)) (fun m => Iff.rfl)).2 hrank
    refine ⟨(nc_good P' nnod).1 (by rw [e]; exact (nc_good P nnod).2 hg), (nc_all P' (fun m => rank m.key + 2 ≤ f) (fun m => Iff.rfl)).1 (by rw [e]; exact r1), ?_,
      by rw [← cons_shape, e, cons_shape], by rw [← nc_counts, e, nc_counts], by rw [← nc_init, e, nc_init], sl, fun n c => by rw [← nc_fixed, e, nc_fixed],
      fun k => by rw [← nc_isDof, e, nc_isDof], fun k => by rw [← nc_index, e, nc_index], by rw [← nc_elms, e, nc_elms]⟩
    simp only [sl]
    exact (nc_all P' (fun m => ∀ t ∈ m.master, IsSlave (allMpcs P) (t.node, t.dof) → rank (t.node, t.dof) < rank (m.node, m.dof)) (fun m => Iff.rfl)).1 (by rw [e]; exact r2)
  have ok' : ∀ P' : List (SPatch K), noConst P' = noConst P → CeqOk (nodeCounts P nnod) msc (allMpcs P') rank := by
    intro P' e
    obtain ⟨o1, o2, o3, o4, o5, o6, o7, o8, o9, o10, o11⟩ := other P' e
    obtain ⟨msc', a', eN', hc', -⟩ := tables_model P' nnod o1 rank o3 f (by omega) o2
    rw [o6, eN, o5] at eN'
    simp only [Option.some.injEq, Prod.mk.injEq, true_and, and_true] at eN'
    subst eN'
    rw [← o5]
    exact hc'
  have hcodes : ∀ P' : List (SPatch K), noConst P' = noConst P → Codes (nodeCounts P nnod) msc (allMpcs P') s.msc := by
    intro P' e k hk
    obtain ⟨-, -, -, -, -, -, o7, -⟩ := other P' e
    have hrg := dofIx_range hk
    have e5 : s.msc = Sam.renum 0 a.msc := i5
    rw [o7, e5]
    rcases c5 k hk with ⟨h1, h2, h3⟩ | ⟨h1, h2⟩
    · refine .inl ⟨h1, h2, ?_⟩
      rw [at1?_nat _ _ hrg.1] at h3 ⊢
      exact (renum_sign _ 0 _ _ h3).1 rfl
    · refine .inr ⟨h1, ?_⟩
      rw [at1?_nat _ _ hrg.1] at h2 ⊢
      exact (renum_sign _ 0 _ _ h2).2 rfl
  have hmm : s.mmceq = (consOf (nodeCounts P nnod) msc (allMpcs P) f).flatMap mmB := by rw [i3]; exact c2
  have hmp : s.mpmceq = accumulate 1 ((consOf (nodeCounts P nnod) msc (allMpcs P) f).map fun c => 1 + c.masters.length) := by rw [i2]; exact c1
  have hncq : s.nceq = (consOf (nodeCounts P nnod) msc (allMpcs P) f).length := by
    rw [i4]
    show a.mpmceq.length - 1 = _
    rw [c1, accumulate_length, List.length_map]; rfl
  refine ⟨msc, a.msc, _, s, idxs (nodeCounts P nnod) msc 0 (allMpcs P), ⟨hb, hs, ?_, ?_, fun P' e => (other P' e).2.2.2.1, ?_, ?_, ?_, ?_, ?_, ?_, ?_, ?_⟩⟩
  · unfold iceqsOf
    rw [eN]
    dsimp only
    exact iceqs_spec hc f (by omega) hf' (allMpcs P) (fun _ h => h) hc.uniq ⟨[1], [], [], msc, []⟩ [] (fun _ => False)
      ⟨rfl, rfl, rfl, hc.len, fun k h => h.elim, fun k _ _ => rfl, fun k _ h => h.elim, fun k _ h => h.elim⟩ (fun _ _ h => h)
  · intro P' e prev C1 hC1
    obtain ⟨o1, o2, o3, o4, o5, o6, o7, o8, o9, o10, o11⟩ := other P' e
    obtain ⟨g1, g2, g3, g4⟩ := same_tables hC1
    have hidx : idxs (nodeCounts P nnod) msc 0 (allMpcs P) = idxs (nodeCounts P nnod) msc 0 (allMpcs P') := by
      rw [← idxs_z, ← nc_mpcs, ← e, nc_mpcs, idxs_z]
    unfold updateConstraintEqs
    dsimp only
    by_cases h0 : s.nceq < 1
    · rw [if_pos h0]
      have hl : C1 = [] := List.length_eq_zero_iff.1 (by omega)
      have hl' : consOf (nodeCounts P nnod) msc (allMpcs P') f = [] := by
        have := (same_tables o4).2.2.2
        exact List.length_eq_zero_iff.1 (by omega)
      rw [hl, hl']; rfl
    · rw [if_neg h0, hidx]
      have ht : Tables (nodeCounts P nnod) msc (allMpcs P') { s with ttcc := C1.flatMap ttB } ([] ++ C1) :=
        ⟨i1, hcodes P' e, by rw [List.nil_append, g1]; exact hmp, by rw [List.nil_append, g2]; exact hmm⟩
      have := loop_spec (ok' P' e) f (by omega) o2 { s with ttcc := C1.flatMap ttB } prev (allMpcs P') (fun _ h => h) [] C1 ht (by rw [hC1, ← o4]; rfl)
      rw [List.nil_append, List.nil_append] at this
      have e2 : updateLoop { s with ttcc := C1.flatMap ttB } (P'.flatMap fun p => p.mpcs) f prev (C1.flatMap ttB) (P'.flatMap fun p => p.mpcs) (idxs (nodeCounts P nnod) msc 0 (allMpcs P')) = _ := this
      rw [e2]
      rfl
  · have := i6 a.ttcc
    have e2 : s.ttcc = a.ttcc := by
      have e3 : ({ s with ttcc := a.ttcc }, true) = (s, true) := Option.some.inj (this.symm.trans hs)
      exact (congrArg (fun q => q.1.ttcc) e3).symm
    rw [e2, c3]; rfl
  · intro C hC
    obtain ⟨g1, g2, g3, g4⟩ := same_tables hC
    refine ⟨hp.nnod, hp.ndof, hp.nel, ?_, hp.msc, hp.madof, ?_, hp.elm⟩
    · exact hp.nceq.trans g4.symm
    · intro k c hk
      have := pack_con C k c hk
      show ∃ ip : Int, at1? a.mpmceq (k+1) = some ip ∧ at1? a.mpmceq (k+2) = some (ip + 1 + c.masters.length) ∧
        at1? a.mmceq ip = some (c.slave : Int) ∧ at1? (C.flatMap ttB) ip = some c.offset ∧ ∀ (j : Nat) (m : Nat × K), c.masters[j]? = some m →
          at1? a.mmceq (ip + 1 + j) = some (m.1 : Int) ∧ at1? (C.flatMap ttB) (ip + 1 + j) = some m.2
      rw [c1, c2, ← g1]
      have e2 : (consOf (nodeCounts P nnod) msc (allMpcs P) f).flatMap (fun c => (c.slave : Int) :: c.masters.map fun q => (q.1 : Int)) = C.flatMap mmB := g2.symm
      rw [e2]
      exact this
  · intro C hC
    obtain ⟨g1, g2, g3, g4⟩ := same_tables hC
    refine ⟨hv.ndof, hv.status, ?_, ?_, ?_, hv.nodes⟩
    · intro c hcC
      obtain ⟨c0, h0, e1, e2⟩ := same_mem hC hcC
      have := hv.slave c0 h0
      rw [e1]; exact this
    · intro c hcC q hq
      obtain ⟨c0, h0, e1, e2⟩ := same_mem hC hcC
      exact hv.master c0 h0 q (by rw [← e2]; exact hq)
    · show (C.map Con.slave).Nodup
      rw [g3]; exact hv.unique
  · intro P' e scale u
    obtain ⟨o1, o2, o3, o4, o5, o6, o7, o8, o9, o10, o11⟩ := other P' e
    obtain ⟨msc', a', eN', hc', -, -, -, -, c5', -, -, -, hv', -, hadm'⟩ := tables_model P' nnod o1 rank o3 f (by omega) o2
    rw [o6, eN, o5] at eN'
    simp only [Option.some.injEq, Prod.mk.injEq, true_and, and_true] at eN'
    subst eN'
    have hst : a'.msc = a.msc := by
      have l1 : a.msc.length = (nodeCounts P nnod).sum := hv.ndof
      have l2 : a'.msc.length = (nodeCounts P nnod).sum := by rw [← o5]; exact hv'.ndof
      apply List.ext_getElem?
      intro i
      by_cases hi : i < (nodeCounts P nnod).sum
      · obtain ⟨k, hk, ek⟩ := dofIx_surj (nodeCounts P nnod) (i+1) (by omega) (by omega)
        have h1 := c5 k hk
        have h2 := c5' k (by rw [o5]; exact hk)
        rw [o5, o7] at h2
        rw [ek] at h1 h2
        rw [at1?_nat _ _ (by omega), at1?_nat _ _ (by omega), Nat.add_sub_cancel] at h1 h2
        rcases h1 with ⟨a1, a2, a3⟩ | ⟨a1, a2⟩ <;> rcases h2 with ⟨b1, b2, b3⟩ | ⟨b1, b2⟩
        · rw [a3, b3]
        · rcases b1 with b1 | b1
          · rw [a1] at b1; simp at b1
          · exact absurd b1 a2
        · rcases a1 with a1 | a1
          · rw [b1] at a1; simp at a1
          · exact absurd a1 b2
        · rw [a2, b2]
      · rw [List.getElem?_eq_none (by omega), List.getElem?_eq_none (by omega)]
    have em : modelOf P' nnod msc f a'.msc = ⟨nodeCounts P nnod, a.msc, consOf (nodeCounts P nnod) msc (allMpcs P') f, elmsById (allElms P)⟩ := by
      unfold modelOf; rw [hst, o5, o11]
    rw [← em, hadm' scale u]
    simp only [o8, o9, o10]
  · intro C d
    constructor
    swap
    · rintro ⟨k, ⟨h1, h2, h3⟩, rfl⟩
      have hrg := dofIx_range ((okDof_iff P nnod k).mpr h1)
      rw [dofIx_eq P nnod k h1] at hrg
      refine ⟨hrg.1, ?_⟩
      have hl : dofIndex P k - 1 < a.msc.length := by
        have : a.msc.length = (nodeCounts P nnod).sum := hv.ndof
        omega
      have hns : ¬ (modelOf P nnod msc f a.msc).Suppressed (dofIndex P k) := by
        rw [hsup k h1]; tauto
      have hst := hv.status (a.msc[dofIndex P k - 1]'hl) (List.getElem_mem hl)
      have he := List.getElem?_eq_getElem hl
      rcases hst with h | h
      · exact absurd ⟨hrg.1, by show a.msc[dofIndex P k - 1]? = some 0; rw [he, h]⟩ hns
      · show a.msc[dofIndex P k - 1]? = some 1 ∨ a.msc[dofIndex P k - 1]? = some 2
        rw [he]
        simpa using h
    intro hd
    have hlt : 1 ≤ d ∧ d ≤ (nodeCounts P nnod).sum := by
      refine ⟨hd.1, ?_⟩
      have h1 : d - 1 < a.msc.length := by
        rcases hd.2 with h | h
        · exact (List.getElem?_eq_some_iff.mp h).1
        · exact (List.getElem?_eq_some_iff.mp h).1
      have : a.msc.length = (nodeCounts P nnod).sum := hv.ndof
      have := hd.1
      omega
    obtain ⟨k, hk, rfl⟩ := dofIx_surj _ d hlt.1 hlt.2
    have hkd := (okDof_iff P nnod k).mp hk
    have hns : ¬ (modelOf P nnod msc f a.msc).Suppressed (dofIx (nodeCounts P nnod) k) := by
      rintro ⟨-, h⟩
      have h' : a.msc[dofIx (nodeCounts P nnod) k - 1]? = some 0 := h
      rcases hd.2 with h2 | h2
      · have h2' : a.msc[dofIx (nodeCounts P nnod) k - 1]? = some 1 := h2
        rw [h'] at h2'; simp at h2'
      · have h2' : a.msc[dofIx (nodeCounts P nnod) k - 1]? = some 2 := h2
        rw [h'] at h2'; simp at h2'
    rw [dofIx_eq P nnod k hkd] at hns ⊢
    rw [hsup k hkd] at hns
    push Not at hns
    exact ⟨k, ⟨hkd, hns.1, hns.2⟩, rfl⟩
  · exact hv.ndof.symm
  · intro P' e m hm hn
    obtain ⟨o1, o2, o3, o4, o5, o6, o7, o8, o9, o10, o11⟩ := other P' e
    have hd := (o9 _).1 (o1.slaves m hm)
    refine ⟨conOf (nodeCounts P nnod) msc (allMpcs P') f m, ?_, dofIx_eq P nnod _ hd⟩
    refine List.mem_map.mpr ⟨m, List.mem_filter.mpr ⟨hm, ?_⟩, rfl⟩
    exact decide_eq_true ((hfx m.key hd).2.mpr hn)
  · intro P' e c hcm
    obtain ⟨o1, o2, o3, o4, o5, o6, o7, o8, o9, o10, o11⟩ := other P' e
    obtain ⟨m, hm, rfl⟩ := List.mem_map.mp hcm
    obtain ⟨hm1, hm2⟩ := List.mem_filter.mp hm
    have hd := (o9 _).1 (o1.slaves m hm1)
    exact ⟨m, hm1, (hfx m.key hd).2.mp (by simpa using hm2), dofIx_eq P nnod _ hd⟩

end IFEM.Dirichlet
