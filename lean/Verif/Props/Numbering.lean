import Verif.Spec.Numbering
import Verif.Lemmas.SamEq
/-!
# C01, C02, C03: equation numbering, constraint validation, reaction-force indices
-/
namespace IFEM.Props
open IFEM.Spec IFEM.Sam
variable {R : Type}

/-- **C01**. Whatever the status codes and constraint tables are, if
`SAM::initSystemEquations` completes (with either verdict), it has numbered the free DOFs bijectively
by `1..neq`, status-1 DOFs before status-2 DOFs and in DOF order, and no other DOF has a
positive equation number. -/
theorem C01_equation_numbering {s s' : Sam R} {ok : Bool}
    (h : s.initSystemEquations = some (s', ok)) :
    EquationNumbering s.msc s'.meqn s'.neq := by
  obtain ⟨hl, q, hq, -, rfl⟩ := init_eq_some h
  have hqlen : q.meqn.length = s.msc.length := by
    have := ceqLoop_meqn_length _ _ _ _ _ _ _ hq
    simpa [hl] using this
  have hqneg := ceqLoop_meqn_nonpos _ _ _ _ _ _ _
    (fun i hi => by simp at hi; omega) hq (by simp)
  -- closed form of the equation number
  have hform : ∀ d c, s.msc[d]? = some c →
      ∃ e, q.meqn[d]? = some e ∧ e ≤ 0 ∧
      (numberLoop (renum s.nspdof s.msc) q.meqn 1 (s.msc.count 1 + 1))[d]? =
        some (if c = 1 then ((1 + (s.msc.take d).count 1 : Nat) : Int)
          else if c = 2 then ((s.msc.count 1 + 1 + (s.msc.take d).count 2 : Nat) : Int) else e) := by
    intro d c hc
    have hd : d < s.msc.length := (List.getElem?_eq_some_iff.1 hc).1
    have hdq : d < q.meqn.length := by omega
    refine ⟨q.meqn[d], List.getElem?_eq_getElem hdq, hqneg _ (List.getElem_mem hdq), ?_⟩
    rw [numberLoop_getElem? _ _ _ _ _ (by simp [hqlen]), renum_getElem?, hc,
      List.getElem?_eq_getElem hdq]
    simp only [Option.map_some]
    rw [renum_take_count1 _ _ _ 1 (by decide), renum_take_count1 _ _ _ 2 (by decide)]
    by_cases h0 : c = 0
    · subst h0
      rw [if_pos rfl, if_neg (by omega), if_neg (by omega)]; simp
    · rw [if_neg h0]
  -- consequences
  have hf1 : ∀ d e, s.msc[d]? = some 1 →
      (numberLoop (renum s.nspdof s.msc) q.meqn 1 (s.msc.count 1 + 1))[d]? = some e →
      e = ((1 + (s.msc.take d).count 1 : Nat) : Int) := by
    intro d e hd he
    obtain ⟨_, _, _, h3⟩ := hform d 1 hd
    rw [h3] at he; simp at he; rw [← he]; simp
  have hf2 : ∀ d e, s.msc[d]? = some 2 →
      (numberLoop (renum s.nspdof s.msc) q.meqn 1 (s.msc.count 1 + 1))[d]? = some e →
      e = ((s.msc.count 1 + 1 + (s.msc.take d).count 2 : Nat) : Int) := by
    intro d e hd he
    obtain ⟨_, _, _, h3⟩ := hform d 2 hd
    rw [h3] at he; simp at he; rw [← he]; push_cast; rfl
  refine ⟨?_, ?_, ?_, ?_, ?_, ?_, ?_⟩
  · rw [numberLoop_length _ _ _ _ (by simp [hqlen]), hqlen]
  · rintro d e (hd | hd) he
    · rw [hf1 d e hd he]
      have := count_take_lt_count hd
      constructor <;> push_cast <;> omega
    · rw [hf2 d e hd he]
      have := count_take_lt_count hd
      constructor <;> push_cast <;> omega
  · rintro d d' e (hd | hd) (hd' | hd') he he'
    · rw [hf1 d e hd he] at he'
      have := hf1 d' _ hd' he'
      rcases Nat.lt_trichotomy d d' with hlt | heq | hlt
      · have := count_take_lt hd hlt; omega
      · exact heq
      · have := count_take_lt hd' hlt; omega
    · rw [hf1 d e hd he] at he'
      have := hf2 d' _ hd' he'
      have := count_take_lt_count hd; omega
    · rw [hf2 d e hd he] at he'
      have := hf1 d' _ hd' he'
      have := count_take_lt_count hd'; omega
    · rw [hf2 d e hd he] at he'
      have := hf2 d' _ hd' he'
      rcases Nat.lt_trichotomy d d' with hlt | heq | hlt
      · have := count_take_lt hd hlt; omega
      · exact heq
      · have := count_take_lt hd' hlt; omega
  · intro e h1 h2
    simp only at h2
    push_cast at h2
    by_cases hc : e ≤ s.msc.count 1
    · obtain ⟨d, hd, hk⟩ := exists_kth 1 s.msc (e-1).toNat (by omega)
      refine ⟨d, Or.inl hd, ?_⟩
      obtain ⟨_, _, _, h3⟩ := hform d 1 hd
      rw [h3]; simp [hk]; omega
    · obtain ⟨d, hd, hk⟩ := exists_kth 2 s.msc (e-1-s.msc.count 1).toNat (by omega)
      refine ⟨d, Or.inr hd, ?_⟩
      obtain ⟨_, _, _, h3⟩ := hform d 2 hd
      rw [h3]; simp [hk]; omega
  · intro d d' e e' hd hd' he he'
    rw [hf1 d e hd he, hf2 d' e' hd' he']
    have := count_take_lt_count hd
    push_cast; omega
  · rintro d d' e e' hlt (hd | hd) hd' he he'
    · rw [hd] at hd'
      rw [hf1 d e hd he, hf1 d' e' hd' he']
      have := count_take_lt hd hlt
      push_cast; omega
    · rw [hd] at hd'
      rw [hf2 d e hd he, hf2 d' e' hd' he']
      have := count_take_lt hd hlt
      push_cast; omega
  · intro d e hn he
    have hd : d < s.msc.length := by
      have := (List.getElem?_eq_some_iff.1 he).1
      rw [numberLoop_length _ _ _ _ (by simp [hqlen])] at this
      omega
    obtain ⟨e', _, h2, h3⟩ := hform d s.msc[d] (List.getElem?_eq_getElem hd)
    simp only at he
    rw [h3] at he
    have n1 : s.msc[d] ≠ 1 := fun h => hn (Or.inl (by rw [List.getElem?_eq_getElem hd, h]))
    have n2 : s.msc[d] ≠ 2 := fun h => hn (Or.inr (by rw [List.getElem?_eq_getElem hd, h]))
    rw [if_neg n1, if_neg n2] at he
    cases he; exact h2

/-- A concrete model: 5 DOFs, one of them fixed, one a slave of two masters. -/
def exampleSam : Sam ℤ :=
  { ndof := 5, nceq := 1, msc := [2, 0, 1, 0, 1], mpmceq := [1, 4], mmceq := [4, 1, 3], ttcc := [7, 2, 3] }

/-- Non-vacuity of C01/C02/C03. -/
example : ∃ s', exampleSam.initSystemEquations = some (s', true) ∧
    s'.meqn = [3, 0, 1, -1, 2] ∧ s'.neq = 3 ∧ s'.msc = [2, -1, 1, -2, 1] ∧ s'.nspdof = 2 := by
  refine ⟨_, rfl, ?_⟩; decide

/-- **C02** (acceptance). `initSystemEquations` succeeds exactly on valid tables: all status codes
are 0, 1 or 2, and every constraint has an existing suppressed slave and existing free masters.
(Anything else: it returns `false`, or a table is read outside its bounds.) -/
theorem C02_accepts_iff_valid (s : Sam R) :
    (∃ s', s.initSystemEquations = some (s', true)) ↔
      s.msc.length = s.ndof ∧ (∀ c ∈ s.msc, c = 0 ∨ c = 1 ∨ c = 2) ∧
      ∀ i, 1 ≤ i → i ≤ s.nceq → ConstraintOK s.msc s.mpmceq s.mmceq i := by
  have hbad : s.msc.countP isBad = 0 ↔ ∀ c ∈ s.msc, c = 0 ∨ c = 1 ∨ c = 2 := by
    rw [List.countP_eq_zero]
    refine forall_congr' fun c => forall_congr' fun _ => ?_
    simp [isBad]; omega
  have key : ∀ d : Int, ∀ c, at1? s.msc d = some c →
      at1? (renum s.nspdof s.msc) d = some (if c = 0 then -((s.nspdof : Int) + (s.msc.take (d-1).toNat).count 0 + 1) else c) := by
    intro d c hc
    obtain ⟨h1, _, h3⟩ := at0?_eq_some hc
    unfold at1? at0?
    rw [if_pos h1, renum_getElem?, h3]; simp
  have hex : ∀ d : Int, 1 ≤ d → d ≤ s.msc.length → ∃ c, at1? s.msc d = some c := by
    intro d h1 h2
    obtain ⟨c, hc, _⟩ := at0?_some_of_bounds (a := s.msc) (i := d-1) (by omega) (by omega)
    exact ⟨c, hc⟩
  have hbnd : ∀ (d : Int) c, at1? s.msc d = some c → 1 ≤ d ∧ d ≤ s.msc.length := by
    intro d c hc
    exact at1?_isSome_iff.1 (by rw [hc]; rfl)
  have conv : s.msc.length = s.ndof → (∀ c ∈ s.msc, c = 0 ∨ c = 1 ∨ c = 2) → ∀ i,
      CeqOK s.ndof (renum s.nspdof s.msc) s.mpmceq s.mmceq i ↔ ConstraintOK s.msc s.mpmceq s.mmceq i := by
    intro hl hv i
    have hvat : ∀ (d : Int) c, at1? s.msc d = some c → c = 0 ∨ c = 1 ∨ c = 2 := by
      intro d c hc
      exact hv c (List.mem_of_getElem? (at0?_eq_some hc).2.2)
    constructor
    · rintro ⟨ip, jp1, idof, h1, h2, h3, h4, h5, h6, ⟨m, h7, h8⟩, h9⟩
      refine ⟨ip, jp1-1, idof, h1, by rw [h2]; congr 1; omega, h3, h4, ?_, ?_⟩
      · obtain ⟨c, hc⟩ := hex idof h5 (by omega)
        rw [key _ _ hc] at h7
        rcases hvat _ _ hc with rfl | rfl | rfl
        · exact hc
        · simp at h7; omega
        · simp at h7; omega
      · intro k hk1 hk2
        obtain ⟨jdof, g1, g2, g3, m', g4, g5⟩ := h9 k (mem_intRange.2 ⟨by omega, by omega⟩)
        obtain ⟨c, hc⟩ := hex jdof g2 (by omega)
        rw [key _ _ hc] at g4
        refine ⟨jdof, g1, ?_⟩
        rcases hvat _ _ hc with rfl | rfl | rfl
        · simp at g4; omega
        · exact Or.inl hc
        · exact Or.inr hc
    · rintro ⟨ip, jp, idof, h1, h2, h3, h4, h5, h9⟩
      refine ⟨ip, jp+1, idof, h1, h2, by omega, h4, (hbnd _ _ h5).1, ?_, ⟨_, key _ _ h5, ?_⟩, ?_⟩
      · have := (hbnd _ _ h5).2; omega
      · simp; omega
      · intro k hk
        rw [mem_intRange] at hk
        obtain ⟨jdof, g1, g2⟩ := h9 k (by omega) (by omega)
        rcases g2 with g2 | g2
        · refine ⟨jdof, g1, (hbnd _ _ g2).1, ?_, _, key _ _ g2, by simp⟩
          have := (hbnd _ _ g2).2; omega
        · refine ⟨jdof, g1, (hbnd _ _ g2).1, ?_, _, key _ _ g2, by simp⟩
          have := (hbnd _ _ g2).2; omega
  constructor
  · rintro ⟨s', h⟩
    obtain ⟨hl, q, hq, hok, rfl⟩ := init_eq_some h
    have hq0 : q.nerr = 0 := by simpa using hok.symm
    have hb0 : s.msc.countP isBad = 0 := by
      have := ceqLoop_nerr_mono _ _ _ _ _ _ _ hq
      simp only at this; omega
    have hv := hbad.1 hb0
    refine ⟨hl, hv, fun i h1 h2 => ?_⟩
    have := (ceqLoop_ok_iff _ _ _ _ _ _ (by simp) hb0).1 ⟨q, hq, hq0⟩
    exact (conv hl hv i).1 (this i (by simp; omega))
  · rintro ⟨hl, hv, hc⟩
    have hb0 := hbad.2 hv
    obtain ⟨q, hq, hq0⟩ := (ceqLoop_ok_iff s.ndof (renum s.nspdof s.msc) s.mpmceq s.mmceq
      (List.range' 1 s.nceq) ⟨List.replicate s.ndof 0, 0, 0, s.msc.countP isBad⟩ (by simp) hb0).2
      (fun i hi => (conv hl hv i).2 (hc i (by simp at hi; omega) (by simp at hi; omega)))
    unfold initSystemEquations
    rw [statusPass_eq, if_neg (by simpa using hl)]
    simp only at hq ⊢
    rw [hq]
    exact ⟨_, by simp [hq0]; rfl⟩

/-- **C02** (ownership). After a successful `initSystemEquations`, a suppressed DOF `d` has equation
code `-i` exactly when constraint `i` is the last one with slave `d`, and code 0 exactly when no
constraint has slave `d`. -/
theorem C02_slave_owner {s s' : Sam R} (h : s.initSystemEquations = some (s', true))
    (d : Nat) (hd : s.msc[d]? = some 0) :
    (∃ i, 1 ≤ i ∧ i ≤ s.nceq ∧ SlaveOf s.mpmceq s.mmceq i (d+1) ∧
        (∀ j, i < j → j ≤ s.nceq → ¬ SlaveOf s.mpmceq s.mmceq j (d+1)) ∧
        s'.meqn[d]? = some (-(i:Int))) ∨
    ((∀ i, 1 ≤ i → i ≤ s.nceq → ¬ SlaveOf s.mpmceq s.mmceq i (d+1)) ∧ s'.meqn[d]? = some 0) := by
  have hacc := (C02_accepts_iff_valid s).1 ⟨s', h⟩
  obtain ⟨hl, q, hq, hok, rfl⟩ := init_eq_some h
  have hq0 : q.nerr = 0 := by simpa using hok.symm
  have hqm := ceqLoop_ok_meqn _ _ _ _ _ _ _ hq hq0
  simp only at hqm
  have hdl : d < s.msc.length := (List.getElem?_eq_some_iff.1 hd).1
  have hso : ∀ i (x : Int), SlaveOf s.mpmceq s.mmceq i x ↔ slave? s.mpmceq s.mmceq i = some x := by
    intro i x
    simp [SlaveOf, slave?, Option.bind_eq_some_iff]
  have hqlen : q.meqn.length = s.msc.length := by
    have := ceqLoop_meqn_length _ _ _ _ _ _ _ hq
    simpa [hl] using this
  have hval : (numberLoop (renum s.nspdof s.msc) q.meqn 1 (s.msc.count 1 + 1))[d]? = q.meqn[d]? := by
    rw [numberLoop_getElem? _ _ _ _ _ (by simp [hqlen]), renum_getElem?, hd,
      List.getElem?_eq_getElem (by omega)]
    simp only [Option.map_some, if_pos]
    rw [if_neg (by omega), if_neg (by omega)]
  simp only [hval]
  rw [hqm]
  have := setSlaves_getElem? s.mpmceq s.mmceq (List.range' 1 s.nceq) (List.replicate s.ndof 0) d
    (by
      intro i hi
      obtain ⟨ip, jp, idof, h1, _, _, h4, h5, _⟩ := hacc.2.2 i (by simp at hi; omega) (by simp at hi; omega)
      have hb := at1?_isSome_iff.1 (show (at1? s.msc idof).isSome by rw [h5]; rfl)
      exact ⟨idof, by simp [slave?, h1, h4], hb.1, by simp; omega⟩)
    (by simp; omega)
  rcases this with ⟨i, is1, is2, h1, h2, h3, h4⟩ | ⟨h1, h2⟩
  · left
    have hi : i ∈ List.range' 1 s.nceq := by rw [h1]; simp
    refine ⟨i, by simp at hi; omega, by simp at hi; omega, (hso _ _).2 h2, ?_, h4⟩
    intro j hij hj hs
    rw [hso] at hs
    have hmem : j ∈ List.range' 1 s.nceq := by simp; omega
    rw [h1] at hmem
    rcases List.mem_append.1 hmem with hm | hm
    · have hp : (List.range' 1 s.nceq).Pairwise (· < ·) := List.pairwise_lt_range'
      rw [h1] at hp
      have := (List.pairwise_append.1 hp).2.2 j hm i (by simp)
      omega
    · rcases List.mem_cons.1 hm with hm | hm
      · omega
      · exact h3 j hm hs
  · right
    refine ⟨fun i g1 g2 hs => h1 i (by simp; omega) ((hso _ _).1 hs), ?_⟩
    rw [h2, List.getElem?_replicate, if_pos (by omega)]

/-- **C03**. The suppressed DOFs own pairwise distinct reaction-force indices which cover exactly
`1..nspdof` when `nspdof` was zero before the call (a freshly constructed object), and free DOFs own none.
`msc` holds minus the reaction-force index of a suppressed DOF. -/
theorem C03_reaction_indices {s s' : Sam R} {ok : Bool}
    (h : s.initSystemEquations = some (s', ok)) (hfresh : s.nspdof = 0) :
    s'.nspdof = s.msc.count 0 ∧ s'.msc.length = s.msc.length ∧
    (∀ d : Nat, s.msc[d]? = some 0 → ∃ r : Nat, 1 ≤ r ∧ r ≤ s'.nspdof ∧ s'.msc[d]? = some (-(r:Int))) ∧
    (∀ r : Nat, 1 ≤ r → r ≤ s'.nspdof → ∃ d : Nat, s.msc[d]? = some 0 ∧ s'.msc[d]? = some (-(r:Int))) ∧
    (∀ (d d' : Nat) (r : Int), s.msc[d]? = some 0 → s.msc[d']? = some 0 →
        s'.msc[d]? = some r → s'.msc[d']? = some r → d = d') ∧
    (∀ d : Nat, s.msc[d]? ≠ some 0 → s'.msc[d]? = s.msc[d]?) := by
  obtain ⟨hl, q, hq, -, rfl⟩ := init_eq_some h
  simp only [hfresh]
  have hf : ∀ d : Nat, s.msc[d]? = some 0 → (renum 0 s.msc)[d]? = some (-(((s.msc.take d).count 0 + 1 : Nat) : Int)) := by
    intro d hd
    rw [renum_getElem?, hd]; simp
  refine ⟨by omega, by simp, ?_, ?_, ?_, ?_⟩
  · intro d hd
    exact ⟨_, by omega, by have := count_take_lt_count hd; omega, hf d hd⟩
  · intro r h1 h2
    obtain ⟨d, hd, hk⟩ := exists_kth 0 s.msc (r-1) (by omega)
    refine ⟨d, hd, ?_⟩
    rw [hf d hd, hk]; congr 2; omega
  · intro d d' r hd hd' hr hr'
    rw [hf d hd] at hr; rw [hf d' hd', ← hr] at hr'
    simp only [Option.some.injEq] at hr'
    rcases Nat.lt_trichotomy d d' with hlt | heq | hlt
    · have := count_take_lt hd hlt; omega
    · exact heq
    · have := count_take_lt hd' hlt; omega
  · intro d hd
    rw [renum_getElem?]
    cases hc : s.msc[d]? with
    | none => rfl
    | some c =>
      rw [hc] at hd
      have : c ≠ 0 := fun h => hd (by rw [h])
      simp [this]

/-- **C03, finding F24**. `nspdof` is not reset when the tables are rebuilt (`SAMpatch::merge` calls
`initSystemEquations` again, src/ASM/SAMpatch.C:431-500): with a non-zero previous `nspdof` the indices
are no longer dense, slot 1 belongs to no DOF. -/
theorem C03_not_dense_after_rebuild :
    ∃ (s s' : Sam ℤ), s.initSystemEquations = some (s', true) ∧ s.nspdof = 1 ∧ s'.nspdof = 2 ∧
      s.msc.count 0 = 1 ∧ s'.msc = [1, -2] :=
  ⟨{ ndof := 2, nspdof := 1, msc := [1, 0], mpmceq := [1] }, _, rfl, by decide⟩

end IFEM.Props
