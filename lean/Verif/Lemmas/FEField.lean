import Verif.Lemmas.FELookup
import Mathlib.Algebra.BigOperators.Intervals
import Mathlib.Order.Interval.Finset.Defs
import Mathlib.Data.Int.Interval
/-! DOF fields in terms of equation codes. -/
namespace IFEM.Spec
open IFEM.Sam
variable {R : Type} [CommRing R]

/-- The constraint terms of a (negative) equation code. -/
def tmOf (s : Sam R) (D : FEModel R) (e : Int) : List (Int × R) :=
  match D.cons[(-e-1).toNat]? with
  | some c => c.masters.map fun m => (eqv s m.1, m.2)
  | none => []

/-- The constant term of a (negative) equation code. -/
def gOf (D : FEModel R) (e : Int) : R :=
  match D.cons[(-e-1).toNat]? with
  | some c => c.offset
  | none => 0

/-- Value of the admissible field with free values `x` at a DOF with equation code `e`. -/
def codeVal (s : Sam R) (D : FEModel R) (scale : R) (x : Int → R) (e : Int) : R :=
  if e > 0 then x e
  else if -e > 0 then scale * gOf D e + ((tmOf s D e).map fun t => t.2 * x t.1).sum
  else 0

omit [CommRing R] in
theorem dof_cases (D : FEModel R) (hv : D.Valid) {d : Nat} (h1 : 1 ≤ d) (h2 : d ≤ D.status.length) :
    D.Free d ∨ (∃ (k : Nat) (c : Con R), D.cons[k]? = some c ∧ c.slave = d) ∨
      (D.Suppressed d ∧ ∀ c ∈ D.cons, c.slave ≠ d) := by
  have hlt : d - 1 < D.status.length := by omega
  have hst := hv.status _ (List.getElem_mem hlt)
  have hg := List.getElem?_eq_getElem hlt
  rcases hst with h | h | h
  · right
    by_cases hex : ∃ c ∈ D.cons, c.slave = d
    · left
      obtain ⟨c, hc, hcd⟩ := hex
      obtain ⟨k, hk⟩ := List.mem_iff_getElem?.1 hc
      exact ⟨k, c, hk, hcd⟩
    · right
      refine ⟨⟨h1, by rw [hg, h]⟩, ?_⟩
      intro c hc hcd; exact hex ⟨c, hc, hcd⟩
  · left; exact ⟨h1, Or.inl (by rw [hg, h])⟩
  · left; exact ⟨h1, Or.inr (by rw [hg, h])⟩

omit [CommRing R] in
theorem elmDofs_range {D : FEModel R} (hv : D.Valid) {e : List Int} (he : e ∈ D.elems) {d : Nat}
    (hd : some d ∈ D.elmDofs e) : 1 ≤ d ∧ d ≤ D.status.length := by
  unfold FEModel.elmDofs at hd
  obtain ⟨n, hn, hd⟩ := List.mem_flatMap.1 hd
  obtain ⟨q1, q2⟩ := hv.nodes e he n hn
  by_cases hp : n > 0
  · rw [if_pos hp] at hd
    obtain ⟨d', hd', h⟩ := List.mem_map.1 hd
    cases h
    unfold FEModel.nodeDofs at hd'
    rw [List.mem_range'_1] at hd'
    have h1 : 1 ≤ D.firstDof n.toNat := by unfold FEModel.firstDof; omega
    have h2 := firstDof_le D (n.toNat + 1)
    rw [firstDof_succ D (by omega) (by omega)] at h2
    rw [hv.ndof]
    omega
  · rw [if_neg hp] at hd
    split at hd
    · have := List.eq_of_mem_replicate hd; cases this
    · simp at hd

variable {s : Sam R} {D : FEModel R}

omit [CommRing R] in
theorem eqv_slave (hr : Ready s D) {k : Nat} {c : Con R} (hc : D.cons[k]? = some c) :
    eqv s c.slave = -((k:Int)+1) := by
  unfold eqv; rw [hr.slave k c hc]; rfl

omit [CommRing R] in
theorem eqv_fixed (hr : Ready s D) {d : Nat} (h : D.Suppressed d) (h2 : ∀ c ∈ D.cons, c.slave ≠ d) :
    eqv s d = 0 := by
  unfold eqv; rw [hr.fixed d h h2]; rfl

omit [CommRing R] in
theorem at1?_eqv (hr : Ready s D) {d : Nat} (h1 : 1 ≤ d) (h2 : d ≤ D.status.length) :
    at1? s.meqn d = some (eqv s d) := by
  unfold eqv
  rw [at1?_nat _ _ h1]
  have : d - 1 < s.meqn.length := by rw [hr.len]; omega
  rw [List.getElem?_eq_getElem this]; rfl

omit [CommRing R] in
theorem free_range {d : Nat} (h : D.Free d) : 1 ≤ d ∧ d ≤ D.status.length := by
  refine ⟨h.1, ?_⟩
  have h1 := h.1
  rcases h.2 with h | h <;> · have := (List.getElem?_eq_some_iff.1 h).1; omega

theorem code_index (k : Nat) : (- -((k:Int)+1) - 1).toNat = k := by omega

/-- The only negative codes are those of constraints. -/
theorem neg_code (hr : Ready s D) (hv : D.Valid) {o : Option Nat}
    (ho : ∀ d, o = some d → 1 ≤ d ∧ d ≤ D.status.length) (h : eqvO s o < 0) :
    ∃ (k : Nat) (c : Con R), D.cons[k]? = some c ∧ o = some c.slave ∧ eqvO s o = -((k:Int)+1) := by
  cases o with
  | none => simp [eqvO] at h
  | some d =>
    obtain ⟨h1, h2⟩ := ho d rfl
    simp only [eqvO] at *
    rcases dof_cases D hv h1 h2 with hf | ⟨k, c, hc, rfl⟩ | ⟨hs, hn⟩
    · have := (eqv_free hr hf).2.1; omega
    · exact ⟨k, c, hc, rfl, eqv_slave hr hc⟩
    · rw [eqv_fixed hr hs hn] at h; omega

/-- An admissible field is determined by its values at the free DOFs. -/
theorem admissible_val (hr : Ready s D) (hv : D.Valid) {scale : R} {u : Nat → R} {x : Int → R}
    (ha : D.Admissible scale u) (hx : ∀ d, D.Free d → u d = x (eqv s d))
    {d : Nat} (h1 : 1 ≤ d) (h2 : d ≤ D.status.length) : u d = codeVal s D scale x (eqv s d) := by
  unfold codeVal
  rcases dof_cases D hv h1 h2 with hf | ⟨k, c, hc, rfl⟩ | ⟨hs, hn⟩
  · have := (eqv_free hr hf).2.1
    rw [if_pos (by omega), hx d hf]
  · rw [eqv_slave hr hc, if_neg (by omega), if_pos (by omega), ha.con c (List.mem_of_getElem? hc)]
    unfold gOf tmOf
    rw [code_index, hc]
    simp only [List.map_map]
    congr 2
    apply List.map_congr_left
    intro m hm
    simp only [Function.comp]
    rw [hx _ (hv.master c (List.mem_of_getElem? hc) m hm)]
  · rw [eqv_fixed hr hs hn, ha.fixed d hs hn]; simp

/-- The field given by equation codes is admissible. -/
theorem codeVal_admissible (hr : Ready s D) (hv : D.Valid) (scale : R) (x : Int → R) :
    D.Admissible scale (fun d => codeVal s D scale x (eqv s d)) := by
  constructor
  · intro c hc
    obtain ⟨k, hk⟩ := List.mem_iff_getElem?.1 hc
    rw [eqv_slave hr hk]
    unfold codeVal
    rw [if_neg (by omega), if_pos (by omega)]
    unfold gOf tmOf
    rw [code_index, hk]
    simp only [List.map_map]
    congr 2
    apply List.map_congr_left
    intro m hm
    have := (eqv_free hr (hv.master c hc m hm)).2.1
    simp only [Function.comp]
    rw [if_pos (by omega)]
  · intro d hs hn
    simp only [eqv_fixed hr hs hn]; simp [codeVal]

theorem codeVal_free (hr : Ready s D) (scale : R) (x : Int → R) {d : Nat} (hd : D.Free d) :
    codeVal s D scale x (eqv s d) = x (eqv s d) := by
  have := (eqv_free hr hd).2.1
  unfold codeVal; rw [if_pos (by omega)]

theorem tcoef_eq_codeVal (r : Int) (e : Int) :
    tcoef (tmOf s D) e r = codeVal s D 0 (fun q => if q = r then 1 else 0) e := by
  unfold tcoef codeVal
  split
  · rfl
  · split
    · simp
    · rfl

theorem basis_val (hr : Ready s D) (hv : D.Valid) {r : Int} {N : Nat → R} (hN : BasisField s D r N)
    {o : Option Nat} (ho : ∀ d, o = some d → 1 ≤ d ∧ d ≤ D.status.length) :
    atDof N o = tcoef (tmOf s D) (eqvO s o) r := by
  cases o with
  | none => simp [atDof, eqvO, tcoef]
  | some d =>
    obtain ⟨h1, h2⟩ := ho d rfl
    rw [tcoef_eq_codeVal]
    simp only [atDof, eqvO]
    apply admissible_val hr hv hN.adm _ h1 h2
    intro d hd
    have he := (eqv_free hr hd).1
    by_cases hc : eqv s d = r
    · rw [if_pos hc]; exact hN.own d hd (by rw [EqnOf, he, hc])
    · rw [if_neg hc]
      apply hN.other d hd
      intro h; rw [EqnOf, he] at h; exact hc (Option.some.inj h)

theorem lift_val (hr : Ready s D) (hv : D.Valid) {g : Nat → R} (hg : LiftField D g)
    {o : Option Nat} (ho : ∀ d, o = some d → 1 ≤ d ∧ d ≤ D.status.length) :
    atDof g o = if eqvO s o < 0 then gOf D (eqvO s o) else 0 := by
  cases o with
  | none => simp [atDof, eqvO]
  | some d =>
    obtain ⟨h1, h2⟩ := ho d rfl
    show g d = if eqv s d < 0 then gOf D (eqv s d) else 0
    rw [admissible_val hr hv (x := fun _ => 0) hg.adm hg.free h1 h2]
    unfold codeVal
    by_cases hp : eqv s d > 0
    · rw [if_pos hp, if_neg (by omega)]
    · rw [if_neg hp]
      by_cases hn : eqv s d < 0
      · rw [if_pos (by omega), if_pos hn]; simp
      · rw [if_neg (by omega), if_neg hn]

theorem exists_basisField (hr : Ready s D) (hv : D.Valid) (r : Int) : ∃ N, BasisField s D r N := by
  refine ⟨_, codeVal_admissible hr hv 0 (fun q => if q = r then 1 else 0), ?_, ?_⟩
  · intro d hd he
    rw [codeVal_free hr _ _ hd, if_pos]
    have := (eqv_free hr hd).1
    rw [EqnOf, this] at he; exact Option.some.inj he
  · intro d hd he
    rw [codeVal_free hr _ _ hd, if_neg]
    intro h; apply he
    rw [EqnOf, (eqv_free hr hd).1, h]

theorem exists_liftField (hr : Ready s D) (hv : D.Valid) : ∃ g, LiftField D g :=
  ⟨_, codeVal_admissible hr hv 1 (fun _ => 0), fun d hd => by rw [codeVal_free hr _ _ hd]⟩

/-- Expansion of codes in the basis. -/
theorem codeVal_expand (hr : Ready s D) (hv : D.Valid) (scale : R) (x : Int → R) {o : Option Nat}
    (ho : ∀ d, o = some d → 1 ≤ d ∧ d ≤ D.status.length) :
    codeVal s D scale x (eqvO s o) = scale * (if eqvO s o < 0 then gOf D (eqvO s o) else 0) +
      ∑ r ∈ Finset.Icc (1:Int) s.neq, tcoef (tmOf s D) (eqvO s o) r * x r := by
  have hpick : ∀ e : Int, 1 ≤ e → e ≤ s.neq →
      ∑ r ∈ Finset.Icc (1:Int) s.neq, (if e = r then (1:R) else 0) * x r = x e := by
    intro e h1 h2
    rw [Finset.sum_eq_single e]
    · simp
    · intro b _ hb; simp [Ne.symm hb]
    · intro h; exact absurd (Finset.mem_Icc.2 ⟨h1, h2⟩) h
  by_cases hn : eqvO s o < 0
  · obtain ⟨k, c, hc, ho', hcode⟩ := neg_code hr hv ho hn
    rw [if_pos hn]
    unfold codeVal tcoef
    simp only [if_neg (show ¬ eqvO s o > 0 by omega), if_pos (show -eqvO s o > 0 by omega)]
    congr 1
    rw [hcode]
    unfold tmOf
    rw [code_index, hc]
    simp only [List.map_map, Finset.sum_mul]
    have hm := hv.master c (List.mem_of_getElem? hc)
    clear hc
    generalize c.masters = ms at hm
    induction ms with
    | nil => simp
    | cons m ms ih =>
      have hf := eqv_free hr (hm m List.mem_cons_self)
      simp only [List.map_cons, List.sum_cons, add_mul, Finset.sum_add_distrib]
      rw [ih (fun m' h => hm m' (List.mem_cons_of_mem _ h))]
      congr 1
      simp only [Function.comp]
      rw [← hpick _ hf.2.1 hf.2.2, Finset.mul_sum]
      apply Finset.sum_congr rfl
      intro r _
      split <;> simp
  · rw [if_neg hn, mul_zero, zero_add]
    cases o with
    | none => simp [eqvO, codeVal, tcoef]
    | some d =>
      change ¬ eqv s d < 0 at hn
      change codeVal s D scale x (eqv s d) = ∑ r ∈ Finset.Icc (1:Int) s.neq, tcoef (tmOf s D) (eqv s d) r * x r
      obtain ⟨h1, h2⟩ := ho d rfl
      unfold codeVal tcoef
      rcases dof_cases D hv h1 h2 with hf | ⟨k, c, hc, rfl⟩ | ⟨hs, hnn⟩
      · have hf := eqv_free hr hf
        simp only [if_pos (show eqv s d > 0 by omega)]
        rw [hpick _ hf.2.1 hf.2.2]
      · exfalso; rw [eqv_slave hr hc] at hn; omega
      · rw [eqv_fixed hr hs hnn]; simp

end IFEM.Spec
