import Verif.Lemmas.DirichletRun

/-!
# Lemmas: fields of DOFs and of DOF numbers
-/
namespace IFEM.Dirichlet
open IFEM.Spec IFEM.Props Spec
variable {K : Type} [Field K] [LinearOrder K]

open Classical in
theorem to_numbers (P : List (SPatch K)) (nnod : Nat) (U : Int × Int → K) : ∃ u' : Nat → K, ∀ k, IsDof P nnod k → u' (dofIndex P k) = U k := by
  refine ⟨fun d => if h : ∃ k, IsDof P nnod k ∧ dofIndex P k = d then U h.choose else 0, ?_⟩
  intro k hk
  have hex : ∃ k', IsDof P nnod k' ∧ dofIndex P k' = dofIndex P k := ⟨k, hk, rfl⟩
  show (if h : ∃ k', IsDof P nnod k' ∧ dofIndex P k' = dofIndex P k then U h.choose else 0) = U k
  rw [dif_pos hex]
  congr 1
  exact dofIndex_inj hex.choose_spec.1 hk hex.choose_spec.2

open Classical in
/-- Free values determine an admissible field. -/
theorem exists_adm (D : FEModel K) (hv : D.Valid) (scale : K) (v : Nat → K) : ∃ u, D.Admissible scale u ∧ ∀ d, D.Free d → u d = v d := by
  refine ⟨fun d => if D.Free d then v d else match D.cons.find? fun c => decide (c.slave = d) with
    | some c => scale * c.offset + (c.masters.map fun m => m.2 * v m.1).sum
    | none => 0, ⟨?_, ?_⟩, ?_⟩
  · intro c hc
    have hnf : ¬ D.Free c.slave := by
      rintro ⟨h1, h2⟩
      have h3 := (hv.slave c hc).2
      rcases h2 with h2 | h2 <;> rw [h3] at h2 <;> simp at h2
    have hf : (D.cons.find? fun c' => decide (c'.slave = c.slave)) = some c := by
      have hnd := hv.unique
      clear hnf
      generalize D.cons = L at hc hnd
      induction L with
      | nil => simp at hc
      | cons x L ih =>
        rw [List.map_cons, List.nodup_cons] at hnd
        rcases List.mem_cons.1 hc with h | h
        · subst h; simp
        · rw [List.find?_cons_of_neg]
          · exact ih h hnd.2
          · have : x.slave ≠ c.slave := fun he => hnd.1 (by rw [he]; exact List.mem_map.2 ⟨c, h, rfl⟩)
            simpa using this
    rw [if_neg hnf, hf]
    dsimp only
    congr 2
    apply List.map_congr_left
    intro m hm
    rw [if_pos (hv.master c hc m hm)]
  · intro d hd hn
    have hnf : ¬ D.Free d := by
      rintro ⟨h1, h2⟩
      rcases h2 with h2 | h2 <;> rw [hd.2] at h2 <;> simp at h2
    rw [if_neg hnf]
    have : (D.cons.find? fun c => decide (c.slave = d)) = none := by
      rw [List.find?_eq_none]
      intro c hc; simpa using hn c hc
    rw [this]
  · intro d hd
    exact if_pos hd

theorem same_good {P P' : List (SPatch K)} {nnod : Nat} (hg : GoodModel P nnod) (e : noConst P' = noConst P) : GoodModel P' nnod :=
  (nc_good P' nnod).1 (by rw [e]; exact (nc_good P nnod).2 hg)
theorem same_dof {P P' : List (SPatch K)} {nnod : Nat} (e : noConst P' = noConst P) (k : Int × Int) : IsDof P' nnod k ↔ IsDof P nnod k := by rw [← nc_isDof, e, nc_isDof]
theorem same_fixed {P P' : List (SPatch K)} (e : noConst P' = noConst P) (n : Int) (c : Nat) : FixedIn P' n c ↔ FixedIn P n c := by rw [← nc_fixed, e, nc_fixed]
theorem same_open {P P' : List (SPatch K)} {nnod : Nat} (e : noConst P' = noConst P) (k : Int × Int) : OpenDof P' nnod k ↔ OpenDof P nnod k := by rw [← nc_free, e, nc_free]
theorem same_index {P P' : List (SPatch K)} (e : noConst P' = noConst P) (k : Int × Int) : dofIndex P' k = dofIndex P k := by rw [← nc_index, e, nc_index]
theorem same_slave {P P' : List (SPatch K)} (e : noConst P' = noConst P) (k : Int × Int) : IsSlave (allMpcs P') k ↔ IsSlave (allMpcs P) k := by rw [← nc_slave, e, nc_slave]

/-- Admissible fields in terms of DOFs. -/
theorem adm_iff {P : List (SPatch K)} {nnod f : Nat} {msc st : List Int} {s0 s : Sam K} {is : List (Option Nat)} (hS : Setting P nnod f msc st s0 s is) (hg : GoodModel P nnod)
    {P' : List (SPatch K)} (e : noConst P' = noConst P) (scale : K) (g : Int × Int → K) (gN : Nat → K) (hN : ∀ k, IsDof P nnod k → gN (dofIndex P k) = g k) :
    FEModel.Admissible (⟨nodeCounts P nnod, st, consOf (nodeCounts P nnod) msc (allMpcs P') f, elmsById (allElms P)⟩ : FEModel K) scale gN ↔
      (∀ k, IsDof P nnod k → FixedIn P k.1 k.2.toNat → g k = 0) ∧ ∀ m ∈ allMpcs P', ¬ FixedIn P m.node m.dof.toNat → HoldsScaled scale m g := by
  have hg' := same_good hg e
  rw [hS.adm P' e scale gN]
  have h1 : (∀ k, IsDof P nnod k → FixedIn P k.1 k.2.toNat → gN (dofIndex P k) = 0) ↔ ∀ k, IsDof P nnod k → FixedIn P k.1 k.2.toNat → g k = 0 := by
    refine forall_congr' fun k => forall_congr' fun hk => ?_
    rw [hN k hk]
  have h2 : (∀ m ∈ allMpcs P', ¬ FixedIn P m.node m.dof.toNat → HoldsScaled scale m fun k => gN (dofIndex P k)) ↔ ∀ m ∈ allMpcs P', ¬ FixedIn P m.node m.dof.toNat → HoldsScaled scale m g := by
    refine forall_congr' fun m => forall_congr' fun hm => ?_
    unfold HoldsScaled masterSum
    dsimp only
    rw [hN _ ((same_dof e _).1 (hg'.slaves m hm))]
    have : (m.master.map fun t => t.coeff * gN (dofIndex P (t.node, t.dof))) = m.master.map fun t => t.coeff * g (t.node, t.dof) := by
      apply List.map_congr_left
      intro t ht
      rw [hN _ ((same_dof e _).1 (hg'.masters m hm t ht))]
    rw [this]
  rw [h1, h2]

theorem obeys_iff {P P' : List (SPatch K)} {nnod : Nat} (e : noConst P' = noConst P) (g : Int × Int → K) :
    Obeys P' nnod g ↔ (∀ k, IsDof P nnod k → FixedIn P k.1 k.2.toNat → g k = 0) ∧ ∀ m ∈ allMpcs P', ¬ FixedIn P m.node m.dof.toNat → HoldsScaled 1 m g := by
  unfold Obeys Holds HoldsScaled
  simp only [same_dof e, same_fixed e, one_mul]

theorem obeys0_iff {P P' : List (SPatch K)} {nnod : Nat} (e : noConst P' = noConst P) (g : Int × Int → K) :
    Obeys (noConst P') nnod g ↔ (∀ k, IsDof P nnod k → FixedIn P k.1 k.2.toNat → g k = 0) ∧ ∀ m ∈ allMpcs P', ¬ FixedIn P m.node m.dof.toNat → HoldsScaled 0 m g := by
  unfold Obeys
  simp only [nc_fixed, nc_isDof, same_dof e, same_fixed e]
  refine and_congr Iff.rfl ?_
  rw [nc_mpcs]
  unfold Holds HoldsScaled
  simp only [zero_mul, List.mem_map]
  constructor
  · intro h m hm hf
    exact h (z m) ⟨m, hm, rfl⟩ hf
  · rintro h _ ⟨m, hm, rfl⟩ hf
    exact h m hm hf

/-- The adjusted model. -/
def adjModel (P P' : List (SPatch K)) (nnod f : Nat) (msc st : List Int) (prev : Option (List K)) : FEModel K :=
  ⟨nodeCounts P nnod, st, (consOf (nodeCounts P nnod) msc (allMpcs P') f).map (adj prev), elmsById (allElms P)⟩

theorem adj_shape (C : List (Con K)) (prev : Option (List K)) : (C.map (adj prev)).map shape = C.map shape := by
  rw [List.map_map]; rfl

/-- The difference of the free DOFs is resolved by the masters. -/
theorem slave_value {P : List (SPatch K)} {nnod f : Nat} {msc st : List Int} {s0 s : Sam K} {is : List (Option Nat)} (hS : Setting P nnod f msc st s0 s is) (hg : GoodModel P nnod)
    {P' : List (SPatch K)} (e : noConst P' = noConst P) (prev : Option (List K)) (scale : K) (dN : Nat → K) (hd : (adjModel P P' nnod f msc st prev).Admissible scale dN)
    (g h : Int × Int → K) (hL : IsLift P' nnod g) (hH : Obeys (noConst P') nnod h) (hH' : ∀ k, OpenDof P' nnod k → h k = dN (dofIndex P k)) :
    (∀ k, IsDof P nnod k → FixedIn P k.1 k.2.toNat → dN (dofIndex P k) = 0) ∧
    ∀ k, IsSlave (allMpcs P') k → ¬ FixedIn P k.1 k.2.toNat → dN (dofIndex P k) = scale * stored prev (dofIndex P k) (g k) + h k := by
  have hg' := same_good hg e
  obtain ⟨gN, hgN⟩ := to_numbers P nnod g
  obtain ⟨hN, hhN⟩ := to_numbers P nnod h
  have ag := (adm_iff hS hg e 1 g gN hgN).2 ((obeys_iff e g).1 hL.1)
  have ah := (adm_iff hS hg e 0 h hN hhN).2 ((obeys0_iff e h).1 hH)
  have hv := hS.valid _ (hS.shp P' e)
  have hcon : ∀ c ∈ consOf (nodeCounts P nnod) msc (allMpcs P') f, dN c.slave = scale * stored prev c.slave (gN c.slave) + hN c.slave := by
    intro c hc
    have h1 := hd.con (adj prev c) (List.mem_map.2 ⟨c, hc, rfl⟩)
    have h2 := ag.con c hc
    have h3 := ah.con c hc
    have z2 : (c.masters.map fun m => m.2 * gN m.1).sum = 0 := by
      apply List.sum_eq_zero
      intro y hy
      obtain ⟨m, hm, rfl⟩ := List.mem_map.1 hy
      obtain ⟨k, hk, hk2⟩ := (hS.free _ _).1 (hv.master c hc m hm)
      rw [← hk2, hgN k hk.1, hL.2 k ((same_open e k).2 hk), mul_zero]
    have z3 : (c.masters.map fun m => m.2 * hN m.1) = c.masters.map fun m => m.2 * dN m.1 := by
      apply List.map_congr_left
      intro m hm
      obtain ⟨k, hk, hk2⟩ := (hS.free _ _).1 (hv.master c hc m hm)
      rw [← hk2, hhN k hk.1, hH' k ((same_open e k).2 hk)]
    rw [z2, one_mul, add_zero] at h2
    rw [zero_mul, zero_add, z3] at h3
    rw [h2, h3]
    exact h1
  constructor
  · intro k hk hF
    have hsupp : (adjModel P P' nnod f msc st prev).Suppressed (dofIndex P k) := by
      have hrg := dofIx_range ((okDof_iff P nnod k).mpr hk)
      rw [dofIx_eq P nnod k hk] at hrg
      refine ⟨hrg.1, ?_⟩
      have hl : dofIndex P k - 1 < st.length := by have := hS.num; omega
      have hst := hv.status (st[dofIndex P k - 1]'hl) (List.getElem_mem hl)
      have he := List.getElem?_eq_getElem hl
      show st[dofIndex P k - 1]? = some 0
      rcases hst with h | h
      · rw [he, h]
      · exfalso
        have hfree : FEModel.Free (⟨nodeCounts P nnod, st, [], elmsById (allElms P)⟩ : FEModel K) (dofIndex P k) :=
          ⟨hrg.1, by show st[dofIndex P k - 1]? = some 1 ∨ st[dofIndex P k - 1]? = some 2; rw [he]; simpa using h⟩
        obtain ⟨k', hk', ek⟩ := (hS.free _ _).1 hfree
        have := dofIndex_inj hk'.1 hk ek
        subst this
        exact hk'.2.1 hF
    refine hd.fixed _ hsupp ?_
    intro c hc he
    obtain ⟨c0, hc0, rfl⟩ := List.mem_map.1 hc
    obtain ⟨m, hm, hn, hs⟩ := hS.con' P' e c0 hc0
    have he' : dofIndex P (m.node, m.dof) = dofIndex P k := hs.symm.trans he
    have := dofIndex_inj ((same_dof e _).1 (hg'.slaves m hm)) hk he'
    subst this
    exact hn hF
  · rintro k ⟨m, hm, hkm⟩ hF
    have hkm' : (m.node, m.dof) = k := hkm
    subst hkm'
    obtain ⟨c, hc, hs⟩ := hS.con P' e m hm hF
    have := hcon c hc
    have hdm := (same_dof e _).1 (hg'.slaves m hm)
    rw [hs, hgN _ hdm, hhN _ hdm] at this
    exact this

theorem exists_field {P : List (SPatch K)} {nnod f : Nat} {msc st : List Int} {s0 s : Sam K} {is : List (Option Nat)} (hS : Setting P nnod f msc st s0 s is) (hg : GoodModel P nnod)
    {P' : List (SPatch K)} (e : noConst P' = noConst P) (scale : K) (v : Int × Int → K) :
    ∃ u : Int × Int → K, ((∀ k, IsDof P nnod k → FixedIn P k.1 k.2.toNat → u k = 0) ∧ ∀ m ∈ allMpcs P', ¬ FixedIn P m.node m.dof.toNat → HoldsScaled scale m u) ∧
      ∀ k, OpenDof P' nnod k → u k = v k := by
  obtain ⟨vN, hvN⟩ := to_numbers P nnod v
  obtain ⟨uN, h1, h2⟩ := exists_adm _ (hS.valid _ (hS.shp P' e)) scale vN
  refine ⟨fun k => uN (dofIndex P k), (adm_iff hS hg e scale (fun k => uN (dofIndex P k)) uN (fun k _ => rfl)).1 h1, ?_⟩
  intro k hk
  have hk' := (same_open e k).1 hk
  show uN _ = _
  rw [h2 _ ((hS.free _ _).2 ⟨k, hk', rfl⟩), hvN k hk'.1]

end IFEM.Dirichlet
