import Verif.Lemmas.FE
/-! Equation lookups in terms of the finite element model. -/
namespace IFEM.Spec
open IFEM.Sam
variable {R : Type}

/-- Equation code of DOF `d`. -/
def eqv (s : Sam R) (d : Nat) : Int := (at1? s.meqn d).getD 0

/-- Equation code of an element DOF. -/
def eqvO (s : Sam R) : Option Nat → Int
  | some d => eqv s d
  | none => 0

theorem at0?_succ {α : Type _} (a : List α) (i : Int) : at0? a i = at1? a (i+1) := by
  unfold at1?; congr 1; omega

theorem flatMap_eq_map {α β : Type _} (l : List α) (f : α → List β) (g : α → β)
    (h : ∀ x ∈ l, f x = [g x]) : l.flatMap f = l.map g := by
  induction l with
  | nil => rfl
  | cons x xs ih =>
    rw [List.flatMap_cons, h x List.mem_cons_self, ih (fun y hy => h y (List.mem_cons_of_mem _ hy))]
    rfl

theorem eqv_free {s : Sam R} {D : FEModel R} (hr : Ready s D) {d : Nat} (hd : D.Free d) :
    at1? s.meqn d = some (eqv s d) ∧ 1 ≤ eqv s d ∧ eqv s d ≤ s.neq := by
  obtain ⟨e, h1, h2, h3⟩ := hr.free d hd
  have : eqv s d = e := by unfold eqv; rw [h1]; rfl
  rw [this]; exact ⟨h1, h2, h3⟩

theorem masterTerms_ready {s : Sam R} {D : FEModel R} (hr : Ready s D) (hv : D.Valid)
    {k : Nat} {c : Con R} (hc : D.cons[k]? = some c) :
    s.masterTerms ((k:Int)+1) = c.masters.map fun m => some (eqv s m.1, m.2) := by
  obtain ⟨ip, a1, a2, a3, a4, a5⟩ := hr.con k c hc
  have hmem := List.mem_of_getElem? hc
  unfold masterTerms
  rw [at0?_succ, at0?_succ, sub_add_cancel, a1]
  have : ((k:Int) + 1 + 1) = k + 2 := by ring
  rw [this, a2]
  simp only
  have hi : intRange ip (ip + 1 + c.masters.length - 1) =
      (List.range c.masters.length).map (fun j : Nat => ip + (j : Int)) := by
    unfold intRange
    have : (ip + 1 + (c.masters.length : Int) - 1 - ip).toNat = c.masters.length := by omega
    rw [this]
  rw [hi, List.flatMap_map]
  rw [flatMap_eq_map (g := fun j : Nat => (c.masters[j]?).map fun m => (eqv s m.1, m.2))]
  · apply List.ext_getElem?
    intro i
    simp only [List.getElem?_map]
    by_cases h : i < c.masters.length
    · simp [h]
    · simp [h]
  · intro j hj
    have hjl : j < c.masters.length := by simpa using hj
    obtain ⟨b1, b2⟩ := a5 j _ (List.getElem?_eq_getElem hjl)
    have hf := hv.master c hmem _ (List.getElem_mem hjl)
    have he := (eqv_free hr hf).1
    have h1 : ip + (j : Int) + 1 = ip + 1 + j := by ring
    rw [at0?_succ, h1, b1]
    have hpos : ((c.masters[j].1 : Nat) : Int) > 0 := by have := hf.1; omega
    simp only [if_pos hpos, at0?_succ s.meqn, sub_add_cancel, he, at0?_succ s.ttcc, h1, b2]
    simp [List.getElem?_eq_getElem hjl]

theorem offset_ready {s : Sam R} {D : FEModel R} (hr : Ready s D)
    {k : Nat} {c : Con R} (hc : D.cons[k]? = some c) :
    s.offset? ((k:Int)+1) = some c.offset := by
  obtain ⟨ip, a1, a2, a3, a4, a5⟩ := hr.con k c hc
  unfold offset?
  rw [at0?_succ, sub_add_cancel, a1]
  simp only [Option.bind_eq_bind, Option.bind_some, at0?_succ, sub_add_cancel, a4]

theorem slice0?_of_pointwise {α : Type _} {a e : List α} {i : Int} (hne : e ≠ [])
    (h : ∀ (j : Nat) (n : α), e[j]? = some n → at0? a (i + j) = some n) :
    slice0? a i (i + e.length) = some e := by
  have hlen : 0 < e.length := List.length_pos_iff.2 hne
  have h0 := h 0 _ (List.getElem?_eq_getElem hlen)
  have hl := h (e.length-1) _ (List.getElem?_eq_getElem (by omega))
  obtain ⟨p1, p2, -⟩ := at0?_eq_some h0
  obtain ⟨q1, q2, -⟩ := at0?_eq_some hl
  unfold slice0?
  rw [if_pos ⟨by simpa using p1, by omega, by omega⟩]
  congr 1
  apply List.ext_getElem?
  intro j
  have : (i + (e.length : Int) - i).toNat = e.length := by omega
  rw [this, List.getElem?_take]
  by_cases hj : j < e.length
  · rw [if_pos hj, List.getElem?_drop]
    obtain ⟨r1, r2, r3⟩ := at0?_eq_some (h j _ (List.getElem?_eq_getElem hj))
    rw [List.getElem?_eq_getElem hj, ← r3]
    congr 1
    have : (0:Int) ≤ i := by simpa using p1
    omega
  · rw [if_neg hj, List.getElem?_eq_none (by omega)]

theorem getElmNodes_ready {s : Sam R} {D : FEModel R} (hr : Ready s D)
    {k : Nat} {e : List Int} (he : D.elems[k]? = some e) :
    s.getElmNodes ((k:Int)+1) = some e := by
  obtain ⟨ip, a1, a2, a3⟩ := hr.elm k e he
  have hkl := (List.getElem?_eq_some_iff.1 he).1
  have hn := hr.nel
  unfold getElmNodes
  rw [if_neg (by omega), at0?_succ, sub_add_cancel, a1, at0?_succ]
  have : ((k:Int) + 1 + 1) = k + 2 := by ring
  rw [this, a2]
  simp only [Option.bind_eq_bind, Option.bind_some]
  by_cases hne : e = []
  · subst hne; simp
  · have hlen : 0 < e.length := List.length_pos_iff.2 hne
    rw [if_neg (by omega)]
    have := slice0?_of_pointwise (a := s.mmnpc) (i := ip-1) hne (by
      intro j n hj
      rw [at0?_succ, ← a3 j n hj]; congr 1; omega)
    rw [← this]; congr 1; omega

theorem firstDof_succ (D : FEModel R) {n : Nat} (h1 : 1 ≤ n) (h2 : n ≤ D.nndof.length) :
    D.firstDof (n+1) = D.firstDof n + D.nndof.getD (n-1) 0 := by
  unfold FEModel.firstDof
  have : n - 1 < D.nndof.length := by omega
  have e : n + 1 - 1 = (n-1) + 1 := by omega
  rw [e, List.take_succ_eq_append_getElem this, List.sum_append, List.getD_eq_getElem?_getD, List.getElem?_eq_getElem this]
  simp; omega

theorem firstDof_le (D : FEModel R) (n : Nat) : D.firstDof n ≤ 1 + D.nndof.sum := by
  unfold FEModel.firstDof
  have h := List.sum_append (l₁ := D.nndof.take (n-1)) (l₂ := D.nndof.drop (n-1))
  rw [List.take_append_drop] at h
  omega

theorem nodeEqns_ready {s : Sam R} {D : FEModel R} (hr : Ready s D) (hv : D.Valid)
    {n : Nat} (h1 : 1 ≤ n) (h2 : n ≤ D.nndof.length) :
    (do let a ← at0? s.madof ((n:Int)-1); let b ← at0? s.madof n; slice0? s.meqn (a-1) (b-1)) =
      some ((D.nodeDofs n).map (eqv s)) := by
  have a1 := hr.madof n h1 (by omega)
  have a2 := hr.madof (n+1) (by omega) (by omega)
  push_cast at a2
  rw [at0?_succ, sub_add_cancel, a1, at0?_succ, a2, firstDof_succ D h1 h2]
  simp only [Option.bind_eq_bind, Option.bind_some]
  have hle := firstDof_le D (n+1)
  rw [firstDof_succ D h1 h2] at hle
  have hpos : 1 ≤ D.firstDof n := by unfold FEModel.firstDof; omega
  unfold slice0?
  rw [if_pos ⟨by omega, by omega, by rw [hr.len, hv.ndof]; omega⟩]
  congr 1
  unfold FEModel.nodeDofs
  generalize D.nndof.getD (n-1) 0 = q at *
  have e1 : ((D.firstDof n : Int) - 1).toNat = D.firstDof n - 1 := by omega
  have e2 : (((D.firstDof n + q : Nat) : Int) - 1 - ((D.firstDof n : Int) - 1)).toNat = q := by omega
  rw [e1, e2]
  apply List.ext_getElem?
  intro j
  rw [List.getElem?_take]
  by_cases hj : j < q
  · rw [if_pos hj, List.getElem?_drop, List.getElem?_map, List.getElem?_range' (by simpa using hj)]
    simp only [Option.map_some, one_mul]
    unfold eqv
    rw [at1?_nat _ _ (by omega)]
    have : D.firstDof n + j - 1 = D.firstDof n - 1 + j := by omega
    rw [this]
    have hlt : D.firstDof n - 1 + j < s.meqn.length := by rw [hr.len, hv.ndof]; omega
    rw [List.getElem?_eq_getElem hlt]; rfl
  · rw [if_neg hj, List.getElem?_eq_none (by simpa using hj)]

theorem nodeEqnsInElm_ready {s : Sam R} {D : FEModel R} (hr : Ready s D) (hv : D.Valid)
    {n : Int} (h1 : n ≠ 0) (h2 : n.natAbs ≤ D.nndof.length) :
    s.nodeEqnsInElm n = some ((D.elmDofs [n]).map (eqvO s)) := by
  unfold nodeEqnsInElm
  by_cases hp : n > 0
  · have := nodeEqns_ready hr hv (n := n.toNat) (by omega) (by omega)
    have e : ((n.toNat : Nat) : Int) = n := by omega
    rw [e] at this
    rw [if_pos hp, this]
    simp [FEModel.elmDofs, hp, eqvO]
  · have hn : n < 0 := by omega
    rw [if_neg hp, if_pos hn]
    have a1 := hr.madof n.natAbs (by omega) (by omega)
    have a2 := hr.madof (n.natAbs+1) (by omega) (by omega)
    push_cast at a2
    have e : |n| = -n := abs_of_neg hn
    rw [show ((n.natAbs : Nat) : Int) = -n by omega] at a1
    rw [e] at a2
    rw [at0?_succ, at0?_succ, sub_add_cancel, a1, a2, firstDof_succ D (by omega) h2]
    simp only [Option.bind_eq_bind, Option.bind_some]
    simp [FEModel.elmDofs, hp, hn, eqvO]

theorem mapM_some {α β : Type _} (l : List α) (f : α → Option β) (g : α → β)
    (h : ∀ x ∈ l, f x = some (g x)) : l.mapM f = some (l.map g) := by
  induction l with
  | nil => rfl
  | cons x xs ih =>
    rw [List.mapM_cons, h x List.mem_cons_self, ih (fun y hy => h y (List.mem_cons_of_mem _ hy))]
    rfl

/-- `getElmEqns` returns the equation codes of the element DOFs. -/
theorem getElmEqns_ready {s : Sam R} {D : FEModel R} (hr : Ready s D) (hv : D.Valid)
    {k : Nat} {e : List Int} (he : D.elems[k]? = some e) (nedof : Nat) (hn : e = [] ∨ nedof = 0 ∨ nedof = (D.elmDofs e).length) :
    s.getElmEqns ((k:Int)+1) nedof = some ((D.elmDofs e).map (eqvO s)) := by
  unfold getElmEqns
  rw [getElmNodes_ready hr he]
  simp only [Option.bind_eq_bind, Option.bind_some]
  rw [mapM_some e s.nodeEqnsInElm (fun n => (D.elmDofs [n]).map (eqvO s)) (by
    intro n hn
    obtain ⟨q1, q2⟩ := hv.nodes e (List.mem_of_getElem? he) n hn
    exact nodeEqnsInElm_ready hr hv q1 q2)]
  simp only [Option.bind_some]
  have hfl : (e.map fun n => (D.elmDofs [n]).map (eqvO s)).flatten = (D.elmDofs e).map (eqvO s) := by
    unfold FEModel.elmDofs
    rw [List.map_flatMap, List.flatMap_def]
    congr 1
    apply List.map_congr_left
    intro n _
    simp
  rw [hfl]
  split
  · rename_i h0; subst h0; simp [FEModel.elmDofs]
  · rename_i h0
    rw [if_pos]
    rcases hn with h | h | h
    · exact absurd h h0
    · exact Or.inl h
    · right; simp [h]

/-- An element vector of the wrong size is rejected. -/
theorem getElmEqns_reject {s : Sam R} {D : FEModel R} (hr : Ready s D) (hv : D.Valid)
    {k : Nat} {e : List Int} (he : D.elems[k]? = some e) (nedof : Nat) (hn : e ≠ [] ∧ nedof ≠ 0 ∧ nedof ≠ (D.elmDofs e).length) :
    s.getElmEqns ((k:Int)+1) nedof = none := by
  have h0 := getElmEqns_ready hr hv he 0 (Or.inr (Or.inl rfl))
  unfold getElmEqns at *
  rw [getElmNodes_ready hr he] at *
  simp only [Option.bind_eq_bind, Option.bind_some] at *
  rw [Option.bind_eq_some_iff] at h0
  obtain ⟨p, hp, h0⟩ := h0
  rw [hp]
  simp only [Option.bind_some, if_neg hn.1] at *
  have : p.flatten = (D.elmDofs e).map (eqvO s) := by simpa using h0
  rw [if_neg]
  rw [this]; simp; omega

end IFEM.Spec
