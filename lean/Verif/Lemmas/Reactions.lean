import Verif.Model.SamQuery
import Verif.Lemmas.SparseFE
import Verif.Props.Numbering
/-! Reaction force assembly. -/
namespace IFEM.Spec
open IFEM.Sam
variable {R : Type} [CommRing R] {s : Sam R} {D : FEModel R}
attribute [-simp] Fin.getElem_fin

/-- Reaction-force index of a DOF (non-positive for free DOFs). -/
def slot (s : Sam R) (d : Nat) : Int := -(at1? s.msc d).getD 0

def slotO (s : Sam R) : Option Nat → Int
  | some d => slot s d
  | none => 0

/-- Facts about the status codes after `initSystemEquations`. -/
structure Slots (s : Sam R) (D : FEModel R) : Prop where
  len  : s.msc.length = D.status.length
  supp : ∀ d, D.Suppressed d → 1 ≤ slot s d ∧ slot s d ≤ s.nspdof
  free : ∀ d, D.Free d → slot s d < 0
  inj  : ∀ d d', D.Suppressed d → D.Suppressed d' → slot s d = slot s d' → d = d'

omit [CommRing R] in
theorem slots_of_init {s0 : Sam R} (hp : Packs s0 D) (h : s0.initSystemEquations = some (s, true))
    (hfresh : s0.nspdof = 0) : Slots s D := by
  obtain ⟨h1, h2, h3, h4, h5, h6⟩ := Props.C03_reaction_indices h hfresh
  rw [hp.msc] at *
  refine ⟨h2, ?_, ?_, ?_⟩
  · intro d hd
    obtain ⟨r, a, b, c⟩ := h3 (d-1) hd.2
    unfold slot
    rw [at1?_nat _ _ hd.1, c]
    simp; omega
  · intro d hd
    unfold slot
    rw [at1?_nat _ _ hd.1, h6 (d-1) (by rcases hd.2 with h | h <;> rw [h] <;> simp)]
    rcases hd.2 with h | h <;> rw [h] <;> simp
  · intro d d' hd hd' he
    obtain ⟨r, a, b, c⟩ := h3 (d-1) hd.2
    obtain ⟨r', a', b', c'⟩ := h3 (d'-1) hd'.2
    unfold slot at he
    rw [at1?_nat _ _ hd.1, at1?_nat _ _ hd'.1, c, c'] at he
    simp only [Option.getD_some, neg_neg] at he
    have := h5 (d-1) (d'-1) (-(r:Int)) hd.2 hd'.2 c (by rw [c', he])
    have := hd.1
    have := hd'.1
    omega

/-- Sum of the vector components at the element DOFs with reaction-force index `p`. -/
def rsum (s : Sam R) (p : Int) : List (Option Nat) → List R → R
  | o :: os, v :: vs => (if slotO s o = p then v else 0) + rsum s p os vs
  | _, _ => 0

theorem rsum_append (p : Int) (a b : List (Option Nat)) (vs : List R) :
    rsum s p (a ++ b) vs = rsum s p a vs + rsum s p b (vs.drop a.length) := by
  induction a generalizing vs with
  | nil => simp [rsum]
  | cons o a ih =>
    cases vs with
    | nil => cases b <;> simp [rsum]
    | cons v vs => simp [rsum, ih, add_assoc]

theorem rsum_none (p : Int) (hp : 1 ≤ p) (n : Nat) (vs : List R) : rsum s p (List.replicate n none) vs = 0 := by
  induction n generalizing vs with
  | zero => rfl
  | succ n ih =>
    cases vs with
    | nil => rfl
    | cons v vs =>
      rw [List.replicate_succ, rsum, ih, if_neg (by simp only [slotO]; omega), add_zero]

theorem reacDofs (eS : List R) (js : List Nat) (hjs : ∀ j ∈ js, 1 ≤ j ∧ j ≤ s.msc.length) : ∀ (rf : List R) (k : Nat),
    k + js.length ≤ eS.length → ∃ rf',
    (js.map fun (j : Nat) => (j : Int)).foldlM (s.reacDof eS) (rf, k) = some (rf', k + js.length) ∧ rf'.length = rf.length ∧
    ∀ p : Int, 1 ≤ p → p ≤ rf.length → vval rf' p = vval rf p + rsum s p (js.map some) (eS.drop k) := by
  induction js with
  | nil => intro rf k _; exact ⟨rf, rfl, rfl, fun p _ _ => by simp [rsum]⟩
  | cons j js ih =>
    intro rf k hk
    simp only [List.length_cons] at hk
    have hj := hjs j List.mem_cons_self
    have hv : eS[k]? = some eS[k] := List.getElem?_eq_getElem (by omega)
    obtain ⟨m, hm⟩ : ∃ m, at1? s.msc (j : Int) = some m := by
      rw [at1?_nat _ _ hj.1]
      exact ⟨_, List.getElem?_eq_getElem (by omega)⟩
    have hslot : slot s j = -m := by unfold slot; rw [hm]; rfl
    have hdrop : eS.drop k = eS[k] :: eS.drop (k+1) := List.drop_eq_getElem_cons (by omega)
    obtain ⟨rf1, a1, a2, a3⟩ : ∃ rf1, (if -m > 0 ∧ -m ≤ (rf.length : Int) then add1? rf (-m) eS[k] else some rf) = some rf1 ∧
        rf1.length = rf.length ∧ ∀ p : Int, 1 ≤ p → p ≤ rf.length → vval rf1 p = vval rf p + if slot s j = p then eS[k] else 0 := by
      by_cases hc : -m > 0 ∧ -m ≤ (rf.length : Int)
      · rw [if_pos hc]
        obtain ⟨d1, b1, b2, b3⟩ := add1?_spec rf (-m) eS[k] (by omega) hc.2
        refine ⟨d1, b1, b2, ?_⟩
        intro p _ _
        rw [b3, hslot]
      · rw [if_neg hc]
        refine ⟨rf, rfl, rfl, ?_⟩
        intro p h1 h2
        rw [if_neg (by omega), add_zero]
    obtain ⟨rf2, c1, c2, c3⟩ := ih (fun j hj => hjs j (List.mem_cons_of_mem _ hj)) rf1 (k+1) (by omega)
    refine ⟨rf2, ?_, by omega, ?_⟩
    · rw [List.map_cons, List.foldlM_cons]
      have : s.reacDof eS (rf, k) (j : Int) = some (rf1, k+1) := by
        unfold reacDof
        dsimp only
        rw [hv]
        dsimp only
        rw [hm]
        simp only [Option.bind_eq_bind, Option.bind_some]
        by_cases hc : -m > 0 ∧ -m ≤ (rf.length : Int)
        · rw [if_pos hc] at a1 ⊢
          rw [a1]; rfl
        · rw [if_neg hc] at a1 ⊢
          rw [Option.some.inj a1]; rfl
      rw [this]
      simp only [Option.bind_eq_bind, Option.bind_some]
      rw [c1, List.length_cons]
      congr 2; omega
    · intro p h1 h2
      rw [c3 p h1 (by omega), a3 p h1 h2, List.map_cons, hdrop, rsum]
      unfold slotO
      ring

theorem reacNodes (hr : Ready s D) (hv : D.Valid) (hs : Slots s D) (eS : List R) (nodes : List Int)
    (hn : ∀ n ∈ nodes, n ≠ 0 ∧ n.natAbs ≤ D.nndof.length) : ∀ (rf : List R) (k : Nat),
    k + (D.elmDofs nodes).length ≤ eS.length → ∃ rf',
    nodes.foldlM (s.reacNode eS) (rf, k) = some (rf', k + (D.elmDofs nodes).length) ∧ rf'.length = rf.length ∧
    ∀ p : Int, 1 ≤ p → p ≤ rf.length → vval rf' p = vval rf p + rsum s p (D.elmDofs nodes) (eS.drop k) := by
  induction nodes with
  | nil => intro rf k _; exact ⟨rf, rfl, rfl, fun p _ _ => by simp [FEModel.elmDofs, rsum]⟩
  | cons n nodes ih =>
    intro rf k hk
    obtain ⟨h0, hb⟩ := hn n List.mem_cons_self
    have hsplit : D.elmDofs (n :: nodes) = D.elmDofs [n] ++ D.elmDofs nodes := by simp [FEModel.elmDofs]
    rw [hsplit, List.length_append] at hk
    have key : ∃ rf1, s.reacNode eS (rf, k) n = some (rf1, k + (D.elmDofs [n]).length) ∧ rf1.length = rf.length ∧
        ∀ p : Int, 1 ≤ p → p ≤ rf.length → vval rf1 p = vval rf p + rsum s p (D.elmDofs [n]) (eS.drop k) := by
      unfold reacNode
      by_cases hneg : n < 0
      · rw [if_pos hneg]
        have a1 := hr.madof n.natAbs (by omega) (by omega)
        have a2 := hr.madof (n.natAbs+1) (by omega) (by omega)
        have e1 : at0? s.madof (-n-1) = some (D.firstDof n.natAbs : Int) := by
          rw [← a1]; unfold at1?; congr 1; omega
        have e2 : at0? s.madof (-n) = some (D.firstDof (n.natAbs+1) : Int) := by
          rw [← a2]; unfold at1?; congr 1; omega
        rw [e1, e2]
        have hd : D.elmDofs [n] = List.replicate (D.nndof.getD (n.natAbs-1) 0) none := by
          simp only [FEModel.elmDofs, List.flatMap_cons, List.flatMap_nil, List.append_nil]
          rw [if_neg (by omega), if_pos hneg]
        have hcount : ((D.firstDof (n.natAbs+1) : Int) - D.firstDof n.natAbs).toNat = D.nndof.getD (n.natAbs-1) 0 := by
          have := firstDof_succ D (n := n.natAbs) (by omega) (by omega)
          omega
        refine ⟨rf, ?_, rfl, ?_⟩
        · simp only [Option.bind_eq_bind, Option.bind_some]
          rw [hcount, hd, List.length_replicate]; rfl
        · intro p hp _
          rw [hd, rsum_none p hp, add_zero]
      · rw [if_neg hneg, if_pos (by omega)]
        have a1 := hr.madof n.toNat (by omega) (by omega)
        have a2 := hr.madof (n.toNat+1) (by omega) (by omega)
        have e1 : at0? s.madof (n-1) = some (D.firstDof n.toNat : Int) := by
          rw [← a1]; unfold at1?; congr 1; omega
        have e2 : at0? s.madof n = some (D.firstDof (n.toNat+1) : Int) := by
          rw [← a2]; unfold at1?; congr 1; omega
        rw [e1, e2]
        simp only [Option.bind_eq_bind, Option.bind_some]
        have hd : D.elmDofs [n] = (D.nodeDofs n.toNat).map some := by
          simp only [FEModel.elmDofs, List.flatMap_cons, List.flatMap_nil, List.append_nil]
          rw [if_pos (by omega)]
        have hcount : D.firstDof (n.toNat+1) = D.firstDof n.toNat + D.nndof.getD (n.toNat-1) 0 :=
          firstDof_succ D (n := n.toNat) (by omega) (by omega)
        have hrange : intRange (D.firstDof n.toNat : Int) (D.firstDof (n.toNat+1) : Int) =
            (D.nodeDofs n.toNat).map fun (j : Nat) => (j : Int) := by
          unfold intRange FEModel.nodeDofs
          have : ((D.firstDof (n.toNat+1) : Int) - D.firstDof n.toNat).toNat = D.nndof.getD (n.toNat-1) 0 := by omega
          rw [this, List.range'_eq_map_range, List.map_map]
          apply List.map_congr_left
          intro i _
          simp
        have hjs : ∀ j ∈ D.nodeDofs n.toNat, 1 ≤ j ∧ j ≤ s.msc.length := by
          intro j hj
          unfold FEModel.nodeDofs at hj
          rw [List.mem_range'_1] at hj
          have h1 : 1 ≤ D.firstDof n.toNat := by unfold FEModel.firstDof; omega
          have h2 := firstDof_le D (n.toNat + 1)
          have := hs.len
          have := hv.ndof
          omega
        rw [hrange]
        obtain ⟨rf', c1, c2, c3⟩ := reacDofs eS (D.nodeDofs n.toNat) hjs rf k (by
          rw [hd, List.length_map] at hk; omega)
        refine ⟨rf', ?_, c2, ?_⟩
        · rw [c1, hd, List.length_map]
        · rw [hd]; exact c3
    obtain ⟨rf1, b1, b2, b3⟩ := key
    obtain ⟨rf2, c1, c2, c3⟩ := ih (fun n h => hn n (List.mem_cons_of_mem _ h)) rf1 (k + (D.elmDofs [n]).length) (by omega)
    refine ⟨rf2, ?_, by omega, ?_⟩
    · rw [List.foldlM_cons, b1]
      simp only [Option.bind_eq_bind, Option.bind_some]
      rw [c1, hsplit, List.length_append, add_assoc]
    · intro p h1 h2
      rw [c3 p h1 (by omega), b3 p h1 h2, hsplit, rsum_append, List.drop_drop, add_assoc]

theorem assembleReactions_spec (hr : Ready s D) (hv : D.Valid) (hs : Slots s D) {iel : Nat}
    (hi : 1 ≤ iel ∧ iel ≤ D.elems.length) (eS : List R) (hl : eS.length = (D.dofsOf iel).length) (rf : List R) :
    ∃ rf', s.assembleReactions rf eS iel = some rf' ∧ rf'.length = rf.length ∧
    ∀ p : Int, 1 ≤ p → p ≤ rf.length → vval rf' p = vval rf p + rsum s p (D.dofsOf iel) eS := by
  obtain ⟨h1, h2⟩ := nodesOf_mem' hi
  obtain ⟨rf', a1, a2, a3⟩ := reacNodes hr hv hs eS (D.nodesOf iel) (fun n hn => hv.nodes _ h2 n hn) rf 0
    (by rw [hl]; unfold FEModel.dofsOf; omega)
  refine ⟨rf', ?_, a2, ?_⟩
  · unfold assembleReactions
    have e : (iel : Int) = ((iel - 1 : Nat) : Int) + 1 := by omega
    rw [e, getElmNodes_ready hr h1]
    simp only [Option.bind_eq_bind, Option.bind_some]
    rw [a1]; rfl
  · intro p h3 h4
    exact a3 p h3 h4

/-- The sum of the element-vector components at the suppressed DOF `d`. -/
theorem rsum_dof (hs : Slots s D) (hv : D.Valid) {d : Nat} (hd : D.Suppressed d) (os : List (Option Nat))
    (hos : ∀ o ∈ os, ∀ e, o = some e → D.Free e ∨ D.Suppressed e) (vs : List R) (hl : vs.length = os.length) :
    rsum s (slot s d) os vs = ∑ i : Fin os.length, if os[i] = some d then vval vs ((i : Int) + 1) else 0 := by
  induction os generalizing vs with
  | nil => simp [rsum]
  | cons o os ih =>
    cases vs with
    | nil => simp at hl
    | cons v vs =>
      have hp := hs.supp d hd
      have hc : slotO s o = slot s d ↔ o = some d := by
        cases o with
        | none => simp only [slotO]; constructor
                  · intro h; omega
                  · intro h; cases h
        | some e =>
          simp only [slotO, Option.some.injEq]
          constructor
          · intro h
            rcases hos _ List.mem_cons_self e rfl with hf | hsu
            · have := hs.free e hf; omega
            · exact hs.inj e d hsu hd h
          · rintro rfl; rfl
      rw [rsum, ih (fun o ho => hos o (List.mem_cons_of_mem _ ho)) vs (by simpa using hl)]
      simp only [List.length_cons, Fin.sum_univ_succ]
      congr 1
      · simp only [hc]
        rfl
      · apply Finset.sum_congr rfl
        intro i _
        have e1 : (o :: os)[i.succ] = os[i] := rfl
        have e2 : vval (v :: vs) (((i.succ : Fin _) : Nat) + 1 : Int) = vval vs ((i : Nat) + 1 : Int) := by
          unfold vval at1? at0?
          rw [if_pos (by omega), if_pos (by omega)]
          have : ((((i.succ : Fin _) : Nat) : Int) + 1 - 1).toNat = i.1 + 1 := by simp
          rw [this]
          have : (((i : Nat) : Int) + 1 - 1).toNat = i.1 := by omega
          rw [this]; rfl
        rw [e1, e2]

end IFEM.Spec
