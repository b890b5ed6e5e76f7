import Verif.Props.Rhs
import Verif.Props.PrescribedReactions
import Verif.Props.Sparse
/-!
# C15: no access outside the arrays

All model functions return `none` as soon as one of the C arrays is accessed outside its bounds
(`Verif/Model/Arrays.lean`), so `isSome` states memory safety (and acceptance).
-/
namespace IFEM.Props
open IFEM.Spec IFEM.Sam
variable {R : Type} [CommRing R]
attribute [-simp] Fin.getElem_fin

theorem uniqueEqns_isSome {s : Sam R} {D : FEModel R} (hr : Ready s D) (hv : D.Valid) {iel : Nat}
    (h1 : 1 ≤ iel) (h2 : iel ≤ D.elems.length) : (s.getUniqueEqns iel).isSome := by
  obtain ⟨a, b⟩ := nodesOf_mem' (D := D) ⟨h1, h2⟩
  have e : (iel : Int) = ((iel - 1 : Nat) : Int) + 1 := by omega
  unfold getUniqueEqns
  rw [e, getElmEqns_ready hr hv a 0 (Or.inr (Or.inl rfl))]
  have key : ∀ l : List (Option Nat), (∀ o ∈ l, ∀ d, o = some d → 1 ≤ d ∧ d ≤ D.status.length) →
      ∃ r, (l.map (eqvO s)).mapM (fun jeq =>
      if jeq < 0 then (s.masterTerms (-jeq)).mapM (fun t => t.map Prod.fst)
      else if jeq > 0 then some [jeq] else some []) = some r := by
    intro l hl
    rw [List.mapM_map]
    refine ⟨_, mapM_some l _ (fun o => if eqvO s o < 0 then (tmOf s D (eqvO s o)).map Prod.fst
      else if eqvO s o > 0 then [eqvO s o] else []) ?_⟩
    intro o ho
    simp only [Function.comp]
    by_cases hn : eqvO s o < 0
    · rw [if_pos hn, if_pos hn, (tm_facts hr hv (hl o ho) hn).1, List.mapM_map]
      exact mapM_some _ _ _ (fun t _ => rfl)
    · rw [if_neg hn, if_neg hn]
      split <;> rfl
  obtain ⟨r, hrr⟩ := key (D.elmDofs (D.nodesOf iel)) (fun o ho => dofs_ok hv b o ho)
  dsimp only
  rw [hrr]; rfl

/-- **C15**. For the tables of any valid model, no table access of equation numbering, element and nodal equation
lookup, coupling computation, assembly of vectors and matrices into dense storage (with and without matrix),
nodal and global loads, reaction assembly and look-up, expansion and extraction of solutions, and application of prescribed values
leaves its array. -/
theorem C15_memory_safe {s0 : Sam R} {D : FEModel R} (hp : Packs s0 D) (hv : D.Valid) (hfresh : s0.nspdof = 0) :
    ∃ s, s0.initSystemEquations = some (s, true) ∧
      (∀ iel : Nat, 1 ≤ iel → iel ≤ D.elems.length →
        (s.getElmNodes iel).isSome ∧ (s.getElmEqns iel 0).isSome ∧ (s.getUniqueEqns iel).isSome) ∧
      (∀ n : Nat, 1 ≤ n → n ≤ D.nndof.length → (s.getNodeEqns n).isSome) ∧
      s.getDofCouplings.isSome ∧
      (∀ (es : List (Elem R)), (∀ e ∈ es, ElemFits D e) →
        (s.assembleAll (Mat.zero s.neq s.neq, List.replicate s.neq 0) es).isSome ∧
        (s.assembleAllRhs (List.replicate s.neq 0) es).isSome ∧
        (es.foldlM (fun rf e => s.assembleReactions rf e.eF e.iel) (List.replicate s.nspdof 0)).isSome) ∧
      (∀ (rf : List R), rf.length = s.nspdof → ∀ n : Nat, 1 ≤ n → n ≤ D.nndof.length → (s.getNodalReactions n rf).isSome) ∧
      (∀ (B S : List R), B.length = s.neq → S.length = D.status.length → (s.addToRHS B S).isSome) ∧
      (∀ (x : List R) (scale : R), s.neq ≤ x.length → (s.expandVector x scale).isSome) ∧
      (∀ (u : List R), u.length = D.status.length → (s.getSolVec u).isSome ∧ (s.applyDirichlet u).isSome) := by
  obtain ⟨s, h⟩ := init_accepts hp hv
  have hr := ready_of_init hp hv h
  have hs := slots_of_init hp h hfresh
  refine ⟨s, h, ?_, ?_, ?_, ?_, ?_, ?_, ?_, ?_⟩
  · intro iel h1 h2
    obtain ⟨a, b⟩ := nodesOf_mem' (D := D) ⟨h1, h2⟩
    have e : (iel : Int) = ((iel - 1 : Nat) : Int) + 1 := by omega
    refine ⟨?_, ?_, uniqueEqns_isSome hr hv h1 h2⟩
    · rw [e, getElmNodes_ready hr a]; rfl
    · rw [e, getElmEqns_ready hr hv a 0 (Or.inr (Or.inl rfl))]; rfl
  · intro n h1 h2
    unfold getNodeEqns
    have hnn := hr.nnod
    have hcond : ¬ ((n:Int) < 1 ∨ (n:Int) > s.nnod) := by omega
    rw [if_neg hcond, nodeEqns_ready hr hv h1 h2]; rfl
  · obtain ⟨dofc, h1, -⟩ := C12_couplings hp hv h
    rw [h1]; rfl
  · intro es hes
    obtain ⟨K, B, a1, -⟩ := assembleAll_spec hr hv es hes (Mat.zero s.neq s.neq) (zero_wf _ _) rfl rfl
      (List.replicate s.neq 0) (by simp)
    obtain ⟨B', b1, -⟩ := assembleAllRhs_spec hr hv es hes (List.replicate s.neq 0) (by simp)
    obtain ⟨rf, c1, -⟩ := C38_reactions hp hv hfresh h es hes
    rw [a1, b1, c1]; exact ⟨rfl, rfl, rfl⟩
  · intro rf hrf n h1 h2
    rw [nodalReactions_spec hr hv hs rf hrf h1 h2]; rfl
  · intro B S hB hS
    obtain ⟨B', a1, -⟩ := C41_global_load hp hv h S hS B hB
    rw [a1]; rfl
  · intro x scale hx
    obtain ⟨u, a1, -⟩ := C07_expand hp hv h x hx scale
    rw [a1]; rfl
  · intro u hu
    obtain ⟨x, a1, -⟩ := C42_solution_vector hp hv h u hu
    obtain ⟨y, b1, -⟩ := C43_apply_dirichlet hp hv h u hu
    rw [a1, b1]; exact ⟨rfl, rfl⟩

end IFEM.Props
