import Verif.Lemmas.SparseFE
import Verif.Lemmas.SparseMachine
/-! Repeated assembly into the same sparse matrix. -/
namespace IFEM.Spec
open IFEM.Sam
variable {R : Type} [CommRing R] {s : Sam R} {D : FEModel R}
attribute [-simp] Fin.getElem_fin

/-- Storage ready for the assembly of the model. -/
structure RoundInv (s : Sam R) (D : FEModel R) (sv : SparseSolver) (pre : Option Bool) (M : Sparse R) : Prop where
  sv : M.solver = sv
  nrow : M.nrow = s.neq
  ncol : M.ncol = s.neq
  pat : M.editable = .pattern → pre = none
  held : ∃ T, Holds M T ∧ ∀ iel, 1 ≤ iel → iel ≤ D.elems.length → Takes s D M T iel

theorem initAssembly_spec (hr : Ready s D) (hv : D.Valid) (sv : SparseSolver) (pre : Option Bool)
    (hpre : pre = some false → sv = .superlu ∨ sv = .umfpack) (M : Sparse R)
    (hM : M = ({ nrow := 0, ncol := 0, solver := sv } : Sparse R) ∨ RoundInv s D sv pre M) :
    ∃ M', Sparse.initAssembly s M pre = some M' ∧ RoundInv s D sv pre M' ∧ ∀ r c, SpVal M' r c = 0 := by
  have hfresh : ∀ N : Sparse R, (∃ T, Holds N T) → N.editable = .pattern → N.nrow = s.neq → N.ncol = s.neq →
      N.solver = sv → (∀ r c, SpVal N r c = 0) →
      ∃ M', (match pre with | some delay => N.preAssemble s delay | none => some N) = some M' ∧
        RoundInv s D sv pre M' ∧ ∀ r c, SpVal M' r c = 0 := by
    rintro N ⟨T, hT⟩ he h1 h2 h3 hz
    cases pre with
    | none => exact ⟨N, rfl, ⟨h3, h1, h2, fun _ => rfl, T, hT, fun _ _ _ => Or.inl he⟩, hz⟩
    | some delay =>
      have hd : delay = true ∨ N.colFormat = true := by
        cases delay
        · right
          unfold Sparse.colFormat
          rcases hpre rfl with h | h <;> rw [h3, h] <;> rfl
        · left; rfl
      obtain ⟨M', T', g1, g2, g3, g4, g5, g6, g7, g8⟩ := preAssemble_spec hr hv N T hT he h1 h2 hz delay hd
      refine ⟨M', g1, ⟨g6.trans h3, g3, g4, ?_, T', g2, g8⟩, g7⟩
      intro hp; rw [g5] at hp; cases delay <;> simp at hp
  unfold Sparse.initAssembly
  rcases hM with rfl | ⟨h1, h2, h3, h4, T, hT, h5⟩
  · obtain ⟨T', g1, g2, g3, g4, g5⟩ := resize_spec
      (holds_empty (R := R) 0 0 sv) s.neq s.neq false
    refine hfresh _ ⟨T', g1⟩ ?_ g3 ?_ g5 g2
    · unfold Sparse.resize; dsimp only; split <;> split <;> rfl
    · rw [g4]; split <;> omega
  · -- the pattern is retained
    have hres : M.resize s.neq s.neq = { M with elem := M.elem.map fun p => (p.1, 0), A := M.A.map fun _ => 0 } := by
      unfold Sparse.resize
      dsimp only
      rw [if_pos]
      refine ⟨h2.symm, ?_, rfl⟩
      rw [h3]; split <;> omega
    have hmap := holds_map hT (fun _ => 0) (M.elem.map fun p => (p.1, 0)) (M.A.map fun _ => 0) (fun _ => rfl) rfl
    have hz : ∀ r c, SpVal (M.resize s.neq s.neq) r c = 0 := by
      intro r c
      rw [hres, spVal_spec hmap, find?_map_val (fun _ => 0)]
      cases VMap.find? T (r, c) <;> simp
    have hkeys : (T.map fun p => (p.1, (0 : R))).map Prod.fst = T.map Prod.fst := by rw [List.map_map]; rfl
    have hinv : RoundInv s D sv pre (M.resize s.neq s.neq) := by
      rw [hres]
      refine ⟨h1, h2, h3, h4, _, hmap, ?_⟩
      intro iel a b
      exact takes_mono (h5 iel a b) rfl (fun k hk => by rw [hkeys]; exact hk)
    by_cases hp : M.editable = .pattern
    · rw [h4 hp]
      dsimp only
      exact ⟨_, rfl, h4 hp ▸ hinv, hz⟩
    · cases pre with
      | none => exact ⟨_, rfl, hinv, hz⟩
      | some delay =>
        refine ⟨_, ?_, hinv, hz⟩
        dsimp only
        unfold Sparse.preAssemble
        obtain ⟨dofc, g, -⟩ := getDofCouplings_spec hr hv
        rw [g]
        simp only [Option.bind_eq_bind, Option.bind_some]
        unfold Sparse.preAssemblePat
        rw [if_pos]
        rw [hres]; exact hp

theorem round_spec (hr : Ready s D) (hv : D.Valid) (sv : SparseSolver) (pre : Option Bool)
    (hpre : pre = some false → sv = .superlu ∨ sv = .umfpack) (M : Sparse R)
    (hM : M = ({ nrow := 0, ncol := 0, solver := sv } : Sparse R) ∨ RoundInv s D sv pre M)
    (es : List (Elem R)) (hes : ∀ e ∈ es, ElemFits D e) :
    ∃ K M1 M2 B, Sparse.initAssembly s M pre = some M1 ∧
      Sparse.assembleAll s (M1, List.replicate s.neq 0) es = some (M2, B) ∧
      s.assembleAll (Mat.zero s.neq s.neq, List.replicate s.neq 0) es = some (K, B) ∧
      RoundInv s D sv pre M2 ∧ ∀ r c : Nat, SpVal M2 r c = K.val r c := by
  obtain ⟨M1, h1, ⟨i1, i2, i3, i4, T, hT, i5⟩, h3⟩ := initAssembly_spec hr hv sv pre hpre M hM
  obtain ⟨K, M2, B, T', g1, g2, g3, g4, g5, g6, g7, g8, g9⟩ := sparse_assembleAll hr hv es hes (Mat.zero s.neq s.neq)
    (zero_wf _ _) rfl rfl (List.replicate s.neq 0) (by simp) M1 T hT i2 i3
    (fun e he => i5 e.iel (hes e he).range.1 (hes e he).range.2) (by intro r c; rw [h3, zero_val])
  refine ⟨K, M1, M2, B, h1, g2, g1, ⟨g7.trans i1, g4, g5, fun h => i4 (g6 ▸ h), T', g3, ?_⟩, g9⟩
  intro iel a b
  exact takes_mono (i5 iel a b) g6 g8

end IFEM.Spec
