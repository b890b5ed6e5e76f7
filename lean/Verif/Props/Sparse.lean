import Verif.Lemmas.SparseRounds
import Verif.Lemmas.Diag
import Verif.Props.Assembly
/-!
# Properties C11–C14: sparse and diagonal system matrices
-/
namespace IFEM.Props
open IFEM.Spec IFEM.Sam IFEM.Sparse
variable {R : Type} [CommRing R]

/-! ## C11 -/

/-- The matrix after a sequence of user operations. -/
def runOps (M : Sparse R) (ops : List (SpOp R)) : Sparse R := ops.foldl SpOp.run M

/-- The abstract matrix after the same operations; `sv` is the solver type chosen at construction. -/
noncomputable def absOps (sv : SparseSolver) (S : SpAbs R) (ops : List (SpOp R)) : SpAbs R :=
  ops.foldl (SpAbs.exec (decide (sv ≠ .none))) S

theorem runOps_impl (sv : SparseSolver) (ops : List (SpOp R)) : ∀ (M : Sparse R) (S : SpAbs R), Impl M S → M.solver = sv →
    Impl (runOps M ops) (absOps sv S ops) ∧ (runOps M ops).solver = sv := by
  induction ops with
  | nil => intro M S h1 h2; exact ⟨h1, h2⟩
  | cons op ops ih =>
    intro M S h1 h2
    obtain ⟨g1, g2⟩ := impl_exec h1 op
    rw [h2] at g1
    exact ih _ _ g1 (g2.trans h2)

/-- **C11**. After any sequence of additions, assignments, pattern lockings, compressions, scalings, clearings and
resizings of a new sparse matrix of any solver type, every read returns the value of the abstract matrix that went through
the same operations (no array is left), and the dimensions and the edit mode agree. -/
theorem C11_refines (sv : SparseSolver) (r c : Nat) (ops : List (SpOp R)) :
    let M := runOps ({ nrow := r, ncol := c, solver := sv } : Sparse R) ops
    let S := absOps sv (SpAbs.empty r c) ops
    (∀ i j, M.get? i j = some (S.val i j)) ∧ M.nrow = S.nrow ∧ M.ncol = S.ncol ∧ M.editable = S.mode := by
  obtain ⟨h, -⟩ := runOps_impl sv ops _ _ (impl_empty (R := R) r c sv) rfl
  exact ⟨h.val, h.nrow, h.ncol, h.mode⟩

/-- **C11** (acceptance). In every reachable state, an entry can be added or assigned exactly if its indices are in range
and the entry exists or the pattern is editable. -/
theorem C11_accepts (sv : SparseSolver) (r c : Nat) (ops : List (SpOp R)) (i j : Nat) (v : R) :
    let M := runOps ({ nrow := r, ncol := c, solver := sv } : Sparse R) ops
    let S := absOps sv (SpAbs.empty r c) ops
    ((M.addAt? i j v).isSome ↔ (1 ≤ i ∧ i ≤ S.nrow ∧ 1 ≤ j ∧ j ≤ S.ncol) ∧ (S.mode = .pattern ∨ S.has i j)) ∧
    ((M.setAt? i j v).isSome ↔ (1 ≤ i ∧ i ≤ S.nrow ∧ 1 ≤ j ∧ j ≤ S.ncol) ∧ (S.mode = .pattern ∨ S.has i j)) := by
  obtain ⟨h, -⟩ := runOps_impl sv ops _ _ (impl_empty (R := R) r c sv) rfl
  exact ⟨(impl_update h i j (· + v)).2.2, (impl_update h i j (fun _ => v)).2.2⟩

/-- **C11** (conversion). In every reachable state that is not yet compressed, `compressPattern` succeeds
for every solver type and changes no entry. -/
theorem C11_compress (sv : SparseSolver) (r c : Nat) (ops : List (SpOp R)) :
    let M := runOps ({ nrow := r, ncol := c, solver := sv } : Sparse R) ops
    M.editable ≠ .locked → ∃ M', M.compressPattern = some M' ∧ (∀ i j, M'.get? i j = M.get? i j) ∧
      (sv ≠ .none → M'.editable = .locked) := by
  intro M hM
  obtain ⟨h, hs⟩ := runOps_impl sv ops _ _ (impl_empty (R := R) r c sv) rfl
  obtain ⟨g1, g2, g3⟩ := impl_compress h
  have : M.compressPattern.isSome := g3.2 (Or.inr (by rw [← h.mode]; exact hM))
  obtain ⟨M', hM'⟩ := Option.isSome_iff_exists.1 this
  refine ⟨M', hM', ?_, ?_⟩
  · intro i j
    have e : (runOps ({ nrow := r, ncol := c, solver := sv } : Sparse R) ops).compressPattern = some M' := hM'
    rw [e, Option.getD_some] at g1
    rw [g1.val, h.val]
    split <;> rfl
  · intro hsv
    have e : (runOps ({ nrow := r, ncol := c, solver := sv } : Sparse R) ops).compressPattern = some M' := hM'
    rw [e, Option.getD_some, if_neg (by rw [hs]; exact hsv)] at g1
    exact g1.mode

/-- Sum of the values a sequence of additions puts at `(i,j)`. -/
def sumAt (i j : Nat) (ts : List (Nat × Nat × R)) : R := (ts.map fun t => if t.1 = i ∧ t.2.1 = j then t.2.2 else 0).sum

theorem absAdds (b : Bool) (ts : List (Nat × Nat × R)) : ∀ S : SpAbs R, S.mode = .pattern →
    (∀ t ∈ ts, 1 ≤ t.1 ∧ t.1 ≤ S.nrow ∧ 1 ≤ t.2.1 ∧ t.2.1 ≤ S.ncol) → ∀ i j,
    ((ts.map fun t => SpOp.add t.1 t.2.1 t.2.2).foldl (SpAbs.exec b) S).val i j = S.val i j + sumAt i j ts := by
  induction ts with
  | nil => intro S _ _ i j; simp [sumAt]
  | cons t ts ih =>
    intro S hm hr i j
    rw [List.map_cons, List.foldl_cons]
    have ht := hr t List.mem_cons_self
    have e : SpAbs.exec b S (.add t.1 t.2.1 t.2.2) = { S with
        has := fun i j => (i = t.1 ∧ j = t.2.1) ∨ S.has i j
        val := fun i j => if i = t.1 ∧ j = t.2.1 then S.val t.1 t.2.1 + t.2.2 else S.val i j } := by
      unfold SpAbs.exec SpAbs.update
      dsimp only
      rw [if_pos ⟨ht, Or.inl hm⟩]
    rw [e]
    rw [ih]
    rotate_left
    · exact hm
    · exact fun t' h' => hr t' (List.mem_cons_of_mem _ h')
    unfold sumAt
    rw [List.map_cons, List.sum_cons]
    dsimp only
    by_cases h : i = t.1 ∧ j = t.2.1
    · rw [if_pos h, if_pos ⟨h.1.symm, h.2.symm⟩, h.1, h.2]; ring
    · rw [if_neg h, if_neg (fun h' => h ⟨h'.1.symm, h'.2.symm⟩)]; ring

/-- **C11** (accumulation). Reading entry `(i,j)` after adding any values in any order to an editable matrix, before or
after compression, gives the sum of the values added there. -/
theorem C11_accumulates (sv : SparseSolver) (r c : Nat) (ts : List (Nat × Nat × R))
    (hts : ∀ t ∈ ts, 1 ≤ t.1 ∧ t.1 ≤ r ∧ 1 ≤ t.2.1 ∧ t.2.1 ≤ c) (i j : Nat) :
    (runOps ({ nrow := r, ncol := c, solver := sv } : Sparse R)
      (ts.map fun t => .add t.1 t.2.1 t.2.2)).get? i j = some (sumAt i j ts) ∧
    (runOps ({ nrow := r, ncol := c, solver := sv } : Sparse R)
      ((ts.map fun t => .add t.1 t.2.1 t.2.2) ++ [.compress])).get? i j = some (sumAt i j ts) := by
  have h := absAdds (decide (sv ≠ .none)) ts (SpAbs.empty r c) rfl hts i j
  have h0 : (SpAbs.empty r c : SpAbs R).val i j = 0 := rfl
  rw [h0, zero_add] at h
  constructor
  · rw [(C11_refines sv r c _).1]
    unfold absOps
    rw [h]
  · rw [(C11_refines sv r c _).1]
    unfold absOps
    rw [List.foldl_append, ← h]
    simp only [List.foldl_cons, List.foldl_nil]
    generalize List.foldl _ _ _ = S
    unfold SpAbs.exec
    dsimp only
    split <;> rfl

/-- A concrete run: repeated addition, compression to the column format, and an update of the compressed matrix. -/
example : (runOps ({ nrow := 2, ncol := 3, solver := .superlu } : Sparse ℤ)
    [.add 2 3 5, .add 1 1 2, .add 2 3 4, .compress, .add 2 3 1, .add 1 2 7]).get? 2 3 = some 10 := by decide

/-! ## C12 -/

/-- **C12** (pattern). The computed couplings are exactly the pairs of equations acted upon by a common element. -/
theorem C12_couplings {s0 s : Sam R} {D : FEModel R} (hp : Packs s0 D) (hv : D.Valid)
    (h : s0.initSystemEquations = some (s, true)) :
    ∃ dofc, s.getDofCouplings = some dofc ∧ dofc.length = s.neq ∧
    ∀ (k : Nat) (c : Int), (∃ row, dofc[k]? = some row ∧ c ∈ row) ↔
      ∃ iel, 1 ≤ iel ∧ iel ≤ D.elems.length ∧ ActsOn s D iel ((k : Int)+1) ∧ ActsOn s D iel c := by
  obtain ⟨dofc, h1, h2, -, h4⟩ := getDofCouplings_spec (ready_of_init hp hv h) hv
  exact ⟨dofc, h1, h2, h4⟩

/-- Any number of earlier assembly rounds into the same matrix object. -/
def earlierRounds (s : Sam R) (pre : Option Bool) (M : Sparse R) (rounds : List (List (Elem R))) : Option (Sparse R) :=
  rounds.foldlM (fun M es => do
    let M1 ← Sparse.initAssembly s M pre
    let (M2, _) ← Sparse.assembleAll s (M1, List.replicate s.neq 0) es
    return M2) M

theorem rounds_inv {s : Sam R} {D : FEModel R} (hr : Ready s D) (hv : D.Valid) (sv : SparseSolver) (pre : Option Bool)
    (hpre : pre = some false → sv = .superlu ∨ sv = .umfpack) (rounds : List (List (Elem R))) : ∀ (M : Sparse R),
    (M = ({ nrow := 0, ncol := 0, solver := sv } : Sparse R) ∨ RoundInv s D sv pre M) →
    (∀ es ∈ rounds, ∀ e ∈ es, ElemFits D e) →
    ∃ M1, earlierRounds s pre M rounds = some M1 ∧
      (M1 = ({ nrow := 0, ncol := 0, solver := sv } : Sparse R) ∨ RoundInv s D sv pre M1) := by
  induction rounds with
  | nil => intro M hM _; exact ⟨M, rfl, hM⟩
  | cons es rounds ih =>
    intro M hM hes
    obtain ⟨K, M1, M2, B, h1, h2, h3, h4, h5⟩ := round_spec hr hv sv pre hpre M hM es (hes es List.mem_cons_self)
    obtain ⟨M3, g1, g2⟩ := ih M2 (Or.inr h4) (fun es' h' => hes es' (List.mem_cons_of_mem _ h'))
    refine ⟨M3, ?_, g2⟩
    unfold earlierRounds
    rw [List.foldlM_cons, h1]
    simp only [Option.bind_eq_bind, Option.bind_some]
    rw [h2]
    exact g1

/-- **C12/C13**. Assembly into sparse storage of any solver type, with the pattern built on the fly (`pre = none`), or
preallocated and locked (`some true`: locked map; `some false`: directly compressed, column formats only), succeeds without
losing a coefficient and yields entry by entry the matrix, and the right-hand side, of dense assembly; also after any
number of earlier assembly rounds into the same matrix. -/
theorem C13_sparse_equals_dense {s0 s : Sam R} {D : FEModel R} (hp : Packs s0 D) (hv : D.Valid)
    (h : s0.initSystemEquations = some (s, true)) (sv : SparseSolver) (pre : Option Bool)
    (hpre : pre = some false → sv = .superlu ∨ sv = .umfpack)
    (rounds : List (List (Elem R))) (hrounds : ∀ es ∈ rounds, ∀ e ∈ es, ElemFits D e)
    (es : List (Elem R)) (hes : ∀ e ∈ es, ElemFits D e) :
    ∃ K M0 M1 M2 B, earlierRounds s pre ({ nrow := 0, ncol := 0, solver := sv } : Sparse R) rounds = some M0 ∧
      Sparse.initAssembly s M0 pre = some M1 ∧
      Sparse.assembleAll s (M1, List.replicate s.neq 0) es = some (M2, B) ∧
      s.assembleAll (Mat.zero s.neq s.neq, List.replicate s.neq 0) es = some (K, B) ∧
      ∀ r c : Nat, M2.get? r c = some (K.val r c) := by
  have hr := ready_of_init hp hv h
  obtain ⟨M0, h1, h2⟩ := rounds_inv hr hv sv pre hpre rounds _ (Or.inl rfl) hrounds
  obtain ⟨K, M1, M2, B, g1, g2, g3, g4, g5⟩ := round_spec hr hv sv pre hpre M0 h2 es hes
  obtain ⟨T, hT, -⟩ := g4.held
  refine ⟨K, M0, M1, M2, B, h1, g1, g2, g3, ?_⟩
  intro r c
  rw [get?_spec hT, ← spVal_spec hT, g5]

/-- **C12** (no coefficient is lost). Once the pattern is preallocated (either way), the contribution of every element of
the model, in any order and number, finds its entries. -/
theorem C12_preassembled_never_fails {s0 s : Sam R} {D : FEModel R} (hp : Packs s0 D) (hv : D.Valid)
    (h : s0.initSystemEquations = some (s, true)) (sv : SparseSolver) (delay : Bool)
    (hd : delay = false → sv = .superlu ∨ sv = .umfpack) (es : List (Elem R)) (hes : ∀ e ∈ es, ElemFits D e) :
    ∃ M1 M2 B, Sparse.initAssembly s ({ nrow := 0, ncol := 0, solver := sv } : Sparse R) (some delay) = some M1 ∧
      M1.editable ≠ .pattern ∧ Sparse.assembleAll s (M1, List.replicate s.neq 0) es = some (M2, B) := by
  have hr := ready_of_init hp hv h
  have hpre : some delay = some false → sv = .superlu ∨ sv = .umfpack := fun h => hd (Option.some.inj h)
  obtain ⟨M1', i1, i2, -⟩ := initAssembly_spec hr hv sv (some delay) hpre _ (Or.inl rfl)
  obtain ⟨K, M1, M2, B, g1, g2, g3, g4, g5⟩ := round_spec hr hv sv (some delay) hpre _ (Or.inl rfl) es hes
  rw [i1] at g1
  cases g1
  exact ⟨M1', M2, B, i1, fun h => (by have := i2.pat h; simp at this), g2⟩

/-- **C12** (limitation, finding F27). For the row-compressed format, preallocation without delay compresses an empty
pattern, and the very first element coefficient is lost: the hypothesis `hd` cannot be dropped. -/
theorem C12_row_format_counterexample :
    ∃ s M1, exampleTables.initSystemEquations = some (s, true) ∧
      Sparse.initAssembly s ({ nrow := 0, ncol := 0, solver := .samg } : Sparse ℤ) (some false) = some M1 ∧
      M1.size = 0 ∧ M1.addAt? 1 1 (4 : ℤ) = none := by
  refine ⟨_, _, rfl, rfl, by decide, by decide⟩

/-! ## C13: diagonal storage -/

/-- **C13** (diagonal). If no DOF occurs twice in the element, assembly into diagonal storage adds to every entry
the diagonal of the matrix dense assembly adds. -/
theorem C13_diagonal {s0 s : Sam R} {D : FEModel R} (hp : Packs s0 D) (hv : D.Valid)
    (h : s0.initSystemEquations = some (s, true)) (es : List (Elem R)) (hes : ∀ e ∈ es, ElemFits D e)
    (hnr : ∀ e ∈ es, NoRepeat D e.iel) :
    ∃ K B d, s.assembleAll (Mat.zero s.neq s.neq, List.replicate s.neq 0) es = some (K, B) ∧
      es.foldlM (fun d e => Diag.assembleMat s d e.eK e.iel) (List.replicate s.neq 0) = some d ∧
      d.length = s.neq ∧ ∀ r, vval d r = K.val r r := by
  have hr := ready_of_init hp hv h
  obtain ⟨K, B, h1, h2, h3, h4, h5, h6, h7⟩ := assembleAll_spec hr hv es hes (Mat.zero s.neq s.neq)
    (zero_wf _ _) rfl rfl (List.replicate s.neq 0) (by simp)
  have key : ∀ (es : List (Elem R)), (∀ e ∈ es, ElemFits D e) → (∀ e ∈ es, NoRepeat D e.iel) → ∀ d : List R, d.length = s.neq →
      ∃ d', es.foldlM (fun d e => Diag.assembleMat s d e.eK e.iel) d = some d' ∧ d'.length = s.neq ∧
        ∀ r, vval d' r = vval d r + (es.map fun e => elmK s D e r r).sum := by
    intro es
    induction es with
    | nil => intro _ _ d hd; exact ⟨d, rfl, hd, by simp⟩
    | cons e es ih =>
      intro hf hn d hd
      obtain ⟨d1, a1, a2, a3⟩ := diag_assembleMat hr hv (hf e List.mem_cons_self) (hn e List.mem_cons_self) d hd
      obtain ⟨d2, b1, b2, b3⟩ := ih (fun e he => hf e (List.mem_cons_of_mem _ he))
        (fun e he => hn e (List.mem_cons_of_mem _ he)) d1 a2
      refine ⟨d2, ?_, b2, ?_⟩
      · rw [List.foldlM_cons, a1]; exact b1
      · intro r
        rw [b3, a3, List.map_cons, List.sum_cons, add_assoc]
  obtain ⟨d, g1, g2, g3⟩ := key es hes hnr (List.replicate s.neq 0) (by simp)
  refine ⟨K, B, d, h1, g1, g2, ?_⟩
  intro r
  rw [g3, h6, vval_replicate, zero_val]

/-- The elements of the example model have no repeated DOF. -/
example : NoRepeat exampleModel 2 := by
  intro i j d hi hj
  revert i j
  have : exampleModel.dofsOf 2 = [some 3, some 4, some 5] := by decide
  unfold NoRepeat at *
  intro i j hi hj
  have hn : (exampleModel.dofsOf 2).Nodup := by decide
  have := (List.Nodup.getElem_inj_iff hn (hi := i.2) (hj := j.2)).1 (hi.trans hj.symm)
  exact Fin.ext this

/-! ## C14 -/

/-- **C14** (product). In every consistent storage state (for UMFPACK: unless compressed), the product with any vector of
sufficient length is the matrix-vector product of the entries. -/
theorem C14_multiply (sv : SparseSolver) (r c : Nat) (ops : List (SpOp R)) (x : List R) :
    let M := runOps ({ nrow := r, ncol := c, solver := sv } : Sparse R) ops
    let S := absOps sv (SpAbs.empty r c) ops
    (M.editable = .locked → sv ≠ .umfpack) → S.ncol ≤ x.length →
    ∃ y, M.multiply x = some y ∧ y.length = S.nrow ∧
      ∀ i : Nat, vval y i = ∑ j ∈ Finset.Icc 1 S.ncol, S.val i j * vval x (j : Int) := by
  intro M S hu hx
  obtain ⟨h, hs⟩ := runOps_impl sv ops _ _ (impl_empty (R := R) r c sv) rfl
  obtain ⟨T, hT, -⟩ := h.held
  obtain ⟨y, h1, h2, h3⟩ := multiply_spec hT (fun hl => by rw [hs]; exact hu hl) x (by rw [h.ncol]; exact hx)
  refine ⟨y, h1, h2.trans h.nrow, ?_⟩
  intro i
  rw [h3, h.ncol]
  apply Finset.sum_congr rfl
  intro j _
  congr 1
  unfold SpVal
  rw [h.val]; rfl

/-- **C14** (limitation, finding F4). A compressed UMFPACK matrix (column format) is multiplied as if it were in
row format: the code reads outside the index array. -/
theorem C14_umfpack_counterexample :
    (runOps ({ nrow := 1, ncol := 1, solver := .umfpack } : Sparse ℤ) [.add 1 1 2, .compress]).multiply [3] = none := by
  decide

/-- **C14** (sum, editable target). Adding `alpha·B` to a matrix with editable pattern, for `B` in any state in the same
compressed format (or not compressed), adds `alpha` times every entry. -/
theorem C14_add_pattern (sv svB : SparseSolver) (r c rB cB : Nat) (ops opsB : List (SpOp R)) (alpha : R) :
    let M := runOps ({ nrow := r, ncol := c, solver := sv } : Sparse R) ops
    let B := runOps ({ nrow := rB, ncol := cB, solver := svB } : Sparse R) opsB
    M.editable = .pattern → (B.editable = .locked → B.colFormat = M.colFormat) → B.nrow ≤ M.nrow → B.ncol ≤ M.ncol →
    ∃ M', M.add B alpha false = some M' ∧ ∀ i j, SpVal M' i j = SpVal M i j + alpha * SpVal B i j := by
  intro M B hM hB h1 h2
  obtain ⟨h, -⟩ := runOps_impl sv ops _ _ (impl_empty (R := R) r c sv) rfl
  obtain ⟨g, -⟩ := runOps_impl svB opsB _ _ (impl_empty (R := R) rB cB svB) rfl
  obtain ⟨T, hT, -⟩ := h.held
  obtain ⟨TB, hTB, -⟩ := g.held
  obtain ⟨M', T', a1, a2, a3, a4, a5, a6, a7⟩ := add_spec_pattern hT hTB hM hB h1 h2 alpha
  exact ⟨M', a1, a7⟩

/-- **C14** (sum, compressed target). If adding a compressed matrix to a compressed one is accepted, every entry
is incremented correctly. -/
theorem C14_add_locked (sv svB : SparseSolver) (r c rB cB : Nat) (ops opsB : List (SpOp R)) (alpha : R) :
    let M := runOps ({ nrow := r, ncol := c, solver := sv } : Sparse R) ops
    let B := runOps ({ nrow := rB, ncol := cB, solver := svB } : Sparse R) opsB
    M.editable = .locked → B.editable = .locked → B.colFormat = M.colFormat → B.nrow ≤ M.nrow → B.ncol ≤ M.ncol →
    ∀ M', M.add B alpha false = some M' → ∀ i j, SpVal M' i j = SpVal M i j + alpha * SpVal B i j := by
  intro M B hM hB hf h1 h2 M' hadd
  obtain ⟨h, -⟩ := runOps_impl sv ops _ _ (impl_empty (R := R) r c sv) rfl
  obtain ⟨g, -⟩ := runOps_impl svB opsB _ _ (impl_empty (R := R) rB cB svB) rfl
  obtain ⟨T, hT, -⟩ := h.held
  obtain ⟨TB, hTB, -⟩ := g.held
  obtain ⟨T', a2, a3, a4, a5, a6, a7⟩ := add_spec_locked hT hTB hM hB hf h1 h2 alpha hadd
  exact a7

/-- A concrete sum of two compressed matrices. -/
example : let M := runOps ({ nrow := 2, ncol := 2, solver := .samg } : Sparse ℤ) [.add 1 2 3, .add 2 2 5, .compress]
    let B := runOps ({ nrow := 2, ncol := 2, solver := .samg } : Sparse ℤ) [.add 2 2 1, .add 1 2 7, .compress]
    M.editable = .locked ∧ B.editable = .locked ∧ ∃ M', M.add B 2 false = some M' ∧ M'.get? 1 2 = some 17 := by
  exact ⟨rfl, rfl, _, rfl, by decide⟩

/-- **C14** (limitation, finding F6). The format of `B` is guessed from the solver of the target: adding a row-compressed
matrix to an editable matrix of column type reads outside the arrays, so the format hypothesis cannot be dropped. -/
theorem C14_mixed_format_counterexample :
    let M := ({ nrow := 1, ncol := 1, solver := .superlu } : Sparse ℤ)
    let B := runOps ({ nrow := 1, ncol := 1, solver := .samg } : Sparse ℤ) [.add 1 1 2, .compress]
    M.add B 1 false = none := by decide

end IFEM.Props
