import Verif.Lemmas.SysMat
import Verif.Lemmas.Diag
import Verif.Props.Sparse
import Mathlib.Algebra.BigOperators.Intervals
/-!
# Property C63: equations without contributions

`Touched s D es r`: some element of the list `es` acts on equation `r`, i.e. one of its DOFs owns the equation or is
prescribed by a constraint with a master DOF owning it (`ActsOn`, Spec/Coupling.lean).
-/
namespace IFEM.Props
open IFEM.Spec IFEM.Sam IFEM.SysMat
variable {R : Type} [CommRing R]

/-- Some element of the list acts on equation `r`. -/
def Touched (s : Sam R) (D : FEModel R) (es : List (Elem R)) (r : Int) : Prop := ∃ e ∈ es, ActsOn s D e.iel r

theorem dense_addDiag_spec {n : Nat} (K : Mat R) (hK : K.WF ∧ K.nrow = n ∧ K.ncol = n) (σ : R) (i : Nat) (h1 : 1 ≤ i) (h2 : i ≤ n) :
    ∃ K', denseAddDiag K σ i = some K' ∧ (K'.WF ∧ K'.nrow = n ∧ K'.ncol = n) ∧
      ∀ r c : Nat, K'.val r c = K.val r c + if r = c ∧ r = i then σ else 0 := by
  unfold denseAddDiag
  rw [if_neg (by omega), if_pos (by omega)]
  obtain ⟨K', g1, g2, g3, g4, g5⟩ := Mat.addAt?_spec K hK.1 (i : Int) (i : Int) σ (by omega)
  refine ⟨K', g1, ⟨g2, g3.trans hK.2.1, g4.trans hK.2.2⟩, ?_⟩
  intro r c
  rw [g5]
  congr 1
  by_cases h : r = c ∧ r = i
  · rw [if_pos h, if_pos (by omega)]
  · rw [if_neg h, if_neg (by omega)]

/-- The coefficients of the elements in the list vanish in the rows and columns of untouched equations. -/
theorem untouched_zero {s : Sam R} {D : FEModel R} (hr : Ready s D) (hv : D.Valid) (es : List (Elem R))
    (hes : ∀ e ∈ es, ElemFits D e) {K : Mat R} {B : List R}
    (h6 : ∀ r c, K.val r c = (Mat.zero (R := R) s.neq s.neq).val r c + (es.map fun e => elmK s D e r c).sum)
    (h7 : ∀ r, vval B r = vval (List.replicate s.neq (0 : R)) r + (es.map fun e => elmB s D e r).sum)
    (r : Int) (h : ¬ Touched s D es r) : (∀ c, K.val r c = 0 ∧ K.val c r = 0) ∧ vval B r = 0 := by
  have key : ∀ e ∈ es, ∀ c, elmK s D e r c = 0 ∧ elmK s D e c r = 0 ∧ elmB s D e r = 0 :=
    fun e he c => elmK_zero hr hv (hes e he) (fun h' => h ⟨e, he, h'⟩) c
  refine ⟨fun c => ⟨?_, ?_⟩, ?_⟩
  · rw [h6, zero_val, zero_add]
    apply List.sum_eq_zero
    intro x hx
    obtain ⟨e, he, rfl⟩ := List.mem_map.1 hx
    exact (key e he c).1
  · rw [h6, zero_val, zero_add]
    apply List.sum_eq_zero
    intro x hx
    obtain ⟨e, he, rfl⟩ := List.mem_map.1 hx
    exact (key e he c).2.1
  · rw [h7, vval_replicate, zero_add]
    apply List.sum_eq_zero
    intro x hx
    obtain ⟨e, he, rfl⟩ := List.mem_map.1 hx
    exact (key e he 0).2.2

/-- The coefficients of the final matrix: those of the assembled matrix for touched equations,
and a decoupled equation `10⁹·x = …` for the others. -/
def Completed (n : Nat) (T : Int → Prop) (V V' : Nat → Nat → R) : Prop :=
  (∀ r c : Nat, T r → V' r c = V r c) ∧ (∀ r c : Nat, T c → V' r c = V r c) ∧
  (∀ r : Nat, 1 ≤ r → r ≤ n → ¬ T r → V' r r = 10 ^ 9) ∧
  ∀ r c : Nat, ¬ T r → r ≠ c → V' r c = 0 ∧ V' c r = 0

theorem completed_of {n : Nat} {T : Int → Prop} {V V' : Nat → Nat → R} {f : List Bool} (hf : f.length = n)
    (hT : ∀ r : Int, Flag f r ↔ T r) (hz : ∀ r : Int, ¬ T r → ∀ c : Nat, ∀ r' : Nat, (r' : Int) = r → V r' c = 0 ∧ V c r' = 0)
    (h : ∀ r c, ((r = c ∧ 1 ≤ r ∧ r ≤ f.length ∧ ¬ Flag f r) → V' r c = V r c + 10 ^ 9) ∧
      (¬ (r = c ∧ 1 ≤ r ∧ r ≤ f.length ∧ ¬ Flag f r) → V' r c = V r c)) :
    Completed n T V V' := by
  refine ⟨?_, ?_, ?_, ?_⟩
  · intro r c hr
    exact (h r c).2 (fun hh => hh.2.2.2 ((hT r).2 hr))
  · intro r c hc
    refine (h r c).2 (fun hh => hh.2.2.2 ((hT r).2 ?_))
    rw [hh.1]; exact hc
  · intro r h1 h2 h3
    rw [(h r r).1 ⟨rfl, h1, by omega, fun hh => h3 ((hT r).1 hh)⟩, (hz r h3 r r rfl).1, zero_add]
  · intro r c h1 h2
    rw [(h r c).2 (fun hh => h2 hh.1), (h c r).2 (fun hh => h2 hh.1.symm)]
    exact hz r h1 c r rfl

open Classical in
theorem C63_main {s : Sam R} {D : FEModel R} (hr : Ready s D) (hv : D.Valid) (hn : 2 ≤ s.neq)
    (es : List (Elem R)) (hes : ∀ e ∈ es, ElemFits D e) :
    ∃ K B f, SysMat.assembleAll s s.assembleElm ((Mat.zero s.neq s.neq, List.replicate s.neq 0), initFlags s.neq) es =
        some ((K, B), f) ∧ s.assembleAll (Mat.zero s.neq s.neq, List.replicate s.neq 0) es = some (K, B) ∧
      K.WF ∧ K.nrow = s.neq ∧ K.ncol = s.neq ∧ f.length = s.neq ∧ (∀ r, Flag f r ↔ Touched s D es r) ∧
      ∀ r, ¬ Touched s D es r → (∀ c, K.val r c = 0 ∧ K.val c r = 0) ∧ vval B r = 0 := by
  obtain ⟨K, B, h1, h2, h3, h4, h5, h6, h7⟩ := assembleAll_spec hr hv es hes (Mat.zero s.neq s.neq) (zero_wf _ _) rfl rfl
    (List.replicate s.neq 0) (by simp)
  obtain ⟨f, g1, g2, g3⟩ := assembleAll_flags hr hv hn s.assembleElm es _ _ (initFlags s.neq) (by simp [initFlags]) hes h1
  refine ⟨K, B, f, g1, h1, h2, h3, h4, g2, ?_, ?_⟩
  · intro r
    rw [g3]
    simp only [initFlags_flag, false_or]
    rfl
  · intro r hrr
    exact untouched_zero hr hv es hes h6 h7 r hrr

/-- **C63** (dense storage). For every valid model with at least two equations, every list of its elements, in any order and
with repetitions, is assembled; afterwards exactly the equations touched by an element of the list are flagged, and the rows,
columns and right-hand side of the others are zero.  `endAssembly` leaves the matrix as it is if nothing was touched; otherwise
it makes every untouched equation a decoupled one with the pivot `10⁹`, changes no other coefficient, and flags all equations. -/
theorem C63_dense {s0 s : Sam R} {D : FEModel R} (hp : Packs s0 D) (hv : D.Valid)
    (h : s0.initSystemEquations = some (s, true)) (hn : 2 ≤ s.neq) (es : List (Elem R)) (hes : ∀ e ∈ es, ElemFits D e) :
    ∃ K B f, SysMat.assembleAll s s.assembleElm ((Mat.zero s.neq s.neq, List.replicate s.neq 0), initFlags s.neq) es =
        some ((K, B), f) ∧
      (∀ r, at1? f r = some true ↔ Touched s D es r) ∧
      (isZero K.nrow f = true ↔ ∀ r, ¬ Touched s D es r) ∧
      (∀ r, ¬ Touched s D es r → (∀ c, K.val r c = 0 ∧ K.val c r = 0) ∧ vval B r = 0) ∧
      ((∀ r, ¬ Touched s D es r) → endAssembly (fun K : Mat R => K.nrow) denseAddDiag (K, f) = some (K, f)) ∧
      ((∃ r, Touched s D es r) → ∃ K' f', endAssembly (fun K : Mat R => K.nrow) denseAddDiag (K, f) = some (K', f') ∧
        K'.WF ∧ K'.nrow = s.neq ∧ K'.ncol = s.neq ∧ (∀ r : Nat, 1 ≤ r → r ≤ s.neq → at1? f' r = some true) ∧
        Completed s.neq (Touched s D es) (fun r c => K.val r c) (fun r c => K'.val r c)) := by
  classical
  obtain ⟨K, B, f, g1, -, g2, g3, g4, g5, g6, g7⟩ := C63_main (ready_of_init hp hv h) hv hn es hes
  have hK1 : 1 ≤ K.nrow := by omega
  obtain ⟨e1, e2⟩ := end_spec (fun K : Mat R => K.nrow) denseAddDiag (fun K => K.WF ∧ K.nrow = s.neq ∧ K.ncol = s.neq)
    (fun K r c => K.val r c) K f (by omega) hK1 ⟨g2, g3, g4⟩
    (fun i h1 h2 _ m hm => dense_addDiag_spec m hm _ i h1 (by omega))
  refine ⟨K, B, f, g1, g6, ?_, g7, ?_, ?_⟩
  · have := isZero_false (f := f) hK1
    rw [← Bool.not_eq_false, this]
    simp only [g6, not_exists]
  · intro hz
    exact e1 (fun ⟨r, hr⟩ => hz r ((g6 r).1 hr))
  · rintro ⟨r, hr⟩
    obtain ⟨K', f', k1, k2, k3, k4, k5⟩ := e2 ⟨r, (g6 r).2 hr⟩
    refine ⟨K', f', k1, k2.1, k2.2.1, k2.2.2, fun r h1 h2 => k4 r h1 (by omega), ?_⟩
    refine completed_of g5 g6 (fun r hr c r' he => by subst he; exact (g7 _ hr).1 c) ?_
    intro r c
    constructor
    · intro hc; rw [k5, if_pos hc]
    · intro hc; rw [k5, if_neg hc, add_zero]

/-- **C63** (sparse storage). The same for every sparse storage type and every way of building the pattern; with a preallocated
pattern it is required that every equation is acted upon by some element of the model (see `C63_sparse_counterexample`). -/
theorem C63_sparse {s0 s : Sam R} {D : FEModel R} (hp : Packs s0 D) (hv : D.Valid)
    (h : s0.initSystemEquations = some (s, true)) (hn : 2 ≤ s.neq) (sv : SparseSolver) (pre : Option Bool)
    (hpre : pre = some false → sv = .superlu ∨ sv = .umfpack)
    (hall : pre ≠ none → ∀ r : Int, 1 ≤ r → r ≤ s.neq → ∃ iel, 1 ≤ iel ∧ iel ≤ D.elems.length ∧ ActsOn s D iel r)
    (es : List (Elem R)) (hes : ∀ e ∈ es, ElemFits D e) :
    ∃ M0 M B f, Sparse.initAssembly s ({ nrow := 0, ncol := 0, solver := sv } : Sparse R) pre = some M0 ∧
      SysMat.assembleAll s (Sparse.assembleElm s) ((M0, List.replicate s.neq 0), initFlags s.neq) es = some ((M, B), f) ∧
      (∀ r, at1? f r = some true ↔ Touched s D es r) ∧
      (∀ r : Nat, ¬ Touched s D es r → (∀ c : Nat, SpVal M r c = 0 ∧ SpVal M c r = 0) ∧ vval B r = 0) ∧
      ((∀ r, ¬ Touched s D es r) → endAssembly (fun M : Sparse R => M.nrow) Sparse.addDiag (M, f) = some (M, f)) ∧
      ((∃ r, Touched s D es r) → ∃ M' f', endAssembly (fun M : Sparse R => M.nrow) Sparse.addDiag (M, f) = some (M', f') ∧
        M'.nrow = s.neq ∧ M'.ncol = s.neq ∧ (∀ r : Nat, 1 ≤ r → r ≤ s.neq → at1? f' r = some true) ∧
        Completed s.neq (Touched s D es) (SpVal M) (SpVal M')) := by
  classical
  have hr := ready_of_init hp hv h
  obtain ⟨K, B, f, g1, g1', g2, g3, g4, g5, g6, g7⟩ := C63_main hr hv hn es hes
  obtain ⟨K', M0, M, B', a1, a2, a3, a4, a5⟩ := round_spec hr hv sv pre hpre _ (Or.inl rfl) es hes
  rw [g1'] at a3
  cases a3
  obtain ⟨f2, b1, b2, b3⟩ := assembleAll_flags hr hv hn (Sparse.assembleElm s) es _ _ (initFlags s.neq) (by simp [initFlags]) hes a2
  have b3' : ∀ r, Flag f2 r ↔ Touched s D es r := by
    intro r; rw [b3]; simp only [initFlags_flag, false_or]; rfl
  obtain ⟨c1, c2, c3, c4, T, c5, c6⟩ := a4
  have hM1 : 1 ≤ M.nrow := by omega
  -- the diagonal can be written
  have hw : M.editable = .pattern ∨ ∀ i : Nat, 1 ≤ i → i ≤ s.neq → (i, i) ∈ T.map Prod.fst := by
    by_cases hpat : M.editable = .pattern
    · exact Or.inl hpat
    · right
      intro i h1 h2
      by_cases hpn : pre = none
      · -- without preassembly the pattern stays editable
        exfalso
        apply hpat
        subst hpn
        have e0 : M0.editable = .pattern := by
          unfold Sparse.initAssembly at a1
          dsimp only at a1
          cases a1
          unfold Sparse.resize
          dsimp only
          split
          · split <;> rfl
          · split <;> rfl
        obtain ⟨M0', x1, ⟨y1, y2, y3, y4, T0, y5, y6⟩, x3⟩ := initAssembly_spec hr hv sv none hpre _ (Or.inl rfl)
        rw [a1] at x1
        cases x1
        obtain ⟨_, M2, _, _, _, z2, _, _, _, z6, _⟩ := sparse_assembleAll hr hv es hes (Mat.zero s.neq s.neq)
          (zero_wf _ _) rfl rfl (List.replicate s.neq 0) (by simp) M0 T0 y5 y2 y3
          (fun e he => y6 e.iel (hes e he).range.1 (hes e he).range.2) (by intro r c; rw [x3, zero_val])
        rw [a2] at z2
        cases z2
        rw [z6, e0]
      · obtain ⟨iel, i1, i2, i3⟩ := hall hpn (i : Int) (by omega) (by omega)
        rcases c6 iel i1 i2 with ht | ht
        · exact absurd ht hpat
        · have := ht i i i3 i3
          rwa [Int.toNat_natCast] at this
  let Inv : Sparse R → Prop := fun N => N.nrow = s.neq ∧ N.ncol = s.neq ∧ N.editable = M.editable ∧
    ∃ T', Holds N T' ∧ ∀ k, k ∈ T.map Prod.fst → k ∈ T'.map Prod.fst
  obtain ⟨e1, e2⟩ := end_spec (fun M : Sparse R => M.nrow) Sparse.addDiag Inv SpVal M f2 (by omega) hM1
    ⟨c2, c3, rfl, T, c5, fun _ h => h⟩ (by
      rintro i h1 h2 - N ⟨n1, n2, n3, T', n4, n5⟩
      unfold Sparse.addDiag
      rw [if_neg (by omega), if_pos (by omega), Int.toNat_natCast]
      obtain ⟨N', T'', m1, m2, m3, m4, m5, m6, m7, m8⟩ := modify?_spec n4 (· + 10 ^ 9) i i (by omega) (by
        rcases hw with hw | hw
        · exact Or.inl (n3.trans hw)
        · exact Or.inr (n5 _ (hw i h1 (by omega))))
      refine ⟨N', m1, ⟨m3.trans n1, m4.trans n2, m5.trans n3, T'', m2, ?_⟩, ?_⟩
      · intro k hk
        rw [m8]; exact Or.inr (n5 k hk)
      · intro r c
        rw [spVal_spec m2, spVal_spec n4, m7]
        by_cases hrc : r = c ∧ r = i
        · rw [if_pos hrc, if_pos (by rw [← hrc.1, hrc.2])]
          obtain ⟨rfl, rfl⟩ := hrc
          rfl
        · rw [if_neg hrc, add_zero, if_neg]
          intro he
          simp only [Prod.mk.injEq] at he
          exact hrc ⟨he.1.trans he.2.symm, he.1⟩)
  refine ⟨M0, M, B, f2, a1, b1, b3', ?_, ?_, ?_⟩
  · intro r hrr
    refine ⟨fun c => ?_, (g7 r hrr).2⟩
    rw [a5, a5]
    exact (g7 r hrr).1 c
  · intro hz
    exact e1 (fun ⟨r, hr⟩ => hz r ((b3' r).1 hr))
  · rintro ⟨r, hrr⟩
    obtain ⟨M', f', k1, k2, k3, k4, k5⟩ := e2 ⟨r, (b3' r).2 hrr⟩
    refine ⟨M', f', k1, k2.1, k2.2.1, fun r h1 h2 => k4 r h1 (by omega), ?_⟩
    refine completed_of b2 b3' (fun r hr c r' he => by
      subst he
      rw [a5, a5]
      exact (g7 _ hr).1 c) ?_
    intro r c
    constructor
    · intro hc; rw [k5, if_pos hc]
    · intro hc; rw [k5, if_neg hc, add_zero]

/-- **C63** (consequence for the solution). Let `V'` be the completed matrix and `b` a right-hand side vanishing in the untouched
equations.  Then `x` solves the completed system if and only if `x` is zero in the untouched equations and the touched equations
of the original matrix hold; so the dummy equations influence no other unknown. -/
theorem C63_solution {F : Type} [Field F] [CharZero F] {n : Nat} {T : Int → Prop} {V V' : Nat → Nat → F}
    (h : Completed n T V V') (hz : ∀ r c : Nat, ¬ T r → V r c = 0 ∧ V c r = 0) (b x : Nat → F) (hb : ∀ r : Nat, ¬ T r → b r = 0) :
    (∀ r ∈ Finset.Icc 1 n, ∑ c ∈ Finset.Icc 1 n, V' r c * x c = b r) ↔
    (∀ r ∈ Finset.Icc 1 n, ¬ T r → x r = 0) ∧ (∀ r ∈ Finset.Icc 1 n, T r → ∑ c ∈ Finset.Icc 1 n, V r c * x c = b r) := by
  obtain ⟨h1, h2, h3, h4⟩ := h
  have row : ∀ r ∈ Finset.Icc 1 n, ¬ T r → ∑ c ∈ Finset.Icc 1 n, V' r c * x c = 10 ^ 9 * x r := by
    intro r hr ht
    rw [Finset.sum_eq_single r]
    · rw [Finset.mem_Icc] at hr
      rw [h3 r hr.1 hr.2 ht]
    · intro c _ hc
      rw [(h4 r c ht (Ne.symm hc)).1, zero_mul]
    · intro hc; exact absurd hr hc
  have hne : (10 ^ 9 : F) ≠ 0 := by
    have : ((10 ^ 9 : ℕ) : F) ≠ 0 := Nat.cast_ne_zero.2 (by norm_num)
    exact_mod_cast this
  constructor
  · intro hs
    constructor
    · intro r hr ht
      have := hs r hr
      rw [row r hr ht, hb r ht] at this
      exact (mul_eq_zero.1 this).resolve_left hne
    · intro r hr ht
      rw [← hs r hr]
      apply Finset.sum_congr rfl
      intro c _
      rw [h1 r c ht]
  · rintro ⟨g1, g2⟩ r hr
    by_cases ht : T r
    · rw [← g2 r hr ht]
      apply Finset.sum_congr rfl
      intro c _
      rw [h1 r c ht]
    · rw [row r hr ht, g1 r hr ht, mul_zero, hb r ht]

end IFEM.Props
