import Verif.Props.SysMat
import Mathlib.Algebra.Field.Rat
/-!
# Property C63: sums of system matrices, diagonal storage, limitations, examples
-/
namespace IFEM.Props
open IFEM.Spec IFEM.Sam IFEM.SysMat
variable {R : Type} [CommRing R]

theorem flagFrom_spec (f g : List Bool) (hf : 2 ≤ f.length) :
    (flagFrom f g).length = f.length ∧ ∀ r, Flag (flagFrom f g) r ↔ Flag f r ∨ (Flag g r ∧ r ≤ f.length) := by
  unfold flagFrom
  rw [if_neg (by omega)]
  refine ⟨by simp, ?_⟩
  intro r
  unfold SysMat.Flag at1? at0?
  by_cases hr : 0 ≤ r - 1
  · rw [if_pos hr, if_pos hr, if_pos hr, List.getElem?_map, List.getElem?_zipIdx]
    by_cases hl : (r - 1).toNat < f.length
    · rw [List.getElem?_eq_getElem hl]
      have : r ≤ f.length := by omega
      simp only [Option.map_some, Option.some.injEq, zero_add, Bool.or_eq_true, this, and_true]
      cases g[(r - 1).toNat]? <;> simp
    · rw [List.getElem?_eq_none (by omega)]
      have : ¬ r ≤ f.length := by omega
      simp [this]
  · rw [if_neg hr, if_neg hr, if_neg hr]; simp

theorem getElem?_zipIdx_add (l : List R) (g : Nat → R) (k : Nat) :
    ((l.zipIdx.map fun p => p.1 + g p.2)[k]?).getD 0 = if k < l.length then (l[k]?).getD 0 + g k else 0 := by
  rw [List.getElem?_map, List.getElem?_zipIdx]
  by_cases h : k < l.length
  · rw [if_pos h, List.getElem?_eq_getElem h]; simp
  · rw [if_neg h, List.getElem?_eq_none (by omega)]; rfl

/-- Entrywise addition of square matrices of the same size. -/
theorem denseAdd_spec {n : Nat} {K L : Mat R} (hK : K.WF) (h1 : K.nrow = n) (h2 : K.ncol = n) (hL : L.WF) (h3 : L.nrow = n)
    (h4 : L.ncol = n) (f g : List Bool) (alpha : R) (hz : isZero L.nrow g = false) :
    ∃ K', denseAdd (K, f) (L, g) alpha = some (K', flagFrom f g) ∧ K'.WF ∧ K'.nrow = n ∧ K'.ncol = n ∧
      ∀ r c, K'.val r c = K.val r c + alpha * L.val r c := by
  unfold denseAdd
  dsimp only
  rw [hz, if_neg (by decide), if_neg (by omega), if_neg (by omega)]
  refine ⟨_, rfl, ?_, h1, h2, ?_⟩
  · unfold Mat.WF at hK ⊢
    simpa using hK
  · intro r c
    unfold Mat.val Mat.get?
    dsimp only
    rw [h1, h2, h3, h4]
    by_cases hin : 1 ≤ r ∧ r ≤ n ∧ 1 ≤ c ∧ c ≤ n
    · rw [if_pos hin, if_pos hin, if_pos hin, getElem?_zipIdx_add K.elem (fun k => alpha * (L.elem[k]?).getD 0)]
      rw [if_pos]
      have := Mat.idx_lt hK (r := r) (c := c) (by rw [h1, h2]; exact hin)
      rwa [h1] at this
    · rw [if_neg hin, if_neg hin, if_neg hin]; simp

/-- **C63** (sum). Adding `alpha` times a matrix assembled from elements `es2` to one assembled from `es1` is accepted, adds the
entries (also when the added matrix is skipped as zero), and flags the equations touched by either. -/
theorem C63_sum {s0 s : Sam R} {D : FEModel R} (hp : Packs s0 D) (hv : D.Valid)
    (h : s0.initSystemEquations = some (s, true)) (hn : 2 ≤ s.neq) (es1 es2 : List (Elem R))
    (h1 : ∀ e ∈ es1, ElemFits D e) (h2 : ∀ e ∈ es2, ElemFits D e) (alpha : R) :
    ∃ K1 B1 f1 K2 B2 f2 K' f',
      SysMat.assembleAll s s.assembleElm ((Mat.zero s.neq s.neq, List.replicate s.neq 0), initFlags s.neq) es1 = some ((K1, B1), f1) ∧
      SysMat.assembleAll s s.assembleElm ((Mat.zero s.neq s.neq, List.replicate s.neq 0), initFlags s.neq) es2 = some ((K2, B2), f2) ∧
      denseAdd (K1, f1) (K2, f2) alpha = some (K', f') ∧ (∀ r c, K'.val r c = K1.val r c + alpha * K2.val r c) ∧
      ∀ r, at1? f' r = some true ↔ Touched s D (es1 ++ es2) r := by
  have hr := ready_of_init hp hv h
  obtain ⟨K1, B1, f1, a1, -, a2, a3, a4, a5, a6, a7⟩ := C63_main hr hv hn es1 h1
  obtain ⟨K2, B2, f2, b1, -, b2, b3, b4, b5, b6, b7⟩ := C63_main hr hv hn es2 h2
  have hT : ∀ r, Touched s D (es1 ++ es2) r ↔ Touched s D es1 r ∨ Touched s D es2 r := by
    intro r
    unfold Touched
    simp only [List.mem_append]
    constructor
    · rintro ⟨e, he | he, h'⟩
      · exact Or.inl ⟨e, he, h'⟩
      · exact Or.inr ⟨e, he, h'⟩
    · rintro (⟨e, he, h'⟩ | ⟨e, he, h'⟩)
      · exact ⟨e, Or.inl he, h'⟩
      · exact ⟨e, Or.inr he, h'⟩
  have hK : 1 ≤ K2.nrow := by omega
  cases hz : isZero K2.nrow f2 with
  | true =>
    have hno : ∀ r, ¬ Touched s D es2 r := by
      intro r hh
      have := (isZero_false (f := f2) hK).2 ⟨r, (b6 r).2 hh⟩
      rw [hz] at this; cases this
    refine ⟨K1, B1, f1, K2, B2, f2, K1, f1, a1, b1, ?_, ?_, ?_⟩
    · unfold denseAdd; dsimp only; rw [hz, if_pos rfl]
    · intro r c
      rw [((b7 r (hno r)).1 c).1]; ring
    · intro r
      rw [hT, show (at1? f1 r = some true) = Flag f1 r from rfl, a6]
      simp [hno r]
  | false =>
    obtain ⟨K', c1, c2, c3, c4, c5⟩ := denseAdd_spec a2 a3 a4 b2 b3 b4 f1 f2 alpha hz
    obtain ⟨d1, d2⟩ := flagFrom_spec f1 f2 (by omega)
    refine ⟨K1, B1, f1, K2, B2, f2, K', flagFrom f1 f2, a1, b1, c1, c5, ?_⟩
    intro r
    rw [hT, show (at1? (flagFrom f1 f2) r = some true) = Flag (flagFrom f1 f2) r from rfl, d2, a6, b6]
    constructor
    · rintro (h' | h')
      · exact Or.inl h'
      · exact Or.inr h'.1
    · rintro (h' | h')
      · exact Or.inl h'
      · refine Or.inr ⟨h', ?_⟩
        obtain ⟨e, -, he⟩ := h'
        have := actsOn_range hr hv he
        omega

/-- **C63** (limitation, finding F77). The coefficients of a matrix that was filled without flagging (e.g. constructed from a
dense `Matrix`) are not added, although the call returns true. -/
theorem C63_unflagged_counterexample :
    ∃ K', denseAdd (({ nrow := 1, ncol := 1, elem := [2] } : Mat ℤ), newFlags)
      (({ nrow := 1, ncol := 1, elem := [5] } : Mat ℤ), newFlags) 1 = some (K', newFlags) ∧ K'.val 1 1 = 2 :=
  ⟨_, rfl, by decide⟩

/-- Three nodes with one DOF each; only the first two belong to an element. -/
def looseTables : Sam ℤ :=
  { nnod := 3, nel := 1, ndof := 3, nceq := 0, mpmnpc := [1, 3], mmnpc := [1, 2],
    madof := [1, 2, 3, 4], msc := [1, 1, 1], mpmceq := [1], mmceq := [], ttcc := [] }

/-- **C63** (limitation, finding F82). With a preallocated pattern the pivot of an equation no element of the model acts upon has
no place: `operator()` reports a missing entry and the value is lost, so the hypothesis of `C63_sparse` is needed. -/
theorem C63_sparse_counterexample :
    let e : Elem ℤ := ⟨1, ⟨2, 2, [4, 1, 1, 4]⟩, [0, 0]⟩
    ∃ s', looseTables.initSystemEquations = some (s', true) ∧ s'.neq = 3 ∧
    ∃ M0 M B f, Sparse.initAssembly s' ({ nrow := 0, ncol := 0, solver := .superlu } : Sparse ℤ) (some false) = some M0 ∧
      SysMat.assembleAll s' (Sparse.assembleElm s') ((M0, List.replicate s'.neq 0), initFlags s'.neq) [e] = some ((M, B), f) ∧
      f = [true, true, false] ∧ M.get? 2 1 = some 1 ∧
      endAssembly (fun M : Sparse ℤ => M.nrow) Sparse.addDiag (M, f) = none := by
  refine ⟨_, rfl, rfl, _, _, _, _, rfl, rfl, rfl, ?_, ?_⟩ <;> decide

/-! ### Diagonal storage -/

/-- **C63** (diagonal storage, pivots). `add(sigma,ieq)` adds `sigma` to one diagonal element, or to all if `ieq ≤ 0`; an
equation number beyond the dimension is refused. -/
theorem C63_diag_add (d : List R) (sigma : R) (ieq : Int) :
    ((diagAddDiag d sigma ieq).isSome ↔ ieq ≤ d.length) ∧
    ∀ d', diagAddDiag d sigma ieq = some d' → d'.length = d.length ∧
      ∀ i : Nat, 1 ≤ i → i ≤ d.length → vval d' i = vval d i + if ieq ≤ 0 ∨ ieq = i then sigma else 0 := by
  unfold diagAddDiag
  by_cases h1 : ieq > d.length
  · rw [if_pos h1]
    refine ⟨by simp; omega, by intro d' h; cases h⟩
  rw [if_neg h1]
  by_cases h2 : ieq > 0
  · rw [if_pos h2]
    obtain ⟨d', g1, g2, g3⟩ := add1?_spec d ieq sigma (by omega) (by omega)
    rw [g1]
    refine ⟨by simp; omega, ?_⟩
    rintro d'' h
    cases h
    refine ⟨g2, ?_⟩
    intro i h3 h4
    rw [g3]
    congr 1
    by_cases hi : ieq = i
    · rw [if_pos hi, if_pos (Or.inr hi)]
    · rw [if_neg hi, if_neg (by omega)]
  · rw [if_neg h2]
    refine ⟨by simp; omega, ?_⟩
    rintro d'' h
    cases h
    refine ⟨by simp, ?_⟩
    intro i h3 h4
    rw [if_pos (by omega)]
    obtain ⟨k, rfl⟩ : ∃ k, i = k + 1 := ⟨i - 1, by omega⟩
    unfold vval
    rw [at1?_nat _ _ h3, at1?_nat _ _ h3, List.getElem?_map]
    simp only [Nat.add_sub_cancel]
    rw [List.getElem?_eq_getElem (by omega)]
    rfl

section Solve
variable {F : Type} [Field F]

theorem diagSolveLoop_ok (tiny : F → Bool) (ps : List F) : ∀ (j z : Nat) (b : List F), (∀ p ∈ ps, tiny p = false) →
    j + ps.length ≤ b.length →
    ∃ b', diagSolveLoop tiny ps j z b = some (z, b') ∧ b'.length = b.length ∧
      ∀ k, b'[k]? = if j ≤ k ∧ k < j + ps.length then (b[k]?).bind fun x => (ps[k - j]?).map fun p => x / p else b[k]? := by
  induction ps with
  | nil =>
    intro j z b _ _
    refine ⟨b, rfl, rfl, ?_⟩
    intro k
    rw [if_neg (by simp)]
  | cons p ps ih =>
    intro j z b ht hl
    rw [List.length_cons] at hl
    unfold diagSolveLoop
    rw [ht p List.mem_cons_self, if_neg (by decide), List.getElem?_eq_getElem (by omega : j < b.length)]
    dsimp only
    obtain ⟨b', g1, g2, g3⟩ := ih (j + 1) z (b.set j (b[j] / p)) (fun q hq => ht q (List.mem_cons_of_mem _ hq))
      (by rw [List.length_set]; omega)
    refine ⟨b', g1, by rw [g2, List.length_set], ?_⟩
    intro k
    rw [g3, List.length_cons]
    by_cases hk : k = j
    · subst hk
      rw [if_neg (by omega), if_pos (by omega), List.getElem?_set_self (by omega),
        List.getElem?_eq_getElem (by omega : k < b.length)]
      simp
    · rw [List.getElem?_set_ne (by omega)]
      by_cases hk2 : j + 1 ≤ k ∧ k < j + 1 + ps.length
      · rw [if_pos hk2, if_pos (by omega)]
        have : k - j = (k - (j + 1)) + 1 := by omega
        rw [this, List.getElem?_cons_succ]
      · rw [if_neg hk2, if_neg (by omega)]

theorem diagSolveLoop_count (tiny : F → Bool) (ps : List F) : ∀ (j z : Nat) (b : List F) (z' : Nat) (b' : List F),
    diagSolveLoop tiny ps j z b = some (z', b') → z' = z + ps.countP tiny := by
  induction ps with
  | nil => intro j z b z' b' h; unfold diagSolveLoop at h; cases h; simp
  | cons p ps ih =>
    intro j z b z' b' h
    unfold diagSolveLoop at h
    cases ht : tiny p with
    | true =>
      rw [ht, if_pos rfl] at h
      rw [ih _ _ _ _ _ h, List.countP_cons_of_pos ht]; omega
    | false =>
      rw [ht, if_neg (by decide)] at h
      rw [List.countP_cons_of_neg (by rw [ht]; decide)]
      cases hb : b[j]? with
      | none => rw [hb] at h; cases h
      | some x => rw [hb] at h; exact ih _ _ _ _ _ h

/-- **C63** (diagonal solver). If no pivot is below the tolerance and the right-hand side is long enough, the solver succeeds and
divides every component by its pivot; if it succeeds, no pivot was below the tolerance. -/
theorem C63_diag_solve (tiny : F → Bool) (d b : List F) :
    ((∀ p ∈ d, tiny p = false) → d.length ≤ b.length → ∃ x, diagSolve tiny d b = some (true, x) ∧ x.length = b.length ∧
      ∀ i : Nat, 1 ≤ i → vval x i = if i ≤ d.length then vval b i / vval d i else vval b i) ∧
    ∀ x, diagSolve tiny d b = some (true, x) → ∀ p ∈ d, tiny p = false := by
  constructor
  · intro ht hl
    unfold diagSolve
    cases d with
    | nil =>
      refine ⟨b, rfl, rfl, ?_⟩
      intro i hi
      rw [if_neg (by simp; omega)]
    | cons p ps =>
      obtain ⟨b', g1, g2, g3⟩ := diagSolveLoop_ok tiny (p :: ps) 0 0 b ht (by omega)
      rw [if_neg (by simp), g1]
      refine ⟨b', rfl, g2, ?_⟩
      intro i hi
      unfold vval
      rw [at1?_nat _ _ hi, at1?_nat _ _ hi, at1?_nat _ _ hi, g3]
      by_cases hk : i ≤ (p :: ps).length
      · rw [if_pos hk, if_pos (by omega), Nat.sub_zero, List.getElem?_eq_getElem (by omega : i - 1 < b.length),
          List.getElem?_eq_getElem (by omega : i - 1 < (p :: ps).length)]
        rfl
      · rw [if_neg hk, if_neg (by omega)]
  · intro x h p hp
    unfold diagSolve at h
    cases d with
    | nil => cases hp
    | cons q qs =>
      rw [if_neg (by simp)] at h
      cases hl : diagSolveLoop tiny (q :: qs) 0 0 b with
      | none => rw [hl] at h; cases h
      | some r =>
        rw [hl] at h
        simp only [Option.bind_eq_bind, Option.bind_some] at h
        have hr1 : r.1 = 0 := by
          have := congrArg Prod.fst (Option.some.inj h)
          simpa using this
        have hc := diagSolveLoop_count tiny (q :: qs) 0 0 b r.1 r.2 hl
        rw [hr1, zero_add] at hc
        have := (List.countP_eq_zero.1 hc.symm) p hp
        simpa using this

end Solve

/-- **C63** (limitation, finding F80). At a zero pivot the pointer to the right-hand side is not advanced: the remaining pivots
divide the wrong components (the call returns false). -/
theorem C63_diag_singular : diagSolve (fun p : ℚ => decide (p = 0)) [0, 2] [6, 8] = some (false, [3, 8]) := by
  decide +kernel

/-! ### A concrete case -/

/-- Only the first element of `exampleModel` is assembled: the equation of DOF 5 remains untouched, gets the pivot `10⁹`,
and the two equations of DOF 1 and 3 are unchanged. -/
example : ∃ s, exampleTables.initSystemEquations = some (s, true) ∧ s.neq = 3 ∧
    ∃ K B f K' f', SysMat.assembleAll s s.assembleElm ((Mat.zero s.neq s.neq, List.replicate s.neq 0), initFlags s.neq)
        [⟨1, ⟨3, 3, [4, 1, 2, 1, 5, 1, 2, 1, 6]⟩, [1, 2, 3]⟩] = some ((K, B), f) ∧
      f = [true, false, true] ∧ endAssembly (fun K : Mat ℤ => K.nrow) denseAddDiag (K, f) = some (K', f') ∧
      K'.elem = [6, 0, 2, 0, 1000000000, 0, 2, 0, 4] := by
  refine ⟨_, rfl, rfl, _, _, _, _, _, rfl, ?_, rfl, ?_⟩ <;> decide

end IFEM.Props
