import Verif.Props.Cheby
import Verif.Lemmas.SparseOps
import Mathlib.LinearAlgebra.Lagrange

/-!
# C83: gradients and Hessians of vector and tensor functions, and Lagrange interpolation
-/

namespace IFEM.Cheby

open Polynomial Finset

variable {K : Type} [Field K]

theorem dirOf_lt {d : Nat} (h : d < 3) : dirOf d = some ⟨d, h⟩ := by simp [dirOf, h]

theorem cells_get {α : Type} (G : Nat → Nat → α) (n m : Nat) :
    ∀ d c, d < m → c < n → ((List.range m).flatMap fun d => (List.range n).map fun c => G d c)[d*n + c]?
      = some (G d c) := by
  induction m with
  | zero => intro d c hd; omega
  | succ m ih =>
    intro d c hd hc
    have hl : ((List.range m).flatMap fun d => (List.range n).map fun c => G d c).length = m*n := by
      simp [List.length_flatMap]
    rw [List.range_succ, List.flatMap_append]
    by_cases h : d < m
    · have : d*n + c < m*n := by
        calc d*n + c < d*n + n := by omega
          _ = (d+1)*n := by ring
          _ ≤ m*n := Nat.mul_le_mul_right _ h
      rw [List.getElem?_append_left (by omega)]
      exact ih d c h hc
    · have : d = m := by omega
      subst this
      rw [List.getElem?_append_right (by omega), hl]
      simp [hc]

theorem mapM_id_get {α : Type} : ∀ (l : List (Option α)) (r : List α), l.mapM id = some r →
    r.length = l.length ∧ ∀ i : Nat, r[i]? = (l[i]?).bind id
  | [], r, h => by
    simp at h; subst h; simp
  | a :: l, r, h => by
    rw [List.mapM_cons] at h
    simp only [id, bind, Option.bind_eq_some_iff, pure, Option.some.injEq] at h
    obtain ⟨x, hx, r', hr', rfl⟩ := h
    obtain ⟨hl, hg⟩ := mapM_id_get l r' hr'
    refine ⟨by simp [hl], fun i => ?_⟩
    cases i with
    | zero => simp [hx]
    | succ i => simpa using hg i

theorem mapM_id_some {α : Type} : ∀ (l : List (Option α)), (∀ a ∈ l, a ≠ none) →
    ∃ r, l.mapM id = some r
  | [], _ => ⟨[], by simp⟩
  | a :: l, h => by
    obtain ⟨r, hr⟩ := mapM_id_some l (fun a ha => h a (by simp [ha]))
    obtain ⟨x, rfl⟩ := Option.ne_none_iff_exists'.mp (h a (by simp))
    exact ⟨x :: r, by rw [List.mapM_cons, hr]; rfl⟩

/-- The double loop gives, component by component within each direction, the first derivatives. -/
theorem gradLoop_spec (f : List (Func K)) (X : Fin 3 → K) (nsd ncmp : Nat) (hn : nsd ≤ 3)
    (hf : ncmp ≤ f.length) :
    ∃ r, gradLoop f X nsd ncmp = some r ∧ r.length = nsd * ncmp ∧
      ∀ d c (hd : d < nsd) (hc : c < ncmp),
        r[d*ncmp + c]? = some (deriv (f[c]'(by omega)) X ⟨d, by omega⟩) := by
  have he : ∀ d c (hd : d < nsd) (hc : c < ncmp),
      gradEntry f X d c = some (deriv (f[c]'(by omega)) X ⟨d, by omega⟩) := by
    intro d c hd hc
    rw [gradEntry, dirOf_lt (by omega : d < 3), List.getElem?_eq_getElem (by omega)]
  obtain ⟨r, hr⟩ := mapM_id_some ((List.range nsd).flatMap fun d =>
      (List.range ncmp).map fun c => gradEntry f X d c) (by
    intro a ha
    obtain ⟨d, hd, ha⟩ := List.mem_flatMap.mp ha
    obtain ⟨c, hc, rfl⟩ := List.mem_map.mp ha
    rw [he d c (List.mem_range.mp hd) (List.mem_range.mp hc)]
    simp)
  obtain ⟨hl, hg⟩ := mapM_id_get _ r hr
  refine ⟨r, hr, ?_, ?_⟩
  · rw [hl]; simp [List.length_flatMap]
  · intro d c hd hc
    rw [hg, cells_get (fun d c => gradEntry f X d c) ncmp nsd d c hd hc, ← he d c hd hc]
    rfl

/-- The triple loop gives, component by component, the second derivatives. -/
theorem hessLoop_spec [LinearOrder K] (f : List (Func K)) (X : Fin 3 → K) (nsd ncmp : Nat)
    (hn : nsd ≤ 3) (hf : ncmp ≤ f.length) :
    ∃ r, hessLoop f X nsd ncmp = some r ∧ r.length = nsd * (nsd * ncmp) ∧
      ∀ d2 d1 c (h2 : d2 < nsd) (h1 : d1 < nsd) (hc : c < ncmp),
        r[(d2*nsd + d1)*ncmp + c]? =
          some (dderiv (f[c]'(by omega)) X ⟨d1, by omega⟩ ⟨d2, by omega⟩) := by
  have he : ∀ d2 d1 c (h2 : d2 < nsd) (h1 : d1 < nsd) (hc : c < ncmp),
      hessEntry f X d2 d1 c =
        some (dderiv (f[c]'(by omega)) X ⟨d1, by omega⟩ ⟨d2, by omega⟩) := by
    intro d2 d1 c h2 h1 hc
    rw [hessEntry, dirOf_lt (by omega : d1 < 3), dirOf_lt (by omega : d2 < 3),
      List.getElem?_eq_getElem (by omega)]
  obtain ⟨r, hr⟩ := mapM_id_some ((List.range nsd).flatMap fun d2 => (List.range nsd).flatMap
      fun d1 => (List.range ncmp).map fun c => hessEntry f X d2 d1 c) (by
    intro a ha
    obtain ⟨d2, h2, ha⟩ := List.mem_flatMap.mp ha
    obtain ⟨d1, h1, ha⟩ := List.mem_flatMap.mp ha
    obtain ⟨c, hc, rfl⟩ := List.mem_map.mp ha
    rw [he d2 d1 c (List.mem_range.mp h2) (List.mem_range.mp h1) (List.mem_range.mp hc)]
    simp)
  obtain ⟨hl, hg⟩ := mapM_id_get _ r hr
  refine ⟨r, hr, ?_, ?_⟩
  · rw [hl]; simp [List.length_flatMap]
  · intro d2 d1 c h2 h1 hc
    have hcell : ∀ e2, e2 < nsd → ∀ q, q < nsd*ncmp →
        ((List.range nsd).flatMap fun d2 => (List.range nsd).flatMap
          fun d1 => (List.range ncmp).map fun c => hessEntry f X d2 d1 c)[e2*(nsd*ncmp) + q]? =
        ((List.range nsd).flatMap
          fun d1 => (List.range ncmp).map fun c => hessEntry f X e2 d1 c)[q]? := by
      intro e2 he2 q hq
      have hrow : ∀ e, ((List.range nsd).flatMap
          fun d1 => (List.range ncmp).map fun c => hessEntry f X e d1 c) =
          (List.range (nsd*ncmp)).map fun q => (((List.range nsd).flatMap
          fun d1 => (List.range ncmp).map fun c => hessEntry f X e d1 c)[q]?).getD none := by
        intro e
        apply List.ext_getElem?
        intro i
        have hl : ((List.range nsd).flatMap fun d1 => (List.range ncmp).map
            fun c => hessEntry f X e d1 c).length = nsd*ncmp := by simp [List.length_flatMap]
        by_cases hi : i < nsd*ncmp
        · have hi' := List.getElem?_eq_getElem (l := (List.range nsd).flatMap fun d1 =>
              (List.range ncmp).map fun c => hessEntry f X e d1 c) (i := i) (by omega)
          rw [List.getElem?_map, List.getElem?_range hi, Option.map_some, hi']
          rfl
        · rw [List.getElem?_eq_none (by omega), List.getElem?_eq_none (by simp; omega)]
      conv_lhs => rw [show (fun d2 => (List.range nsd).flatMap
          fun d1 => (List.range ncmp).map fun c => hessEntry f X d2 d1 c) = _ from
            funext fun e => hrow e]
      rw [cells_get (fun e q => (((List.range nsd).flatMap
          fun d1 => (List.range ncmp).map fun c => hessEntry f X e d1 c)[q]?).getD none)
          (nsd*ncmp) nsd e2 q he2 hq]
      conv_rhs => rw [hrow]
      rw [List.getElem?_map, List.getElem?_range hq]
      rfl
    have hq : d1*ncmp + c < nsd*ncmp := by
      calc d1*ncmp + c < d1*ncmp + ncmp := by omega
        _ = (d1+1)*ncmp := by ring
        _ ≤ nsd*ncmp := Nat.mul_le_mul_right _ h1
    have e : (d2*nsd + d1)*ncmp + c = d2*(nsd*ncmp) + (d1*ncmp + c) := by ring
    rw [hg, e, hcell d2 h2 _ hq, cells_get (fun d1 c => hessEntry f X d2 d1 c) ncmp nsd d1 c h1 hc,
      ← he d2 d1 c h2 h1 hc]
    rfl

/-- C83.  A vector function returns the values of its components (zero for a missing component),
and its gradient and its Hessian hold the derivatives of all components, the component running
fastest, then the (first) direction.  The number of components is that of the inputs, but two if the
first function does not depend on the third coordinate; there have to be that many inputs. -/
theorem C83_vector [LinearOrder K] (fs : List (Func K)) (V : VecFun K) (hV : mkVec fs = some V)
    (hfs : fs.length ≤ 3) (hlen : V.ncmp ≤ fs.length) (X : Fin 3 → K) :
    vecEvaluate V X = (List.range 3).map (fun c => ((fs[c]?).map fun g => evaluate g X).getD 0) ∧
    (∃ G, vecGradient V X = some G ∧ G.length = V.ncmp * V.ncmp ∧
      ∀ d c (hd : d < V.ncmp) (hc : c < V.ncmp),
        G[d*V.ncmp + c]? = some (deriv (fs[c]'(by omega)) X ⟨d, by omega⟩)) ∧
    (∃ H, vecHessian V X = some H ∧ H.length = V.ncmp * (V.ncmp * V.ncmp) ∧
      ∀ d2 d1 c (h2 : d2 < V.ncmp) (h1 : d1 < V.ncmp) (hc : c < V.ncmp),
        H[(d2*V.ncmp + d1)*V.ncmp + c]? =
          some (dderiv (fs[c]'(by omega)) X ⟨d1, by omega⟩ ⟨d2, by omega⟩)) := by
  have hVf : V.f = fs := by
    cases fs with
    | nil => simp [mkVec] at hV
    | cons f0 fs =>
      simp only [mkVec, Option.some.injEq] at hV
      rw [← hV]
      exact List.take_of_length_le hfs
  refine ⟨?_, ?_, ?_⟩
  · rw [vecEvaluate, hVf]
    apply List.map_congr_left
    intro c _
    cases fs[c]? <;> rfl
  · rw [vecGradient, hVf]
    exact gradLoop_spec fs X V.ncmp V.ncmp (by omega) hlen
  · rw [vecHessian, hVf]
    exact hessLoop_spec fs X V.ncmp V.ncmp (by omega) hlen

/-- C83.  The number of components of a vector function. -/
theorem C83_vector_ncmp (f0 : Func K) (fs : List (Func K)) :
    ∃ V, mkVec (f0 :: fs) = some V ∧
      V.ncmp = if f0.n 2 = 1 then 2 else (f0 :: fs).length :=
  ⟨_, rfl, rfl⟩

/-- C83.  A vector function made from a single function that does not depend on the third
coordinate claims two components, and its gradient dereferences a null pointer. -/
theorem C83_single_input_gradient (f0 : Func K) (h : f0.n 2 = 1) (X : Fin 3 → K) :
    ∃ V, mkVec [f0] = some V ∧ vecGradient V X = none := by
  refine ⟨_, rfl, ?_⟩
  simp [vecGradient, gradLoop, h, gradEntry, List.range_succ, dirOf]

/-- C83.  A tensor function of `n²` inputs (`n ≤ 3`) stores its components column by column, and its
gradient and Hessian hold the derivatives of all components. -/
theorem C83_tensor [LinearOrder K] (f : List (Func K)) (n : Nat) (hn : n ≤ 3)
    (hf : f.length = n*n) (X : Fin 3 → K) :
    tensorDim f = n ∧
    (∀ i j (hi : i < n) (hj : j < n), tensorEvaluate f X i j =
      some (evaluate (f[i + n*j]'(by rw [hf]; nlinarith)) X)) ∧
    (∃ G, tensorGradient f X = some G ∧ G.length = n * (n*n) ∧
      ∀ d c (hd : d < n) (hc : c < n*n),
        G[d*(n*n) + c]? = some (deriv (f[c]'(by omega)) X ⟨d, by omega⟩)) ∧
    (∃ H, tensorHessian f X = some H ∧ H.length = n * (n * (n*n)) ∧
      ∀ d2 d1 c (h2 : d2 < n) (h1 : d1 < n) (hc : c < n*n),
        H[(d2*n + d1)*(n*n) + c]? =
          some (dderiv (f[c]'(by omega)) X ⟨d1, by omega⟩ ⟨d2, by omega⟩)) := by
  have hd : tensorDim f = n := by rw [tensorDim, hf, Nat.sqrt_eq]
  refine ⟨hd, ?_, ?_, ?_⟩
  · intro i j hi hj
    have hlt : i + n*j < f.length := by rw [hf]; nlinarith
    rw [tensorEvaluate, hd, List.getElem?_eq_getElem hlt]
    rfl
  · rw [tensorGradient, hd]
    exact gradLoop_spec f X n (n*n) hn (by omega)
  · rw [tensorHessian, hd]
    exact hessLoop_spec f X n (n*n) hn (by omega)

/-! ## The Lagrange interpolator -/

theorem lag_fold (grid : List K) (x : K) (nr m : Nat) :
    (List.range m).foldl (lagStep grid x nr) 1 =
      ∏ j ∈ (range m).erase nr, ((x - grid.getD j 0) / (grid.getD nr 0 - grid.getD j 0)) := by
  induction m with
  | zero => simp
  | succ m ih =>
    rw [List.range_succ, List.foldl_append, ih, List.foldl_cons, List.foldl_nil, lagStep]
    by_cases h : m = nr
    · subst h
      rw [if_neg (by simp), Finset.range_add_one, Finset.erase_insert (by simp),
        Finset.erase_eq_of_notMem (by simp)]
    · rw [if_pos h]
      rw [Finset.range_add_one, Finset.erase_insert_of_ne h, Finset.prod_insert (by simp), mul_comm]

theorem lagEvaluate_basis (grid : List K) (x : K) (nr : Nat) :
    lagEvaluate grid x nr =
      (Lagrange.basis (range grid.length) (fun j => grid.getD j 0) nr).eval x := by
  rw [lagEvaluate, lag_fold, Lagrange.basis, eval_prod]
  apply Finset.prod_congr rfl
  intro j _
  simp [Lagrange.basisDivisor, div_eq_inv_mul]

theorem lagInterpolate_sum (grid data : List K) (x : K) :
    lagInterpolate grid x data =
      ∑ i ∈ range data.length, data.getD i 0 * lagEvaluate grid x i := by
  rw [lagInterpolate]
  generalize data.length = m
  induction m with
  | zero => simp
  | succ m ih => rw [List.range_succ, List.foldl_append, ih, Finset.sum_range_succ]; rfl

theorem inj_of_nodup {grid : List K} (hg : grid.Nodup) :
    Set.InjOn (fun j => grid.getD j 0) (range grid.length : Set Nat) := by
  intro i hi j hj h
  have hi' : i < grid.length := by simpa using hi
  have hj' : j < grid.length := by simpa using hj
  simp only [List.getD_eq_getElem?_getD, List.getElem?_eq_getElem hi',
    List.getElem?_eq_getElem hj', Option.getD_some] at h
  exact (List.Nodup.getElem_inj_iff hg).mp h

/-- C83.  On a grid of different points, interpolated data is the polynomial of degree below the
number of points through the data: it takes the values of the data at the grid points, and there is
only one such polynomial. -/
theorem C83_interpolate (grid data : List K) (hg : grid.Nodup) (hl : data.length = grid.length) :
    ∃ p : K[X], p.degree < grid.length ∧ (∀ x, lagInterpolate grid x data = p.eval x) ∧
      (∀ i (hi : i < grid.length), lagInterpolate grid grid[i] data = data[i]) ∧
      ∀ q : K[X], q.degree < grid.length →
        (∀ i (hi : i < grid.length), q.eval grid[i] = data[i]) → q = p := by
  have hinj := inj_of_nodup hg
  set v := fun j => grid.getD j 0 with hv
  set r := fun j => data.getD j 0 with hr
  have hval : ∀ x, lagInterpolate grid x data =
      (Lagrange.interpolate (range grid.length) v r).eval x := by
    intro x
    rw [lagInterpolate_sum, Lagrange.interpolate_apply, eval_finsetSum, hl]
    apply Finset.sum_congr rfl
    intro i _
    rw [lagEvaluate_basis, eval_mul, eval_C]
  have hvi : ∀ i (hi : i < grid.length), v i = grid[i] := by intro i hi; simp [hv, hi]
  have hri : ∀ i (hi : i < grid.length), r i = data[i] := by
    intro i hi; simp [hr, hl, hi]
  refine ⟨Lagrange.interpolate (range grid.length) v r, ?_, hval, ?_, ?_⟩
  · have := Lagrange.degree_interpolate_lt r hinj
    simpa using this
  · intro i hi
    rw [hval, ← hvi i hi, Lagrange.eval_interpolate_at_node r hinj (by simpa using hi), hri i hi]
  · intro q hq hqv
    apply Lagrange.eq_interpolate_of_eval_eq r hinj
    · simpa using hq
    · intro i hi
      have hi' : i < grid.length := by simpa using hi
      rw [hvi i hi', hri i hi', hqv i hi']

/-- C83.  Interpolating the values of a polynomial of degree below the number of grid points gives
the polynomial everywhere, not only at the grid points. -/
theorem C83_reproduces (grid : List K) (hg : grid.Nodup) (q : K[X]) (hq : q.degree < grid.length)
    (x : K) : lagInterpolate grid x (grid.map fun g => q.eval g) = q.eval x := by
  obtain ⟨p, _, hval, _, hu⟩ := C83_interpolate grid (grid.map fun g => q.eval g) hg (by simp)
  rw [hval, hu q hq (by intro i hi; simp)]

/-- C83.  Each basis function is one at its own grid point and zero at all others. -/
theorem C83_cardinal (grid : List K) (hg : grid.Nodup) (i j : Nat) (hi : i < grid.length)
    (hj : j < grid.length) : lagEvaluate grid grid[j] i = if i = j then 1 else 0 := by
  have hinj := inj_of_nodup hg
  have e : grid[j] = (fun j => grid.getD j 0) j := by simp [hj]
  rw [lagEvaluate_basis, e]
  by_cases h : i = j
  · subst h
    rw [if_pos rfl, Lagrange.eval_basis_self hinj (by simpa using hi)]
  · rw [if_neg h]
    exact Lagrange.eval_basis_of_ne (v := fun j => grid.getD j 0) h (by simpa using hj)

/-- C83.  The interpolation matrix takes the values at the grid points to the interpolated values at
the data points. -/
theorem C83_matrix (grid xg data : List K) (hl : data.length = grid.length) :
    (lagGet grid xg).length = xg.length ∧
    ∀ j (hj : j < xg.length), ∃ row, (lagGet grid xg)[j]? = some row ∧ row.length = grid.length ∧
      ∑ i ∈ range grid.length, row.getD i 0 * data.getD i 0 = lagInterpolate grid xg[j] data := by
  refine ⟨by simp [lagGet], fun j hj => ?_⟩
  refine ⟨(List.range grid.length).map fun i => lagEvaluate grid xg[j] i, ?_, by simp, ?_⟩
  · simp [lagGet, hj]
  · rw [lagInterpolate_sum, hl]
    apply Finset.sum_congr rfl
    intro i hi
    have hi' : i < grid.length := by simpa using hi
    simp [hi', mul_comm]

/-! ## A concrete case -/

/-- Three coefficients in the first direction and two in the second, none in the third. -/
def exFunc : Func Rat := read ![3, 2, 0] ![0, 1, 0] ![2, 3, 0] [1, 2, 3, 4, 5]

example : Wf exFunc ∧ DomainOk exFunc := by
  refine ⟨wf_read _ _ _ _, ?_⟩
  intro c hc
  fin_cases c
  · decide +kernel
  · decide +kernel
  · exact absurd hc (by decide +kernel)

example : evaluate exFunc ![3/2, 5/2, 7] = 15/4 ∧ deriv exFunc ![3/2, 5/2, 7] 0 = 21/2 ∧
    dderiv exFunc ![3/2, 5/2, 7] 0 0 = 12 ∧ dderiv exFunc ![3/2, 5/2, 7] 0 1 = 5 := by
  refine ⟨?_, ?_, ?_, ?_⟩ <;> decide +kernel

/-- Within the tolerance of an end the value of the end is returned: `T₃''= 24x`. -/
example : eval2Der1 3 (1 - 1/2000000 : Rat) = 24 ∧
    (1 - 1/2000000 : Rat) * 24 ≠ 24 ∧ eval2Der1 3 (1/2 : Rat) = 12 := by
  refine ⟨?_, ?_, ?_⟩ <;> decide +kernel

/-- Three functions of which the first does not depend on the third coordinate: the gradient has
four entries, the derivatives of the third component are missing. -/
example : ∃ V G, mkVec [exFunc, exFunc, exFunc] = some V ∧
    vecGradient V ![3/2, 5/2, 7] = some G ∧ G.length = 4 ∧ (vecEvaluate V ![3/2, 5/2, 7]).length = 3 := by
  refine ⟨_, _, rfl, rfl, ?_, ?_⟩ <;> decide +kernel

example : lagInterpolate [(0 : Rat), 1, 3] 2 [0, 1, 9] = 4 ∧ [(0 : Rat), 1, 3].Nodup := by
  refine ⟨?_, ?_⟩ <;> decide +kernel

end IFEM.Cheby
