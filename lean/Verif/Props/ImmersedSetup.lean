import Verif.Props.ImmersedGeo
import Mathlib.Tactic.IntervalCases

/-!
# C80: the elements of a patch with an immersed geometry
-/
namespace IFEM.Immersed
open IFEM.Immersed.Spec
variable {K : Type} [Field K] [LinearOrder K]

/-- The status of an element list: of the last element. -/
theorem fold_elms (alpha : Pt K → K) (hypot : K → K → K) (rule : Option (List (K × K))) (m : Int) (elms : List (List (Pt K))) :
    getQuadraturePoints alpha hypot rule m elms =
      (elms.map fun Xc => (element alpha hypot rule m Xc).1, ((elms.map fun Xc => (element alpha hypot rule m Xc).2).getLast?).getD true) := by
  unfold getQuadraturePoints
  induction elms using List.reverseRecOn with
  | nil => rfl
  | append_singleton t a ih =>
    rw [List.foldl_append, ih]
    simp

/-- **C80, elements**: element by element, the points of the element with the corners in the order that is given (the last two of the lexicographic order exchanged); an element without corners has no points. -/
theorem C80_elements (alpha : Pt K → K) (hypot : K → K → K) (rule : List (K × K)) (m : Int) (elms : List (List (Pt K))) :
    (getQuadraturePoints alpha hypot (some rule) m elms).1.length = elms.length ∧
    ∀ (e : Nat) (l : List (Gp K)), (getQuadraturePoints alpha hypot (some rule) m elms).1[e]? = some l ↔
      ∃ Xc, elms[e]? = some Xc ∧
        ((∃ a b c d, Xc = [a, b, c, d] ∧ quadrature { alpha := alpha, hypot := hypot, X1 := a, X2 := b, X3 := d, X4 := c } (some rule) m = some l) ∨ (Xc.length ≠ 4 ∧ l = [])) := by
  rw [fold_elms]
  refine ⟨by simp, ?_⟩
  intro e l
  rw [List.getElem?_map, Option.map_eq_some_iff]
  refine exists_congr fun Xc => and_congr_right fun _ => ?_
  have other : ∀ Xc : List (Pt K), Xc.length ≠ 4 → element alpha hypot (some rule) m Xc = ([], false) → ((element alpha hypot (some rule) m Xc).1 = l ↔
      ((∃ a b c d, Xc = [a, b, c, d] ∧ quadrature { alpha := alpha, hypot := hypot, X1 := a, X2 := b, X3 := d, X4 := c } (some rule) m = some l) ∨ (Xc.length ≠ 4 ∧ l = []))) := by
    intro Xc h1 h2
    rw [h2]
    constructor
    · intro h; exact .inr ⟨h1, h.symm⟩
    · rintro (⟨a, b, c, d, rfl, -⟩ | ⟨-, h⟩)
      · simp at h1
      · exact h.symm
  match Xc with
  | [] => exact other _ (by simp) rfl
  | [a] => exact other _ (by simp) rfl
  | [a, b] => exact other _ (by simp) rfl
  | [a, b, c] => exact other _ (by simp) rfl
  | [a, b, c, d] =>
    simp only [element, quadrature, Option.map_some, Option.some.injEq]
    constructor
    · intro h
      exact .inl ⟨a, b, c, d, rfl, h⟩
    · rintro (⟨a', b', c', d', h, h2⟩ | ⟨h, -⟩)
      · simp only [List.cons.injEq, and_true] at h
        obtain ⟨rfl, rfl, rfl, rfl⟩ := h
        exact h2
      · simp at h
  | a :: b :: c :: d :: f :: t => exact other _ (by simp) rfl

/-- **C80, status**: with a Gauss rule the call succeeds if there are no elements, or the LAST element has four corners; without one it fails if there are elements. -/
theorem C80_status (alpha : Pt K → K) (hypot : K → K → K) (rule : Option (List (K × K))) (m : Int) (elms : List (List (Pt K))) :
    (getQuadraturePoints alpha hypot rule m elms).2 = true ↔ ∀ Xc, elms.getLast? = some Xc → Xc.length = 4 ∧ rule.isSome := by
  rw [fold_elms]
  dsimp only
  rw [List.getLast?_map]
  cases h : elms.getLast? with
  | none => simp
  | some Xc =>
    simp only [Option.map_some, Option.getD_some, Option.some.injEq, forall_eq']
    match Xc with
    | [] => simp [element]
    | [a] => simp [element]
    | [a, b] => simp [element]
    | [a, b, c] => simp [element]
    | [a, b, c, d] => cases rule <;> simp [element, quadrature]
    | a :: b :: c :: d :: f :: t => simp [element]

/-- **Counterexample.**  "The call fails if an element is invalid": an invalid element that is not the last goes unnoticed. -/
theorem C80_last_only : ∃ elms : List (List (Pt Rat)), [] ∈ elms ∧ (getQuadraturePoints (fun _ => 1) (fun _ _ => 0) (some [(0, 2)]) 1 elms).2 = true :=
  ⟨[[], [0, 0, 0, 0]], by simp, by rw [C80_status]; simp⟩

/-- **C80, knot spans**: the points of an element are mapped to its own knot span, affinely, and keep their weights; the elements run with the first direction fastest. -/
theorem C80_span [IsStrictOrderedRing K] {us vs : List K} {q : List (List (Gp K))} {i j : Nat} (hi : i+1 < us.length) (hj : j+1 < vs.length) {l : List (Gp K)}
    (hl : q[(us.length-1)*j + i]? = some l) :
    ∃ l', (mapPoints us vs q)[(us.length-1)*j + i]? = some l' ∧ l'.length = l.length ∧
      ∀ (k : Nat) (g : Gp K), l[k]? = some g → ∃ g', l'[k]? = some g' ∧ g'.2.2 = g.2.2 ∧
        g'.1 = us[i] + (us[i+1]-us[i])*((g.1+1)/2) ∧ g'.2.1 = vs[j] + (vs[j+1]-vs[j])*((g.2.1+1)/2) ∧
        (us[i] < us[i+1] → -1 < g.1 → g.1 < 1 → us[i] < g'.1 ∧ g'.1 < us[i+1]) ∧
        (vs[j] < vs[j+1] → -1 < g.2.1 → g.2.1 < 1 → vs[j] < g'.2.1 ∧ g'.2.1 < vs[j+1]) := by
  have em : ((us.length-1)*j + i) % (us.length-1) = i := by
    rw [Nat.mul_add_mod]; exact Nat.mod_eq_of_lt (by omega)
  have ed : ((us.length-1)*j + i) / (us.length-1) = j := by
    rw [Nat.mul_add_div (by omega), Nat.div_eq_of_lt (by omega)]; simp
  have u0 : us.getD i 0 = us[i] := by simp [List.getD_eq_getElem?_getD, List.getElem?_eq_getElem (show i < us.length by omega)]
  have u1 : us.getD (i+1) 0 = us[i+1] := by simp [List.getD_eq_getElem?_getD, List.getElem?_eq_getElem hi]
  have v0 : vs.getD j 0 = vs[j] := by simp [List.getD_eq_getElem?_getD, List.getElem?_eq_getElem (show j < vs.length by omega)]
  have v1 : vs.getD (j+1) 0 = vs[j+1] := by simp [List.getD_eq_getElem?_getD, List.getElem?_eq_getElem hj]
  refine ⟨l.map (toSpan us[i] us[i+1] vs[j] vs[j+1]), ?_, by simp, ?_⟩
  · unfold mapPoints
    rw [List.getElem?_map, List.getElem?_zipIdx, hl]
    simp only [Option.map_some, Nat.zero_add, em, ed, u0, u1, v0, v1]
  · intro k g hg
    refine ⟨toSpan us[i] us[i+1] vs[j] vs[j+1] g, by rw [List.getElem?_map, hg]; rfl, rfl, ?_, ?_, ?_, ?_⟩
    · simp only [toSpan]; ring
    · simp only [toSpan]; ring
    · intro h h1 h2
      simp only [toSpan]
      constructor <;> nlinarith
    · intro h h1 h2
      simp only [toSpan]
      constructor <;> nlinarith

omit [Field K] [LinearOrder K] in
/-- **C80, fixed nodes**: the nodes that are fixed are those for which no element they belong to has integration points. -/
theorem C80_fixed (q : List (List (Gp K))) (mnpc : List (List Nat)) (nnod n : Nat) :
    n + 1 ∈ fixedNodes q mnpc nnod ↔ n < nnod ∧ ∀ (e : Nat) (nodes : List Nat), mnpc[e]? = some nodes → n ∈ nodes → q[e]? = some [] ∨ q.length ≤ e := by
  have key : n + 1 ∈ activeNodes q mnpc ↔ ∃ (e : Nat) (nodes : List Nat) (l : List (Gp K)), mnpc[e]? = some nodes ∧ n ∈ nodes ∧ q[e]? = some l ∧ l ≠ [] := by
    unfold activeNodes
    rw [List.mem_flatMap]
    constructor
    · rintro ⟨⟨l, e⟩, hm, h⟩
      rw [List.mem_zipIdx_iff_getElem?] at hm
      dsimp only at hm h
      by_cases hl : l.isEmpty = true
      · rw [if_pos hl] at h; simp at h
      · rw [if_neg hl, List.mem_map] at h
        obtain ⟨a, ha, hh⟩ := h
        have : a = n := by omega
        subst this
        cases hn : mnpc[e]? with
        | none => simp [List.getD_eq_getElem?_getD, hn] at ha
        | some nodes => exact ⟨e, nodes, l, hn, by simpa [List.getD_eq_getElem?_getD, hn] using ha, hm, by simpa using hl⟩
    · rintro ⟨e, nodes, l, hn, ha, hq, hl⟩
      refine ⟨(l, e), by rw [List.mem_zipIdx_iff_getElem?]; exact hq, ?_⟩
      dsimp only
      rw [if_neg (by simpa using hl), List.mem_map]
      exact ⟨n, by simpa [List.getD_eq_getElem?_getD, hn] using ha, rfl⟩
  unfold fixedNodes
  rw [List.mem_filter, List.mem_range'_1, decide_eq_true_eq, key]
  push Not
  constructor
  · rintro ⟨h1, h2⟩
    refine ⟨by omega, fun e nodes hn ha => ?_⟩
    cases hq : q[e]? with
    | none => exact .inr (by simpa using hq)
    | some l => exact .inl (by rw [h2 e nodes l hn ha hq])
  · rintro ⟨h1, h2⟩
    refine ⟨by omega, fun e nodes l hn ha hq => ?_⟩
    rcases h2 e nodes hn ha with h | h
    · rw [h] at hq; simpa using hq.symm
    · rw [List.getElem?_eq_none h] at hq; simp at hq

/-! ## Intersected elements and interfaces -/

omit [Field K] [LinearOrder K] in
/-- **C80, intersected**: an element is regarded as intersected if it has more than `nGauss²` points left; it is in the domain if it has any. -/
theorem C80_intersected (q : List (List (Gp K))) (nG : Nat) (iel : Int) :
    (isIntersected q nG iel false = true ↔ ∃ l, 0 ≤ iel ∧ q[iel.toNat]? = some l ∧ l ≠ [] ∧ l.length > nG*nG) ∧
    (isIntersected q nG iel true = true ↔ ∃ l, 0 ≤ iel ∧ q[iel.toNat]? = some l ∧ l ≠ []) := by
  unfold isIntersected
  by_cases h : iel < 0 ∨ iel.toNat ≥ q.length
  · simp only [if_pos h]
    constructor <;>
    · simp only [Bool.false_eq_true, false_iff, not_exists]
      rintro l ⟨h1, h2, -⟩
      rcases h with h | h
      · omega
      · rw [List.getElem?_eq_none h] at h2; simp at h2
  · push Not at h
    obtain ⟨l, hl⟩ : ∃ l, q[iel.toNat]? = some l := ⟨_, List.getElem?_eq_getElem h.2⟩
    have e : q.getD iel.toNat [] = l := by simp [List.getD_eq_getElem?_getD, hl]
    simp only [if_neg (show ¬ (iel < 0 ∨ iel.toNat ≥ q.length) by push Not; exact h), e, hl]
    by_cases hn : l = []
    · subst hn; simp
    · have : l.isEmpty = false := by simpa using hn
      simp [this, h.1, hn]

omit [Field K] [LinearOrder K] in
/-- **C80, interfaces**: for an element in the domain at the position `(i, j)` (from 0) of a mesh of `nx` by `ny` elements.  Bit 1 (value 2) is set exactly if there is an element to the east, and: either the element is
cut (or all interfaces are wanted) and that one is in the domain, or that one is cut.  Bit 3 (value 8) likewise to the north.  The other bits are not set. -/
theorem C80_interfaces (q : List (List (Gp K))) (nG p1 p2 nx ny i j : Nat) (all : Bool) (hi : i < nx) (hj : j < ny) (h1 : 1 ≤ p1) (h2 : 1 ≤ p2) (hne : ∃ g t, q[nx*j+i]? = some (g :: t)) :
    hasContribution q nG (nx+p1-1) (ny+p2-1) p1 p2 (i+p1) (j+p2) all false =
      (if i+1 < nx ∧ isIntersected q nG (nx*j+(i+1) : Nat) (all || isIntersected q nG (nx*j+i : Nat) false) = true then 2 else 0) +
      (if j+1 < ny ∧ isIntersected q nG (nx*(j+1)+i : Nat) (all || isIntersected q nG (nx*j+i : Nat) false) = true then 8 else 0) := by
  obtain ⟨g, t, hq⟩ := hne
  unfold hasContribution
  have e1 : nx+p1-1-p1+1 = nx := by omega
  have e2 : i+p1-p1 = i := by omega
  have e3 : j+p2-p2 = j := by omega
  dsimp only
  rw [e1, e2, e3]
  have e4 : i + nx*j = nx*j+i := by omega
  have e5 : nx*j+i+nx = nx*(j+1)+i := by rw [Nat.mul_add]; omega
  rw [e4]
  have : (q.getD (nx*j+i) []).isEmpty = false := by simp [List.getD_eq_getElem?_getD, hq]
  rw [if_neg (by rw [this]; simp)]
  have r4 : List.range 4 = [0, 1, 2, 3] := rfl
  rw [r4]
  simp only [List.map_cons, List.map_nil, List.getD_cons_zero, List.getD_cons_succ, List.sum_cons, List.sum_nil]
  generalize (all || isIntersected q nG (nx*j+i : Nat) false) = c
  have n1 : nx*(j+1)+i ≠ 0 := by
    have : 0 < nx*(j+1) := Nat.mul_pos (by omega) (by omega)
    omega
  have help : ∀ (A : Prop) [Decidable A] (k v : Nat), k ≠ 0 → (if ((if A then k else 0) != 0 && isIntersected q nG ((if A then k else 0 : Nat) : Int) c) = true then v else 0) =
      if A ∧ isIntersected q nG (k : Nat) c = true then v else 0 := by
    intro A _ k v hk
    by_cases hA : A
    · simp [hA, hk]
    · simp [hA]
  have a1 := help (i+p1 < nx+p1-1) (nx*j+i+1) 2 (by omega)
  have a2 := help (j+p2 < ny+p2-1) (nx*j+i+nx) 8 (by rw [e5]; exact n1)
  have c1 : (i+p1 < nx+p1-1) ↔ i+1 < nx := by omega
  have c2 : (j+p2 < ny+p2-1) ↔ j+1 < ny := by omega
  rw [e5] at a2
  have z0 : ((false || 0 % 2 == 1) : Bool) = false := rfl
  have z1 : ((false || 1 % 2 == 1) : Bool) = true := rfl
  rw [z0, z1, e5]
  simp only [Bool.false_and, Bool.true_and, Bool.false_eq_true, if_false, Nat.zero_add, Nat.add_zero, show 2^1 = 2 from rfl, show 2^3 = 8 from rfl]
  rw [a1, a2, ← Nat.add_assoc (nx*j) i 1]
  simp only [c1, c2]

omit [Field K] [LinearOrder K] in
/-- An element outside the domain has no interfaces. -/
theorem C80_interface_outside (q : List (List (Gp K))) (nG p1 p2 nx ny i j : Nat) (all sw : Bool) (hi : i < nx) (h1 : 1 ≤ p1) (he : q[nx*j+i]? = some []) :
    hasContribution q nG (nx+p1-1) (ny+p2-1) p1 p2 (i+p1) (j+p2) all sw = 0 := by
  unfold hasContribution
  have e1 : nx+p1-1-p1+1 = nx := by omega
  have e2 : i+p1-p1 = i := by omega
  have e3 : j+p2-p2 = j := by omega
  dsimp only
  rw [e1, e2, e3]
  have e4 : i + nx*j = nx*j+i := by omega
  rw [e4, if_pos]
  simp [List.getD_eq_getElem?_getD, he]

/-- **Counterexample** to the interfaces to the west: two elements in the domain, all interfaces are wanted; the first element is not seen from the second, since its index 0 means "no neighbour". -/
theorem C80_west_missed : hasContribution (K := Rat) [[(0, 0, 4)], [(0, 0, 4)]] 1 2 1 1 1 2 1 true true = 0 := by decide +kernel

/-- **Counterexample.**  Elements that are cut, but have at most `nGauss²` points left, are not regarded as intersected: the interface between two of them is not stabilised. -/
theorem C80_cut_missed : hasContribution (K := Rat) [[(0, 0, 1)], [(0, 0, 1)]] 1 2 1 1 1 1 1 false false = 0 := by decide +kernel

/-! ## The hypotheses are met -/

/-- The square root of the real numbers. -/
theorem C80_case_sqrt : IsSqrt Real.sqrt := fun x hx => ⟨Real.sqrt_nonneg x, Real.mul_self_sqrt hx⟩

/-- The one-point rule is exact to degree one. -/
theorem C80_case_rule : Exact [((0 : Rat), (2 : Rat))] 1 := by
  intro P hP
  have h := Polynomial.as_sum_range' P 3 (by omega)
  rw [h]
  simp only [Finset.sum_range_succ, Finset.sum_range_zero, Polynomial.derivative_add, Polynomial.derivative_monomial, Polynomial.eval_add, Polynomial.eval_monomial, List.map_cons, List.map_nil, List.sum_cons, List.sum_nil]
  simp
  ring

/-- An element with a circular hole at one corner, `[0,2]²` with the hole of radius 1 at the origin, and one level of division: with one point per cell, three of the four points remain. -/
def sampleElm : Elm Rat := { alpha := (Geometry.hole (.circle 1 0 0)).alpha id, hypot := fun a b => |a| + |b|, X1 := ![0, 0, 0, 0, 0], X2 := ![2, 0, 0, 1, 0], X3 := ![2, 2, 0, 1, 1], X4 := ![0, 2, 0, 0, 1] }

theorem C80_case_element : quadrature sampleElm (some [(0, 2)]) 1 = some [(-1/2, 1/2, 1), (1/2, -1/2, 1), (1/2, 1/2, 1)] ∧ quadrature sampleElm (some [(0, 2)]) 0 = some [(0, 0, 4)] := by
  constructor <;> decide +kernel

/-- **Counterexample.**  The test points are displaced along the axes, so they lie outside an element that is turned: a square with its corners on the axes, and a geometry that is the half-plane `x + y ≤ 1` beside the element, so that
the element is wholly inside; the cell is divided. -/
theorem C80_turned : uniform { alpha := fun p : Pt Rat => if p 0 + p 1 ≤ 1 then 1 else 0, hypot := fun _ _ => 2, X1 := ![0, 1, 0, 0, 0], X2 := ![-1, 0, 0, 1, 0], X3 := ![0, -1, 0, 1, 1], X4 := ![1, 0, 0, 0, 1] } 1
    (cell0 { alpha := fun p : Pt Rat => if p 0 + p 1 ≤ 1 then 1 else 0, hypot := fun _ _ => 2, X1 := ![0, 1, 0, 0, 0], X2 := ![-1, 0, 0, 1, 0], X3 := ![0, -1, 0, 1, 1], X4 := ![1, 0, 0, 0, 1] }) = false := by
  decide +kernel

/-- A case with all three kinds of neighbours: an element that is cut, east of it one in the domain, north one outside. -/
theorem C80_interface_case : hasContribution (K := Rat) [[(0, 0, 1), (0, 0, 1)], [(0, 0, 4)], [], [(0, 0, 4)]] 1 2 2 1 1 1 1 false false = 2 := by decide +kernel

end IFEM.Immersed
