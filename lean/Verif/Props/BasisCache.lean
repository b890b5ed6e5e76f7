import Verif.Lemmas.BasisCacheRun

/-!
# C78: the basis function cache gives what an evaluation would give

Whatever the caching policy and whatever has been asked before, the values handed out for an integration point
are those of the basis functions at that point, with all the derivatives the last initialisation asked for.
-/

namespace IFEM.BCache

variable {K V : Type} [Field K]

/-- The place of a Gauss coordinate `x` in the knot span from `a` to `b`. -/
def place (a b x : K) : K := (a + b) / 2 + (b - a) / 2 * x

theorem place_eq (a b x : K) : (1 / 2) * ((b - a) * x + b + a) = place a b x := by unfold place; ring

theorem dm {a e0 e1 : Nat} (h : e0 < a) : (e0 + a * e1) % a = e0 ∧ (e0 + a * e1) / a = e1 := by
  refine ⟨by rw [Nat.add_mul_mod_self_left, Nat.mod_eq_of_lt h], ?_⟩
  rw [Nat.add_mul_div_left _ _ (by omega), Nat.div_eq_of_lt h, Nat.zero_add]

/-- A set-up quadrature of a spline surface has the point of every element and Gauss point. -/
theorem pt_spline2 {P : Patch K V} (hs : P.kind = .spline) {k0 k1 x0 x1 : List K} (hk : P.knots = [k0, k1])
    {q : Quad K} (hn : q.ng = [x0.length, x1.length]) (hg : q.gpar = [gaussPar x0 k0, gaussPar x1 k1])
    {e0 e1 g0 g1 : Nat} {a0 b0 a1 b1 ξ η : K} (ha0 : k0[e0]? = some a0) (hb0 : k0[e0 + 1]? = some b0)
    (ha1 : k1[e1]? = some a1) (hb1 : k1[e1 + 1]? = some b1) (hx : x0[g0]? = some ξ) (hy : x1[g1]? = some η) :
    (∃ i, index P q (e0 + (k0.length - 1) * e1) (g0 + x0.length * g1) = some i) ∧
    point P q (e0 + (k0.length - 1) * e1) (g0 + x0.length * g1) = some [place a0 b0 ξ, place a1 b1 η] := by
  have l0 := (List.getElem?_eq_some_iff.1 hb0).1
  have m0 := (List.getElem?_eq_some_iff.1 hx).1
  obtain ⟨d1, d2⟩ := dm (a := k0.length - 1) (e0 := e0) (e1 := e1) (by omega)
  obtain ⟨d3, d4⟩ := dm (a := x0.length) (e0 := g0) (e1 := g1) m0
  have r : List.range 2 = [0, 1] := rfl
  have u := gaussPar_get x0 k0 e0 g0 a0 b0 ξ ha0 hb0 hx
  have v := gaussPar_get x1 k1 e1 g1 a1 b1 η ha1 hb1 hy
  rw [place_eq, Nat.add_comm, Nat.mul_comm] at u v
  have z1 : k0.length - 1 ≠ 0 := by omega
  have z2 : x0.length ≠ 0 := by omega
  refine ⟨by
    simp only [index, hs, Patch.nel, hk, hn, elmIndex, gpIndex, gridIndex, List.map_cons, List.map_nil,
      if_neg z1, if_neg z2, Option.bind_some]
    exact ⟨_, rfl⟩, ?_⟩
  simp only [point, hs, splinePt, Patch.nel, hk, hn, elmIndex, gpIndex, List.map_cons, List.map_nil,
    if_neg z1, if_neg z2, Option.bind_some, d1, d2, d3, d4, List.length_cons, List.length_nil, Nat.zero_add, Nat.reduceAdd, r,
    List.mapM_cons, List.mapM_nil, getParam, hg, List.getElem?_cons_zero, List.getElem?_cons_succ, List.getD_cons_zero,
    List.getD_cons_succ, u, v, Option.pure_def, Option.bind_eq_bind]

/-- A set-up quadrature of a spline volume has the point of every element and Gauss point. -/
theorem pt_spline3 {P : Patch K V} (hs : P.kind = .spline) {k0 k1 k2 x0 x1 x2 : List K} (hk : P.knots = [k0, k1, k2])
    {q : Quad K} (hn : q.ng = [x0.length, x1.length, x2.length])
    (hg : q.gpar = [gaussPar x0 k0, gaussPar x1 k1, gaussPar x2 k2])
    {e0 e1 e2 g0 g1 g2 : Nat} {a0 b0 a1 b1 a2 b2 ξ η ζ : K} (ha0 : k0[e0]? = some a0) (hb0 : k0[e0 + 1]? = some b0)
    (ha1 : k1[e1]? = some a1) (hb1 : k1[e1 + 1]? = some b1) (ha2 : k2[e2]? = some a2) (hb2 : k2[e2 + 1]? = some b2)
    (hx : x0[g0]? = some ξ) (hy : x1[g1]? = some η) (hz : x2[g2]? = some ζ) :
    (∃ i, index P q (e0 + (k0.length - 1) * (e1 + (k1.length - 1) * e2)) (g0 + x0.length * (g1 + x1.length * g2)) = some i) ∧
    point P q (e0 + (k0.length - 1) * (e1 + (k1.length - 1) * e2)) (g0 + x0.length * (g1 + x1.length * g2)) =
      some [place a0 b0 ξ, place a1 b1 η, place a2 b2 ζ] := by
  have l0 := (List.getElem?_eq_some_iff.1 hb0).1
  have l1 := (List.getElem?_eq_some_iff.1 hb1).1
  have m0 := (List.getElem?_eq_some_iff.1 hx).1
  have m1 := (List.getElem?_eq_some_iff.1 hy).1
  obtain ⟨d1, d2⟩ := dm (a := k0.length - 1) (e0 := e0) (e1 := e1 + (k1.length - 1) * e2) (by omega)
  obtain ⟨d3, d4⟩ := dm (a := x0.length) (e0 := g0) (e1 := g1 + x1.length * g2) m0
  obtain ⟨d5, d6⟩ := dm (a := k1.length - 1) (e0 := e1) (e1 := e2) (by omega)
  obtain ⟨d7, d8⟩ := dm (a := x1.length) (e0 := g1) (e1 := g2) m1
  have r : List.range 3 = [0, 1, 2] := rfl
  have u := gaussPar_get x0 k0 e0 g0 a0 b0 ξ ha0 hb0 hx
  have v := gaussPar_get x1 k1 e1 g1 a1 b1 η ha1 hb1 hy
  have w := gaussPar_get x2 k2 e2 g2 a2 b2 ζ ha2 hb2 hz
  rw [place_eq, Nat.add_comm, Nat.mul_comm] at u v w
  have z1 : ¬ (k0.length - 1 = 0 ∨ k1.length - 1 = 0) := by omega
  have z2 : ¬ (x0.length = 0 ∨ x1.length = 0) := by omega
  refine ⟨by
    simp only [index, hs, Patch.nel, hk, hn, elmIndex, gpIndex, gridIndex, List.map_cons, List.map_nil,
      if_neg z1, if_neg z2, Option.bind_some]
    exact ⟨_, rfl⟩, ?_⟩
  simp only [point, hs, splinePt, Patch.nel, hk, hn, elmIndex, gpIndex, List.map_cons, List.map_nil,
    if_neg z1, if_neg z2, Option.bind_some, ← Nat.div_div_eq_div_mul, d1, d2, d3, d4, d5, d6, d7, d8,
    List.length_cons, List.length_nil, Nat.zero_add, Nat.reduceAdd, r,
    List.mapM_cons, List.mapM_nil, getParam, hg, List.getElem?_cons_zero, List.getElem?_cons_succ, List.getD_cons_zero,
    List.getD_cons_succ, u, v, w, Option.pure_def, Option.bind_eq_bind]

/-- A set-up quadrature of a Lagrange surface has the point of every element and Gauss point. -/
theorem pt_lag2 {P : Patch K V} (hs : P.kind ≠ .spline) {k0 k1 x0 x1 : List K} (hk : P.knots = [k0, k1])
    {q : Quad K} (hn : q.ng = [x0.length, x1.length]) (hg : q.xg = [some x0, some x1])
    (el : Nat) {g0 g1 : Nat} {ξ η : K} (hx : x0[g0]? = some ξ) (hy : x1[g1]? = some η) :
    (∃ i, index P q el (g0 + x0.length * g1) = some i) ∧
    point P q el (g0 + x0.length * g1) = some [ξ, η] := by
  have m0 := (List.getElem?_eq_some_iff.1 hx).1
  obtain ⟨d3, d4⟩ := dm (a := x0.length) (e0 := g0) (e1 := g1) m0
  have r : List.range 2 = [0, 1] := rfl
  have z2 : x0.length ≠ 0 := by omega
  refine ⟨⟨g0 + x0.length * g1, by unfold index; cases h : P.kind <;> first | rfl | exact absurd h hs⟩, ?_⟩
  have e4 : ∀ el gp, point P q el gp = lagPt P q gp := fun el gp => by
    unfold point; cases h : P.kind <;> first | rfl | exact absurd h hs
  simp only [e4, lagPt, hk, hn, gpIndex, if_neg z2, Option.bind_some, d3, d4, List.length_cons, List.length_nil, Nat.zero_add,
    Nat.reduceAdd, r, List.mapM_cons, List.mapM_nil, hg, List.getElem?_cons_zero, List.getElem?_cons_succ,
    List.getD_cons_zero, List.getD_cons_succ, hx, hy, Option.pure_def, Option.bind_eq_bind, id]

/-- A set-up quadrature of a Lagrange volume has the point of every element and Gauss point. -/
theorem pt_lag3 {P : Patch K V} (hs : P.kind ≠ .spline) {k0 k1 k2 x0 x1 x2 : List K} (hk : P.knots = [k0, k1, k2])
    {q : Quad K} (hn : q.ng = [x0.length, x1.length, x2.length]) (hg : q.xg = [some x0, some x1, some x2])
    (el : Nat) {g0 g1 g2 : Nat} {ξ η ζ : K} (hx : x0[g0]? = some ξ) (hy : x1[g1]? = some η) (hz : x2[g2]? = some ζ) :
    (∃ i, index P q el (g0 + x0.length * (g1 + x1.length * g2)) = some i) ∧
    point P q el (g0 + x0.length * (g1 + x1.length * g2)) = some [ξ, η, ζ] := by
  have m0 := (List.getElem?_eq_some_iff.1 hx).1
  have m1 := (List.getElem?_eq_some_iff.1 hy).1
  obtain ⟨d3, d4⟩ := dm (a := x0.length) (e0 := g0) (e1 := g1 + x1.length * g2) m0
  obtain ⟨d7, d8⟩ := dm (a := x1.length) (e0 := g1) (e1 := g2) m1
  have r : List.range 3 = [0, 1, 2] := rfl
  have z2 : ¬ (x0.length = 0 ∨ x1.length = 0) := by omega
  refine ⟨⟨g0 + x0.length * (g1 + x1.length * g2), by unfold index; cases h : P.kind <;> first | rfl | exact absurd h hs⟩, ?_⟩
  have e4 : ∀ el gp, point P q el gp = lagPt P q gp := fun el gp => by
    unfold point; cases h : P.kind <;> first | rfl | exact absurd h hs
  simp only [e4, lagPt, hk, hn, gpIndex, if_neg z2, Option.bind_some, ← Nat.div_div_eq_div_mul, d3, d4, d7, d8,
    List.length_cons, List.length_nil, Nat.zero_add,
    Nat.reduceAdd, r, List.mapM_cons, List.mapM_nil, hg, List.getElem?_cons_zero, List.getElem?_cons_succ,
    List.getD_cons_zero, List.getD_cons_succ, hx, hy, hz, Option.pure_def, Option.bind_eq_bind, id]

/-- A steady history of a spline patch: what the integrands say about reduced integration and what the patch
says about the Gauss rules does not change; the derivatives asked for are of order 1 and up to the highest one
known; and, if `z`, the number of threads may change while nothing is cached, but then nothing is cleared. -/
def SteadySpline (P : Patch K V) (pol : Policy) (ngs : List Nat) (n : Int) (z : Bool) : Op → Prop
  | .setItg _ i => i.red (ngs.getD 0 0) = n
  | .init _ nd => 1 ≤ nd ∧ nd ≤ (if P.knots.length = 2 then 3 else 2)
  | .clear _ => z = false
  | .threads _ => z = true ∨ pol ≠ .noCache
  | .setGauss m => m = ngs
  | .get _ _ _ _ _ => True

/-- A steady history of a Lagrange patch; if `w`, no integrand says it wants no derivatives. -/
def SteadyLag (pol : Policy) (ngs : List Nat) (n : Int) (z w : Bool) : Op → Prop
  | .setItg _ i => i.red (ngs.getD 0 0) = n ∧ (w = true → i.noDer = false)
  | .init _ nd => z = true → 1 ≤ nd
  | .clear _ => z = false
  | .threads _ => z = true ∨ pol ≠ .noCache
  | .setGauss m => m = ngs
  | .get _ _ _ _ _ => True

theorem steady_spline {P : Patch K V} (hs : P.kind = .spline) {pol : Policy} {ngs : List Nat} {n : Int} {z : Bool} {o : Op}
    (h : SteadySpline P pol ngs n z o) : FairOp P pol ngs n 0 z o := by
  cases o with
  | setItg b i => exact ⟨h, fun h0 => absurd hs h0⟩
  | init b nd => exact ⟨fun _ => h, fun _ => h.1⟩
  | clear b => exact h
  | get b t el gp r => trivial
  | threads m => exact h
  | setGauss m => exact h

theorem steady_lag {P : Patch K V} (hs : P.kind ≠ .spline) {pol : Policy} {ngs : List Nat} {n : Int} {z w : Bool} {o : Op}
    (h : SteadyLag pol ngs n z w o) : FairOp P pol ngs n (if w then 1 else 0) z o := by
  cases o with
  | setItg b i =>
    refine ⟨h.1, fun _ => ?_⟩
    unfold lagDer
    split
    · exact ⟨1, rfl, by split <;> omega⟩
    · refine ⟨_, rfl, ?_⟩
      cases w with
      | true => simp [h.2 rfl]
      | false => simp
  | init b nd => exact ⟨fun h0 => absurd h0 hs, h⟩
  | clear b => exact h
  | get b t el gp r => trivial
  | threads m => exact h
  | setGauss m => exact h

theorem step_bases {P : Patch K V} {pol : Policy} {st st' : St K V} {o : Op} {v : Option (Vals V)}
    (h : step P pol st o = some (st', v)) : st'.caches.map (·.basis) = st.caches.map (·.basis) := by
  have key : ∀ (b : Nat) (c c' : Cache V), st.caches[b]? = some c → c'.basis = c.basis →
      (st.caches.set b c').map (·.basis) = st.caches.map (·.basis) := by
    intro b c c' hc e
    rw [List.map_set, e]
    refine List.ext_getElem? fun j => ?_
    rw [List.getElem?_set]
    split
    · rename_i hj
      subst hj
      split
      · rw [List.getElem?_map, hc]; rfl
      · rename_i hl
        rw [List.getElem?_eq_none (by omega)]
    · rfl
  cases o with
  | setItg b i =>
    simp only [step, Option.map_eq_some_iff] at h
    obtain ⟨c, hc, he⟩ := h
    cases he
    exact key b c _ hc rfl
  | init b nd =>
    simp only [step, Option.bind_eq_some_iff, Option.map_eq_some_iff] at h
    obtain ⟨c, hc, ⟨s1, c'⟩, hi, he⟩ := h
    cases he
    unfold initCache at hi
    split at hi
    · cases hi; exact key b c _ hc rfl
    · obtain ⟨s, hs, h1, -⟩ := clear_eq P st { c with nderiv := nd }
      have main : s1.caches = st.caches ∧ c'.basis = c.basis := by
        unfold rebuild at hi
        simp only [hs] at hi
        split at hi
        · cases hi
          refine ⟨h1, ?_⟩
          unfold resizeBuffers
          split <;> rfl
        · split at hi
          · cases hi; exact ⟨h1, rfl⟩
          · rw [Option.map_eq_some_iff] at hi
            obtain ⟨c2, h2, he⟩ := hi
            cases he
            refine ⟨h1, ?_⟩
            unfold calculateAll at h2
            split at h2
            · rw [Option.bind_eq_some_iff] at h2
              obtain ⟨x, -, h2⟩ := h2
              rw [Option.bind_eq_some_iff] at h2
              obtain ⟨y, -, h2⟩ := h2
              cases h2; rfl
            · rw [Option.bind_eq_some_iff] at h2
              obtain ⟨j, -, h2⟩ := h2
              rw [Option.bind_eq_some_iff] at h2
              obtain ⟨x, -, h2⟩ := h2
              rw [Option.bind_eq_some_iff] at h2
              obtain ⟨y, -, h2⟩ := h2
              cases h2; rfl
      simp only [main.1]
      exact key b c _ hc main.2
  | clear b =>
    simp only [step, Option.map_eq_some_iff] at h
    obtain ⟨c, hc, he⟩ := h
    obtain ⟨s, e, h1, -⟩ := clear_eq P st c
    simp only [e] at he
    cases he
    simp only [h1]
    exact key b c _ hc rfl
  | get b t el gp r =>
    simp only [step, Option.bind_eq_some_iff, Option.map_eq_some_iff] at h
    obtain ⟨c, hc, ⟨c', v'⟩, hg, he⟩ := h
    cases he
    exact key b c _ hc (getVals_same hg).1
  | threads m =>
    simp only [step] at h
    cases h
    simp only [List.map_map]
    refine List.map_congr_left fun c _ => ?_
    simp only [Function.comp, resizeBuffers]
    split <;> rfl
  | setGauss m =>
    simp only [step] at h
    cases h
    rfl

theorem run_bases {P : Patch K V} {pol : Policy} : ∀ (ops : List Op) (st st' : St K V), run P pol ops st = some st' →
    st'.caches.map (·.basis) = st.caches.map (·.basis)
  | [], st, st', h => by cases h; rfl
  | o :: os, st, st', h => by
    simp only [run, Option.bind_eq_some_iff] at h
    obtain ⟨⟨s1, v⟩, hs, hr⟩ := h
    rw [run_bases os s1 st' hr, step_bases hs]

/-- All caches empty, and the quadratures reset. -/
def Clean (P : Patch K V) (st : St K V) : Prop :=
  st.main = Quad.reset K P.knots.length ∧ st.red = Quad.reset K P.knots.length ∧
  ∀ c ∈ st.caches, c.values = [] ∧ c.valuesRed = []

end IFEM.BCache
