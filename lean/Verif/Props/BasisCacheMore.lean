import Verif.Props.BasisCacheUse
import Mathlib.Algebra.Order.Ring.Rat

/-! C78: clearing the caches, histories that never fail, the parameters of a point, and what goes wrong. -/

namespace IFEM.BCache

variable {K V : Type} [Field K]

/-- A cache without values. -/
def wipe (c : Cache V) : Cache V := { c with values := [], valuesRed := [] }

theorem clears {P : Patch K V} {pol : Policy} : ∀ (m : Nat) (st : St K V), m ≤ st.caches.length →
    ∃ st', run P pol ((List.range m).map Op.clear) st = some st' ∧
      st'.caches = (st.caches.take m).map wipe ++ st.caches.drop m ∧
      st'.ngs = st.ngs ∧ st'.threads = st.threads ∧
      ((∃ c ∈ st.caches.take m, c.basis = 1) → st'.main = Quad.reset K P.knots.length ∧ st'.red = Quad.reset K P.knots.length)
  | 0, st, _ => ⟨st, rfl, by simp, rfl, rfl, by simp⟩
  | m + 1, st, hm => by
    obtain ⟨s, h1, h2, h3, h4, h5⟩ := clears (P := P) (pol := pol) m st (by omega)
    have app : ∀ (l1 l2 : List Op) (a : St K V), run P pol (l1 ++ l2) a = (run P pol l1 a).bind (run P pol l2) := by
      intro l1
      induction l1 with
      | nil => intro l2 a; rfl
      | cons o os ih =>
        intro l2 a
        simp only [List.cons_append, run]
        cases step P pol a o with
        | none => rfl
        | some r => exact ih l2 r.1
    have hlen : m < st.caches.length := by omega
    have hget : s.caches[m]? = some st.caches[m] := by
      rw [h2, List.getElem?_append_right (by rw [List.length_map, List.length_take]; omega)]
      have e : m - ((st.caches.take m).map wipe).length = 0 := by
        rw [List.length_map, List.length_take]; omega
      rw [e, List.getElem?_drop, Nat.add_zero, List.getElem?_eq_getElem hlen]
    obtain ⟨s', e1, e2, e3, e4, e5, e6⟩ := clear_eq P s st.caches[m]
    refine ⟨{ s' with caches := s'.caches.set m (wipe st.caches[m]) }, ?_, ?_, ?_, ?_, ?_⟩
    · rw [List.range_succ, List.map_append, app, h1]
      simp [run, step, hget, e1, wipe]
    · simp only [e2, h2]
      rw [List.set_append_right _ _ (by rw [List.length_map, List.length_take]; omega)]
      have e : m - ((st.caches.take m).map wipe).length = 0 := by
        rw [List.length_map, List.length_take]; omega
      rw [e, List.drop_eq_getElem_cons hlen, List.set_cons_zero, ← List.take_append_getElem hlen, List.map_append,
        List.append_assoc]
      rfl
    · exact e3.trans h3
    · exact e4.trans h4
    · rintro ⟨c, hc, hb⟩
      by_cases hbm : st.caches[m].basis = 1
      · exact e5 hbm
      · rw [e6 hbm]
        refine h5 ⟨c, ?_, hb⟩
        rw [← List.take_append_getElem hlen, List.mem_append] at hc
        rcases hc with hc | hc
        · exact hc
        · simp at hc; subst hc; exact absurd hb hbm

/-- **C78, starting over**: whatever has been done before, clearing all the caches of a patch never fails and
gives a new start, for whatever Gauss rules the patch now asks for. -/
theorem C78_clear_all {P : Patch K V} {pol : Policy} {bs : List Int} {st : St K V}
    (hb : st.caches.map (·.basis) = 1 :: bs) (h1 : (1 : Int) ∉ bs) :
    ∃ st', run P pol ((List.range (bs.length + 1)).map Op.clear) st = some st' ∧ Start P bs st.ngs false st' ∧
      st'.caches.map (·.itg) = st.caches.map (·.itg) ∧ st'.threads = st.threads := by
  have hl : st.caches.length = bs.length + 1 := by
    have := congrArg List.length hb
    simpa using this
  obtain ⟨s, e1, e2, e3, e4, e5⟩ := clears (P := P) (pol := pol) (bs.length + 1) st (by omega)
  rw [List.take_of_length_le (by omega), List.drop_eq_nil_of_le (by omega), List.append_nil] at e2
  have hc : ∃ c ∈ st.caches.take (bs.length + 1), c.basis = 1 := by
    rw [List.take_of_length_le (by omega)]
    have : (1 : Int) ∈ st.caches.map (·.basis) := by rw [hb]; simp
    simpa using this
  obtain ⟨q1, q2⟩ := e5 hc
  refine ⟨s, e1, ⟨by rw [e2, List.map_map, ← hb]; rfl, h1, e3, ⟨q1, q2, ?_⟩, by simp⟩, by rw [e2, List.map_map]; rfl, e4⟩
  intro c hc
  rw [e2, List.mem_map] at hc
  obtain ⟨c0, -, rfl⟩ := hc
  exact ⟨rfl, rfl⟩

/-- **C78, the parameters** of an integration point of a spline patch. -/
theorem C78_param {k x : List K} {q : Quad K} {d : Nat} (hg : q.gpar[d]? = some (gaussPar x k))
    (hn : q.ng[d]? = some x.length) {e g : Nat} {a b ξ : K} (ha : k[e]? = some a) (hb : k[e + 1]? = some b)
    (hx : x[g]? = some ξ) : getParam q d e g = some (place a b ξ) := by
  have := gaussPar_get x k e g a b ξ ha hb hx
  rw [place_eq, Nat.add_comm, Nat.mul_comm] at this
  simp [getParam, hg, hn, this]

/-- **C78, the parameters** of an integration point of a Lagrange patch are the same. -/
theorem C78_param_lagrange {k x : List K} {q : Quad K} {d : Nat} (hg : q.gpar[d]? = some k)
    (hn : q.xg[d]? = some (some x)) {e g : Nat} {a b ξ : K} (ha : k[e]? = some a) (hb : k[e + 1]? = some b)
    (hx : x[g]? = some ξ) : getParamLag q d e g = some (place a b ξ) := by
  simp only [getParamLag, hg, hn, ha, hb, hx, Option.bind_some, id, Option.map_some, Option.some.injEq, place]
  ring

/-- **C78, positions**: on a spline surface the values of Gauss point `(g0,g1)` of element `(e0,e1)` are kept at
the place of that point in the grid of all Gauss points, row by row. -/
theorem C78_position (P : Patch K V) (hk : P.kind = .spline) {k0 k1 : List K} (hd : P.knots = [k0, k1])
    (q : Quad K) {n0 n1 : Nat} (hq : q.ng = [n0, n1]) {e0 e1 g0 g1 : Nat} (he : e0 < k0.length - 1) (hg : g0 < n0) :
    index P q (e0 + (k0.length - 1) * e1) (g0 + n0 * g1) =
      some ((e1 * n1 + g1) * ((k0.length - 1) * n0) + (e0 * n0 + g0)) := by
  obtain ⟨d1, d2⟩ := dm (e1 := e1) he
  obtain ⟨d3, d4⟩ := dm (e1 := g1) hg
  have z1 : k0.length - 1 ≠ 0 := by omega
  have z2 : n0 ≠ 0 := by omega
  simp only [index, hk, Patch.nel, hd, hq, elmIndex, gpIndex, gridIndex, List.map_cons, List.map_nil, if_neg z1, if_neg z2,
    Option.bind_some, d1, d2, d3, d4]
  congr 1; ring

/-- **C78, positions** in a spline volume. -/
theorem C78_position_volume (P : Patch K V) (hk : P.kind = .spline) {k0 k1 k2 : List K} (hd : P.knots = [k0, k1, k2])
    (q : Quad K) {n0 n1 n2 : Nat} (hq : q.ng = [n0, n1, n2]) {e0 e1 e2 g0 g1 g2 : Nat} (he : e0 < k0.length - 1)
    (he' : e1 < k1.length - 1) (hg : g0 < n0) (hg' : g1 < n1) :
    index P q (e0 + (k0.length - 1) * (e1 + (k1.length - 1) * e2)) (g0 + n0 * (g1 + n1 * g2)) =
      some (((e2 * n2 + g2) * ((k1.length - 1) * n1) + (e1 * n1 + g1)) * ((k0.length - 1) * n0) + (e0 * n0 + g0)) := by
  obtain ⟨d1, d2⟩ := dm (e1 := e1 + (k1.length - 1) * e2) he
  obtain ⟨d3, d4⟩ := dm (e1 := g1 + n1 * g2) hg
  obtain ⟨d5, d6⟩ := dm (e1 := e2) he'
  obtain ⟨d7, d8⟩ := dm (e1 := g2) hg'
  have z1 : ¬ (k0.length - 1 = 0 ∨ k1.length - 1 = 0) := by omega
  have z2 : ¬ (n0 = 0 ∨ n1 = 0) := by omega
  simp only [index, hk, Patch.nel, hd, hq, elmIndex, gpIndex, gridIndex, List.map_cons, List.map_nil, if_neg z1, if_neg z2,
    Option.bind_some, ← Nat.div_div_eq_div_mul, d1, d2, d3, d4, d5, d6, d7, d8]
  congr 1; ring

/-- The number of threads after an operation. -/
def nThreads (o : Op) (th : Nat) : Nat := match o with | .threads k => k | _ => th

/-- What a history may ask for at each point: caches that exist, and values only of caches in use, of points of
the patch, and by threads that exist. -/
def Legal (P : Patch K V) (ngs : List Nat) (n : Int) (m : Nat) : List Op → (Nat → Option Nat) → Nat → Prop
  | [], _, _ => True
  | o :: os, lv, th =>
    (match o with
      | .setItg b _ => b < m
      | .init b _ => b < m
      | .clear b => b < m
      | .get b t el gp red => b < m ∧ (lv 0).isSome = true ∧ (lv b).isSome = true ∧ t < th ∧ (red = true → 0 < n) ∧
          (∃ i, index P (if red then redQ P n (ngs.getD 0 0) else mainQ P ngs) el gp = some i) ∧
          (∃ pt, point P (if red then redQ P n (ngs.getD 0 0) else mainQ P ngs) el gp = some pt)
      | _ => True) ∧
    Legal P ngs n m os (live o lv) (nThreads o th)

theorem step_threads {P : Patch K V} {pol : Policy} {st st' : St K V} {o : Op} {v : Option (Vals V)}
    (h : step P pol st o = some (st', v)) :
    st'.threads = nThreads o st.threads := by
  cases o with
  | setItg b i =>
    simp only [step, Option.map_eq_some_iff] at h
    obtain ⟨c, hc, he⟩ := h
    cases he; rfl
  | init b nd =>
    simp only [step, Option.bind_eq_some_iff, Option.map_eq_some_iff] at h
    obtain ⟨c, hc, ⟨s1, c'⟩, hi, he⟩ := h
    cases he
    unfold initCache at hi
    split at hi
    · cases hi; rfl
    · obtain ⟨s, hs, -, -, h1, -⟩ := clear_eq P st { c with nderiv := nd }
      unfold rebuild at hi
      simp only [hs] at hi
      split at hi
      · cases hi; exact h1
      · split at hi
        · cases hi; exact h1
        · rw [Option.map_eq_some_iff] at hi
          obtain ⟨c2, h2, he⟩ := hi
          cases he
          exact h1
  | clear b =>
    simp only [step, Option.map_eq_some_iff] at h
    obtain ⟨c, hc, he⟩ := h
    obtain ⟨s, e, -, -, h1, -⟩ := clear_eq P st c
    simp only [e] at he
    cases he
    exact h1
  | get b t el gp r =>
    simp only [step, Option.bind_eq_some_iff, Option.map_eq_some_iff] at h
    obtain ⟨c, hc, ⟨c', v'⟩, hg, he⟩ := h
    cases he; rfl
  | threads m => simp only [step] at h; cases h; rfl
  | setGauss m => simp only [step] at h; cases h; rfl

theorem legal_runs {P : Patch K V} {pol : Policy} {ngs : List Nat} {n : Int} (hR : Rules P ngs n) {w : Nat} {z : Bool} :
    ∀ (ops : List Op) (st : St K V) (lv : Nat → Option Nat), Inv P pol ngs n w z st lv →
    (∀ o ∈ ops, FairOp P pol ngs n w z o) → Legal P ngs n st.caches.length ops lv st.threads →
    ∃ st', run P pol ops st = some st'
  | [], st, _, _, _, _ => ⟨st, rfl⟩
  | o :: os, st, lv, h, hf, hl => by
    obtain ⟨hl1, hl2⟩ := hl
    have hs : ∃ r, step P pol st o = some r := by
      cases o with
      | setItg b i =>
        simp only at hl1
        exact ⟨_, by simp only [step, List.getElem?_eq_getElem hl1, Option.map_some]; rfl⟩
      | init b nd =>
        simp only at hl1
        have hc : st.caches[b]? = some st.caches[b] := List.getElem?_eq_getElem hl1
        have hC := h.caches b _ hc
        obtain ⟨c1, e1, -⟩ := rebuild_good (pol := pol) hR h.quads h.hn hC.itg (hf (.init b nd) (by simp) : FairOp P pol ngs n w z (.init b nd)).1
        simp only [step, hc, Option.bind_some, initCache]
        split
        · exact ⟨_, rfl⟩
        · exact ⟨_, by rw [e1]; rfl⟩
      | clear b =>
        simp only at hl1
        exact ⟨_, by simp only [step, List.getElem?_eq_getElem hl1, Option.map_some]; rfl⟩
      | get b t el gp red =>
        simp only at hl1
        obtain ⟨h1, h2, h3, h4, h5, ⟨i, h6⟩, ⟨pt, h7⟩⟩ := hl1
        have hc : st.caches[b]? = some st.caches[b] := List.getElem?_eq_getElem h1
        obtain ⟨q1, q2⟩ := h.set0 (Or.inl h2)
        obtain ⟨nd, hnd⟩ := Option.isSome_iff_exists.1 h3
        obtain ⟨c', v, hg, -⟩ := getVals_right hR q1 q2 ((h.caches b _ hc).alive nd hnd).2 h4 h5 h6 h7
        exact ⟨_, by simp only [step, hc, Option.bind_some, hg, Option.map_some]; rfl⟩
      | threads m => exact ⟨_, rfl⟩
      | setGauss m => exact ⟨_, rfl⟩
    obtain ⟨⟨s1, v⟩, hs⟩ := hs
    have e1 : s1.caches.length = st.caches.length := by
      have := congrArg List.length (step_bases hs)
      simpa using this
    have e2 := step_threads hs
    rw [← e2, ← e1] at hl2
    obtain ⟨st', hr⟩ := legal_runs hR os s1 (live o lv) (inv_step hR h (hf o (by simp)) hs) (fun o' ho => hf o' (by simp [ho])) hl2
    exact ⟨st', by simp [run, hs, hr]⟩

/-- **C78, no failure**: a steady history that asks only for what exists never fails. -/
theorem C78_runs {P : Patch K V} (hk : P.kind = .spline) {pol : Policy} {ngs : List Nat} {n : Int} (hR : Rules P ngs n)
    {z : Bool} {bs : List Int} {st0 : St K V} (hs : Start P bs ngs z st0) (hi : ∀ c ∈ st0.caches, nRed c.itg (ngs.getD 0 0) = n)
    {ops : List Op} (hf : ∀ o ∈ ops, SteadySpline P pol ngs n z o)
    (hl : Legal P ngs n (bs.length + 1) ops (fun _ => none) st0.threads) : ∃ st, run P pol ops st0 = some st := by
  have e : st0.caches.length = bs.length + 1 := by
    have := congrArg List.length hs.1
    simpa using this
  rw [← e] at hl
  exact legal_runs (w := 0) hR ops st0 _ (inv_start hs (fun c hc => ⟨hi c hc, fun h => absurd hk h⟩))
    (fun o ho => steady_spline hk (hf o ho)) hl

/-! ### Examples, and what goes wrong -/

/-- A surface of two elements (or its Lagrange counterpart); evaluating gives back what is asked for. -/
def demoPatch (k : Kind) : Patch ℚ (Int × Nat × List ℚ) :=
  { kind := k, knots := [[0, 1, 3], [0, 1]]
    rule := fun n => if n = 1 then some [0] else if n = 2 then some [-1/2, 1/2] else none
    eval := fun b k pt => (b, k, pt) }

/-- An integrand that asks for `r` points of reduced integration. -/
def demoItg (r : Int) (noDer : Bool) : Itg := ⟨fun _ => r, noDer⟩

/-- What the last of a list of operations gives. -/
def answer {K V : Type} [Field K] (P : Patch K V) (pol : Policy) (ops : List Op) (o : Op) (st : St K V) : Option (Vals V) :=
  (run P pol ops st).bind fun s => (step P pol s o).bind fun r => r.2

theorem demo_rules (k : Kind) (n : Int) (hn : n = 0 ∨ n = 1) : Rules (demoPatch k) [2, 2] n := by
  refine ⟨Or.inl rfl, rfl, ?_, ?_, ?_⟩
  · intro m hm; simp at hm; subst hm; exact ⟨[-1/2, 1/2], by simp [demoPatch], rfl⟩
  · intro h; rcases hn with rfl | rfl
    · omega
    · exact ⟨[0], by simp [demoPatch], rfl⟩
  · intro k hk; simp [demoPatch] at hk; rcases hk with rfl | rfl <;> simp

/-- A history meeting the hypotheses of `C78_surface`, with two bases, several policies and changes of order. -/
def demoOps : List Op :=
  [.init 0 1, .init 1 1, .get 0 0 1 3 false, .setItg 0 (demoItg 1 false), .init 0 2, .get 0 0 0 0 true, .clear 1, .init 1 1]

example : ∀ pol, (∀ o ∈ demoOps, SteadySpline (demoPatch .spline) pol [2, 2] 1 false o) ∧
    Start (demoPatch .spline) [2] [2, 2] false (fresh (demoPatch .spline) [1, 2] (some (demoItg 1 false)) [2, 2] 1) ∧
    (run (demoPatch .spline) pol demoOps (fresh (demoPatch .spline) [1, 2] (some (demoItg 1 false)) [2, 2] 1)).isSome = true ∧
    lives demoOps (fun _ => none) 0 = some 2 ∧ lives demoOps (fun _ => none) 1 = some 1 := by
  intro pol
  refine ⟨?_, start_fresh _ _ (by decide) _ _ _ _, ?_, rfl, rfl⟩
  · intro o ho
    simp only [demoOps, List.mem_cons, List.not_mem_nil, or_false] at ho
    rcases ho with rfl | rfl | rfl | rfl | rfl | rfl | rfl | rfl <;> simp [SteadySpline, demoItg, demoPatch]
  · cases pol <;> decide +kernel

/-- The values of the second basis at the last Gauss point of the second element, whatever the policy. -/
example : ∀ pol, answer (demoPatch .spline) pol demoOps (.get 1 0 1 3 false)
      (fresh (demoPatch .spline) [1, 2] (some (demoItg 1 false)) [2, 2] 1) =
    some { N := some (2, 0, [5/2, 3/4]), d1 := some (2, 1, [5/2, 3/4]) } := by
  intro pol; cases pol <;> decide +kernel

/-- F136: after an integrand without derivatives, the projection on a Lagrange patch initialises the cache for
first derivatives but evaluates none, because it asks the integrand of the last assembly; with the full cache, an
integrand that does want derivatives is then left without them for good. -/
theorem C78_lost_derivatives :
    (answer (demoPatch .lag) .fullCache [.setItg 0 (demoItg 0 true), .init 0 0, .init 0 1, .setItg 0 (demoItg 0 false), .init 0 1]
      (.get 0 0 0 0 false) (fresh (demoPatch .lag) [1] none [2, 2] 1)).map (·.d1) = some none ∧
    (answer (demoPatch .lag) .preCache [.setItg 0 (demoItg 0 true), .init 0 0, .clear 0, .init 0 1]
      (.get 0 0 0 0 false) (fresh (demoPatch .lag) [1] none [2, 2] 1)).map (·.d1) = some none := by
  constructor <;> decide +kernel

/-- F137: an integrand with reduced integration that comes after one without gets no reduced quadrature unless
the cache has been cleared. -/
theorem C78_stale_reduced : ∀ pol,
    (run (demoPatch .spline) pol [.setItg 0 (demoItg 0 false), .init 0 1, .setItg 0 (demoItg 1 false), .init 0 1]
      (fresh (demoPatch .spline) [1] none [2, 2] 1)).map (fun s => s.red.isSet) = some false ∧
    (run (demoPatch .spline) pol [.setItg 0 (demoItg 0 false), .init 0 1, .clear 0, .setItg 0 (demoItg 1 false), .init 0 1]
      (fresh (demoPatch .spline) [1] none [2, 2] 1)).map (fun s => s.red.isSet) = some true := by
  intro pol; cases pol <;> constructor <;> decide +kernel

/-- F138: a number of Gauss points without a rule is not reported; the cache is initialised with no values. -/
theorem C78_missing_rule : ∀ pol,
    (run (demoPatch .spline) pol [.init 0 1] (fresh (demoPatch .spline) [1] none [5, 2] 1)).isSome = true ∧
    answer (demoPatch .spline) pol [.init 0 1] (.get 0 0 0 0 false) (fresh (demoPatch .spline) [1] none [5, 2] 1) = none := by
  intro pol; cases pol <;> constructor <;> decide +kernel

/-- F139: at the points of reduced integration second derivatives depend on the policy. -/
theorem C78_reduced_order :
    (answer (demoPatch .spline) .preCache [.init 0 2] (.get 0 0 0 0 true)
      (fresh (demoPatch .spline) [1] (some (demoItg 1 false)) [2, 2] 1)).map (·.d2) = some none ∧
    (answer (demoPatch .spline) .noCache [.init 0 2] (.get 0 0 0 0 true)
      (fresh (demoPatch .spline) [1] (some (demoItg 1 false)) [2, 2] 1)).map (·.d2) = some (some (1, 2, [1/2, 1/2])) := by
  constructor <;> decide +kernel

/-- F140: clearing the cache of the first basis takes the quadrature from the others, and initialising them again
does not bring it back. -/
theorem C78_shared_quadrature :
    answer (demoPatch .spline) .fullCache [.init 0 1, .init 1 1, .clear 0, .init 1 1] (.get 1 0 0 0 false)
      (fresh (demoPatch .spline) [1, 2] none [2, 2] 1) = none ∧
    (answer (demoPatch .spline) .fullCache [.init 0 1, .init 1 1, .clear 0, .init 0 1] (.get 1 0 0 0 false)
      (fresh (demoPatch .spline) [1, 2] none [2, 2] 1)).isSome = true := by
  constructor <;> decide +kernel

/-- F141: without caching, a change of the number of threads before the first assembly makes an initialisation
without derivatives a no-operation: there is no quadrature. -/
theorem C78_threads_first :
    (run (demoPatch .lag) .noCache [.setItg 0 (demoItg 0 true), .threads 2, .init 0 0]
      (fresh (demoPatch .lag) [1] none [2, 2] 1)).map (fun s => s.main.isSet) = some false ∧
    (run (demoPatch .lag) .noCache [.setItg 0 (demoItg 0 true), .init 0 0, .threads 2]
      (fresh (demoPatch .lag) [1] none [2, 2] 1)).map (fun s => s.main.isSet) = some true := by
  constructor <;> decide +kernel

/-- **C78, refusal**: without a Gauss rule for one of the directions, or for the points of the reduced integration, the quadrature is not set up. -/
theorem C78_refused (P : Patch K V) (ngs : List Nat) (itg : Option Itg)
    (h : (∃ d < P.knots.length, P.rule (ngs.getD d 0) = none) ∨ (0 < P.knots.length ∧ ∃ i, itg = some i ∧ 0 < i.red (ngs.getD 0 0) ∧ P.rule (i.red (ngs.getD 0 0)).toNat = none)) :
    (setup P ngs itg (Quad.reset K P.knots.length) (Quad.reset K P.knots.length)).2.2 = false := by
  have key : ∀ (ds : List Nat) (q : Quad K), (∀ d ∈ ds, d < q.xg.length) → ((setMain P ngs ds q).2 = true ↔ ∀ d ∈ ds, P.rule (ngs.getD d 0) ≠ none) := by
    intro ds
    induction ds with
    | nil => intro q _; simp [setMain]
    | cons d ds ih =>
      intro q hq
      have e : (setDir P ngs q d).xg.getD d none = P.rule (ngs.getD d 0) := by
        have := hq d (by simp)
        simp [setDir, List.getD, this]
      simp only [setMain, e]
      cases hr : P.rule (ngs.getD d 0) with
      | none =>
        simp only [Option.isSome_none]
        exact ⟨fun h => by simp at h, fun h => absurd hr (h d (by simp))⟩
      | some x =>
        simp only [Option.isSome_some, if_true]
        rw [ih _ (fun d' hd' => by simpa [setDir] using hq d' (by simp [hd']))]
        simp only [List.getD] at hr ⊢
        simp [hr]
  have first : ∀ (ds : List Nat) (q : Quad K), 0 ∈ ds → 0 < q.ng.length → (setMain P ngs ds q).2 = true → (setMain P ngs ds q).1.ng.getD 0 0 = ngs.getD 0 0 := by
    have stay : ∀ (ds : List Nat) (q : Quad K), q.ng.getD 0 0 = ngs.getD 0 0 → 0 < q.ng.length → (setMain P ngs ds q).1.ng.getD 0 0 = ngs.getD 0 0 := by
      intro ds
      induction ds with
      | nil => intro q h _; exact h
      | cons d ds ih =>
        intro q h hl
        have h1 : (setDir P ngs q d).ng.getD 0 0 = ngs.getD 0 0 := by
          by_cases hd : d = 0
          · subst hd; simp [setDir, List.getD, hl]
          · simp only [setDir, List.getD] at h ⊢
            rw [List.getElem?_set_ne hd]; exact h
        simp only [setMain]
        split
        · exact ih _ h1 (by simpa [setDir] using hl)
        · exact h1
    intro ds
    induction ds with
    | nil => intro q h; cases h
    | cons d ds ih =>
      intro q hm hl ht
      simp only [setMain] at ht ⊢
      split
      · rename_i hc
        rw [if_pos hc] at ht
        by_cases hd : d = 0
        · subst hd
          exact stay _ _ (by simp [setDir, List.getD, hl]) (by simpa [setDir] using hl)
        · exact ih _ (by simpa [Ne.symm hd] using hm) (by simpa [setDir] using hl) ht
      · rename_i hc
        rw [if_neg hc] at ht; cases ht
  have hlen : ∀ d ∈ List.range P.knots.length, d < (Quad.reset K P.knots.length).xg.length := by
    intro d hd; simpa [Quad.reset] using hd
  by_cases hm : (setMain P ngs (List.range P.knots.length) (Quad.reset K P.knots.length)).2 = true
  · rcases h with ⟨d, hd, hr⟩ | ⟨hp, i, rfl, hpos, hr⟩
    · exact absurd hr ((key _ _ hlen).1 hm d (List.mem_range.2 hd))
    · have e := first _ _ (List.mem_range.2 hp) (by simpa [Quad.reset] using hp) hm
      simp only [setup, hm, if_true, e, nRed, setRed, if_pos hpos, hr, Option.isSome_none]
      simp
  · simp [setup, hm]

omit [Field K] in
/-- **C78, no integrand**: without an integrand there is no reduced integration. -/
theorem C78_no_integrand [Field K] (P : Patch K V) (ngs : List Nat) (dim : Nat) (main : Quad K) :
    (setup P ngs none main (Quad.reset K dim)).2.1.isSet = false := by
  have : (Quad.reset K dim).isSet = false ∧ (setRed P P.knots.length 0 (((setMain P ngs (List.range P.knots.length) main).1).ng.getD 0 0) (Quad.reset K dim)).1.isSet = false := by
    constructor <;> cases dim <;> simp [setRed, Quad.reset, Quad.isSet, List.replicate_succ]
  unfold setup
  dsimp only
  split
  · split
    · rw [nRed]
      dsimp only
      split
      · rename_i hc; rw [this.2] at hc; cases hc
      · exact this.2
    · rw [nRed]; exact this.2
  · exact this.1

end IFEM.BCache
