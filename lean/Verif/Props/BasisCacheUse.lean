import Verif.Props.BasisCache

/-! C78: what the caches of a patch give. -/

namespace IFEM.BCache

variable {K V : Type} [Field K]

/-- Where a history starts: the first cache is that of basis 1 and the others are of other bases; they are empty
and the quadratures are reset; the patch asks for the Gauss rules `ngs`.  For histories that change the number of
threads without caching, the caches have never been initialised. -/
def Start (P : Patch K V) (bs : List Int) (ngs : List Nat) (z : Bool) (st : St K V) : Prop :=
  st.caches.map (·.basis) = 1 :: bs ∧ (1 : Int) ∉ bs ∧ st.ngs = ngs ∧ Clean P st ∧
  (z = true → ∀ c ∈ st.caches, c.nderiv = 0)

/-- New caches are such a start. -/
theorem start_fresh (P : Patch K V) (bs : List Int) (hb : (1 : Int) ∉ bs) (itg : Option Itg) (ngs : List Nat) (th : Nat)
    (z : Bool) : Start P bs ngs z (fresh P (1 :: bs) itg ngs th) := by
  refine ⟨by simp [fresh, Function.comp_def], hb, rfl, ⟨rfl, rfl, ?_⟩, ?_⟩
  · intro c hc
    simp only [fresh, List.mem_map] at hc
    obtain ⟨b, -, rfl⟩ := hc
    exact ⟨rfl, rfl⟩
  · intro _ c hc
    simp only [fresh, List.mem_map] at hc
    obtain ⟨b, -, rfl⟩ := hc
    rfl

theorem inv_start {P : Patch K V} {pol : Policy} {ngs : List Nat} {n : Int} {w : Nat} {z : Bool} {st : St K V}
    {bs : List Int} (h : Start P bs ngs z st) (hi : ∀ c ∈ st.caches, ItgOK P w n (ngs.getD 0 0) c.itg) :
    Inv P pol ngs n w z st (fun _ => none) := by
  obtain ⟨hbs, hb, hn, hc, hz⟩ := h
  refine ⟨hn, Or.inr ⟨hc.1, hc.2.1⟩, by simp, fun b c h => ?_⟩
  have hm := List.mem_of_getElem? h
  refine ⟨?_, hi c hm, fun _ => ⟨fun h => hz h c hm, fun _ => hc.2.2 c hm⟩, fun nd h => (by cases h)⟩
  have e : (1 :: bs)[b]? = some c.basis := by rw [← hbs, List.getElem?_map, h]; rfl
  cases b with
  | zero => simp at e; simp [← e]
  | succ j =>
    rw [List.getElem?_cons_succ] at e
    refine ⟨fun h0 => ?_, fun h0 => by omega⟩
    rw [h0] at e
    exact absurd (List.mem_of_getElem? e) hb

/-- The heart of the matter, for any kind of patch: after a steady history, a cache that is in use gives the
functions at the point asked for. -/
theorem served {P : Patch K V} {pol : Policy} {ngs : List Nat} {n : Int} (hR : Rules P ngs n) {w : Nat} {z : Bool}
    {bs : List Int} {st0 : St K V} (hs : Start P bs ngs z st0)
    (hi : ∀ c ∈ st0.caches, ItgOK P w n (ngs.getD 0 0) c.itg)
    {ops : List Op} (hf : ∀ o ∈ ops, FairOp P pol ngs n w z o) {st : St K V}
    (hr : run P pol ops st0 = some st)
    {b nd : Nat} (h0 : (lives ops (fun _ => none) 0).isSome = true) (hb : lives ops (fun _ => none) b = some nd)
    {β : Int} (hβ : (1 :: bs)[b]? = some β) {t el gp : Nat} {reduced : Bool} {pt : List K} (ht : t < st.threads)
    (hred : reduced = true → 0 < n)
    (hpt : (∃ i, index P (if reduced then redQ P n (ngs.getD 0 0) else mainQ P ngs) el gp = some i) ∧
      point P (if reduced then redQ P n (ngs.getD 0 0) else mainQ P ngs) el gp = some pt) :
    ∃ st' v, step P pol st (.get b t el gp reduced) = some (st', some v) ∧
      HoldsAt P β (if reduced then lvlR P w else lvl P w nd) v pt := by
  have hI := inv_run hR ops _ _ (inv_start (pol := pol) hs hi) hf st hr
  obtain ⟨q1, q2⟩ := hI.set0 (Or.inl h0)
  obtain ⟨c, hc, rfl⟩ : ∃ c, st.caches[b]? = some c ∧ c.basis = β := by
    have := run_bases ops _ _ hr
    rw [hs.1] at this
    rw [← this, List.getElem?_map, Option.map_eq_some_iff] at hβ
    exact hβ
  obtain ⟨hnd, hL⟩ := (hI.caches b c hc).alive nd hb
  obtain ⟨⟨i, hidx⟩, hpt⟩ := hpt
  obtain ⟨c', v, hg, hv⟩ := getVals_right hR q1 q2 hL ht hred hidx hpt
  refine ⟨{ st with caches := st.caches.set b c' }, v, by simp [step, hc, hg], ?_⟩
  refine ⟨hv.1, fun h => hv.2.1 ?_, fun h => hv.2.2.1 ?_, fun h => hv.2.2.2 ?_⟩ <;>
    (cases reduced <;> simp [lvl, lvlR] at h ⊢ <;> split <;> simp_all <;> omega)

/-- **C78, spline surfaces**: whatever the policy, and after every steady history of initialisations, requests,
clearings and changes of the number of threads, the values of basis `β` at Gauss point `(g0,g1)` of element
`(e0,e1)` are those of its functions at the place of that point, with the derivatives up to the order of the last
initialisation of that cache (all caches being asked between an initialisation and a clearing). -/
theorem C78_surface {P : Patch K V} (hk : P.kind = .spline) {k0 k1 : List K} (hd : P.knots = [k0, k1])
    {pol : Policy} {n0 n1 : Nat} {n : Int} (hR : Rules P [n0, n1] n) {z : Bool} {bs : List Int} {st0 st : St K V}
    (hs : Start P bs [n0, n1] z st0) (hi : ∀ c ∈ st0.caches, nRed c.itg n0 = n)
    {ops : List Op} (hf : ∀ o ∈ ops, SteadySpline P pol [n0, n1] n z o) (hr : run P pol ops st0 = some st)
    {b nd : Nat} (h0 : (lives ops (fun _ => none) 0).isSome = true) (hb : lives ops (fun _ => none) b = some nd)
    {β : Int} (hβ : (1 :: bs)[b]? = some β) {t : Nat} (ht : t < st.threads)
    {x0 x1 : List K} (hx0 : P.rule n0 = some x0) (hx1 : P.rule n1 = some x1)
    {e0 e1 g0 g1 : Nat} {a0 b0 a1 b1 ξ η : K} (ha0 : k0[e0]? = some a0) (hb0 : k0[e0 + 1]? = some b0)
    (ha1 : k1[e1]? = some a1) (hb1 : k1[e1 + 1]? = some b1) (hx : x0[g0]? = some ξ) (hy : x1[g1]? = some η) :
    ∃ st' v, step P pol st (.get b t (e0 + (k0.length - 1) * e1) (g0 + n0 * g1) false) = some (st', some v) ∧
      HoldsAt P β nd v [place a0 b0 ξ, place a1 b1 η] := by
  obtain ⟨y0, hy0, l0⟩ := hR.main n0 (by simp)
  obtain ⟨y1, hy1, l1⟩ := hR.main n1 (by simp)
  cases hx0.symm.trans hy0
  cases hx1.symm.trans hy1
  have hp := pt_spline2 hk hd (q := mainQ P [n0, n1]) (by simp [mainQ, l0, l1])
    (by simp [mainQ, params, hk, hd, hx0, hx1]) ha0 hb0 ha1 hb1 hx hy
  have := served hR hs (w := 0) (fun c hc => ⟨hi c hc, fun h => absurd hk h⟩) (fun o ho => steady_spline hk (hf o ho)) hr
    h0 hb hβ ht (reduced := false) (by simp) hp
  rw [l0] at this
  simpa [lvl, hk] using this

/-- **C78, spline volumes**: the same in three directions. -/
theorem C78_volume {P : Patch K V} (hk : P.kind = .spline) {k0 k1 k2 : List K} (hd : P.knots = [k0, k1, k2])
    {pol : Policy} {n0 n1 n2 : Nat} {n : Int} (hR : Rules P [n0, n1, n2] n) {z : Bool} {bs : List Int} {st0 st : St K V}
    (hs : Start P bs [n0, n1, n2] z st0) (hi : ∀ c ∈ st0.caches, nRed c.itg n0 = n)
    {ops : List Op} (hf : ∀ o ∈ ops, SteadySpline P pol [n0, n1, n2] n z o) (hr : run P pol ops st0 = some st)
    {b nd : Nat} (h0 : (lives ops (fun _ => none) 0).isSome = true) (hb : lives ops (fun _ => none) b = some nd)
    {β : Int} (hβ : (1 :: bs)[b]? = some β) {t : Nat} (ht : t < st.threads)
    {x0 x1 x2 : List K} (hx0 : P.rule n0 = some x0) (hx1 : P.rule n1 = some x1) (hx2 : P.rule n2 = some x2)
    {e0 e1 e2 g0 g1 g2 : Nat} {a0 b0 a1 b1 a2 b2 ξ η ζ : K} (ha0 : k0[e0]? = some a0) (hb0 : k0[e0 + 1]? = some b0)
    (ha1 : k1[e1]? = some a1) (hb1 : k1[e1 + 1]? = some b1) (ha2 : k2[e2]? = some a2) (hb2 : k2[e2 + 1]? = some b2)
    (hx : x0[g0]? = some ξ) (hy : x1[g1]? = some η) (hz : x2[g2]? = some ζ) :
    ∃ st' v, step P pol st (.get b t (e0 + (k0.length - 1) * (e1 + (k1.length - 1) * e2))
        (g0 + n0 * (g1 + n1 * g2)) false) = some (st', some v) ∧
      HoldsAt P β nd v [place a0 b0 ξ, place a1 b1 η, place a2 b2 ζ] := by
  obtain ⟨y0, hy0, l0⟩ := hR.main n0 (by simp)
  obtain ⟨y1, hy1, l1⟩ := hR.main n1 (by simp)
  obtain ⟨y2, hy2, l2⟩ := hR.main n2 (by simp)
  cases hx0.symm.trans hy0
  cases hx1.symm.trans hy1
  cases hx2.symm.trans hy2
  have hp := pt_spline3 hk hd (q := mainQ P [n0, n1, n2]) (by simp [mainQ, l0, l1, l2])
    (by simp [mainQ, params, hk, hd, hx0, hx1, hx2]) ha0 hb0 ha1 hb1 ha2 hb2 hx hy hz
  have := served hR hs (w := 0) (fun c hc => ⟨hi c hc, fun h => absurd hk h⟩) (fun o ho => steady_spline hk (hf o ho)) hr
    h0 hb hβ ht (reduced := false) (by simp) hp
  rw [l0, l1] at this
  simpa [lvl, hk] using this

/-- **C78, the points of reduced integration** on spline surfaces: functions and first derivatives. -/
theorem C78_reduced {P : Patch K V} (hk : P.kind = .spline) {k0 k1 : List K} (hd : P.knots = [k0, k1])
    {pol : Policy} {n0 n1 n : Nat} (hn : 0 < n) (hR : Rules P [n0, n1] n) {z : Bool} {bs : List Int} {st0 st : St K V}
    (hs : Start P bs [n0, n1] z st0) (hi : ∀ c ∈ st0.caches, nRed c.itg n0 = n)
    {ops : List Op} (hf : ∀ o ∈ ops, SteadySpline P pol [n0, n1] n z o) (hr : run P pol ops st0 = some st)
    {b nd : Nat} (h0 : (lives ops (fun _ => none) 0).isSome = true) (hb : lives ops (fun _ => none) b = some nd)
    {β : Int} (hβ : (1 :: bs)[b]? = some β) {t : Nat} (ht : t < st.threads)
    {x : List K} (hxr : P.rule n = some x)
    {e0 e1 g0 g1 : Nat} {a0 b0 a1 b1 ξ η : K} (ha0 : k0[e0]? = some a0) (hb0 : k0[e0 + 1]? = some b0)
    (ha1 : k1[e1]? = some a1) (hb1 : k1[e1 + 1]? = some b1) (hx : x[g0]? = some ξ) (hy : x[g1]? = some η) :
    ∃ st' v, step P pol st (.get b t (e0 + (k0.length - 1) * e1) (g0 + n * g1) true) = some (st', some v) ∧
      HoldsAt P β 1 v [place a0 b0 ξ, place a1 b1 η] := by
  have hnn : (0 : Int) < n := by exact_mod_cast hn
  obtain ⟨y0, hy0, l0⟩ := hR.red hnn
  simp only [Int.toNat_natCast] at hy0 l0
  cases hxr.symm.trans hy0
  have hp := pt_spline2 hk hd (q := redQ P n n0) (by simp [redQ, hn, hd, l0, List.replicate_succ])
    (by simp [redQ, hn, hd, params, hk, hxr, List.replicate_succ]) ha0 hb0 ha1 hb1 hx hy
  have := served hR hs (w := 0) (fun c hc => ⟨hi c hc, fun h => absurd hk h⟩) (fun o ho => steady_spline hk (hf o ho)) hr
    h0 hb hβ ht (reduced := true) (fun _ => hnn) hp
  rw [l0] at this
  simpa [lvlR, hk] using this

/-- **C78, Lagrange surfaces** (one basis or mixed): the functions at the Gauss point of the reference element,
and their first derivatives if no integrand in the history says it wants none. -/
theorem C78_lagrange {P : Patch K V} (hk : P.kind ≠ .spline) {k0 k1 : List K} (hd : P.knots = [k0, k1])
    {pol : Policy} {n0 n1 : Nat} {n : Int} (hR : Rules P [n0, n1] n) {z w : Bool} {bs : List Int} {st0 st : St K V}
    (hs : Start P bs [n0, n1] z st0)
    (hi : ∀ c ∈ st0.caches, ∃ i, c.itg = some i ∧ i.red n0 = n ∧ (w = true → i.noDer = false))
    {ops : List Op} (hf : ∀ o ∈ ops, SteadyLag pol [n0, n1] n z w o) (hr : run P pol ops st0 = some st)
    {b nd : Nat} (h0 : (lives ops (fun _ => none) 0).isSome = true) (hb : lives ops (fun _ => none) b = some nd)
    {β : Int} (hβ : (1 :: bs)[b]? = some β) {t : Nat} (ht : t < st.threads)
    {x0 x1 : List K} (hx0 : P.rule n0 = some x0) (hx1 : P.rule n1 = some x1)
    (el : Nat) {g0 g1 : Nat} {ξ η : K} (hx : x0[g0]? = some ξ) (hy : x1[g1]? = some η) :
    ∃ st' v, step P pol st (.get b t el (g0 + n0 * g1) false) = some (st', some v) ∧
      v.N = some (P.eval β 0 [ξ, η]) ∧ (w = true → v.d1 = some (P.eval β 1 [ξ, η])) := by
  obtain ⟨y0, hy0, l0⟩ := hR.main n0 (by simp)
  obtain ⟨y1, hy1, l1⟩ := hR.main n1 (by simp)
  cases hx0.symm.trans hy0
  cases hx1.symm.trans hy1
  have hp := pt_lag2 hk hd (q := mainQ P [n0, n1]) (by simp [mainQ, l0, l1]) (by simp [mainQ, hx0, hx1]) el hx hy
  have hi' : ∀ c ∈ st0.caches, ItgOK P (if w then 1 else 0) n n0 c.itg := fun c hc => by
    obtain ⟨i, h1, h2, h3⟩ := hi c hc
    rw [h1]
    exact steady_lag (P := P) hk (pol := pol) (ngs := [n0, n1]) (z := z) (o := .setItg 0 i) ⟨h2, h3⟩
  obtain ⟨st', v, e, hv⟩ := served hR hs hi' (fun o ho => steady_lag hk (hf o ho)) hr h0 hb hβ ht (reduced := false) (by simp) hp
  rw [l0] at e
  refine ⟨st', v, e, hv.1, fun hw => hv.2.1 ?_⟩
  simp [lvl, hk, hw]

/-- **C78, Lagrange volumes**. -/
theorem C78_lagrange_volume {P : Patch K V} (hk : P.kind ≠ .spline) {k0 k1 k2 : List K} (hd : P.knots = [k0, k1, k2])
    {pol : Policy} {n0 n1 n2 : Nat} {n : Int} (hR : Rules P [n0, n1, n2] n) {z w : Bool} {bs : List Int} {st0 st : St K V}
    (hs : Start P bs [n0, n1, n2] z st0)
    (hi : ∀ c ∈ st0.caches, ∃ i, c.itg = some i ∧ i.red n0 = n ∧ (w = true → i.noDer = false))
    {ops : List Op} (hf : ∀ o ∈ ops, SteadyLag pol [n0, n1, n2] n z w o) (hr : run P pol ops st0 = some st)
    {b nd : Nat} (h0 : (lives ops (fun _ => none) 0).isSome = true) (hb : lives ops (fun _ => none) b = some nd)
    {β : Int} (hβ : (1 :: bs)[b]? = some β) {t : Nat} (ht : t < st.threads)
    {x0 x1 x2 : List K} (hx0 : P.rule n0 = some x0) (hx1 : P.rule n1 = some x1) (hx2 : P.rule n2 = some x2)
    (el : Nat) {g0 g1 g2 : Nat} {ξ η ζ : K} (hx : x0[g0]? = some ξ) (hy : x1[g1]? = some η) (hz : x2[g2]? = some ζ) :
    ∃ st' v, step P pol st (.get b t el (g0 + n0 * (g1 + n1 * g2)) false) = some (st', some v) ∧
      v.N = some (P.eval β 0 [ξ, η, ζ]) ∧ (w = true → v.d1 = some (P.eval β 1 [ξ, η, ζ])) := by
  obtain ⟨y0, hy0, l0⟩ := hR.main n0 (by simp)
  obtain ⟨y1, hy1, l1⟩ := hR.main n1 (by simp)
  obtain ⟨y2, hy2, l2⟩ := hR.main n2 (by simp)
  cases hx0.symm.trans hy0
  cases hx1.symm.trans hy1
  cases hx2.symm.trans hy2
  have hp := pt_lag3 hk hd (q := mainQ P [n0, n1, n2]) (by simp [mainQ, l0, l1, l2]) (by simp [mainQ, hx0, hx1, hx2]) el hx hy hz
  have hi' : ∀ c ∈ st0.caches, ItgOK P (if w then 1 else 0) n n0 c.itg := fun c hc => by
    obtain ⟨i, h1, h2, h3⟩ := hi c hc
    rw [h1]
    exact steady_lag (P := P) hk (pol := pol) (ngs := [n0, n1, n2]) (z := z) (o := .setItg 0 i) ⟨h2, h3⟩
  obtain ⟨st', v, e, hv⟩ := served hR hs hi' (fun o ho => steady_lag hk (hf o ho)) hr h0 hb hβ ht (reduced := false) (by simp) hp
  rw [l0, l1] at e
  refine ⟨st', v, e, hv.1, fun hw => hv.2.1 ?_⟩
  simp [lvl, hk, hw]

end IFEM.BCache
