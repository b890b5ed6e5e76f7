import Verif.Lemmas.Modal
import Mathlib.Algebra.BigOperators.Fin
import Mathlib.LinearAlgebra.Matrix.DotProduct
import Mathlib.Tactic.Linarith
import Mathlib.Tactic.Positivity
import Mathlib.Tactic.Module

/-!
# C84: modal dynamics is the dynamics of the structure, restricted to the modes
-/

namespace IFEM.Modal

open Matrix Spec.Modal

variable {K : Type} [Field K]

/-! ## The projected equations -/

theorem expand_dot {n m : Nat} (phi : Fin m → Fin n → K) (A : Matrix (Fin n) (Fin n) K)
    (w : Fin m → K) (h : ∀ i j, phi i ⬝ᵥ A *ᵥ phi j = if i = j then w j else 0) (q : Fin m → K)
    (i : Fin m) : phi i ⬝ᵥ A *ᵥ (∑ j, q j • phi j) = w i * q i := by
  rw [Matrix.mulVec_sum, dotProduct_sum]
  simp only [Matrix.mulVec_smul, dotProduct_smul, h]
  simp [mul_comm]

theorem imbalance_dot {n m : Nat} (T : Structure K n m) (R : Fin n → K) (u v a : Fin m → K)
    (i : Fin m) : T.phi i ⬝ᵥ T.imbalance R (T.expand u) (T.expand v) (T.expand a) =
      a i + T.zeta i * v i + T.omega i ^ 2 * u i - T.phi i ⬝ᵥ R := by
  rw [Structure.imbalance, dotProduct_sub, dotProduct_add, dotProduct_add, Structure.expand,
    Structure.expand, Structure.expand, expand_dot T.phi T.M (fun _ => 1) T.mass,
    expand_dot T.phi T.C T.zeta T.damp, expand_dot T.phi T.S (fun i => T.omega i ^ 2) T.stif]
  ring

theorem dot_ofFn {n : Nat} (x y : Fin n → K) : dot (List.ofFn x) (List.ofFn y) = x ⬝ᵥ y := by
  have : (List.ofFn x).zip (List.ofFn y) = List.ofFn fun i => (x i, y i) := by
    apply List.ext_getElem?
    intro i
    by_cases h : i < n
    · simp [List.getElem?_zip_eq_some, h]
    · rw [List.getElem?_eq_none (by simp; omega), List.getElem?_eq_none (by simp; omega)]
  rw [dot, this, List.map_ofFn, List.sum_ofFn]
  rfl

variable [LinearOrder K] [IsStrictOrderedRing K]

/-- The modes of the code are those of a structure: numbered from one in the order of the list, with
the damping that the code documents when there is Rayleigh damping, and otherwise none. -/
def Match {n m : Nat} (T : Structure K n m) (alpha1 alpha2 twoPi : K) (modes : List (Mode K)) :
    Prop :=
  modes.length = m ∧ ∀ i : Fin m, ∃ md, modes[i.val]? = some md ∧ md.eigNo = (i.val : Int) + 1 ∧
    md.eigVec = List.ofFn (T.phi i) ∧ twoPi * md.eigVal = T.omega i ∧
    T.zeta i = if alpha1 > 0 ∨ alpha2 > 0 then
      (if md.damping > 0 then md.damping else alpha1 + alpha2 * T.omega i ^ 2) else 0

/-- An earlier call. -/
structure Call (K : Type) where
  /-- The modes -/
  modes : List (Mode K)
  /-- 2π -/
  twoPi : K
  /-- Step size -/
  dt : K
  /-- Load -/
  rhs : List K
  /-- Modal solution -/
  mSol : List (List K)

/-- The state after some calls with the same integration parameters. -/
def history (alpha1 alpha2 beta gamma : K) (calls : List (Call K)) : State K :=
  calls.foldl (fun st c =>
    (assembleModalSystem st c.modes c.twoPi c.dt c.rhs c.mSol beta gamma).1) ⟨alpha1, alpha2, none, none⟩

/-- The invariant of the state. -/
def Inv (m : Nat) (alpha1 alpha2 beta gamma : K) (st : State K) : Prop :=
  st.alpha1 = alpha1 ∧ st.alpha2 = alpha2 ∧ (st.sam = none ∨ st.sam = some (samOf m)) ∧
    (st.elm = none ∨ st.elm = some (newElm alpha1 alpha2 beta gamma))

theorem prepare_eq (m : Nat) (alpha1 alpha2 beta gamma : K) (st : State K)
    (h : Inv m alpha1 alpha2 beta gamma st) (modes : List (Mode K)) (hm : modes.length = m) :
    prepare st modes beta gamma =
      ⟨alpha1, alpha2, some (samOf m), some (newElm alpha1 alpha2 beta gamma)⟩ := by
  obtain ⟨a1, a2, s, e⟩ := st
  obtain ⟨h1, h2, h3, h4⟩ := h
  dsimp only at h1 h2 h3 h4
  subst h1 h2
  rcases h3 with rfl | rfl <;> rcases h4 with rfl | rfl <;>
    simp [prepare, hm, samModal_eq]

theorem history_inv (m : Nat) (alpha1 alpha2 beta gamma : K) (calls : List (Call K))
    (hc : ∀ c ∈ calls, c.modes.length = m) :
    Inv m alpha1 alpha2 beta gamma (history alpha1 alpha2 beta gamma calls) := by
  have key : ∀ st, Inv m alpha1 alpha2 beta gamma st →
      Inv m alpha1 alpha2 beta gamma (calls.foldl (fun st c =>
        (assembleModalSystem st c.modes c.twoPi c.dt c.rhs c.mSol beta gamma).1) st) := by
    induction calls with
    | nil => intro st h; exact h
    | cons c cs ih =>
      intro st h
      rw [List.foldl_cons]
      apply ih (fun x hx => hc x (by simp [hx]))
      have := prepare_eq m alpha1 alpha2 beta gamma st h c.modes (hc c (by simp))
      simp only [assembleModalSystem, this]
      exact ⟨rfl, rfl, Or.inr rfl, Or.inr rfl⟩
  exact key _ ⟨rfl, rfl, Or.inl rfl, Or.inl rfl⟩

theorem vval_getElem? {l : List K} {m : Nat} (hl : l.length = m) (f : Fin m → K)
    (h : ∀ i : Fin m, vval l ((i.val : Int) + 1) = f i) : l = List.ofFn f := by
  apply List.ext_getElem?
  intro i
  by_cases hi : i < m
  · have := h ⟨i, hi⟩
    have hi' : i < l.length := by omega
    simp only [vval, at1?, at0?, add_sub_cancel_right, Int.toNat_natCast] at this
    rw [if_pos (by omega), List.getElem?_eq_getElem hi', Option.getD_some] at this
    rw [List.getElem?_eq_getElem hi', this]
    simp [hi]
  · rw [List.getElem?_eq_none (by omega), List.getElem?_eq_none (by simp; omega)]

/-- A loop over modes numbered in order gives to each equation the values of its mode. -/
theorem ordered_loop (m : Nat) (modes : List (Mode K)) (hm : modes.length = m)
    (hno : ∀ (i : Fin m) md, modes[i.val]? = some md → md.eigNo = (i.val : Int) + 1)
    (body : List K × List K → Nat × Mode K → Option (List K × List K)) (N r : Fin m → K)
    (hbody : ∀ (i : Fin m) md, modes[i.val]? = some md → ∀ st,
      body st (i.val, md) = assembleMode (samOf m) st (N i) (r i) md.eigNo) :
    ((List.range modes.length).zip modes).foldlM body
      (List.replicate m 0, List.replicate m 0) = some (List.ofFn N, List.ofFn r) := by
  have hmem : ∀ x ∈ (List.range modes.length).zip modes, ∃ (i : Fin m), x.1 = i.val ∧
      modes[i.val]? = some x.2 := by
    intro x hx
    obtain ⟨k, hk⟩ := List.mem_iff_getElem?.mp hx
    obtain ⟨h1, h2⟩ := List.getElem?_zip_eq_some.mp hk
    have hk' : k < modes.length := (List.getElem?_eq_some_iff.mp h2).1
    rw [List.getElem?_range hk'] at h1
    simp only [Option.some.injEq] at h1
    exact ⟨⟨k, by omega⟩, h1.symm, h2⟩
  have hN : ∀ (g : Fin m → K) (q : Fin m),
      (((List.range modes.length).zip modes).map fun x => if x.2.eigNo = (q.val : Int) + 1 then
        (if h : x.1 < m then g ⟨x.1, h⟩ else 0) else 0).sum = g q := by
    intro g q
    have e : ((List.range modes.length).zip modes).map (fun x => if x.2.eigNo = (q.val : Int) + 1
        then (if h : x.1 < m then g ⟨x.1, h⟩ else 0) else 0) =
        List.ofFn fun i : Fin m => if i = q then g i else 0 := by
      apply List.ext_getElem?
      intro k
      by_cases hk : k < m
      · have hk' : k < modes.length := by omega
        have hz : ((List.range modes.length).zip modes)[k]? = some (k, modes[k]) := by
          rw [List.getElem?_zip_eq_some]
          exact ⟨by rw [List.getElem?_range hk'], List.getElem?_eq_getElem hk'⟩
        have hn := hno ⟨k, hk⟩ modes[k] (List.getElem?_eq_getElem hk')
        rw [List.getElem?_map, hz, Option.map_some]
        simp only [hn, List.getElem?_ofFn, hk, dif_pos, Option.some.injEq]
        by_cases hkq : k = q.val
        · rw [if_pos (by omega), if_pos (Fin.ext hkq)]
        · rw [if_neg (by omega), if_neg (fun h => hkq (congrArg Fin.val h))]
      · rw [List.getElem?_eq_none (by simp; omega), List.getElem?_eq_none (by simp; omega)]
    rw [e, List.sum_ofFn]
    simp
  obtain ⟨d, b, hrun, hd, hb, hv, hw⟩ := loop_spec m body (fun x => x.2.eigNo)
    (fun x => if h : x.1 < m then N ⟨x.1, h⟩ else 0)
    (fun x => if h : x.1 < m then r ⟨x.1, h⟩ else 0) ((List.range modes.length).zip modes)
    (by
      intro x hx
      obtain ⟨i, _, h2⟩ := hmem x hx
      have := hno i x.2 h2
      have := i.isLt
      omega)
    (by
      intro x hx st
      obtain ⟨i, h1, h2⟩ := hmem x hx
      have hb := hbody i x.2 h2 st
      have hx' : x = (i.val, x.2) := by rw [← h1]
      have hi : x.1 < m := by have := i.isLt; omega
      have e : (⟨x.1, hi⟩ : Fin m) = i := Fin.ext h1
      rw [dif_pos hi, dif_pos hi, e, ← hb, ← hx'])
    (List.replicate m 0) (List.replicate m 0) (by simp) (by simp)
  have z : ∀ q : Int, vval (List.replicate m (0 : K)) q = 0 := by
    intro q
    simp only [vval, at1?, at0?]
    split
    · rw [List.getElem?_replicate]; split <;> rfl
    · rfl
  rw [hrun, vval_getElem? hd N (fun i => by rw [hv, z, hN N i, zero_add]),
    vval_getElem? hb r (fun i => by rw [hw, z, hN r i, zero_add])]

theorem modeSystem_dynamic (alpha1 alpha2 beta gamma omega dt : K) (hb : 0 < beta) (md : Mode K)
    (rhs : List K) (u v a : K) :
    modeSystem (newElm alpha1 alpha2 beta gamma) alpha1 alpha2 omega dt md rhs [u, v, a] beta =
      let z := if alpha1 > 0 ∨ alpha2 > 0 then modeDamping alpha1 alpha2 omega md else 0
      some (1 + z*gamma*dt + omega^2*(beta*dt*dt), dot md.eigVec rhs - omega^2*u - a - z*v) := by
  have hb' : beta > 0 := hb
  have hn : ¬ beta < 0 := not_lt.mpr hb.le
  have v0 : at0? [u, v, a] ((([u, v, a].length : Nat) : Int) - 3) = some u := rfl
  have v1 : at0? [u, v, a] 1 = some v := rfl
  have v2 : at0? [u, v, a] 2 = some a := rfl
  by_cases hz : alpha1 > 0 ∨ alpha2 > 0
  · simp only [modeSystem, newElm, hb', if_true, v0, v1, v2, hz, decide_true]
    simp [nmNewton, nmRHS, NmPar.make, scaleMat, addMat, addMV, addDamp, addRayleigh, one1, vec1,
      hn, abs_of_pos hb, Matrix.mulVec, dotProduct]
    constructor <;> ring
  · simp only [modeSystem, newElm, hb', if_true, v0, v1, v2, hz, decide_false, if_false]
    simp [nmNewton, nmRHS, NmPar.make, scaleMat, addMat, addMV, addDamp, addRayleigh, one1, vec1,
      hn, abs_of_pos hb, Matrix.mulVec, dotProduct]
    constructor <;> ring

theorem three_values {m : Nat} (u v a : Fin m → K) (i : Fin m) :
    [List.ofFn u, List.ofFn v, List.ofFn a].mapM (fun s => s[i.val]?) = some [u i, v i, a i] := by
  simp

/-- The modal system of a dynamic step. -/
theorem dynamic_system {n m : Nat} (T : Structure K n m) (alpha1 alpha2 twoPi beta gamma dt : K)
    (hb : 0 < beta) (st : State K) (hst : Inv m alpha1 alpha2 beta gamma st)
    (modes : List (Mode K)) (hm : Match T alpha1 alpha2 twoPi modes) (R : Fin n → K)
    (u v a : Fin m → K) :
    (assembleModalSystem st modes twoPi dt (List.ofFn R)
      [List.ofFn u, List.ofFn v, List.ofFn a] beta gamma).2 =
    some (List.ofFn fun i => 1 + T.zeta i*gamma*dt + T.omega i^2*(beta*dt*dt),
      List.ofFn fun i => T.phi i ⬝ᵥ R - T.omega i^2*u i - a i - T.zeta i*v i) := by
  obtain ⟨hlen, hmd⟩ := hm
  simp only [assembleModalSystem]
  rw [prepare_eq m alpha1 alpha2 beta gamma st hst modes hlen, if_pos (by simp [enough, hb])]
  show (((List.range modes.length).zip modes).foldlM _
    (List.replicate m 0, List.replicate m 0)) = _
  apply ordered_loop m modes hlen
  · intro i md h
    obtain ⟨md', h', hno, _⟩ := hmd i
    rw [h] at h'
    cases h'
    exact hno
  · intro i md h st
    obtain ⟨md', h', hno, hvec, hom, hz⟩ := hmd i
    rw [h] at h'
    cases h'
    have hd : modeDamping alpha1 alpha2 (T.omega i) md =
        if md.damping > 0 then md.damping else alpha1 + alpha2 * T.omega i ^ 2 := by
      rw [modeDamping]; split <;> ring
    rw [modeStep, three_values]
    simp only [Option.bind_eq_bind, Option.bind_some, hom]
    rw [modeSystem_dynamic alpha1 alpha2 beta gamma _ dt hb]
    simp only [Option.bind_some, hd, hvec, dot_ofFn, ← hz]

/-- C84.  The modal equations of a dynamic step, after any earlier calls: increments of the modal
accelerations solve the system that is assembled exactly if the motion of the structure that Newmark's
corrector then gives is in dynamic equilibrium with the load, as far as forces that work in one of
the modes go. -/
theorem C84_dynamics {n m : Nat} (T : Structure K n m) (alpha1 alpha2 twoPi beta gamma dt : K)
    (hb : 0 < beta) (calls : List (Call K)) (hc : ∀ c ∈ calls, c.modes.length = m)
    (modes : List (Mode K)) (hm : Match T alpha1 alpha2 twoPi modes) (R : Fin n → K)
    (s : NmSol K (Fin m)) :
    ∃ d b : Fin m → K,
      (assembleModalSystem (history alpha1 alpha2 beta gamma calls) modes twoPi dt (List.ofFn R)
        [List.ofFn s.u, List.ofFn s.v, List.ofFn s.a] beta gamma).2 =
        some (List.ofFn d, List.ofFn b) ∧
      ∀ l : Fin m → K, (∀ i, d i * l i = b i) ↔
        T.Workless (T.imbalance R (T.expand (nmCorrect false beta gamma dt l s).u)
          (T.expand (nmCorrect false beta gamma dt l s).v)
          (T.expand (nmCorrect false beta gamma dt l s).a)) := by
  refine ⟨_, _, dynamic_system T alpha1 alpha2 twoPi beta gamma dt hb _
    (history_inv m alpha1 alpha2 beta gamma calls hc) modes hm R s.u s.v s.a, ?_⟩
  intro l
  apply forall_congr'
  intro i
  rw [imbalance_dot]
  simp only [nmCorrect, Bool.false_eq_true, if_false, Pi.add_apply, Pi.smul_apply, smul_eq_mul]
  rw [← sub_eq_zero]
  constructor <;> intro h <;> linear_combination h

/-- C84.  If the modes are complete, the expanded motion is in dynamic equilibrium. -/
theorem C84_dynamics_complete {n m : Nat} (T : Structure K n m) (hT : T.Complete)
    (alpha1 alpha2 twoPi beta gamma dt : K)
    (hb : 0 < beta) (calls : List (Call K)) (hc : ∀ c ∈ calls, c.modes.length = m)
    (modes : List (Mode K)) (hm : Match T alpha1 alpha2 twoPi modes) (R : Fin n → K)
    (s : NmSol K (Fin m)) :
    ∃ d b : Fin m → K,
      (assembleModalSystem (history alpha1 alpha2 beta gamma calls) modes twoPi dt (List.ofFn R)
        [List.ofFn s.u, List.ofFn s.v, List.ofFn s.a] beta gamma).2 =
        some (List.ofFn d, List.ofFn b) ∧
      ∀ l : Fin m → K, (∀ i, d i * l i = b i) →
        T.M *ᵥ T.expand (nmCorrect false beta gamma dt l s).a +
        T.C *ᵥ T.expand (nmCorrect false beta gamma dt l s).v +
        T.S *ᵥ T.expand (nmCorrect false beta gamma dt l s).u = R := by
  obtain ⟨d, b, h1, h2⟩ := C84_dynamics T alpha1 alpha2 twoPi beta gamma dt hb calls hc modes hm R s
  refine ⟨d, b, h1, fun l hl => ?_⟩
  have := hT _ ((h2 l).mp hl)
  rw [Structure.imbalance, sub_eq_zero] at this
  exact this

/-- C84.  The modal system of a dynamic step has one and only one solution, whatever the modal
frequencies, if damping, step size and γ are not negative. -/
theorem C84_unique {n m : Nat} (T : Structure K n m) (alpha1 alpha2 twoPi beta gamma dt : K)
    (hb : 0 < beta) (hg : 0 ≤ gamma) (hdt : 0 ≤ dt) (hz : ∀ i, 0 ≤ T.zeta i)
    (calls : List (Call K)) (hc : ∀ c ∈ calls, c.modes.length = m)
    (modes : List (Mode K)) (hm : Match T alpha1 alpha2 twoPi modes) (R : Fin n → K)
    (s : NmSol K (Fin m)) :
    ∃ d b : Fin m → K,
      (assembleModalSystem (history alpha1 alpha2 beta gamma calls) modes twoPi dt (List.ofFn R)
        [List.ofFn s.u, List.ofFn s.v, List.ofFn s.a] beta gamma).2 =
        some (List.ofFn d, List.ofFn b) ∧ ∃! l : Fin m → K, ∀ i, d i * l i = b i := by
  refine ⟨_, _, dynamic_system T alpha1 alpha2 twoPi beta gamma dt hb _
    (history_inv m alpha1 alpha2 beta gamma calls hc) modes hm R s.u s.v s.a, ?_⟩
  have hpos : ∀ i, 0 < 1 + T.zeta i*gamma*dt + T.omega i^2*(beta*dt*dt) := by
    intro i
    have := hz i
    positivity
  refine ⟨fun i => (T.phi i ⬝ᵥ R - T.omega i^2*s.u i - s.a i - T.zeta i*s.v i) /
    (1 + T.zeta i*gamma*dt + T.omega i^2*(beta*dt*dt)), ?_, ?_⟩
  · intro i
    exact mul_div_cancel₀ _ (hpos i).ne'
  · intro l hl
    funext i
    rw [eq_div_iff (hpos i).ne', mul_comm]
    exact hl i

/-- C84.  A structure with Rayleigh damping, and modes without individual damping: the damping of the
modes is that of the structure. -/
theorem C84_rayleigh {n m : Nat} (T : Structure K n m) (alpha1 alpha2 twoPi : K)
    (h1 : 0 ≤ alpha1) (h2 : 0 ≤ alpha2) (hC : T.C = alpha1 • T.M + alpha2 • T.S)
    (modes : List (Mode K)) (hlen : modes.length = m)
    (hm : ∀ i : Fin m, ∃ md, modes[i.val]? = some md ∧ md.eigNo = (i.val : Int) + 1 ∧
      md.eigVec = List.ofFn (T.phi i) ∧ twoPi * md.eigVal = T.omega i ∧ md.damping ≤ 0) :
    Match T alpha1 alpha2 twoPi modes := by
  refine ⟨hlen, fun i => ?_⟩
  obtain ⟨md, a, b, c, d, e⟩ := hm i
  refine ⟨md, a, b, c, d, ?_⟩
  have hz : T.zeta i = alpha1 + alpha2 * T.omega i ^ 2 := by
    have := T.damp i i
    rw [hC, Matrix.add_mulVec, dotProduct_add, Matrix.smul_mulVec, Matrix.smul_mulVec,
      dotProduct_smul, dotProduct_smul, T.mass, T.stif] at this
    simpa using this.symm
  rw [hz, if_neg (not_lt.mpr e)]
  by_cases h : alpha1 > 0 ∨ alpha2 > 0
  · rw [if_pos h]
  · rw [if_neg h]
    push Not at h
    have e1 : alpha1 = 0 := le_antisymm h.1 h1
    have e2 : alpha2 = 0 := le_antisymm h.2 h2
    rw [e1, e2]; ring

/-- C84.  Without Rayleigh damping the individual damping of the modes has no effect. -/
theorem C84_individual_damping_ignored (alpha1 alpha2 twoPi beta gamma dt : K) (h1 : alpha1 ≤ 0)
    (h2 : alpha2 ≤ 0) (modes : List (Mode K)) (rhs : List K) (mSol : List (List K)) :
    (assembleModalSystem ⟨alpha1, alpha2, none, none⟩ modes twoPi dt rhs mSol beta gamma).2 =
    (assembleModalSystem ⟨alpha1, alpha2, none, none⟩ (modes.map fun m => { m with damping := 0 })
      twoPi dt rhs mSol beta gamma).2 := by
  have hn : ¬ (alpha1 > 0 ∨ alpha2 > 0) := by push Not; exact ⟨h1, h2⟩
  have hz : (List.range modes.length).zip (modes.map fun m => { m with damping := (0 : K) }) =
      ((List.range modes.length).zip modes).map fun x => (x.1, { x.2 with damping := 0 }) := by
    rw [List.zip_map_right]
    rfl
  simp only [assembleModalSystem, prepare, samModal_eq, List.length_map, hz]
  split
  · simp only [Option.bind_eq_bind, Option.bind_some, List.foldlM_map]
    congr 1
    funext st x
    rw [modeStep, modeStep]
    congr 1
    funext vals
    congr 1
    by_cases hb : beta > 0
    · simp only [modeSystem, newElm, if_pos hb, hn, decide_false, Bool.false_eq_true, if_false]
    · simp only [modeSystem, newElm, if_neg hb]
  · rfl

/-- C84.  The quasi-static system, after any earlier calls: modal amplitudes solve it exactly if the
expanded displacements are in static equilibrium with the load, as far as forces that work in one of
the modes go. -/
theorem C84_quasi_static {n m : Nat} (T : Structure K n m) (alpha1 alpha2 twoPi beta gamma dt : K)
    (hb : beta ≤ 0) (calls : List (Call K)) (hc : ∀ c ∈ calls, c.modes.length = m)
    (modes : List (Mode K)) (hm : Match T alpha1 alpha2 twoPi modes) (R : Fin n → K)
    (mSol : List (List K)) (hs : mSol ≠ []) (hl : ∀ s ∈ mSol, s.length = m) :
    ∃ d b : Fin m → K,
      (assembleModalSystem (history alpha1 alpha2 beta gamma calls) modes twoPi dt (List.ofFn R)
        mSol beta gamma).2 = some (List.ofFn d, List.ofFn b) ∧
      ∀ l : Fin m → K, (∀ i, d i * l i = b i) ↔ T.Workless (T.S *ᵥ T.expand l - R) := by
  have hnb : ¬ beta > 0 := not_lt.mpr hb
  refine ⟨fun i => T.omega i * T.omega i, fun i => T.phi i ⬝ᵥ R, ?_, ?_⟩
  · obtain ⟨hlen, hmd⟩ := hm
    have hpos : 0 < mSol.length := List.length_pos_iff.mpr hs
    simp only [assembleModalSystem]
    rw [prepare_eq m alpha1 alpha2 beta gamma _
      (history_inv m alpha1 alpha2 beta gamma calls hc) modes hlen,
      if_pos (by simp only [enough, if_neg hnb, decide_eq_true_eq]; omega)]
    show (((List.range modes.length).zip modes).foldlM _
      (List.replicate m 0, List.replicate m 0)) = _
    apply ordered_loop m modes hlen
    · intro i md h
      obtain ⟨md', h', hno, _⟩ := hmd i
      rw [h] at h'
      cases h'
      exact hno
    · intro i md h st
      obtain ⟨md', h', hno, hvec, hom, hz⟩ := hmd i
      rw [h] at h'
      cases h'
      have hv : ∃ vals, mSol.mapM (fun s => s[i.val]?) = some vals := by
        clear hpos hs
        induction mSol with
        | nil => exact ⟨[], rfl⟩
        | cons s ss ih =>
          obtain ⟨vals, hvals⟩ := ih (fun x hx => hl x (by simp [hx]))
          have hi : i.val < s.length := by rw [hl s (by simp)]; exact i.isLt
          refine ⟨s[i.val] :: vals, ?_⟩
          rw [List.mapM_cons, hvals, List.getElem?_eq_getElem hi]
          rfl
      obtain ⟨vals, hvals⟩ := hv
      rw [modeStep, hvals]
      simp only [Option.bind_eq_bind, Option.bind_some, hom, modeSystem, newElm, if_neg hnb, hvec,
        dot_ofFn]
  · intro l
    apply forall_congr'
    intro i
    rw [dotProduct_sub, Structure.expand, expand_dot T.phi T.S (fun i => T.omega i ^ 2) T.stif,
      sub_eq_zero]
    constructor <;> intro h <;> linear_combination h

/-- C84.  Modes numbered beyond their number (a subset of the modes computed) are refused, whatever
the load, the solution and the parameters. -/
theorem C84_subset_refused {m : Nat} (alpha1 alpha2 twoPi beta gamma dt : K)
    (calls : List (Call K)) (hc : ∀ c ∈ calls, c.modes.length = m) (modes : List (Mode K))
    (hm : modes.length = m) (md : Mode K) (hmd : md ∈ modes)
    (hno : ¬ (1 ≤ md.eigNo ∧ md.eigNo ≤ m)) (rhs : List K) (mSol : List (List K)) :
    (assembleModalSystem (history alpha1 alpha2 beta gamma calls) modes twoPi dt rhs mSol
      beta gamma).2 = none := by
  simp only [assembleModalSystem]
  rw [prepare_eq m alpha1 alpha2 beta gamma _
      (history_inv m alpha1 alpha2 beta gamma calls hc) modes hm]
  split
  · show (((List.range modes.length).zip modes).foldlM _
      (List.replicate m 0, List.replicate m 0)) = _
    apply loop_none m _ (fun x => x.2.eigNo)
    · obtain ⟨k, hk⟩ := List.mem_iff_getElem?.mp hmd
      have hk' : k < modes.length := (List.getElem?_eq_some_iff.mp hk).1
      refine ⟨(k, md), ?_, hno⟩
      apply List.mem_of_getElem? (i := k)
      rw [List.getElem?_zip_eq_some]
      exact ⟨by rw [List.getElem?_range hk'], hk⟩
    · intro x _ st
      refine ⟨(mSol.mapM fun s => s[x.1]?).bind fun vals => modeSystem
        (newElm alpha1 alpha2 beta gamma) alpha1 alpha2 (twoPi * x.2.eigVal) dt x.2 rhs vals beta, ?_⟩
      rw [modeStep]
      simp only [Option.bind_eq_bind, Option.bind_assoc]
  · rfl

end IFEM.Modal
