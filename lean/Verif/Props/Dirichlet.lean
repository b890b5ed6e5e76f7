import Verif.Lemmas.DirichletField
import Verif.Spec.Dirichlet

/-!
# C81 — prescribed values that change with time
-/
namespace IFEM.Dirichlet
open IFEM.Spec IFEM.Props Spec
variable {K : Type} [Field K] [LinearOrder K]

/-! ## The fields in the specification exist and are unique -/

/-- **C81**. The lift of a consistent model exists. -/
theorem C81_lift_exists (P : List (SPatch K)) (nnod : Nat) (hg : GoodModel P nnod) : ∃ g, IsLift P nnod g := by
  obtain ⟨f, h⟩ := setting P nnod hg
  obtain ⟨msc, st, s0, s, is, hS⟩ := h f le_rfl
  obtain ⟨u, h1, h2⟩ := exists_field hS hg rfl 1 0
  exact ⟨u, (obeys_iff rfl u).2 h1, h2⟩

/-- **C81**. For every field there is one without constant terms that agrees with it in the free DOFs. -/
theorem C81_homog_exists (P : List (SPatch K)) (nnod : Nat) (hg : GoodModel P nnod) (v : Int × Int → K) : ∃ h, IsHomog P nnod v h := by
  obtain ⟨f, h⟩ := setting P nnod hg
  obtain ⟨msc, st, s0, s, is, hS⟩ := h f le_rfl
  obtain ⟨u, h1, h2⟩ := exists_field hS hg rfl 0 v
  exact ⟨u, (obeys0_iff rfl u).2 h1, h2⟩

theorem dof_cases (P : List (SPatch K)) (nnod : Nat) (k : Int × Int) (hk : IsDof P nnod k) :
    FixedIn P k.1 k.2.toNat ∨ (IsSlave (allMpcs P) k ∧ ¬ FixedIn P k.1 k.2.toNat) ∨ OpenDof P nnod k := by
  by_cases h1 : FixedIn P k.1 k.2.toNat
  · exact .inl h1
  · by_cases h2 : IsSlave (allMpcs P) k
    · exact .inr (.inl ⟨h2, h1⟩)
    · exact .inr (.inr ⟨hk, h1, h2⟩)

/-- Fields without constant terms that vanish in the free DOFs vanish. -/
theorem homog_zero (P : List (SPatch K)) (nnod : Nat) (hg : GoodModel P nnod) (u : Int × Int → K) (h : Obeys (noConst P) nnod u) (h0 : ∀ k, OpenDof P nnod k → u k = 0) :
    ∀ k, IsDof P nnod k → u k = 0 := by
  obtain ⟨rank, hr⟩ := hg.acyclic
  have key : ∀ n k, rank k < n → IsDof P nnod k → u k = 0 := by
    intro n
    induction n with
    | zero => intro k h; omega
    | succ n ih =>
      intro k hrk hk
      rcases dof_cases P nnod k hk with h1 | ⟨⟨m, hm, rfl⟩, h2⟩ | h3
      · exact h.1 k ((nc_isDof P nnod k).2 hk) ((nc_fixed P _ _).2 h1)
      · have := ((obeys0_iff (P := P) (P' := P) rfl u).1 h).2 m hm h2
        unfold HoldsScaled at this
        rw [this, zero_mul, zero_add]
        unfold masterSum
        apply List.sum_eq_zero
        intro y hy
        obtain ⟨t, ht, rfl⟩ := List.mem_map.1 hy
        have htd := hg.masters m hm t ht
        rcases dof_cases P nnod _ htd with h1 | ⟨h2, -⟩ | h3
        · rw [h.1 _ ((nc_isDof P nnod _).2 htd) ((nc_fixed P _ _).2 h1), mul_zero]
        · have := hr m hm t ht h2
          rw [ih _ (by omega) htd, mul_zero]
        · rw [h0 _ h3, mul_zero]
      · exact h0 k h3
  intro k hk
  exact key _ k (Nat.lt_succ_self _) hk

theorem masterSum_sub (u v : Int × Int → K) (l : List (MTerm K)) : masterSum (fun k => u k - v k) l = masterSum u l - masterSum v l := by
  unfold masterSum
  induction l with
  | nil => simp
  | cons t l ih => simp only [List.map_cons, List.sum_cons, ih]; ring

theorem obeys_sub {P : List (SPatch K)} {nnod : Nat} (u v : Int × Int → K) (hu : Obeys P nnod u) (hv : Obeys P nnod v) : Obeys (noConst P) nnod fun k => u k - v k := by
  rw [obeys0_iff (P := P) rfl]
  obtain ⟨a1, a2⟩ := hu
  obtain ⟨b1, b2⟩ := hv
  refine ⟨fun k h1 h2 => by rw [a1 k h1 h2, b1 k h1 h2, sub_zero], fun m hm hf => ?_⟩
  have h1 := a2 m hm hf
  have h2 := b2 m hm hf
  unfold Holds at h1 h2
  unfold HoldsScaled
  rw [masterSum_sub]
  dsimp only
  rw [h1, h2]; ring

/-- **C81**. A field that obeys the constraints is determined by its values in the free DOFs. -/
theorem C81_unique (P : List (SPatch K)) (nnod : Nat) (hg : GoodModel P nnod) (u v : Int × Int → K) (hu : Obeys P nnod u) (hv : Obeys P nnod v)
    (h : ∀ k, OpenDof P nnod k → u k = v k) : ∀ k, IsDof P nnod k → u k = v k := by
  intro k hk
  exact sub_eq_zero.1 (homog_zero P nnod hg _ (obeys_sub u v hu hv) (fun k hk => sub_eq_zero.2 (h k hk)) k hk)

/-! ## The update -/

theorem history_run {P : List (SPatch K)} {nnod f : Nat} {msc st : List Int} {s0 s : Sam K} {is : List (Option Nat)} (hS : Setting P nnod f msc st s0 s is) :
    ∀ (ops : List (List (SPatch K) × Option (List K))), (∀ o ∈ ops, noConst o.1 = noConst P) → ∀ (C1 : List (Con K)), C1.map shape = (consOf (nodeCounts P nnod) msc (allMpcs P) f).map shape →
      ∃ C2 : List (Con K), C2.map shape = (consOf (nodeCounts P nnod) msc (allMpcs P) f).map shape ∧
        history f is ({ s with ttcc := C1.flatMap ttB } : Sam K) ops = some ({ s with ttcc := C2.flatMap ttB } : Sam K) := by
  intro ops
  induction ops with
  | nil => intro _ C1 h1; exact ⟨C1, h1, rfl⟩
  | cons o ops ih =>
    intro ho C1 h1
    have e := ho o (List.mem_cons_self ..)
    have := hS.upd o.1 e o.2 C1 h1
    obtain ⟨C2, h2, h3⟩ := ih (fun o h => ho o (List.mem_cons_of_mem _ h)) _ ((adj_shape _ o.2).trans (hS.shp o.1 e))
    refine ⟨C2, h2, ?_⟩
    unfold history
    rw [this]
    exact h3

theorem sam_eta (s : Sam K) (tt : List K) (h : s.ttcc = tt) : ({ s with ttcc := tt } : Sam K) = s := by subst h; rfl

theorem vval_field (P : List (SPatch K)) (nnod : Nat) (k : Int × Int) (hk : IsDof P nnod k) (u : List K) : vval u (dofIndex P k : Nat) = field P u k := by
  have hrg := dofIx_range ((okDof_iff P nnod k).mpr hk)
  rw [dofIx_eq P nnod k hk] at hrg
  unfold vval field
  rw [at1?_nat _ _ hrg.1, List.getD_eq_getElem?_getD]

/-- The increment of a slave with lift `g`, in terms of the previous solution. -/
def increment (prev : Option (List K)) (P : List (SPatch K)) (g : Int × Int → K) (k : Int × Int) : K :=
  match prev with
  | none => 0
  | some u => if g k = 0 then 0 else g k - field P u k

theorem stored_eq (P : List (SPatch K)) (prev : Option (List K)) (g : Int × Int → K) (k : Int × Int) (h1 : 1 ≤ dofIndex P k) : stored prev (dofIndex P k) (g k) = increment prev P g k := by
  cases prev with
  | none => rfl
  | some u =>
    unfold stored increment field
    dsimp only
    by_cases h0 : g k = 0
    · rw [if_pos h0, if_pos h0]
    · rw [if_neg h0, if_neg h0]
      by_cases h2 : dofIndex P k ≤ u.length
      · rw [if_pos h2]
      · rw [if_neg h2, List.getD_eq_getElem?_getD, List.getElem?_eq_none (by omega), Option.getD_none, sub_zero]

/-- **C81**. Set up the tables for a consistent model, and then update the constraints any number of times with models that differ in the constant terms only, each time with or without a previous
solution: all updates succeed, they change no table other than the coefficients, and every vector with one value per equation is expanded into a field that vanishes in all fixed DOFs and equals
in every other slave the value without constant terms plus an increment: zero if no previous solution was given or the prescribed value in the last update is zero, otherwise
the prescribed value less the previous one.  The result is independent of all updates but the last one. -/
theorem C81_increment (P : List (SPatch K)) (nnod : Nat) (hg : GoodModel P nnod) :
    ∃ f0, ∀ f, f0 ≤ f → ∃ s0 s is, buildTables nnod f P = some (s0, true) ∧ s0.initSystemEquations = some (s, true) ∧ iceqsOf nnod f P = some is ∧
      ∀ (ops : List (List (SPatch K) × Option (List K))) (P' : List (SPatch K)) (prev : Option (List K)), (∀ o ∈ ops, noConst o.1 = noConst P) → noConst P' = noConst P →
        ∃ s', history f is s (ops ++ [(P', prev)]) = some s' ∧ history f is s [(P', prev)] = some s' ∧ s' = { s with ttcc := s'.ttcc } ∧ s'.ttcc.length = s.ttcc.length ∧
          ∀ (x : List K) (scale : K), x.length = s.neq → ∃ d, s'.expandVector x scale = some d ∧
            (∀ k r, OpenDof P' nnod k → EqnOf s (dofIndex P' k : Nat) r → field P' d k = vval x r) ∧
            ∀ g h, IsLift P' nnod g → IsHomog P' nnod (field P' d) h →
              (∀ k, IsDof P' nnod k → FixedIn P' k.1 k.2.toNat → field P' d k = 0) ∧
              ∀ k, IsSlave (allMpcs P') k → ¬ FixedIn P' k.1 k.2.toNat →
                field P' d k = h k + scale * match prev with
                  | none => 0
                  | some u => if g k = 0 then 0 else g k - field P' u k := by
  obtain ⟨f0, hset⟩ := setting P nnod hg
  refine ⟨f0, fun f hf => ?_⟩
  obtain ⟨msc, st, s0, s, is, hS⟩ := hset f hf
  refine ⟨s0, s, is, hS.build, hS.init, hS.index, ?_⟩
  intro ops P' prev hops e
  have hfl : ∀ u : List K, field P' u = field P u := fun u => by funext k; unfold field; rw [same_index e]
  have last : ∀ ops : List (List (SPatch K) × Option (List K)), (∀ o ∈ ops, noConst o.1 = noConst P) → history f is s (ops ++ [(P', prev)]) =
      some ({ s with ttcc := ((consOf (nodeCounts P nnod) msc (allMpcs P') f).map (adj prev)).flatMap ttB } : Sam K) := by
    intro ops hops
    obtain ⟨C2, h2, h3⟩ := history_run hS ops hops _ rfl
    rw [sam_eta s _ hS.old] at h3
    have app : ∀ (a b : List (List (SPatch K) × Option (List K))) (s1 s2 : Sam K), history f is s1 a = some s2 → history f is s1 (a ++ b) = history f is s2 b := by
      intro a
      induction a with
      | nil => intro b s1 s2 h; cases h; rfl
      | cons o a ih =>
        intro b s1 s2 h
        rw [List.cons_append]
        simp only [history] at h ⊢
        match hu : updateConstraintEqs s1 f o.1 is o.2 with
        | some (s3, true) => rw [hu] at h; simp only at h ⊢; exact ih b s3 s2 h
        | some (s3, false) => rw [hu] at h; simp at h
        | none => rw [hu] at h; simp at h
    rw [app _ _ _ _ h3]
    unfold history
    rw [hS.upd P' e prev C2 h2]
    rfl
  refine ⟨_, last ops hops, last [] (by simp), rfl, ?_, ?_⟩
  · show (((consOf (nodeCounts P nnod) msc (allMpcs P') f).map (adj prev)).flatMap ttB).length = _
    rw [hS.old, flatMap_len_tt, flatMap_len_tt, (same_tables ((adj_shape _ prev).trans (hS.shp P' e))).1]
  intro x scale hx
  have hsh := (adj_shape (consOf (nodeCounts P nnod) msc (allMpcs P') f) prev).trans (hS.shp P' e)
  have hv := hS.valid _ hsh
  have hi := (init_form hS.init).2.2.2.2.2 (((consOf (nodeCounts P nnod) msc (allMpcs P') f).map (adj prev)).flatMap ttB)
  obtain ⟨d, h1, h2, h3, h4, h5⟩ := C07_expand (hS.packs _ hsh) hv hi x (le_of_eq hx.symm) scale
  refine ⟨d, h1, ?_, ?_⟩
  · intro k r hk hr
    have hk' := (same_open e k).1 hk
    rw [hfl, ← vval_field P nnod k hk'.1]
    rw [same_index e] at hr
    exact h4 _ r ((hS.free _ _).2 ⟨k, hk', rfl⟩) hr
  · intro g h hL hH
    obtain ⟨c1, c2⟩ := slave_value hS hg e prev scale (fun d' => vval d (d' : Nat)) h3 g h hL hH.1 (fun k hk => by
      rw [hH.2 k hk, hfl, ← vval_field P nnod k ((same_open e k).1 hk).1])
    constructor
    · intro k hk hF
      have hk' := (same_dof e k).1 hk
      rw [hfl, ← vval_field P nnod k hk']
      exact c1 k hk' ((same_fixed e _ _).1 hF)
    · intro k hk hF
      have hk' : IsDof P nnod k := by
        obtain ⟨m, hm, rfl⟩ := hk
        exact (same_dof e _).1 ((same_good hg e).slaves m hm)
      have hrg := dofIx_range ((okDof_iff P nnod k).mpr hk')
      rw [dofIx_eq P nnod k hk'] at hrg
      have := c2 k hk (fun h => hF ((same_fixed e _ _).2 h))
      rw [stored_eq P prev g k hrg.1, vval_field P nnod k hk'] at this
      rw [hfl, this, add_comm]
      unfold increment
      cases prev with
      | none => rfl
      | some u => dsimp only; rw [hfl]

/-- One update, for the tables as set up. -/
theorem one_update (P : List (SPatch K)) (nnod : Nat) (hg : GoodModel P nnod) :
    ∃ f0, ∀ f, f0 ≤ f → ∀ s0 s is, buildTables nnod f P = some (s0, true) → s0.initSystemEquations = some (s, true) → iceqsOf nnod f P = some is →
      ∀ (P' : List (SPatch K)) (prev : Option (List K)), noConst P' = noConst P → ∃ s', updateConstraintEqs s f P' is prev = some (s', true) ∧
        ∀ (x : List K), x.length = s.neq → ∃ d, s'.expandVector x 1 = some d ∧
            ∀ g h, IsLift P' nnod g → IsHomog P' nnod (field P' d) h →
              (∀ k, IsDof P' nnod k → FixedIn P' k.1 k.2.toNat → field P' d k = 0) ∧
              ∀ k, IsSlave (allMpcs P') k → ¬ FixedIn P' k.1 k.2.toNat → field P' d k = h k + increment prev P' g k := by
  obtain ⟨f0, h0⟩ := C81_increment P nnod hg
  refine ⟨f0, fun f hf s0 s is h1 h2 h3 P' prev e => ?_⟩
  obtain ⟨s0', s'', is', a1, a2, a3, a4⟩ := h0 f hf
  rw [h1] at a1; cases a1
  rw [h2] at a2; cases a2
  rw [h3] at a3; cases a3
  obtain ⟨s', -, b2, -, -, b5⟩ := a4 [] P' prev (by simp) e
  refine ⟨s', ?_, ?_⟩
  · simp only [history] at b2
    match hu : updateConstraintEqs s f P' is prev with
    | some (s3, true) => rw [hu] at b2; simp only at b2; rw [Option.some.inj b2]
    | some (s3, false) => rw [hu] at b2; simp at b2
    | none => rw [hu] at b2; simp at b2
  · intro x hx
    obtain ⟨d, c1, -, c3⟩ := b5 x 1 hx
    refine ⟨d, c1, fun g h hL hH => ?_⟩
    obtain ⟨e1, e2⟩ := c3 g h hL hH
    refine ⟨e1, fun k hk hF => ?_⟩
    rw [e2 k hk hF, one_mul]
    rfl

/-- **C81**. Without a previous solution the constraints of the increment are homogeneous. -/
theorem C81_homogeneous (P : List (SPatch K)) (nnod : Nat) (hg : GoodModel P nnod) :
    ∃ f0, ∀ f, f0 ≤ f → ∀ s0 s is, buildTables nnod f P = some (s0, true) → s0.initSystemEquations = some (s, true) → iceqsOf nnod f P = some is →
      ∀ (P' : List (SPatch K)), noConst P' = noConst P → ∃ s', updateConstraintEqs s f P' is none = some (s', true) ∧
        ∀ (x : List K), x.length = s.neq → ∃ d, s'.expandVector x 1 = some d ∧ Obeys (noConst P') nnod (field P' d) := by
  obtain ⟨f0, h0⟩ := one_update P nnod hg
  refine ⟨f0, fun f hf s0 s is h1 h2 h3 P' e => ?_⟩
  obtain ⟨s', a1, a2⟩ := h0 f hf s0 s is h1 h2 h3 P' none e
  refine ⟨s', a1, fun x hx => ?_⟩
  obtain ⟨d, b1, b2⟩ := a2 x hx
  refine ⟨d, b1, ?_⟩
  have hg' := same_good hg e
  obtain ⟨g, hL⟩ := C81_lift_exists P' nnod hg'
  obtain ⟨h, hH⟩ := C81_homog_exists P' nnod hg' (field P' d)
  obtain ⟨c1, c2⟩ := b2 g h hL hH
  have heq : ∀ k, IsDof P' nnod k → field P' d k = h k := by
    intro k hk
    rcases dof_cases P' nnod k hk with h1 | ⟨h2, h3⟩ | h4
    · rw [c1 k hk h1, hH.1.1 k ((nc_isDof _ _ _).2 hk) ((nc_fixed _ _ _).2 h1)]
    · rw [c2 k h2 h3]; exact add_zero _
    · exact (hH.2 k h4).symm
  refine ⟨fun k hk hF => c1 k ((nc_isDof _ _ _).1 hk) ((nc_fixed _ _ _).1 hF), ?_⟩
  have hgz := (nc_good P' nnod).2 hg'
  intro m hm hF
  have := hH.1.2 m hm hF
  unfold Holds at this ⊢
  rw [heq _ ((nc_isDof _ _ _).1 (hgz.slaves m hm)), this]
  congr 1
  unfold masterSum
  congr 1
  apply List.map_congr_left
  intro t ht
  rw [heq _ ((nc_isDof _ _ _).1 (hgz.masters m hm t ht))]

theorem homog_add {P : List (SPatch K)} {nnod : Nat} (u v : Int × Int → K) (hu : Obeys P nnod u) (hv : Obeys (noConst P) nnod v) : Obeys P nnod fun k => u k + v k := by
  rw [obeys0_iff (P := P) rfl] at hv
  obtain ⟨a1, a2⟩ := hu
  obtain ⟨b1, b2⟩ := hv
  refine ⟨fun k h1 h2 => by show u k + v k = 0; rw [a1 k h1 h2, b1 k h1 h2, add_zero], fun m hm hf => ?_⟩
  have h1 := a2 m hm hf
  have h2 := b2 m hm hf
  unfold Holds at h1
  unfold HoldsScaled at h2
  unfold Holds
  have e : masterSum (fun k => u k + v k) m.master = masterSum u m.master + masterSum v m.master := by
    have := masterSum_sub (fun k => u k + v k) v m.master
    simp only [add_sub_cancel_right] at this
    have e2 : masterSum (fun k => u k) m.master = masterSum u m.master := rfl
    rw [e2] at this
    rw [this]; ring
  rw [e]
  dsimp only
  rw [h1, h2]; ring

theorem obeys_congr {P : List (SPatch K)} {nnod : Nat} (hg : GoodModel P nnod) (u v : Int × Int → K) (h : ∀ k, IsDof P nnod k → u k = v k) (hu : Obeys P nnod u) : Obeys P nnod v := by
  refine ⟨fun k hk hF => by rw [← h k hk]; exact hu.1 k hk hF, fun m hm hF => ?_⟩
  have := hu.2 m hm hF
  unfold Holds at this ⊢
  rw [← h _ (hg.slaves m hm), this]
  congr 1
  unfold masterSum
  congr 1
  apply List.map_congr_left
  intro t ht
  rw [h _ (hg.masters m hm t ht)]

/-- **C81**. After an update with the previous solution `u` the new solution (`u` plus the expanded increment) obeys the current constraints if and only if `u` vanishes in the fixed DOFs
and each other slave, whose value for zero masters is `g`, meets the condition: if `g` is zero, `u` already obeyed the constraint without constant term; if `g` is not zero, the free DOFs
of `u` contribute nothing to it. -/
theorem C81_attained (P : List (SPatch K)) (nnod : Nat) (hg : GoodModel P nnod) :
    ∃ f0, ∀ f, f0 ≤ f → ∀ s0 s is, buildTables nnod f P = some (s0, true) → s0.initSystemEquations = some (s, true) → iceqsOf nnod f P = some is →
      ∀ (P' : List (SPatch K)) (u : List K), noConst P' = noConst P → ∃ s', updateConstraintEqs s f P' is (some u) = some (s', true) ∧
        ∀ (x : List K), x.length = s.neq → ∃ d, s'.expandVector x 1 = some d ∧
          ∀ g hu, IsLift P' nnod g → IsHomog P' nnod (field P' u) hu →
            (Obeys P' nnod (fun k => field P' u k + field P' d k) ↔
              (∀ k, IsDof P' nnod k → FixedIn P' k.1 k.2.toNat → field P' u k = 0) ∧
              ∀ k, IsSlave (allMpcs P') k → ¬ FixedIn P' k.1 k.2.toNat → (g k = 0 → field P' u k = hu k) ∧ (g k ≠ 0 → hu k = 0)) := by
  obtain ⟨f0, h0⟩ := one_update P nnod hg
  refine ⟨f0, fun f hf s0 s is h1 h2 h3 P' u e => ?_⟩
  obtain ⟨s', a1, a2⟩ := h0 f hf s0 s is h1 h2 h3 P' (some u) e
  refine ⟨s', a1, fun x hx => ?_⟩
  obtain ⟨d, b1, b2⟩ := a2 x hx
  refine ⟨d, b1, fun g hu hL hU => ?_⟩
  have hg' := same_good hg e
  obtain ⟨h, hH⟩ := C81_homog_exists P' nnod hg' (field P' d)
  obtain ⟨c1, c2⟩ := b2 g h hL hH
  -- the only field with these free values
  have hw : Obeys P' nnod fun k => (g k + hu k) + h k := homog_add _ _ (homog_add _ _ hL.1 hU.1) hH.1
  have ho : ∀ k, OpenDof P' nnod k → field P' u k + field P' d k = (g k + hu k) + h k := by
    intro k hk
    rw [hL.2 k hk, hU.2 k hk, hH.2 k hk, zero_add]
  have hsd : ∀ k, IsSlave (allMpcs P') k → IsDof P' nnod k := by
    rintro k ⟨m, hm, rfl⟩; exact hg'.slaves m hm
  constructor
  · intro ho2
    refine ⟨fun k hk hF => ?_, fun k hk hF => ?_⟩
    · have : field P' u k + field P' d k = 0 := ho2.1 k hk hF
      rwa [c1 k hk hF, add_zero] at this
    · have := C81_unique P' nnod hg' _ _ ho2 hw ho k (hsd k hk)
      rw [c2 k hk hF] at this
      unfold increment at this
      dsimp only at this
      constructor
      · intro h0
        rw [if_pos h0, h0] at this
        linear_combination this
      · intro h0
        rw [if_neg h0] at this
        linear_combination -this
  · rintro ⟨q1, q2⟩
    refine obeys_congr hg' _ _ ?_ hw
    intro k hk
    rcases dof_cases P' nnod k hk with h1 | ⟨h2, h3⟩ | h4
    · have e0 : g k + hu k + h k = 0 := hw.1 k hk h1
      rw [e0, q1 k hk h1, c1 k hk h1, add_zero]
    · rw [c2 k h2 h3]
      unfold increment
      dsimp only
      by_cases h0 : g k = 0
      · rw [if_pos h0, h0, (q2 k h2 h3).1 h0]; ring
      · rw [if_neg h0, (q2 k h2 h3).2 h0]; ring
    · exact (ho k h4).symm

/-- **C81**. A DOF with a prescribed value and no masters gets this value from the update, unless it is zero: then the DOF keeps the value it has. -/
theorem C81_values (P : List (SPatch K)) (nnod : Nat) (hg : GoodModel P nnod) :
    ∃ f0, ∀ f, f0 ≤ f → ∀ s0 s is, buildTables nnod f P = some (s0, true) → s0.initSystemEquations = some (s, true) → iceqsOf nnod f P = some is →
      ∀ (P' : List (SPatch K)) (u : List K), noConst P' = noConst P → ∃ s', updateConstraintEqs s f P' is (some u) = some (s', true) ∧
        ∀ (x : List K), x.length = s.neq → ∃ d, s'.expandVector x 1 = some d ∧
          ∀ m ∈ allMpcs P', ¬ FixedIn P' m.node m.dof.toNat → m.master = [] →
            field P' u (m.node, m.dof) + field P' d (m.node, m.dof) = if m.c0 = 0 then field P' u (m.node, m.dof) else m.c0 := by
  obtain ⟨f0, h0⟩ := one_update P nnod hg
  refine ⟨f0, fun f hf s0 s is h1 h2 h3 P' u e => ?_⟩
  obtain ⟨s', a1, a2⟩ := h0 f hf s0 s is h1 h2 h3 P' (some u) e
  refine ⟨s', a1, fun x hx => ?_⟩
  obtain ⟨d, b1, b2⟩ := a2 x hx
  refine ⟨d, b1, fun m hm hF hnil => ?_⟩
  have hg' := same_good hg e
  obtain ⟨g, hL⟩ := C81_lift_exists P' nnod hg'
  obtain ⟨h, hH⟩ := C81_homog_exists P' nnod hg' (field P' d)
  obtain ⟨-, c2⟩ := b2 g h hL hH
  have hgm := hL.1.2 m hm hF
  have hhm := ((obeys0_iff (P := P') (P' := P') rfl h).1 hH.1).2 m hm hF
  unfold Holds at hgm
  unfold HoldsScaled at hhm
  rw [hnil] at hgm hhm
  simp only [masterSum, List.map_nil, List.sum_nil, add_zero, zero_mul] at hgm hhm
  rw [c2 _ ⟨m, hm, rfl⟩ hF, hhm]
  unfold increment
  dsimp only
  rw [hgm]
  by_cases h0 : m.c0 = 0
  · rw [if_pos h0, if_pos h0]; ring
  · rw [if_neg h0, if_neg h0]; ring

/-! ## The functions -/

theorem setConst_z (k : Int × Int) (c : K) (ms : List (Mpc K)) : (setConst k c ms).map z = ms.map z := by
  unfold setConst
  rw [List.map_map]
  apply List.map_congr_left
  intro m _
  show z (if m.key = k then { m with c0 := c } else m) = z m
  by_cases h : m.key = k
  · rw [if_pos h]; rfl
  · rw [if_neg h]

theorem setConst_get (k : Int × Int) (c : K) (ms : List (Mpc K)) (j : Nat) (m : Mpc K) (h : ms[j]? = some m) : (setConst k c ms)[j]? = some (if m.key = k then { m with c0 := c } else m) := by
  unfold setConst
  rw [List.getElem?_map, h]; rfl

/-- The position of the first node with the number. -/
theorem nodeIndex_pos (nodes : List (Int × Nat)) (n : Int) : (nodeIndex nodes n < 1 ↔ ∀ q ∈ nodes, q.1 ≠ n) ∧
    ∀ i, nodes.findIdx? (fun q => decide (q.1 = n)) = some i → nodeIndex nodes n = i+1 := by
  unfold nodeIndex
  constructor
  · match h : nodes.findIdx? fun q => decide (q.1 = n) with
    | none =>
      rw [h]
      rw [List.findIdx?_eq_none_iff] at h
      refine ⟨fun _ => ?_, fun _ => Nat.zero_lt_one⟩
      intro q hq
      simpa using h q hq
    | some i =>
      rw [h]
      rw [List.findIdx?_eq_some_iff_getElem] at h
      obtain ⟨hi, h1, -⟩ := h
      refine ⟨fun hl => absurd hl (Nat.not_lt.2 (Nat.le_add_left 1 i)), fun hn => absurd (by simpa using h1) (hn nodes[i] (List.getElem_mem hi))⟩
  · intro i h; rw [h]

/-- The loop over the codes. -/
theorem updatePatch_spec (sf : Int → Option (SFun K)) (vf : Int → Option (VFun K)) (time : K) (tangent : Bool) (coord : Nat → Fin 3 → K) (nodes : List (Int × Nat)) :
    ∀ (ds : List ((Int × Int) × Int)) (ms : List (Mpc K)), (ds.map Prod.fst).Nodup →
      (updatePatch sf vf time tangent coord nodes ds ms).1.map z = ms.map z ∧
      ((updatePatch sf vf time tangent coord nodes ds ms).2 = false ↔ ∃ d ∈ ds, (∀ q ∈ nodes, q.1 ≠ d.1.1) ∨ (sf d.2 = none ∧ vf d.2 = none)) ∧
      ((updatePatch sf vf time tangent coord nodes ds ms).2 = true → ∀ (j : Nat) (m : Mpc K), ms[j]? = some m →
        ∃ c, (updatePatch sf vf time tangent coord nodes ds ms).1[j]? = some { m with c0 := c } ∧
          ((∀ d ∈ ds, d.1 ≠ m.key) → c = m.c0) ∧
          ∀ d ∈ ds, d.1 = m.key → codeValue sf vf tangent d.2 m.dof { X := coord (nodeIndex nodes m.node), t := time, node := m.node } = some c) := by
  intro ds
  induction ds with
  | nil =>
    intro ms _
    refine ⟨rfl, by simp [updatePatch], fun _ j m h => ⟨m.c0, h, fun _ => rfl, by simp⟩⟩
  | cons d ds ih =>
    intro ms hnd
    rw [List.map_cons, List.nodup_cons] at hnd
    unfold updatePatch
    dsimp only
    have hcv : ∀ X, codeValue sf vf tangent d.2 d.1.2 X = none ↔ sf d.2 = none ∧ vf d.2 = none := by
      intro X
      unfold codeValue
      cases sf d.2 <;> cases vf d.2 <;> simp
    by_cases h1 : nodeIndex nodes d.1.1 < 1
    · rw [if_pos h1]
      refine ⟨rfl, ?_, fun h => by simp at h⟩
      simp only [true_iff]
      exact ⟨d, List.mem_cons_self .., .inl ((nodeIndex_pos nodes d.1.1).1.1 h1)⟩
    · rw [if_neg h1]
      match hv : codeValue sf vf tangent d.2 d.1.2 { X := coord (nodeIndex nodes d.1.1), t := time, node := d.1.1 } with
      | none =>
        refine ⟨rfl, ?_, fun h => by simp at h⟩
        simp only [true_iff]
        exact ⟨d, List.mem_cons_self .., .inr ((hcv _).1 hv)⟩
      | some v =>
        obtain ⟨i1, i2, i3⟩ := ih (setConst d.1 v ms) hnd.2
        refine ⟨i1.trans (setConst_z _ _ _), ?_, ?_⟩
        · simp only
          rw [i2]
          constructor
          · rintro ⟨d', h', hh⟩; exact ⟨d', List.mem_cons_of_mem _ h', hh⟩
          · rintro ⟨d', h', hh⟩
            rcases List.mem_cons.1 h' with rfl | h'
            · exfalso
              rcases hh with hh | hh
              · exact h1 ((nodeIndex_pos nodes d'.1.1).1.2 hh)
              · rw [(hcv _).2 hh] at hv; simp at hv
            · exact ⟨d', h', hh⟩
        · intro ht j m hj
          have hs := setConst_get d.1 v ms j m hj
          obtain ⟨c, c1, c2, c3⟩ := i3 ht j _ hs
          by_cases hk : m.key = d.1
          · rw [if_pos hk] at c1 c2 c3
            refine ⟨c, c1, fun hn => absurd hk.symm (hn d (List.mem_cons_self ..)), ?_⟩
            intro d' hd' he
            rcases List.mem_cons.1 hd' with rfl | hd'
            · have : c = v := c2 (fun d'' h'' e'' => hnd.1 (by
                have e2 : d''.1 = d'.1 := e''.trans hk
                rw [← e2]; exact List.mem_map.2 ⟨d'', h'', rfl⟩))
              rw [this, ← hv]
              have e1 : m.node = d'.1.1 := congrArg Prod.fst hk
              have e2 : m.dof = d'.1.2 := congrArg Prod.snd hk
              rw [e1, e2]
            · exact c3 d' hd' he
          · rw [if_neg hk] at c1 c2 c3
            refine ⟨c, c1, fun hn => c2 fun d' h' => hn d' (List.mem_cons_of_mem _ h'), ?_⟩
            intro d' hd' he
            rcases List.mem_cons.1 hd' with rfl | hd'
            · exact absurd he.symm hk
            · exact c3 d' hd' he

theorem updatePatches_len (sf : Int → Option (SFun K)) (vf : Int → Option (VFun K)) (time : K) (tangent : Bool) (P : List (DPatch K)) : (updatePatches sf vf time tangent P).1.length = P.length := by
  induction P with
  | nil => rfl
  | cons p P ih =>
    unfold updatePatches
    dsimp only
    split <;> simp [ih]

/-- **C81**. Evaluating the functions changes nothing in the model but constant terms of constraints. -/
theorem C81_only_constants (sf : Int → Option (SFun K)) (vf : Int → Option (VFun K)) (time : K) (tangent : Bool) (P : List (DPatch K)) (hd : ∀ p ∈ P, (p.dCode.map Prod.fst).Nodup) :
    noConst ((updatePatches sf vf time tangent P).1.map DPatch.base) = noConst (P.map DPatch.base) ∧
    (updatePatches sf vf time tangent P).1.map DPatch.coord = P.map DPatch.coord ∧ (updatePatches sf vf time tangent P).1.map DPatch.dCode = P.map DPatch.dCode := by
  induction P with
  | nil => exact ⟨rfl, rfl, rfl⟩
  | cons p P ih =>
    have h1 := (updatePatch_spec sf vf time tangent p.coord p.base.nodes p.dCode p.base.mpcs (hd p (List.mem_cons_self ..))).1
    obtain ⟨i1, i2, i3⟩ := ih (fun p h => hd p (List.mem_cons_of_mem _ h))
    unfold updatePatches
    dsimp only
    have e : ∀ (r : List (Mpc K)), r.map z = p.base.mpcs.map z → noConst [{ p.base with mpcs := r }] = noConst [p.base] := by
      intro r hr
      show [({ p.base with mpcs := r.map z } : SPatch K)] = [{ p.base with mpcs := p.base.mpcs.map z }]
      rw [hr]
    have cons : ∀ (a : SPatch K) (l : List (SPatch K)), noConst (a :: l) = noConst [a] ++ noConst l := fun a l => rfl
    split
    · simp only [List.map_cons, i2, i3, true_and, and_true]
      rw [cons, cons p.base, e _ h1, i1]
    · simp only [List.map_cons, true_and, and_true]
      rw [cons, cons p.base, e _ h1]

/-- **C81**. The evaluation fails if and only if a code refers to a node that is not in its patch, or to no function. -/
theorem C81_refused (sf : Int → Option (SFun K)) (vf : Int → Option (VFun K)) (time : K) (tangent : Bool) (P : List (DPatch K)) (hd : ∀ p ∈ P, (p.dCode.map Prod.fst).Nodup) :
    (updatePatches sf vf time tangent P).2 = false ↔ ∃ p ∈ P, ∃ d ∈ p.dCode, (∀ q ∈ p.base.nodes, q.1 ≠ d.1.1) ∨ (sf d.2 = none ∧ vf d.2 = none) := by
  induction P with
  | nil => simp [updatePatches]
  | cons p P ih =>
    have h1 := (updatePatch_spec sf vf time tangent p.coord p.base.nodes p.dCode p.base.mpcs (hd p (List.mem_cons_self ..))).2.1
    have ih' := ih (fun p h => hd p (List.mem_cons_of_mem _ h))
    unfold updatePatches
    dsimp only
    split
    · rename_i ht
      simp only [ih', List.mem_cons, exists_eq_or_imp]
      rw [← h1, ht]; simp
    · rename_i ht
      simp only [true_iff, List.mem_cons, exists_eq_or_imp]
      exact .inl (h1.1 (by simpa using ht))

/-- **C81**. If the evaluation succeeds, the constant term of a constraint with a code becomes the value of the function at the coordinates of the slave node, at the given time (the time derivative
if `tangent` is set): of the scalar function with this code if there is one, otherwise the component of the vector function given by the slave DOF (zero if there is no such component);
all other constraints are unchanged. -/
theorem C81_prescribed (sf : Int → Option (SFun K)) (vf : Int → Option (VFun K)) (time : K) (tangent : Bool) (P : List (DPatch K)) (hd : ∀ p ∈ P, (p.dCode.map Prod.fst).Nodup)
    (h : (updatePatches sf vf time tangent P).2 = true) :
    ∀ (i : Nat) (p : DPatch K), P[i]? = some p → ∃ ms', (updatePatches sf vf time tangent P).1[i]? = some { p with base := { p.base with mpcs := ms' } } ∧ ms'.length = p.base.mpcs.length ∧
      ∀ (j : Nat) (m : Mpc K), p.base.mpcs[j]? = some m → ∃ c, ms'[j]? = some { m with c0 := c } ∧
        ((∀ d ∈ p.dCode, d.1 ≠ (m.node, m.dof)) → c = m.c0) ∧
        ∀ code, ((m.node, m.dof), code) ∈ p.dCode → ∃ l : Nat, (p.base.nodes.map Prod.fst)[l]? = some m.node ∧ (∀ l', l' < l → (p.base.nodes.map Prod.fst)[l']? ≠ some m.node) ∧
          (∀ g, sf code = some g → c = if g.zero then 0 else (if tangent then g.der else g.val) { X := p.coord (l+1), t := time, node := m.node }) ∧
          (∀ g, sf code = none → vf code = some g →
            c = if g.zero = false ∧ 1 ≤ m.dof ∧ m.dof ≤ 3 ∧ m.dof ≤ g.dim then (if tangent then g.der else g.val) { X := p.coord (l+1), t := time, node := m.node } m.dof else 0) := by
  induction P with
  | nil => intro i p h; simp at h
  | cons p P ih =>
    obtain ⟨s1, s2, s3⟩ := updatePatch_spec sf vf time tangent p.coord p.base.nodes p.dCode p.base.mpcs (hd p (List.mem_cons_self ..))
    unfold updatePatches at h ⊢
    dsimp only at h ⊢
    by_cases ht : (updatePatch sf vf time tangent p.coord p.base.nodes p.dCode p.base.mpcs).2 = true
    · rw [if_pos ht] at h ⊢
      intro i q hq
      cases i with
      | succ i =>
        rw [List.getElem?_cons_succ] at hq ⊢
        exact ih (fun p h => hd p (List.mem_cons_of_mem _ h)) h i q hq
      | zero =>
        rw [List.getElem?_cons_zero] at hq
        cases hq
        refine ⟨_, rfl, by simpa using congrArg List.length s1, ?_⟩
        intro j m hj
        obtain ⟨c, c1, c2, c3⟩ := s3 ht j m hj
        refine ⟨c, c1, c2, ?_⟩
        intro code hc
        have hv := c3 _ hc rfl
        match hix : p.base.nodes.findIdx? fun q => decide (q.1 = m.node) with
        | none =>
          exfalso
          rw [List.findIdx?_eq_none_iff] at hix
          rw [(s2.2 ⟨_, hc, .inl fun q hq => by simpa using hix q hq⟩)] at ht
          simp at ht
        | some l =>
          rw [(nodeIndex_pos p.base.nodes m.node).2 l hix] at hv
          rw [List.findIdx?_eq_some_iff_getElem] at hix
          obtain ⟨hl, e1, e2⟩ := hix
          refine ⟨l, ?_, ?_, ?_, ?_⟩
          · rw [List.getElem?_map, List.getElem?_eq_getElem hl]
            simpa using e1
          · intro l' hl' he
            rw [List.getElem?_map, List.getElem?_eq_getElem (show l' < p.base.nodes.length by omega)] at he
            have := e2 l' hl'
            simp only [Option.map_some, Option.some.injEq] at he
            simp [he] at this
          · intro g hgs
            unfold codeValue at hv
            dsimp only at hv
            rw [hgs] at hv
            simp only [Option.some.injEq] at hv
            rw [← hv]
            cases g.zero <;> cases tangent <;> rfl
          · intro g hgs hgv
            unfold codeValue at hv
            dsimp only at hv
            rw [hgs, hgv] at hv
            simp only [Option.some.injEq] at hv
            rw [← hv]
            by_cases hz : g.zero = false ∧ 1 ≤ m.dof ∧ m.dof ≤ 3 ∧ m.dof ≤ g.dim
            · rw [if_pos hz, if_neg]
              · cases tangent <;> rfl
              · rw [hz.1]; simp only [Bool.false_eq_true, false_or]; omega
            · rw [if_neg hz, if_pos]
              by_contra hcon
              apply hz
              push Not at hcon
              obtain ⟨k1, k2, k3⟩ := hcon
              exact ⟨by simpa using k1, by omega, by omega, by omega⟩
    · rw [if_neg ht] at h; simp at h

/-- **C81**. `updateDirichlet` with a previous solution evaluates the functions and updates the constraint tables; if the evaluation fails, the tables are left as they are; without a previous solution
the functions are not evaluated. -/
theorem C81_driver (sf : Int → Option (SFun K)) (vf : Int → Option (VFun K)) (time : K) (tangent : Bool) (s : Sam K) (f : Nat) (P : List (DPatch K)) (is : List (Option Nat)) :
    (∀ u s' b, (updatePatches sf vf time tangent P).2 = true → updateConstraintEqs s f ((updatePatches sf vf time tangent P).1.map DPatch.base) is (some u) = some (s', b) →
      updateDirichlet sf vf time tangent s f P is (some u) = some ((updatePatches sf vf time tangent P).1, s', b)) ∧
    (∀ u, (updatePatches sf vf time tangent P).2 = false → updateDirichlet sf vf time tangent s f P is (some u) = some ((updatePatches sf vf time tangent P).1, s, false)) ∧
    (∀ s' b, updateConstraintEqs s f (P.map DPatch.base) is none = some (s', b) → updateDirichlet sf vf time tangent s f P is none = some (P, s', b)) := by
  refine ⟨fun u s' b h1 h2 => ?_, fun u h1 => ?_, fun s' b h2 => ?_⟩
  · simp [updateDirichlet, h1, h2]
  · simp [updateDirichlet, h1]
  · simp [updateDirichlet, h2]

end IFEM.Dirichlet
