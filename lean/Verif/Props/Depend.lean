import Verif.Spec.Depend
import Verif.Lemmas.NodeVec
import Mathlib.Data.List.Induction
/-!
# C88: A simulator sees the current values of the fields it depends on: registration and look-up
-/
namespace IFEM.Dep
open IFEM.Spec

variable {α : Type}

/-- The calls made one after the other. -/
def doCall (w : World α) : Call α → World α
  | .field s n v => registerField w s n v
  | .dep s sim n nvc => registerDep w s sim n nvc
  | .depBasis s sim n nvc ps b c => registerDepBasis w s sim n nvc ps b c
  | .depMadof s sim n nvc ps m => registerDepMadof w s sim n nvc ps m
  | .fill s n x => (fillField w s n x).1
  | .write v x => { w with vecs := Function.update w.vecs v x }

/-- The state after a history, starting with simulators without fields and dependencies. -/
def after (init : Nat → List α) (h : List (Call α)) : World α := h.foldl doCall ⟨fun _ => ⟨[], []⟩, init⟩

theorem after_snoc (init : Nat → List α) (h : List (Call α)) (c : Call α) : after init (h ++ [c]) = doCall (after init h) c := by
  simp [after]

theorem fill_sims (w : World α) (s : Nat) (n : String) (x : List α) : (fillField w s n x).1.sims = w.sims := by
  unfold fillField
  cases getField w s n <;> rfl

theorem mapPut_lookup (m : List (String × Nat)) (n : String) (v : Nat) (name : String) :
    (mapPut m n v).lookup name = if n = name then some v else m.lookup name := by
  unfold mapPut
  rw [List.lookup_cons]
  by_cases e : n = name
  · subst e; simp
  · rw [if_neg e]
    have h0 : (name == n) = false := by simpa using fun h => e h.symm
    rw [h0]
    dsimp only
    induction m with
    | nil => rfl
    | cons p m ih =>
      obtain ⟨a, b⟩ := p
      by_cases ea : a = n
      · subst ea
        rw [List.filter_cons_of_neg (by simp), ih, List.lookup_cons, h0]
      · rw [List.filter_cons_of_pos (by simpa using ea), List.lookup_cons, List.lookup_cons, ih]

theorem modifyBack_snoc (f : Dependency → Dependency) (ds : List Dependency) (d : Dependency) : modifyBack f (ds ++ [d]) = ds ++ [f d] := by
  induction ds with
  | nil => rfl
  | cons e ds ih =>
    cases ds with
    | nil => rfl
    | cons e' ds' =>
      show e :: modifyBack f ((e' :: ds') ++ [d]) = _
      rw [ih]
      rfl

/-- The vector a name leads to is the one last registered with it. -/
theorem C88_field (init : Nat → List α) (h : List (Call α)) (s : Nat) (name : String) : getField (after init h) s name = vecOf h s name := by
  induction h using List.reverseRecOn with
  | nil => rfl
  | append_singleton h c ih =>
    rw [after_snoc]
    unfold vecOf
    rw [List.reverse_append, List.reverse_singleton, List.singleton_append, List.findSome?_cons]
    have ih' := ih
    unfold vecOf at ih'
    cases c with
    | field s' n v =>
      unfold getField doCall registerField at *
      dsimp only
      by_cases es : s' = s
      · subst es
        rw [Function.update_self, mapPut_lookup]
        by_cases en : n = name
        · simp [en]
        · simp [en]; exact ih'
      · rw [Function.update_of_ne (fun e => es e.symm), if_neg (fun e => es e.1)]
        exact ih'
    | dep s' sim n nvc =>
      unfold getField doCall registerDep at *
      dsimp only
      by_cases es : s = s'
      · subst es; rw [Function.update_self]; exact ih'
      · rw [Function.update_of_ne es]; exact ih'
    | depBasis s' sim n nvc ps b cc =>
      unfold getField doCall registerDepBasis registerDep at *
      dsimp only
      by_cases es : s = s'
      · subst es; simp only [Function.update_self]; exact ih'
      · simp only [Function.update_of_ne es]; exact ih'
    | depMadof s' sim n nvc ps m =>
      unfold getField doCall registerDepMadof registerDep at *
      dsimp only
      by_cases es : s = s'
      · subst es; simp only [Function.update_self]; exact ih'
      · simp only [Function.update_of_ne es]; exact ih'
    | fill s' n x =>
      have : (doCall (after init h) (.fill s' n x)).sims = (after init h).sims := fill_sims _ _ _ _
      unfold getField at *
      rw [this]
      exact ih'
    | write v x => exact ih'

/-- The dependency found by name is the first one registered. -/
theorem dependency_first (init : Nat → List α) (h : List (Call α)) (s : Nat) (name : String) :
    (getDependency ((after init h).sims s) name).map (fun d => (d.sim, d.patches)) = depOf h s name := by
  induction h using List.reverseRecOn with
  | nil => rfl
  | append_singleton h c ih =>
    rw [after_snoc]
    unfold depOf
    rw [List.findSome?_append]
    unfold depOf at ih
    rw [← ih]
    have key : ∀ (ds : List Dependency) (d : Dependency), (ds ++ [d]).find? (fun d => d.name = name) =
        (ds.find? fun d => d.name = name).or (if d.name = name then some d else none) := by
      intro ds d
      rw [List.find?_append]
      congr 1
      by_cases e : d.name = name <;> simp [e]
    cases c with
    | field s' n v =>
      unfold getDependency doCall registerField
      dsimp only
      by_cases es : s = s'
      · subst es; rw [Function.update_self]; simp
      · rw [Function.update_of_ne es]; simp
    | dep s' sim n nvc =>
      unfold getDependency doCall registerDep
      dsimp only
      by_cases es : s = s'
      · subst es
        rw [Function.update_self]
        dsimp only
        rw [key]
        cases ((after init h).sims s).depFields.find? (fun d => d.name = name) <;> by_cases en : n = name <;> simp [en]
      · rw [Function.update_of_ne es]
        have es' : ¬ s' = s := fun e => es e.symm
        simp [es']
    | depBasis s' sim n nvc ps b cc =>
      unfold getDependency doCall registerDepBasis registerDep
      dsimp only
      by_cases es : s = s'
      · subst es
        simp only [Function.update_self]
        rw [modifyBack_snoc, key]
        cases ((after init h).sims s).depFields.find? (fun d => d.name = name) <;> by_cases en : n = name <;> simp [en]
      · simp only [Function.update_of_ne es]
        have es' : ¬ s' = s := fun e => es e.symm
        simp [es']
    | depMadof s' sim n nvc ps m =>
      unfold getDependency doCall registerDepMadof registerDep
      dsimp only
      by_cases es : s = s'
      · subst es
        simp only [Function.update_self]
        rw [modifyBack_snoc, key]
        cases ((after init h).sims s).depFields.find? (fun d => d.name = name) <;> by_cases en : n = name <;> simp [en]
      · simp only [Function.update_of_ne es]
        have es' : ¬ s' = s := fun e => es e.symm
        simp [es']
    | fill s' n x =>
      have : (doCall (after init h) (.fill s' n x)).sims = (after init h).sims := fill_sims _ _ _ _
      rw [this]
      simp
    | write v x => simp [doCall]

/-- The dependencies of a simulator are those registered for it, in this order. -/
theorem C88_dependencies (init : Nat → List α) (h : List (Call α)) (s : Nat) : ((after init h).sims s).depFields = depsOf h s := by
  induction h using List.reverseRecOn with
  | nil => rfl
  | append_singleton h c ih =>
    rw [after_snoc]
    unfold depsOf
    rw [List.filterMap_append]
    unfold depsOf at ih
    rw [← ih]
    cases c with
    | field s' n v =>
      unfold doCall registerField
      dsimp only
      by_cases es : s = s'
      · subst es; rw [Function.update_self]; simp
      · rw [Function.update_of_ne es]; simp
    | dep s' sim n nvc =>
      unfold doCall registerDep
      dsimp only
      by_cases es : s = s'
      · subst es; rw [Function.update_self]; simp
      · rw [Function.update_of_ne es]
        have es' : ¬ s' = s := fun e => es e.symm
        simp [es']
    | depBasis s' sim n nvc ps b cc =>
      unfold doCall registerDepBasis registerDep
      dsimp only
      by_cases es : s = s'
      · subst es
        simp only [Function.update_self]
        rw [modifyBack_snoc]
        simp
      · simp only [Function.update_of_ne es]
        have es' : ¬ s' = s := fun e => es e.symm
        simp [es']
    | depMadof s' sim n nvc ps m =>
      unfold doCall registerDepMadof registerDep
      dsimp only
      by_cases es : s = s'
      · subst es
        simp only [Function.update_self]
        rw [modifyBack_snoc]
        simp
      · simp only [Function.update_of_ne es]
        have es' : ¬ s' = s := fun e => es e.symm
        simp [es']
    | fill s' n x =>
      have : (doCall (after init h) (.fill s' n x)).sims = (after init h).sims := fill_sims _ _ _ _
      rw [this]
      simp
    | write v x => simp [doCall]

/-- The vectors contain what has last been written to them, directly or by name. -/
theorem C88_values (init : Nat → List α) (h : List (Call α)) (v : Nat) (x : List α) : HoldsNow init h v x ↔ (after init h).vecs v = x := by
  constructor
  · intro hx
    induction hx with
    | start v => rfl
    | write h v x => rw [after_snoc]; simp [doCall]
    | fill h s n v x e =>
      rw [after_snoc]
      unfold doCall fillField
      dsimp only
      rw [C88_field init h s n, e]
      simp
    | keep h c v x _ hn ih =>
      rw [after_snoc, ← ih]
      cases c with
      | fill s n y =>
        unfold doCall fillField
        dsimp only
        rw [C88_field init h s n]
        have hn' : vecOf h s n ≠ some v := hn
        cases e : vecOf h s n with
        | none => rfl
        | some u =>
          rw [e] at hn'
          exact Function.update_of_ne (fun e' => hn' (by rw [e'])) _ _
      | write u y => exact Function.update_of_ne (fun e' => hn e'.symm) _ _
      | _ => rfl
  · intro e
    subst e
    induction h using List.reverseRecOn with
    | nil => exact HoldsNow.start v
    | append_singleton h c ih =>
      rw [after_snoc]
      by_cases hw : WritesTo h c v
      · cases c with
        | fill s n y =>
          have hw' : vecOf h s n = some v := hw
          have : (doCall (after init h) (.fill s n y)).vecs v = y := by
            unfold doCall fillField
            dsimp only
            rw [C88_field init h s n, hw']
            simp
          rw [this]
          exact HoldsNow.fill h s n v y hw'
        | write u y =>
          have hw' : u = v := hw
          subst hw'
          have : (doCall (after init h) (.write u y)).vecs u = y := by simp [doCall]
          rw [this]
          exact HoldsNow.write h u y
        | _ => exact hw.elim
      · have : (doCall (after init h) c).vecs v = (after init h).vecs v := by
          cases c with
          | fill s n y =>
            have hn' : vecOf h s n ≠ some v := hw
            unfold doCall fillField
            dsimp only
            rw [C88_field init h s n]
            cases e : vecOf h s n with
            | none => rfl
            | some u =>
              rw [e] at hn'
              exact Function.update_of_ne (fun e' => hn' (by rw [e'])) _ _
          | write u y => exact Function.update_of_ne (fun e' => hw e'.symm) _ _
          | _ => rfl
        rw [this]
        exact HoldsNow.keep h c v _ ih hw

/-- A simulator sees, for a field it depends on, the current values of the vector last registered with the name in the simulator of the first
dependency on that name, and a null pointer if there is no such dependency or no such vector. -/
theorem C88_dependent_field (init : Nat → List α) (h : List (Call α)) (s : Nat) (name : String) (x : List α) :
    getDependentField (after init h) s name = some x ↔
      ∃ sim ps v, depOf h s name = some (sim, ps) ∧ vecOf h sim name = some v ∧ HoldsNow init h v x := by
  unfold getDependentField
  rw [← dependency_first init h s name]
  cases getDependency ((after init h).sims s) name with
  | none => simp
  | some d =>
    dsimp only
    rw [C88_field init h d.sim name]
    constructor
    · intro e
      obtain ⟨v, ev, ex⟩ := Option.map_eq_some_iff.1 e
      exact ⟨d.sim, d.patches, v, rfl, ev, (C88_values init h v x).2 ex⟩
    · rintro ⟨sim, ps, v, ed, ev, ex⟩
      simp only [Option.map_some, Option.some.injEq, Prod.mk.injEq] at ed
      rw [ed.1, ev, Option.map_some, (C88_values init h v x).1 ex]

/-- The patch of a dependent field is the one of the first dependency on the name. -/
theorem C88_dependent_patch (init : Nat → List α) (h : List (Call α)) (s : Nat) (name : String) (i : Int) (p : Patch) :
    getDependentPatch (after init h) s name i = some p ↔
      ∃ sim ps, depOf h s name = some (sim, ps) ∧ 0 ≤ i ∧ ps[i.toNat]? = some p := by
  unfold getDependentPatch
  rw [← dependency_first init h s name]
  cases getDependency ((after init h).sims s) name with
  | none => simp
  | some d =>
    dsimp only
    constructor
    · intro e
      by_cases c : i < 0 ∨ i ≥ d.patches.length
      · rw [if_pos c] at e; exact absurd e (by simp)
      · rw [if_neg c] at e
        exact ⟨d.sim, d.patches, rfl, by omega, e⟩
    · rintro ⟨sim, ps, ed, h0, ep⟩
      simp only [Option.map_some, Option.some.injEq, Prod.mk.injEq] at ed
      obtain ⟨-, rfl⟩ := ed
      obtain ⟨hl, -⟩ := List.getElem?_eq_some_iff.1 ep
      rw [if_neg (by omega), ep]

/-- A field can be filled by name exactly if the name is registered; the values are then seen by all simulators depending on the field. -/
theorem C88_fill (init : Nat → List α) (h : List (Call α)) (s : Nat) (name : String) (x : List α) :
    ((fillField (after init h) s name x).2 = true ↔ vecOf h s name ≠ none) ∧
    (vecOf h s name ≠ none → ∀ (t : Nat) (ps : List Patch), depOf h t name = some (s, ps) →
      getDependentField (after init (h ++ [.fill s name x])) t name = some x) := by
  constructor
  · unfold fillField
    rw [C88_field init h s name]
    cases vecOf h s name <;> simp
  · intro hn t ps hd
    obtain ⟨v, ev⟩ := Option.ne_none_iff_exists'.1 hn
    rw [C88_dependent_field]
    refine ⟨s, ps, v, ?_, ?_, HoldsNow.fill h s name v x ev⟩
    · unfold depOf at hd ⊢
      rw [List.findSome?_append, hd]; rfl
    · unfold vecOf at ev ⊢
      rw [List.reverse_append, List.reverse_singleton, List.singleton_append, List.findSome?_cons, ev]

end IFEM.Dep
