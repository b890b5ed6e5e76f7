import Verif.Props.DependExtract
import Mathlib.Algebra.Field.Rat
/-!
# C88: A simulator sees the current values of the fields it depends on: early end, interpolation fields, examples
-/
namespace IFEM.Dep
open IFEM.Spec IFEM.Lem IFEM.Props

variable {α : Type}

/-- The extraction ends at the first dependency without a registered field: the dependencies before it are extracted as if it and those after
it were not there. -/
theorem C88_extract_stops (w : World α) (model : List Patch) (pindx : Nat) (pre post : List Dependency) (dp : Dependency) (ig : Integrand α)
    (hr : ∀ d ∈ pre, Ready w model pindx d) (hp : ∀ d ∈ pre, Usable w ig d) (hd : ¬ Usable w ig dp) :
    ∃ ig', extractDeps w model pindx pre ig = some (ig', true) ∧ extractDeps w model pindx (pre ++ dp :: post) ig = some (ig', false) := by
  induction pre generalizing ig with
  | nil =>
    refine ⟨ig, rfl, ?_⟩
    rw [List.nil_append]
    unfold extractDeps extractOne
    unfold Usable at hd
    push Not at hd
    obtain ⟨l, hl⟩ := Option.ne_none_iff_exists'.1 hd.1
    rw [hl]
    dsimp only
    rw [hd.2]
  | cons d ds ih =>
    obtain ⟨ig1, ok1, e1, hu1, hn1, -⟩ := extractOne_spec w model pindx d ig (hr d List.mem_cons_self)
    have : ok1 = true := hu1.2 (hp d List.mem_cons_self)
    subst this
    rw [List.cons_append]
    unfold extractDeps
    rw [e1]
    dsimp only
    refine ih ig1 (fun x hx => hr x (List.mem_cons_of_mem _ hx)) (fun x hx => ?_) ?_
    · unfold Usable; rw [hn1]; exact hp x (List.mem_cons_of_mem _ hx)
    · unfold Usable at hd ⊢; rw [hn1]; exact hd

/-- The interpolation field the integrand has for the name of a dependency: a scalar field is given the component to use. -/
def objectOf (ig : Integrand α) (dp : Dependency) : Option (FieldObj α) :=
  if dp.components = 1 then ig.field dp.name else ig.fields dp.name

theorem giveField_other (dp : Dependency) (p : Patch) (v : List α) (ig : Integrand α) (name : String) (h : dp.name ≠ name) :
    (giveField dp p v ig).field name = ig.field name ∧ (giveField dp p v ig).fields name = ig.fields name := by
  unfold giveField
  split
  · split
    · exact ⟨Function.update_of_ne (fun e => h e.symm) _ _, rfl⟩
    · exact ⟨rfl, Function.update_of_ne (fun e => h e.symm) _ _⟩
  · exact ⟨rfl, rfl⟩

theorem extractOne_other (w : World α) (model : List Patch) (pindx : Nat) (dp : Dependency) (ig ig' : Integrand α) (ok : Bool)
    (e : extractOne w model pindx dp ig = some (ig', ok)) (name : String) (h : dp.name ≠ name) :
    ig'.field name = ig.field name ∧ ig'.fields name = ig.fields name := by
  unfold extractOne at e
  split at e
  · obtain ⟨rfl, -⟩ := Prod.mk.inj (Option.some.inj e); exact ⟨rfl, rfl⟩
  · split at e
    · obtain ⟨rfl, -⟩ := Prod.mk.inj (Option.some.inj e); exact ⟨rfl, rfl⟩
    · split at e
      · obtain ⟨rfl, -⟩ := Prod.mk.inj (Option.some.inj e); exact ⟨rfl, rfl⟩
      · split at e
        · exact absurd e (by simp)
        · split at e
          · exact absurd e (by simp)
          · obtain ⟨rfl, -⟩ := Prod.mk.inj (Option.some.inj e)
            exact giveField_other _ _ _ _ _ h

theorem extractDeps_other (w : World α) (model : List Patch) (pindx : Nat) (dps : List Dependency) (ig ig' : Integrand α) (ok : Bool)
    (e : extractDeps w model pindx dps ig = some (ig', ok)) (name : String) (h : ∀ d ∈ dps, d.name ≠ name) :
    ig'.field name = ig.field name ∧ ig'.fields name = ig.fields name := by
  induction dps generalizing ig with
  | nil =>
    obtain ⟨rfl, -⟩ := Prod.mk.inj (Option.some.inj e); exact ⟨rfl, rfl⟩
  | cons d ds ih =>
    unfold extractDeps at e
    split at e
    · exact absurd e (by simp)
    · rename_i ig1 e1
      obtain ⟨rfl, -⟩ := Prod.mk.inj (Option.some.inj e)
      exact extractOne_other w model pindx d ig ig1 false e1 name (h d List.mem_cons_self)
    · rename_i ig1 e1
      have h1 := extractOne_other w model pindx d ig ig1 true e1 name (h d List.mem_cons_self)
      have h2 := ih ig1 e (fun x hx => h x (List.mem_cons_of_mem _ hx))
      exact ⟨h2.1.trans h1.1, h2.2.trans h1.2⟩

theorem extractDeps_cons (w : World α) (model : List Patch) (pindx : Nat) (d : Dependency) (ds : List Dependency) (ig : Integrand α) :
    extractDeps w model pindx (d :: ds) ig =
      match extractOne w model pindx d ig with
      | none => none
      | some (ig1, false) => some (ig1, false)
      | some (ig1, true) => extractDeps w model pindx ds ig1 := rfl

theorem extractDeps_append (w : World α) (model : List Patch) (pindx : Nat) (as bs : List Dependency) (ig : Integrand α) :
    extractDeps w model pindx (as ++ bs) ig =
      match extractDeps w model pindx as ig with
      | none => none
      | some (ig1, false) => some (ig1, false)
      | some (ig1, true) => extractDeps w model pindx bs ig1 := by
  induction as generalizing ig with
  | nil => rfl
  | cons a as ih =>
    rw [List.cons_append, extractDeps_cons, extractDeps_cons]
    cases extractOne w model pindx a ig with
    | none => rfl
    | some r =>
      obtain ⟨ig1, ok⟩ := r
      cases ok with
      | false => rfl
      | true => exact ih ig1

/-- A dependency with an interpolation basis of its own gives the integrand an interpolation field with the values on the patch; the last
dependency with the name counts. -/
theorem C88_field_object (w : World α) (model : List Patch) (pindx : Nat) (pre post : List Dependency) (dp : Dependency) (ig ig' : Integrand α)
    (hr : ∀ d ∈ pre ++ dp :: post, Ready w model pindx d) (he : extractDeps w model pindx (pre ++ dp :: post) ig = some (ig', true))
    (hb : 0 < dp.diffBasis) (hn : ig.named dp.name ≠ none) (gv : Nat) (hg : getField w dp.sim dp.name = some gv)
    (hv : w.vecs gv ≠ []) (hl : ∀ e ∈ post, e.name ≠ dp.name) :
    ∃ f p, objectOf ig' dp = some f ∧ depPatch dp model pindx = some p ∧ f.patch = p ∧ f.basis = dp.diffBasis ∧
      (dp.components = 1 → f.comp = dp.compUse) ∧ IsGather (depDofs dp p) (w.vecs gv) f.values := by
  obtain ⟨ig1, ok1, e1, -, hn1, -⟩ := extractDeps_spec w model pindx pre ig (fun d hd => hr d (List.mem_append_left _ hd))
  rw [extractDeps_append, e1] at he
  cases ok1 with
  | false => exact absurd (Prod.mk.inj (Option.some.inj he)).2 (by simp)
  | true =>
    dsimp only at he
    have hrd := hr dp (by simp)
    obtain ⟨p, hp, hf⟩ := hrd.fits gv hg hv
    obtain ⟨v, ev, hgv⟩ := C88_extract_values dp p (w.vecs gv) hrd.basis hrd.comps hf
    rw [← hn1] at hn
    obtain ⟨l, hl'⟩ := Option.ne_none_iff_exists'.1 hn
    have e2 : extractOne w model pindx dp ig1 = some (giveField dp p v { ig1 with loc := Function.update ig1.loc l v }, true) := by
      unfold extractOne
      rw [hl']
      dsimp only
      rw [hg]
      dsimp only
      rw [if_neg (by simpa using hv), patchOf_eq, hp]
      dsimp only
      rw [ev]
    unfold extractDeps at he
    rw [e2] at he
    dsimp only at he
    have h3 := extractDeps_other w model pindx post _ ig' true he dp.name hl
    unfold objectOf
    rw [h3.1, h3.2]
    unfold giveField
    rw [if_pos hb]
    by_cases hc : dp.components = 1
    · rw [if_pos hc, if_pos hc]
      exact ⟨_, p, Function.update_self _ _ _, hp, rfl, rfl, fun _ => rfl, hgv⟩
    · rw [if_neg hc, if_neg hc]
      exact ⟨_, p, Function.update_self _ _ _, hp, rfl, rfl, fun h => absurd h hc, hgv⟩

/-- A field with an empty vector leaves the interpolation field of the integrand as it is (finding F176: the one of the patch or of the time step
before, while the vector of the integrand is emptied). -/
theorem C88_stale_object (w : World α) (model : List Patch) (pindx : Nat) (dp : Dependency) (ig : Integrand α) (l gv : Nat)
    (hn : ig.named dp.name = some l) (hg : getField w dp.sim dp.name = some gv) (hv : w.vecs gv = []) :
    ∃ ig', extractDeps w model pindx [dp] ig = some (ig', true) ∧ ig'.loc l = [] ∧ objectOf ig' dp = objectOf ig dp := by
  refine ⟨{ ig with loc := Function.update ig.loc l [] }, ?_, Function.update_self _ _ _, rfl⟩
  unfold extractDeps extractOne
  rw [hn]
  dsimp only
  rw [hg]
  dsimp only
  rw [hv]
  rfl

/-- A patch with three nodes, the second of them with an added node, and a second patch sharing a node with the first. -/
def exPatch1 : Patch := ⟨[1, 2, 3], 3, [(2, 3)], [], 2⟩
def exPatch2 : Patch := ⟨[3, 4], 2, [], [], 2⟩

/-- Simulator 1 registers the fields "u" and "p", simulator 0 depends on both, "p" with an interpolation basis of its own. -/
def exCalls : List (Call Rat) :=
  [.field 1 "u" 0, .dep 0 1 "u" 2, .depBasis 0 1 "p" 1 [exPatch2] 2 1, .field 1 "p" 7, .field 1 "p" 1, .write 0 [1,2,3,4,5,6,7,8],
   .fill 1 "p" [10,20,30,40,50,60,70,80], .dep 0 2 "u" 2]

def exWorld : World Rat := after (fun _ => []) exCalls

def exIntegrand : Integrand Rat :=
  ⟨fun n => if n = "u" then some 0 else if n = "p" then some 1 else none, fun _ => [], fun _ => none, fun _ => none⟩

/-- The look-up in the example. -/
theorem C88_example_lookup :
    getDependentField exWorld 0 "u" = some [1,2,3,4,5,6,7,8] ∧ getDependentField exWorld 0 "p" = some [10,20,30,40,50,60,70,80] ∧
    getDependentField exWorld 0 "q" = none ∧ getDependentField exWorld 1 "u" = none ∧
    getDependentPatch exWorld 0 "p" 0 = some exPatch2 ∧ getDependentPatch exWorld 0 "p" 1 = none ∧
    (fillField exWorld 1 "q" [1]).2 = false := by
  refine ⟨?_, ?_, ?_, ?_, ?_, ?_, ?_⟩ <;> decide +kernel

/-- The extraction for the first patch of the model: "u" on the patch of the model, "p" on that of the dependency.  The second dependency on
"u" is never found by name, and makes the extraction fail (finding F177). -/
theorem C88_example_extract :
    (extractDeps exWorld [exPatch1] 0 (depsOf exCalls 0) exIntegrand).map (fun r => (r.1.loc 0, r.1.loc 1, r.2)) =
      some ([1,2,3,4,5,6], [50,60,70,80], false) ∧
    (extractDeps exWorld [exPatch1] 0 ((depsOf exCalls 0).take 2) exIntegrand).map (fun r => (r.1.loc 0, r.1.loc 1, r.2)) =
      some ([1,2,3,4,5,6], [50,60,70,80], true) := by
  refine ⟨?_, ?_⟩ <;> decide +kernel

/-- The dependencies of the example without the last one are ready. -/
theorem C88_example_ready : ∀ dp ∈ (depsOf exCalls 0).take 2, Ready exWorld [exPatch1] 0 dp := by
  intro dp hdp
  have hd : (depsOf exCalls 0).take 2 = [⟨1, [], "u", 2, 1, 0, none⟩, ⟨1, [exPatch2], "p", 1, 1, 2, none⟩] := by decide +kernel
  rw [hd] at hdp
  have h0 : getField exWorld 1 "u" = some 0 := by decide +kernel
  have h1 : getField exWorld 1 "p" = some 1 := by decide +kernel
  have v0 : exWorld.vecs 0 = [1,2,3,4,5,6,7,8] := by decide +kernel
  have v1 : exWorld.vecs 1 = [10,20,30,40,50,60,70,80] := by decide +kernel
  rcases List.mem_cons.1 hdp with rfl | hdp
  · refine ⟨by decide, by decide, fun gv hg _ => ⟨exPatch1, rfl, 4, ?_, ?_⟩⟩
    · decide +kernel
    · obtain rfl : 0 = gv := Option.some.inj (h0.symm.trans hg)
      rw [v0]; decide +kernel
  · obtain rfl := List.mem_singleton.1 hdp
    refine ⟨by decide, by decide, fun gv hg _ => ⟨exPatch2, rfl, 4, ?_, ?_⟩⟩
    · decide +kernel
    · obtain rfl : 1 = gv := Option.some.inj (h1.symm.trans hg)
      rw [v1]; decide +kernel

/-- Finding F177: with two dependencies on one name the look-up by name finds the first one, the extraction uses the last one. -/
theorem C88_duplicate_name :
    ∃ (h : List (Call Rat)) (ig : Integrand Rat), getDependentField (after (fun _ => []) h) 0 "u" = some [1] ∧
      (extractDeps (after (fun _ => []) h) [⟨[1], 1, [], [], 1⟩] 0 (depsOf h 0) ig).map (fun r => (r.1.loc 0, r.2)) = some ([2], true) :=
  ⟨[.field 1 "u" 0, .field 2 "u" 1, .write 0 [1], .write 1 [2], .dep 0 1 "u" 1, .dep 0 2 "u" 1],
   ⟨fun _ => some 0, fun _ => [], fun _ => none, fun _ => none⟩, by decide +kernel, by decide +kernel⟩

end IFEM.Dep
