import Verif.Model.NodeVec
import Mathlib.Logic.Function.Basic
/-!
# Dependencies between coupled simulators

Models `SIMdependency` (src/SIM/SIMdependency.h:29-137 and SIMdependency.C:21-179): the registration of fields and of
dependencies, the look-up of dependent fields and patches, and the extraction of patch-level vectors for the integrand.

The simulators hold pointers to nodal vectors, so the state consists of the simulators and of the vectors, both identified by numbers.
The debug output is not modelled.  The patches have one basis (the overriding methods of the mixed patches are modelled in `Model/NodeVec.lean`).
-/
namespace IFEM.Dep

variable {α : Type}

/-- The part of a patch (`ASMbase`) the extraction depends on: `MLGN`, `nnod`, `nxMap` (ASMs2D.h), `myLMs`, `nf`. -/
structure Patch where
  mlgn : List Int
  nnod : Nat
  nxMap : List (Nat × Nat)
  lms : List Nat
  nf : Nat
deriving DecidableEq, Repr

/-- `SIMdependency::Dependency` (SIMdependency.h:39-53). -/
structure Dependency where
  sim : Nat
  patches : List Patch := []
  name : String
  components : Int
  compUse : Int := 1
  diffBasis : Int := 0
  madof : Option (List Int) := none
deriving DecidableEq, Repr

/-- The members of a `SIMdependency` (SIMdependency.h:132-134); the map `myFields` is a list of pairs with different names, and a vector is
identified by its number. -/
structure Sim where
  myFields : List (String × Nat)
  depFields : List Dependency
deriving DecidableEq, Repr

/-- The simulators and the nodal vectors. -/
structure World (α : Type) where
  sims : Nat → Sim
  vecs : Nat → List α

/-- `myFields[name] = &vec` for a `std::map`. -/
def mapPut (m : List (String × Nat)) (name : String) (v : Nat) : List (String × Nat) :=
  (name, v) :: m.filter fun p => p.1 ≠ name

/-- `depFields.back()` is changed by `f`; nothing is there to change in an empty list. -/
def modifyBack (f : Dependency → Dependency) : List Dependency → List Dependency
  | [] => []
  | [d] => [f d]
  | d :: e :: ds => d :: modifyBack f (e :: ds)

/-- `SIMdependency::registerField` (SIMdependency.C:121-125). -/
def registerField (w : World α) (s : Nat) (name : String) (v : Nat) : World α :=
  { w with sims := Function.update w.sims s { (w.sims s) with myFields := mapPut (w.sims s).myFields name v } }

/-- `SIMdependency::registerDependency(sim,name,nvc)` (SIMdependency.C:44-53). -/
def registerDep (w : World α) (s sim : Nat) (name : String) (nvc : Int) : World α :=
  { w with sims := Function.update w.sims s { (w.sims s) with depFields := (w.sims s).depFields ++ [{ sim := sim, name := name, components := nvc }] } }

/-- `SIMdependency::registerDependency(sim,name,nvc,patches,diffBasis,component)` (SIMdependency.C:21-30). -/
def registerDepBasis (w : World α) (s sim : Nat) (name : String) (nvc : Int) (patches : List Patch) (diffBasis component : Int) : World α :=
  let w1 := registerDep w s sim name nvc
  { w1 with sims := Function.update w1.sims s { (w1.sims s) with depFields := modifyBack (fun d => { d with patches := patches, diffBasis := diffBasis, compUse := component }) (w1.sims s).depFields } }

/-- `SIMdependency::registerDependency(sim,name,nvc,patches,MADOF)` (SIMdependency.C:33-41). -/
def registerDepMadof (w : World α) (s sim : Nat) (name : String) (nvc : Int) (patches : List Patch) (madof : List Int) : World α :=
  let w1 := registerDep w s sim name nvc
  { w1 with sims := Function.update w1.sims s { (w1.sims s) with depFields := modifyBack (fun d => { d with patches := patches, madof := some madof }) (w1.sims s).depFields } }

/-- `SIMdependency::getField` (SIMdependency.C:67-82): the vector registered with the name. -/
def getField (w : World α) (s : Nat) (name : String) : Option Nat := (w.sims s).myFields.lookup name

/-- `SIMdependency::fillField` (SIMdependency.C:56-64). -/
def fillField (w : World α) (s : Nat) (name : String) (values : List α) : World α × Bool :=
  match getField w s name with
  | none => (w, false)
  | some v => ({ w with vecs := Function.update w.vecs v values }, true)

/-- `SIMdependency::getDependency` (SIMdependency.C:85-94). -/
def getDependency (s : Sim) (name : String) : Option Dependency := s.depFields.find? fun d => d.name = name

/-- `SIMdependency::getDependentField` (SIMdependency.C:97-104): the contents of the vector pointed to, `none` for a null pointer. -/
def getDependentField (w : World α) (s : Nat) (name : String) : Option (List α) :=
  match getDependency (w.sims s) name with
  | none => none
  | some d => (getField w d.sim name).map w.vecs

/-- `SIMdependency::getDependentPatch` (SIMdependency.C:107-118). -/
def getDependentPatch (w : World α) (s : Nat) (name : String) (pindx : Int) : Option Patch :=
  match getDependency (w.sims s) name with
  | none => none
  | some d =>
    if pindx < 0 ∨ pindx ≥ d.patches.length then none
    else d.patches[pindx.toNat]?

/-- `ASMbase::getNoFields` (ASMbase.h:207). -/
def noFields (p : Patch) (basis : Int) : Int := if basis > 1 then 0 else p.nf

/-- The interpolation field (`Field` or `Fields`) given to the integrand: patch, nodal values, basis, and the component of a scalar field. -/
structure FieldObj (α : Type) where
  patch : Patch
  values : List α
  basis : Int
  comp : Int
deriving DecidableEq, Repr

/-- The integrand: the vector of each name (`myFields` of `IntegrandBase`, several names can share a vector), their contents, and the
latest objects given to `setNamedField` and `setNamedFields`. -/
structure Integrand (α : Type) where
  named : String → Option Nat
  loc : Nat → List α
  field : String → Option (FieldObj α)
  fields : String → Option (FieldObj α)

/-- The choice of the extraction in `extractPatchDependencies` (SIMdependency.C:154-159); the status returned by `extractNodalVec` is
not used, and the number of components is converted to an `unsigned char`. -/
def extractVec (dp : Dependency) (pch : Patch) (g : List α) : Option (List α) :=
  let basis := if dp.components < 0 then dp.components else dp.diffBasis
  match dp.madof with
  | some madof => (extractNodalVec pch.mlgn pch.nnod g madof (-1)).map Prod.snd
  | none =>
    if dp.diffBasis ≠ 0 ∧ dp.components ≠ noFields pch basis then
      extractNodeVec pch.mlgn pch.nxMap pch.lms pch.nf g 0 0
    else extractNodeVec pch.mlgn pch.nxMap pch.lms pch.nf g (dp.components.natAbs % 256) basis

/-- The end of the loop body of `extractPatchDependencies` (SIMdependency.C:165-176). -/
def giveField (dp : Dependency) (pch : Patch) (v : List α) (ig : Integrand α) : Integrand α :=
  if dp.diffBasis > 0 then
    if dp.components = 1 then { ig with field := Function.update ig.field dp.name (some ⟨pch, v, dp.diffBasis, dp.compUse⟩) }
    else { ig with fields := Function.update ig.fields dp.name (some ⟨pch, v, dp.diffBasis, 0⟩) }
  else ig

/-- The patch of a dependency (SIMdependency.C:153): `none` if it is outside the model. -/
def patchOf (dp : Dependency) (model : List Patch) (pindx : Nat) : Option Patch :=
  if pindx < dp.patches.length then dp.patches[pindx]? else model[pindx]?

/-- The loop body of `extractPatchDependencies` (SIMdependency.C:132-176); `none` is an access outside of an array, the flag tells whether
the loop goes on. -/
def extractOne (w : World α) (model : List Patch) (pindx : Nat) (dp : Dependency) (ig : Integrand α) : Option (Integrand α × Bool) :=
  match ig.named dp.name with
  | none => some (ig, true)
  | some l =>
    match getField w dp.sim dp.name with
    | none => some (ig, false)
    | some gv =>
      if (w.vecs gv).isEmpty then some ({ ig with loc := Function.update ig.loc l [] }, true)
      else
        match patchOf dp model pindx with
        | none => none
        | some pch =>
          match extractVec dp pch (w.vecs gv) with
          | none => none
          | some v => some (giveField dp pch v { ig with loc := Function.update ig.loc l v }, true)

/-- `SIMdependency::extractPatchDependencies` (SIMdependency.C:128-179) for the given dependencies. -/
def extractDeps (w : World α) (model : List Patch) (pindx : Nat) : List Dependency → Integrand α → Option (Integrand α × Bool)
  | [], ig => some (ig, true)
  | dp :: dps, ig =>
    match extractOne w model pindx dp ig with
    | none => none
    | some (ig1, false) => some (ig1, false)
    | some (ig1, true) => extractDeps w model pindx dps ig1

end IFEM.Dep
