import Verif.Model.AlgEq
/-!
# Diagonal system matrices

Models `DiagMatrix` (src/LinAlg/DiagMatrix.C): assembly, addition, multiplication.
-/
namespace IFEM.Diag
variable {R : Type} [CommRing R]

/-- The additions `myMat(ieq) += v` of `DiagMatrix::assemble(eM,sam,B,meq)` (DiagMatrix.C:88-103), in order. -/
def diagUpd (s : Sam R) (eM : Mat R) (meq : List Int) : List (Option (Int × R)) :=
  (List.finRange meq.length).flatMap fun (j : Fin meq.length) =>
    if meq[j] > 0 then [(eM.elm? j j).map fun v => (meq[j], v)]
    else if -meq[j] > 0 then
      (s.masterTerms (-meq[j])).flatMap fun tj =>
        match tj with
        | none => [none]
        | some (jeq, wj) =>
          if jeq > 0 then
            (List.finRange meq.length).flatMap fun (i : Fin meq.length) =>
              if meq[i] = jeq then
                [(eM.elm? i j).bind fun a => (eM.elm? j i).map fun b => (jeq, wj * (a + b))]
              else if -meq[i] > 0 then
                (s.masterTerms (-meq[i])).filterMap fun ti =>
                  match ti with
                  | none => some none
                  | some (ieq, wi) =>
                    if ieq = jeq then some ((eM.elm? i j).map fun a => (jeq, wi * wj * a)) else none
              else []
          else []
    else []

/-- `DiagMatrix::assemble(eM,sam,e)` (DiagMatrix.C:61-106); the right-hand side is never touched. -/
def assemble (s : Sam R) (d : List R) (eM : Mat R) (iel : Int) : Option (List R) :=
  if d.length ≠ s.neq then none else do
    let meen ← s.getElmEqns iel eM.nrow
    if eM.nrow < meen.length ∨ eM.ncol < meen.length then none else
    (diagUpd s eM meen).foldlM (fun (d : List R) u => do
      let u ← u
      add1? d u.1 u.2) d

/-- `SAM::assembleSystem` (SAM.C:430-467) for diagonal storage. -/
def assembleMat (s : Sam R) (d : List R) (eK : Mat R) (iel : Int) : Option (List R) :=
  if eK.isEmpty then some d else assemble s d eK iel

/-- `DiagMatrix::multiply` (DiagMatrix.C:183-193); `n` = dimension of the result vector. -/
def multiply (d x : List R) (n : Nat) : List R :=
  (List.range n).map fun i => match d[i]?, x[i]? with
    | some a, some b => a * b
    | _, _ => 0

end IFEM.Diag
