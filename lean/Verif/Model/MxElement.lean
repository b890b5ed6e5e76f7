import Verif.Model.Mapping
/-!
# Mixed finite elements

Models the coordinate mapping and the Piola mapping of `MxFiniteElement` (src/ASM/FiniteElement.C:75-260) over the real numbers.
-/
namespace IFEM.Mapping

open IFEM

/-- The parametric derivatives of one basis at a point (`BasisFunctionVals`, src/ASM/BasisFunctionVals.h). -/
structure BasisVals where
  dNdu : Mat ℝ
  d2Ndu2 : Arr3

/-- The members of `MxFiniteElement` used here (src/ASM/FiniteElement.h): values, gradients and Hessians of the bases `1, 2, ...`. -/
structure MxFE where
  basis : List (List ℝ)
  grad : List (Mat ℝ)
  hess : List Arr3
  P : Mat ℝ
  dPdX : Mat ℝ
  detJxW : ℝ

/-- `this->grad(b).multiply(dNdu,Jac)` for 0-based `b`. -/
noncomputable def mulGrad (fe : MxFE) (b : Nat) (dNdu Jac : Mat ℝ) : Option MxFE := do
  let g ← fe.grad[b]?
  let D ← g.multiply dNdu Jac false false false 1
  return { fe with grad := fe.grad.set b D }

/-- The loops `for b: if (b != gBasis || separateGeometry) grad(ofs+b).multiply(bfs[ofs+b-1]->dNdu,Jac)` (FiniteElement.C:95-97, 131-133, 142-144), with 1-based `b`. -/
noncomputable def gradLoop (fe : MxFE) (Jac : Mat ℝ) (bfs : List BasisVals) (nBasis ofs gBasis : Nat) (sep : Bool) : Option MxFE :=
  (List.range nBasis).foldlM (fun (fe : MxFE) b =>
    if b + 1 ≠ gBasis ∨ sep = true then (bfs[ofs + b]?).bind fun v => mulGrad fe (ofs + b) v.dNdu Jac else some fe) fe

/-- `MxFiniteElement::Jacobian` (FiniteElement.C:82-100): status, element and `Jac`. -/
noncomputable def mxJacobian (fe : MxFE) (Jac X : Mat ℝ) (gBasis : Nat) (bfs : List BasisVals) : Option (Bool × MxFE × Mat ℝ) := do
  let sep := decide (bfs.length > fe.basis.length)
  let g := if sep = true then bfs.length else gBasis
  let gi := if sep = true then 1 else g
  let v ← bfs[g - 1]?
  let g0 ← fe.grad[gi - 1]?
  let r ← jacobian Jac g0 X v.dNdu (!sep)
  let fe' : MxFE := { fe with detJxW := r.1, grad := fe.grad.set (gi - 1) r.2.2 }
  if r.1 = 0 then some (false, fe', r.2.1)
  else (gradLoop fe' r.2.1 bfs fe.basis.length 0 g sep).map fun fe'' => (true, fe'', r.2.1)

/-- `MxFiniteElement::Jacobian` on a boundary or an interface (FiniteElement.C:111-148): status, element, normal and `Jac`. -/
noncomputable def mxFace (fe : MxFE) (Jac X : Mat ℝ) (gBasis : Nat) (bfs : List BasisVals) (t1 t2 nBasis : Nat) (X2 : Option (Mat ℝ)) : Option (Bool × MxFE × V3 × Mat ℝ) := do
  let nB := if nBasis = 0 then bfs.length else nBasis
  let sep := decide (nB > fe.basis.length)
  let g := if sep = true then nB else gBasis
  let two := decide (2 * nB ≤ fe.basis.length)
  let s ← (if two = true then do
      let v ← bfs[nB + g - 1]?
      let g0 ← fe.grad[nB + g - 1]?
      let r ← jacobianFace Jac g0 (X2.getD X) v.dNdu t1 t2
      let fe' ← gradLoop { fe with detJxW := r.1, grad := fe.grad.set (nB + g - 1) r.2.2.2 } r.2.2.1 bfs nB nB g false
      return (fe', r.2.2.1)
    else some (fe, Jac))
  let nB' := if two = true then nB else if sep = true then fe.basis.length else nB
  let v ← bfs[g - 1]?
  let g0 ← (if sep = true then some ⟨0, 0, []⟩ else s.1.grad[g - 1]?)
  let r ← jacobianFace s.2 g0 X v.dNdu t1 t2
  let fe' : MxFE := { s.1 with detJxW := r.1, grad := if sep = true then s.1.grad else s.1.grad.set (g - 1) r.2.2.2 }
  let fe'' ← gradLoop fe' r.2.2.1 bfs nB' 0 g sep
  return (decide (r.1 ≠ 0), fe'', r.2.1, r.2.2.1)

/-- The loop over the other bases in `MxFiniteElement::Hessian` (FiniteElement.C:170-174); it stops at the first failure. -/
def hessLoop (H : Arr3) (Jac X : Mat ℝ) (bfs : List BasisVals) (g : Nat) (sep : Bool) : List Nat → MxFE → Option (Bool × MxFE)
  | [], fe => some (true, fe)
  | b :: L, fe =>
    if b + 1 ≠ g ∨ sep = true then do
      let v ← bfs[b]?
      let d ← fe.grad[b]?
      let h ← fe.hess[b]?
      let r := hessian H h Jac X v.d2Ndu2 d false
      if r.1 = true then hessLoop H Jac X bfs g sep L { fe with hess := fe.hess.set b r.2.2 } else some (false, { fe with hess := fe.hess.set b r.2.2 })
    else hessLoop H Jac X bfs g sep L fe

/-- `MxFiniteElement::Hessian` (FiniteElement.C:157-177): status, element and geometry Hessian. -/
def mxHessian (fe : MxFE) (H0 : Arr3) (Jac X : Mat ℝ) (gBasis : Nat) (bfs : List BasisVals) : Option (Bool × MxFE × Arr3) := do
  let sep := decide (bfs.length > fe.basis.length)
  if sep = true then do
    let v ← bfs.getLast?
    match mul3 X v.d2Ndu2 with
    | none => some (false, fe, H0)
    | some H => (hessLoop H Jac X bfs gBasis true (List.range fe.basis.length) fe).map fun r => (r.1, r.2, H)
  else do
    let v ← bfs[gBasis - 1]?
    let d ← fe.grad[gBasis - 1]?
    let h ← fe.hess[gBasis - 1]?
    let r := hessian H0 h Jac X v.d2Ndu2 d true
    if r.1 = true then (hessLoop r.2.1 Jac X bfs gBasis false (List.range fe.basis.length) { fe with hess := fe.hess.set (gBasis - 1) r.2.2 }).map fun q => (q.1, q.2, r.2.1)
    else some (false, { fe with hess := fe.hess.set (gBasis - 1) r.2.2 }, r.2.1)

/-- The basis functions of the first `dim` bases in the order of the loops (FiniteElement.C:201-204, 239-241): basis, function (0-based).  Bases that the element does not have count as empty; the code would read outside its array. -/
def piolaSlots (N : List (List ℝ)) (dim : Nat) : List (Nat × Nat) :=
  (List.range dim).flatMap fun b => (List.range (N.getD b []).length).map fun i => (b, i)

/-- `MxFiniteElement::piolaBasis` (FiniteElement.C:193-207): the new `P`. -/
noncomputable def piolaBasis (N : List (List ℝ)) (P : Mat ℝ) (detJ : ℝ) (J : Mat ℝ) : Option (Mat ℝ) := do
  let slots := piolaSlots N J.nrow
  let Ntmp ← slots.zipIdx.foldlM (fun (T : Mat ℝ) q => T.setAt? (q.1.1 + 1) (q.2 + 1) ((N.getD q.1.1 []).getD q.1.2 0)) ((⟨0, 0, []⟩ : Mat ℝ).resize J.nrow slots.length false)
  P.multiply J Ntmp false false false (1 / detJ)

/-- `Ptmp[d]` (FiniteElement.C:229-234). -/
noncomputable def piolaTmp (dJ J : Mat ℝ) (dDet detJ : ℝ) : Mat ℝ := (dJ.scalar (1 / detJ)).add J (-dDet / (detJ * detJ))

/-- The derivative of one mapped basis function in physical direction `k` (FiniteElement.C:241-254), with `b`, `k` 0-based. -/
noncomputable def piolaEntry (J Ji T dNdu : Mat ℝ) (detJ val : ℝ) (dim b i k : Nat) : Option (List ℝ) := do
  let c ← Ji.getColumn (k + 1)
  let dBf ← (List.range dim).foldlM (fun (T : Mat ℝ) (j : Nat) => (dNdu.get? ((i : Int) + 1) ((j : Int) + 1)).bind fun x => T.setAt? (b + 1) (j + 1) x)
    ((⟨0, 0, []⟩ : Mat ℝ).resize dim dim false)
  let tmp ← dBf.mulVec c (List.replicate dim 0) false 0
  let res ← J.gemv tmp.2 (List.replicate dim 0) (1 / detJ) 0 false
  let fin ← T.mulVec ((List.replicate dim 0).set b val) res.2 false 1
  return fin.2

/-- `MxFiniteElement::piolaGradient` (FiniteElement.C:210-256): the new `dPdX`. -/
noncomputable def piolaGradient (N : List (List ℝ)) (dPdX : Mat ℝ) (detJ : ℝ) (J Ji X : Mat ℝ) (bfs : List BasisVals) : Option (Mat ℝ) := do
  let v ← bfs.getLast?
  let H ← mul3 X v.d2Ndu2
  let dim := J.nrow
  let slots := piolaSlots N dim
  let dJdX := jacobianGradient Ji H []
  let dDet ← detJacGradient J Ji H []
  slots.zipIdx.foldlM (fun (D : Mat ℝ) q => (List.range dim).foldlM (fun (D : Mat ℝ) k => do
    let dJ ← dJdX[k]?
    let g ← dDet[k]?
    let w ← bfs[q.1.1]?
    let res ← piolaEntry J Ji (piolaTmp dJ J g detJ) w.dNdu detJ ((N.getD q.1.1 []).getD q.1.2 0) dim q.1.1 q.1.2 k
    (List.range dim).foldlM (fun (D : Mat ℝ) j => (res[j]?).bind fun x => D.setAt? ((k * dim + j : Nat) + 1) (q.2 + 1) x) D) D) (dPdX.resize (dim * dim) slots.length false)

/-- `MxFiniteElement::piolaMapping` (FiniteElement.C:180-190). -/
noncomputable def piolaMapping (fe : MxFE) (detJ : ℝ) (Ji X : Mat ℝ) (bfs : List BasisVals) : Option MxFE := do
  let v ← bfs.getLast?
  let J ← (⟨0, 0, []⟩ : Mat ℝ).multiply X v.dNdu false false false 1
  let P ← piolaBasis fe.basis fe.P detJ J
  let D ← piolaGradient fe.basis fe.dPdX detJ J Ji X bfs
  return { fe with P := P, dPdX := D }

end IFEM.Mapping
