import Verif.Model.Matrix
/-!
# Weak operators

Models Apps/Utils/EqualOrderOperators.C: the contributions of one integration point to element
matrices and vectors, and (per block) Apps/Utils/CompatibleOperators.C.  The matrix operations
are those of `Model/Matrix.lean` (src/LinAlg/matrix.h).

Simplifications: arithmetic in a field; `Vec3` arguments are functions of the 0-based component
and `Tensor` arguments functions of the 1-based row and column; the status returned by
`outer_product` and `multiply` is not used by the code and not by the model.  The compatible
operators work on a list of blocks addressed by an index table of 0-based components.  A local
matrix that the code reuses from one turn of a loop to the next and overwrites is a new one in
the model.
-/
namespace IFEM
namespace Weak

variable {R : Type}

/-- The part of `FiniteElement` used here: the basis function values, their gradients (one row
per function) and the integration weight.  src/ASM/FiniteElement.h:29-151 -/
structure FE (R : Type) where
  /-- `basis(i)` -/
  basis : Nat → List R
  /-- `grad(i)` -/
  grad : Nat → Mat R
  /-- `detJxW` -/
  detJxW : R

/-- `WeakOperators::ConvectionForm`.  Apps/Utils/EqualOrderOperators.h:26-31 -/
inductive Form where
  | convective
  | conservative
  | skew

/-- An empty matrix, `Matrix A;`. -/
def empty : Mat R := ⟨0, 0, []⟩

section ring
variable [Field R]

/-- `vector::add(X,alfa,0,1,ofs,stride)`.  src/LinAlg/matrix.h:1183-1197, 1619-1638 -/
def addStr (Y X : List R) (alfa : R) (ofs stride : Nat) : List R :=
  let Y := if Y.isEmpty then List.replicate (ofs + stride * X.length) 0 else Y
  (List.range X.length).foldl (fun (Y : List R) (i : Nat) =>
    if ofs + i * stride < Y.length then
      Y.set (ofs + i * stride) (Y.getD (ofs + i * stride) 0 + alfa * X.getD i 0)
    else Y) Y

/-- `outer_product` with the status dropped. -/
def outerTo (m : Mat R) (X Y : List R) (addTo : Bool) (alpha : R) : Option (Mat R) :=
  (m.outer X Y addTo alpha).map Prod.snd

/-- `addComponent`.  EqualOrderOperators.C:27-33 -/
def addComponent (EM A : Mat R) (cmp1 cmp2 nf : Nat) : Option (Mat R) :=
  (Mat.pairs A.nrow A.ncol).foldlM (fun (EM : Mat R) (q : Nat × Nat) => do
    let a ← A.get? ((q.1 : Int) + 1) ((q.2 : Int) + 1)
    EM.addAt? ((nf * q.1 + cmp1 : Nat) : Int) ((nf * q.2 + cmp2 : Nat) : Int) a) EM

/-- `addComponent` for all diagonal blocks: the loop over the components.
EqualOrderOperators.C:80-82,166-167,221-222,238-239 -/
def addDiagonal (EM A : Mat R) (cmp : Nat) : Option (Mat R) :=
  (List.range cmp).foldlM (fun (EM : Mat R) (k : Nat) => addComponent EM A (k+1) (k+1) cmp) EM

/-- The number of components, `EM.rows() / fe.basis(basis).size()`. -/
def ncmp (EM : Mat R) (fe : FE R) (b : Nat) : Nat := EM.nrow / (fe.basis b).length

/-- `DivGrad<Operation>`; `op = 1` is the divergence and `op = 2` the gradient.
EqualOrderOperators.C:36-50 -/
def divGrad (op : Nat) (EM : Mat R) (fe : FE R) (scale : R) (b tb : Nat) : Option (Mat R) :=
  (Mat.triples (fe.basis tb).length (fe.basis b).length (fe.grad b).ncol).foldlM
    (fun (EM : Mat R) (q : Nat × Nat × Nat) => do
      let N ← (fe.basis b)[q.2.1]?
      let G ← (fe.grad tb).get? ((q.1 : Int) + 1) ((q.2.2 : Int) + 1)
      if op = 2 then
        EM.addAt? ((q.1 * (fe.grad b).ncol + q.2.2 + 1 : Nat) : Int) ((q.2.1 : Int) + 1) (-(scale * (N * G * fe.detJxW)))
      else
        EM.addAt? ((q.2.1 : Int) + 1) ((q.1 * (fe.grad b).ncol + q.2.2 + 1 : Nat) : Int) (scale * (N * G * fe.detJxW))) EM

/-- `Weak::Divergence(EM,...)`.  EqualOrderOperators.C:134-138 -/
def divergence (EM : Mat R) (fe : FE R) (scale : R) (b tb : Nat) : Option (Mat R) := divGrad 1 EM fe scale b tb

/-- `Weak::Gradient(EM,...)`.  EqualOrderOperators.C:141-145 -/
def gradient (EM : Mat R) (fe : FE R) (scale : R) (b tb : Nat) : Option (Mat R) := divGrad 2 EM fe scale b tb

/-- One direction of `Weak::Advection`, added to the matrix `C`; `add1` tells whether the first
product is added or replaces the matrix.  EqualOrderOperators.C:65-78 -/
def advectionDir (C : Mat R) (N : List R) (Dk : List R) (add1 : Bool) (a : R) (form : Form) : Option (Mat R) :=
  match form with
  | .convective => outerTo C N Dk add1 a
  | .conservative => outerTo C Dk N add1 (-a)
  | .skew => do
    let C ← outerTo C N Dk add1 (a / 2)
    outerTo C Dk N true (-(a / 2))

/-- `Weak::Advection`.  EqualOrderOperators.C:54-83 -/
def advection (EM : Mat R) (fe : FE R) (AC : Nat → R) (scale : R) (form : Form) (b : Nat) : Option (Mat R) := do
  let C ← (List.range (fe.grad b).ncol).foldlM (fun (C : Mat R) (k : Nat) => do
    let Dk ← (fe.grad b).getColumn (k+1)
    advectionDir C (fe.basis b) Dk (decide (k > 0) || decide (ncmp EM fe b = 1)) (scale * AC k * fe.detJxW) form)
    (if ncmp EM fe b > 1 then empty else EM)
  if ncmp EM fe b > 1 then addDiagonal EM C (ncmp EM fe b) else some C

/-- The terms of `Weak::Convection` for equal components.  EqualOrderOperators.C:108-110,114-116,
121-125 -/
def convDiag (C : Mat R) (fe : FE R) (U : Nat → R) (form : Form) (b : Nat) (cmp : Nat) : Option (Mat R) :=
  (List.range cmp).foldlM (fun (C : Mat R) (m : Nat) => do
    let Dm ← (fe.grad b).getColumn (m+1)
    match form with
    | .convective => outerTo C (fe.basis b) Dm true (U m)
    | .conservative => outerTo C Dm (fe.basis b) true (-(U m))
    | .skew => do
      let C ← outerTo C (fe.basis b) Dm true (U m / 2)
      outerTo C Dm (fe.basis b) true (-(U m / 2))) C

/-- The matrix `C` of `Weak::Convection` for the components `k`, `l` (0-based), before the terms
for equal components.  EqualOrderOperators.C:96-98,101-120 -/
def convBlock (fe : FE R) (U : Nat → R) (dU : Nat → Nat → R) (form : Form) (b k l : Nat) : Option (Mat R) := do
  let B ← outerTo empty (fe.basis b) (fe.basis b) false 1
  let Dl ← (fe.grad b).getColumn (l+1)
  match form with
  | .convective => some ((Mat.zero (fe.basis b).length (fe.basis b).length).add B (dU (k+1) (l+1)))
  | .conservative => outerTo (Mat.zero (fe.basis b).length (fe.basis b).length) Dl (fe.basis b) false (-(U k))
  | .skew =>
    outerTo ((Mat.zero (fe.basis b).length (fe.basis b).length).add B (dU (k+1) (l+1) / 2)) Dl (fe.basis b) true (-(U k / 2))

/-- The matrix `C` of `Weak::Convection` for the components `k`, `l`.  EqualOrderOperators.C:101-126 -/
def convC (fe : FE R) (U : Nat → R) (dU : Nat → Nat → R) (form : Form) (b cmp k l : Nat) : Option (Mat R) := do
  let C ← convBlock fe U dU form b k l
  if k = l then convDiag C fe U form b cmp else some C

/-- `Weak::Convection` for the components `k`, `l`: the block and its addition to the element
matrix (the same loop as `addComponent`, with a factor).  EqualOrderOperators.C:99-129 -/
def convAdd (EM : Mat R) (fe : FE R) (U : Nat → R) (dU : Nat → Nat → R) (scale : R) (form : Form) (b cmp k l : Nat) : Option (Mat R) := do
  let C ← convC fe U dU form b cmp k l
  addComponent EM (C.scalar (scale * fe.detJxW)) (k+1) (l+1) cmp

/-- `Weak::Convection`.  EqualOrderOperators.C:86-129 -/
def convection (EM : Mat R) (fe : FE R) (U : Nat → R) (dU : Nat → Nat → R) (scale : R) (form : Form) (b : Nat) : Option (Mat R) :=
  (Mat.pairs (ncmp EM fe b) (ncmp EM fe b)).foldlM (fun (EM' : Mat R) (q : Nat × Nat) =>
    convAdd EM' fe U dU scale form b (ncmp EM fe b) q.1 q.2) EM

/-- `Weak::Stress`.  EqualOrderOperators.C:177-191 -/
def stress (EM : Mat R) (fe : FE R) (scale : R) (b : Nat) : Option (Mat R) :=
  (Mat.pairs (ncmp EM fe b) (ncmp EM fe b)).foldlM (fun (EM' : Mat R) (q : Nat × Nat) => do
    let Dl ← (fe.grad b).getColumn (q.2+1)
    let Dk ← (fe.grad b).getColumn (q.1+1)
    let A ← outerTo empty Dl Dk false (scale * fe.detJxW)
    addComponent EM' A (q.1+1) (q.2+1) (ncmp EM fe b)) EM

/-- `Weak::Laplacian` without the stress terms.  EqualOrderOperators.C:158-170 -/
def laplacian0 (EM : Mat R) (fe : FE R) (scale : R) (b : Nat) : Option (Mat R) :=
  if ncmp EM fe b > 1 then do
    let A ← (empty : Mat R).multiply (fe.grad b) (fe.grad b) false true false (scale * fe.detJxW)
    addDiagonal EM A (ncmp EM fe b)
  else EM.multiply (fe.grad b) (fe.grad b) false true true (scale * fe.detJxW)

/-- `Weak::Laplacian`.  EqualOrderOperators.C:158-174 -/
def laplacian (EM : Mat R) (fe : FE R) (scale : R) (str : Bool) (b : Nat) : Option (Mat R) := do
  let EM ← laplacian0 EM fe scale b
  if str then stress EM fe scale b else some EM

/-- `Weak::LaplacianCoeff` with a matrix.  EqualOrderOperators.C:194-201 -/
def laplacianCoeff (EM K : Mat R) (fe : FE R) (scale : R) (b : Nat) : Option (Mat R) := do
  let KB ← (empty : Mat R).multiply K (fe.grad b) false true false 1
  EM.multiply (fe.grad b) (KB.scalar (scale * fe.detJxW)) false false true 1

/-- `Weak::LaplacianCoeff` with the diagonal of the matrix.  EqualOrderOperators.C:204-211 -/
def laplacianDiag (EM : Mat R) (K : Nat → R) (fe : FE R) (scale : R) (b : Nat) : Option (Mat R) := do
  let BK ← (fe.grad b).scale ((List.range (fe.grad b).ncol).map fun k => K k * scale * fe.detJxW) (fe.grad b).ncol
  EM.multiply BK (fe.grad b) false true true 1

/-- `Weak::Mass`.  EqualOrderOperators.C:214-227 -/
def mass (EM : Mat R) (fe : FE R) (scale : R) (b : Nat) : Option (Mat R) :=
  if ncmp EM fe b > 1 then do
    let A ← outerTo empty (fe.basis b) (fe.basis b) false (scale * fe.detJxW)
    addDiagonal EM A (ncmp EM fe b)
  else outerTo EM (fe.basis b) (fe.basis b) true (scale * fe.detJxW)

/-- `Weak::ItgConstraint`.  EqualOrderOperators.C:230-240 -/
def itgConstraint (EM : Mat R) (fe : FE R) (scale : R) (b : Nat) : Option (Mat R) :=
  addDiagonal EM ((⟨(fe.basis b).length, 1, fe.basis b⟩ : Mat R).scalar (scale * fe.detJxW)) (ncmp EM fe b)

/-- The number of components of a vector, `EV.size() / fe.basis(basis).size()`. -/
def vcmp (EV : List R) (fe : FE R) (b : Nat) : Nat := EV.length / (fe.basis b).length

/-- `Weak::Source` for one component, or all for `cmp = 0`.  EqualOrderOperators.C:243-255 -/
def source (EV : List R) (fe : FE R) (scale : R) (cmp b : Nat) : List R :=
  if cmp = 1 ∧ vcmp EV fe b = 1 then addStr EV (fe.basis b) (scale * fe.detJxW) 0 1
  else if cmp > 0 then addStr EV (fe.basis b) (scale * fe.detJxW) (cmp-1) (vcmp EV fe b)
  else (List.range (vcmp EV fe b)).foldl (fun (E : List R) (k : Nat) =>
    addStr E (fe.basis b) (scale * fe.detJxW) k (vcmp EV fe b)) EV

/-- `Weak::Source` with a vector.  EqualOrderOperators.C:258-265 -/
def vectorSource (EV : List R) (fe : FE R) (f : Nat → R) (scale : R) (b : Nat) : List R :=
  (List.range (vcmp EV fe b)).foldl (fun (E : List R) (k : Nat) =>
    addStr E (fe.basis b) (scale * f k * fe.detJxW) k (vcmp EV fe b)) EV

/-- `Residual::Advection`; the code takes `g[k-1]`, which is column `k` of the tensor
(src/Utility/Tensor.C:237-243).  EqualOrderOperators.C:268-277 -/
def resAdvection (EV : List R) (fe : FE R) (AC : Nat → R) (g : Nat → Nat → R) (scale : R) (b : Nat) : List R :=
  (List.range (fe.grad b).ncol).foldl (fun (E : List R) (k : Nat) =>
    addStr E (fe.basis b)
      (((List.range (fe.grad b).ncol).map fun l => g (l+1) (k+1) * AC l).sum * scale * fe.detJxW)
      k (fe.grad b).ncol) EV

/-- The term of `Residual::Convection` for one function and two components (0-based): `N` is the
function value and `G` its derivative in direction `l`.  EqualOrderOperators.C:296-308 -/
def convTerm (U : Nat → R) (dU : Nat → Nat → R) (UC : Nat → R) (form : Form) (N G : R) (k l : Nat) : R :=
  match form with
  | .convective => -(UC l) * dU (k+1) (l+1) * N
  | .conservative => U k * UC l * G
  | .skew => (U k * UC l * G - UC l * dU (k+1) (l+1) * N) / 2

/-- `Residual::Convection`.  EqualOrderOperators.C:280-313 -/
def resConvection (EV : List R) (fe : FE R) (U : Nat → R) (dU : Nat → Nat → R) (UC : Nat → R) (scale : R) (form : Form) (b : Nat) : Option (List R) :=
  (Mat.triples (fe.basis b).length (vcmp EV fe b) (vcmp EV fe b)).foldlM (fun (E : List R) (q : Nat × Nat × Nat) => do
    let N ← (fe.basis b)[q.1]?
    let G ← (fe.grad b).get? ((q.1 : Int) + 1) ((q.2.2 : Int) + 1)
    let old ← E[q.1 * vcmp EV fe b + q.2.1]?
    some (E.set (q.1 * vcmp EV fe b + q.2.1) (old + scale * fe.detJxW * convTerm U dU UC form N G q.2.1 q.2.2))) EV

/-- `Residual::Divergence`.  EqualOrderOperators.C:316-322 -/
def resDivergence (EV : List R) (fe : FE R) (dU : Nat → Nat → R) (nsd : Nat) (scale : R) (b : Nat) : List R :=
  addStr EV (fe.basis b) (-(scale * ((List.range nsd).map fun k => dU (k+1) (k+1)).sum * fe.detJxW)) 0 1

/-- `Residual::Gradient`.  EqualOrderOperators.C:325-333 -/
def resGradient (EV : List R) (fe : FE R) (scale : R) (b : Nat) : Option (List R) :=
  (List.range (fe.grad b).ncol).foldlM (fun (E : List R) (k : Nat) => do
    let Dk ← (fe.grad b).getColumn (k+1)
    some (addStr E Dk (scale * fe.detJxW) k (fe.grad b).ncol)) EV

/-- One component of `Residual::Laplacian` for a vector field: the vector `diff`; `g` is the row
and `h` the column of the gradient.  EqualOrderOperators.C:357-360 -/
def lapDiff (G : Mat R) (g h : List R) (str : Bool) : Option (List R) := do
  let d1 ← G.mulVec g [] false 0
  if str then (G.mulVec h d1.2 false 1).map Prod.snd else some d1.2

/-- `Residual::Laplacian` for a vector field.  EqualOrderOperators.C:347-363 -/
def resLaplacian (EV : List R) (fe : FE R) (dU : Nat → Nat → R) (scale : R) (str : Bool) (b : Nat) : Option (List R) :=
  (List.range (fe.grad 1).ncol).foldlM (fun (E : List R) (k : Nat) => do
    let diff ← lapDiff (fe.grad b) ((List.range (fe.grad 1).ncol).map fun l => dU (k+1) (l+1))
      ((List.range (fe.grad 1).ncol).map fun l => dU (l+1) (k+1)) str
    some (addStr E diff (-(scale * fe.detJxW)) k (fe.grad 1).ncol)) EV

/-- `Residual::Laplacian` and `Weak::Divergence(EV,...)` for a scalar field: the gradient matrix
times a vector is added with a factor.  EqualOrderOperators.C:148-155,336-344 -/
def gradVector [DecidableEq R] (EV : List R) (fe : FE R) (d : Nat → R) (factor : R) (b : Nat) : Option (List R) :=
  ((fe.grad b).gemv ((List.range (fe.grad b).ncol).map d) EV (factor * fe.detJxW) 1 false).map Prod.snd

/-- `CompatibleOperators::Weak::Convection`, the diagonal terms of the block (k,k); here all
three forms add `N_k ⊗ ∂N_k/∂x_m`.  CompatibleOperators.C:58-60,64-66,71-75 -/
def compConvDiag (M : Mat R) (fe : FE R) (U : Nat → R) (scale : R) (form : Form) (k nsd : Nat) : Option (Mat R) :=
  (List.range nsd).foldlM (fun (M : Mat R) (m : Nat) => do
    let Dm ← (fe.grad (k+1)).getColumn (m+1)
    match form with
    | .convective => outerTo M (fe.basis (k+1)) Dm true (scale * fe.detJxW * U m)
    | .conservative => outerTo M (fe.basis (k+1)) Dm true (-(U m) * scale * fe.detJxW)
    | .skew => do
      let M ← outerTo M (fe.basis (k+1)) Dm true (scale * fe.detJxW * U m / 2)
      outerTo M (fe.basis (k+1)) Dm true (-(U m) * scale * fe.detJxW / 2)) M

/-- The first terms of `CompatibleOperators::Weak::Convection` for the components `k`, `l`.
CompatibleOperators.C:57,63,69-70 -/
def compConvOff (M : Mat R) (fe : FE R) (U : Nat → R) (dU : Nat → Nat → R) (scale : R) (form : Form) (k l : Nat) : Option (Mat R) := do
  let Dl ← (fe.grad (k+1)).getColumn (l+1)
  match form with
  | .convective => outerTo M (fe.basis (k+1)) (fe.basis (l+1)) true (scale * fe.detJxW * dU (k+1) (l+1))
  | .conservative => outerTo M Dl (fe.basis (l+1)) true (-(U k) * scale * fe.detJxW)
  | .skew => do
    let M ← outerTo M (fe.basis (k+1)) (fe.basis (l+1)) true (scale * fe.detJxW * dU (k+1) (l+1) / 2)
    outerTo M Dl (fe.basis (l+1)) true (-(U k) * scale * fe.detJxW / 2)

/-- `CompatibleOperators::Weak::Convection`: the update of the block for the components `k`, `l`
(0-based).  CompatibleOperators.C:55-76 -/
def compConvBlock (M : Mat R) (fe : FE R) (U : Nat → R) (dU : Nat → Nat → R) (scale : R) (form : Form) (k l nsd : Nat) : Option (Mat R) := do
  let M ← compConvOff M fe U dU scale form k l
  if k = l then compConvDiag M fe U scale form k nsd else some M

/-- Update of one block of a list of blocks, `EM[p]....`. -/
def atBlock {α : Type} (L : List α) (p : Nat) (f : α → Option α) : Option (List α) := do
  let m ← L[p]?
  let m' ← f m
  some (L.set p m')

/-- `CompatibleOperators::Weak::Advection`.  CompatibleOperators.C:19-41 -/
def compAdvection (EM : List (Mat R)) (fe : FE R) (AC : Nat → R) (idx : Nat → Nat → Nat) (scale : R) (form : Form) : Option (List (Mat R)) :=
  (Mat.pairs (fe.grad 1).ncol (fe.grad 1).ncol).foldlM (fun (EM : List (Mat R)) (q : Nat × Nat) => do
    let Dk ← (fe.grad (q.1+1)).getColumn (q.2+1)
    atBlock EM (idx q.1 q.1) fun M => advectionDir M (fe.basis (q.1+1)) Dk true (scale * AC q.2 * fe.detJxW) form) EM

/-- `CompatibleOperators::Weak::Convection`.  CompatibleOperators.C:44-78 -/
def compConvection (EM : List (Mat R)) (fe : FE R) (U : Nat → R) (dU : Nat → Nat → R) (idx : Nat → Nat → Nat) (scale : R) (form : Form) : Option (List (Mat R)) :=
  (Mat.pairs (fe.grad 1).ncol (fe.grad 1).ncol).foldlM (fun (EM : List (Mat R)) (q : Nat × Nat) =>
    atBlock EM (idx q.1 q.2) fun M => compConvBlock M fe U dU scale form q.1 q.2 (fe.grad 1).ncol) EM

/-- `CompatibleOperators::Weak::Gradient`.  CompatibleOperators.C:81-90 -/
def compGradient (EM : List (Mat R)) (fe : FE R) (idx : Nat → Nat) (scale : R) : Option (List (Mat R)) :=
  (List.range (fe.grad 1).ncol).foldlM (fun (EM : List (Mat R)) (n : Nat) => do
    let Dn ← (fe.grad (n+1)).getColumn (n+1)
    atBlock EM (idx n) fun M => outerTo M Dn (fe.basis ((fe.grad 1).ncol + 1)) true (-(scale * fe.detJxW))) EM

/-- `CompatibleOperators::Weak::Mass`.  CompatibleOperators.C:122-129 -/
def compMass (EM : List (Mat R)) (fe : FE R) (idx : Nat → Nat → Nat) (scale : R) : Option (List (Mat R)) :=
  (List.range (fe.grad 1).ncol).foldlM (fun (EM : List (Mat R)) (k : Nat) =>
    atBlock EM (idx k k) fun M => mass M fe scale (k+1)) EM

/-- The stress terms of `CompatibleOperators::Weak::Laplacian` for the components `m ≤ n`.
CompatibleOperators.C:113-117 -/
def compStress (EM : List (Mat R)) (fe : FE R) (idx : Nat → Nat → Nat) (scale : R) (m n : Nat) : Option (List (Mat R)) := do
  let mn ← (fe.grad (m+1)).getColumn (n+1)
  let nm ← (fe.grad (n+1)).getColumn (m+1)
  let EM ← atBlock EM (idx m n) fun M => outerTo M mn nm true (scale * fe.detJxW)
  if m ≠ n then atBlock EM (idx n m) fun M => if M.elem.isEmpty then some M else outerTo M nm mn true (scale * fe.detJxW)
  else some EM

/-- `CompatibleOperators::Weak::Laplacian`; the first loop updates the block `n`, whatever the index
table says.  CompatibleOperators.C:102-119 -/
def compLaplacian (EM : List (Mat R)) (fe : FE R) (idx : Nat → Nat → Nat) (scale : R) (str : Bool) : Option (List (Mat R)) := do
  let EM ← (List.range (fe.grad 1).ncol).foldlM (fun (EM : List (Mat R)) (n : Nat) =>
    atBlock EM (n+1) fun M => laplacian M fe scale false (n+1)) EM
  if str then
    ((Mat.pairs (fe.grad 1).ncol (fe.grad 1).ncol).filter fun q => decide (q.1 ≤ q.2)).foldlM
      (fun (EM : List (Mat R)) (q : Nat × Nat) => compStress EM fe idx scale q.1 q.2) EM
  else some EM

/-- `CompatibleOperators::Weak::Source` with a vector.  CompatibleOperators.C:131-139 -/
def compSource (EV : List (List R)) (fe : FE R) (f : Nat → R) (idx : Nat → Nat) (scale : R) : Option (List (List R)) :=
  (List.range (fe.grad 1).ncol).foldlM (fun (EV : List (List R)) (k : Nat) =>
    atBlock EV (idx k) fun E => some (source E fe (scale * f k) 1 (k+1))) EV

/-- The loop over the functions in `CompatibleOperators::Residual::Convection`.
CompatibleOperators.C:167-172,178-183 -/
def compFlux (E : List R) (fe : FE R) (U : Nat → R) (UC : Nat → R) (coef : R) (k nsd : Nat) : Option (List R) :=
  (List.range (fe.basis (k+1)).length).foldlM (fun (E : List R) (i : Nat) => do
    let g ← (fe.grad (k+1)).getRow (i+1)
    let old ← E[i]?
    some (E.set i (old + ((List.range nsd).map fun l => U k * UC l * g.getD l 0).sum * coef))) E

/-- `CompatibleOperators::Residual::Convection` for one component.  CompatibleOperators.C:159-186 -/
def compResConvBlock (E : List R) (fe : FE R) (U : Nat → R) (dU : Nat → Nat → R) (UC : Nat → R) (scale : R) (form : Form) (k nsd : Nat) : Option (List R) :=
  match form with
  | .convective => some (addStr E (fe.basis (k+1)) (scale * ((List.range nsd).map fun l => -(UC l) * dU (k+1) (l+1)).sum * fe.detJxW) 0 1)
  | .conservative => compFlux E fe U UC (scale * fe.detJxW) k nsd
  | .skew => compFlux (addStr E (fe.basis (k+1)) (scale * ((List.range nsd).map fun l => -(UC l) * dU (k+1) (l+1)).sum * fe.detJxW / 2) 0 1)
      fe U UC (scale * fe.detJxW / 2) k nsd

/-- `CompatibleOperators::Residual::Convection`.  CompatibleOperators.C:152-187 -/
def compResConvection (EV : List (List R)) (fe : FE R) (U : Nat → R) (dU : Nat → Nat → R) (UC : Nat → R) (idx : Nat → Nat) (scale : R) (form : Form) : Option (List (List R)) :=
  (List.range (fe.grad 1).ncol).foldlM (fun (EV : List (List R)) (k : Nat) =>
    atBlock EV (idx k) fun E => compResConvBlock E fe U dU UC scale form k (fe.grad 1).ncol) EV

/-- `CompatibleOperators::Residual::Gradient`.  CompatibleOperators.C:190-196 -/
def compResGradient (EV : List (List R)) (fe : FE R) (idx : Nat → Nat) (scale : R) : Option (List (List R)) :=
  (List.range (fe.grad 1).ncol).foldlM (fun (EV : List (List R)) (k : Nat) => do
    let Dk ← (fe.grad (k+1)).getColumn (k+1)
    atBlock EV (idx k) fun E => some (addStr E Dk (scale * fe.detJxW) 0 1)) EV

/-- `CompatibleOperators::Residual::Laplacian`.  CompatibleOperators.C:199-215 -/
def compResLaplacian (EV : List (List R)) (fe : FE R) (dU : Nat → Nat → R) (idx : Nat → Nat) (scale : R) (str : Bool) : Option (List (List R)) :=
  (List.range (fe.grad 1).ncol).foldlM (fun (EV : List (List R)) (k : Nat) => do
    let diff ← lapDiff (fe.grad (k+1)) ((List.range (fe.grad 1).ncol).map fun l => dU (k+1) (l+1))
      ((List.range (fe.grad 1).ncol).map fun l => dU (l+1) (k+1)) str
    atBlock EV (idx k) fun E => some (addStr E diff (-(scale * fe.detJxW)) 0 1)) EV

end ring
end Weak
end IFEM
