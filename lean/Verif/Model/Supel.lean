import Verif.Model.Sparse
import Verif.Model.Matrix
import Mathlib.Data.List.Sort

/-!
# Superelements

Models `SparseMatrix::split` (src/LinAlg/SparseMatrix.C:1444-1498), `AlgEqSystem::staticCondensation` and `recoverInternals` (src/ASM/AlgEqSystem.C:354-472, 522-565),
`utl::transform` (src/LinAlg/MatVec.C:88-155), `ASMsupel` (src/ASM/ASMsupel.C) and `SIMsupel` (src/SIM/SIMsupel.C).

Simplifications: the equation solver is a parameter (a solution for a matrix and a right-hand side, or none on failure); the matrices are those of the
storage state in which the index-pair map exists; the recovery file is the matrix it contains; messages are left out.  In results of type `Option (Option α)` the outer `none` is an access outside an array,
and the inner `none` the return value `false`.
-/
namespace IFEM.Supel
variable {K : Type}

/-! ## Splitting -/

/-- The loop for `eqnmap`, `SparseMatrix.C:1471-1482`: remaining equations, `ieq`, `ip2`, `ieq1`, `ieq2`. -/
def eqnLoop (meqn2 : List Int) : Nat → Nat → Nat → Nat → Nat → List Int
  | 0, _, _, _, _ => []
  | n+1, ieq, ip2, i1, i2 =>
    match meqn2[ip2]? with
    | some e => if (ieq : Int) + 1 < e then ((i1 : Int) + 1) :: eqnLoop meqn2 n (ieq+1) ip2 (i1+1) i2 else (-((i2 : Int) + 1)) :: eqnLoop meqn2 n (ieq+1) (ip2+1) i1 (i2+1)
    | none => ((i1 : Int) + 1) :: eqnLoop meqn2 n (ieq+1) ip2 (i1+1) i2

variable [Field K]

/-- The sub-matrices `A11`, `A21`, `A12`, `A22`. -/
structure Parts (K : Type) where
  a11 : Sparse K
  a21 : Sparse K
  a12 : Sparse K
  a22 : Sparse K

/-- The loop body over the nonzeros, `SparseMatrix.C:1485-1497`. -/
def splitStep (eqnmap : List Int) (S : Parts K) (p : (Nat × Nat) × K) : Option (Parts K) :=
  match at0? eqnmap ((p.1.1 : Int) - 1), at0? eqnmap ((p.1.2 : Int) - 1) with
  | some i, some j =>
    if i > 0 ∧ j > 0 then (S.a11.modify? (fun _ => p.2) i.toNat j.toNat).map fun m => { S with a11 := m }
    else if j > 0 then (S.a21.modify? (fun _ => p.2) (-i).toNat j.toNat).map fun m => { S with a21 := m }
    else if i > 0 then (S.a12.modify? (fun _ => p.2) i.toNat (-j).toNat).map fun m => { S with a12 := m }
    else (S.a22.modify? (fun _ => p.2) (-i).toNat (-j).toNat).map fun m => { S with a22 := m }
  | _, _ => none

/-- `SparseMatrix::split`, `SparseMatrix.C:1444-1498`; the sub-matrices are newly constructed. -/
def split (A : Sparse K) (meqn2 : List Int) : Option (Option (Parts K)) :=
  if A.elem.isEmpty ∨ A.nrow ≠ A.ncol then some none
  else
    let neq2 := meqn2.length
    if neq2 < 1 ∨ neq2 ≥ A.nrow then some none
    else
      let eqnmap := eqnLoop meqn2 A.nrow 0 0 0 0
      let n1 := A.nrow - neq2
      (A.elem.foldlM (splitStep eqnmap) ⟨{ nrow := n1, ncol := A.ncol - neq2, solver := A.solver }, { nrow := neq2, ncol := A.ncol - neq2, solver := SparseSolver.none },
        { nrow := n1, ncol := neq2, solver := SparseSolver.none }, { nrow := neq2, ncol := neq2, solver := SparseSolver.none }⟩).map some

/-- `SparseMatrix::getColumn` with the return value ignored: the zero vector if it fails (SparseMatrix.C:1500-1511). -/
def columnOf (M : Sparse K) (c : Nat) : List K := (M.getColumn c).getD (List.replicate M.nrow 0)

/-! ## Static condensation -/

/-- The equations of the retained nodes, `AlgEqSystem.C:365-370` and `531-536`. -/
def retained (s : Sam K) (extNodes : List Int) : Option (List Int) := extNodes.foldlM (fun a n => (s.getNodeEqns n).map fun m => a ++ m) []

/-- Splitting the right-hand side, `AlgEqSystem.C:397-404`.  There is no test for the end of `meqn2`.  The results have room for `n1` and `n2` values. -/
def vecLoop (meqn2 : List Int) (R : List K) (n1 n2 : Nat) : Nat → Nat → Nat → List K → List K → Option (List K × List K)
  | 0, _, _, r1, r2 => some (Sparse.resizeTo r1 n1 0, Sparse.resizeTo r2 n2 0)
  | n+1, ieq, ip2, r1, r2 =>
    match meqn2[ip2]?, R[ieq]? with
    | some e, some v =>
      if (ieq : Int) + 1 < e then
        if r1.length < n1 then vecLoop meqn2 R n1 n2 n (ieq+1) ip2 (r1 ++ [v]) r2 else none
      else
        if r2.length < n2 then vecLoop meqn2 R n1 n2 n (ieq+1) (ip2+1) r1 (r2 ++ [v]) else none
    | _, _ => none

/-- The difference of two vectors of the same length. -/
def subV (a b : List K) : List K := List.zipWith (fun x y => x - y) a b

/-- The loop body for one external DOF, `AlgEqSystem.C:447-461`: column of `Ared` and column of the recovery matrix. -/
def condenseCol (solve : Sparse K → List K → Option (List K)) (S : Parts K) (c : Nat) : Option (List K × List K) :=
  match solve S.a11 (columnOf S.a12 c) with
  | none => none
  | some x =>
    match S.a21.multiply x with
    | none => none
    | some t => some (subV (columnOf S.a22 c) t, x.map fun v => v * (-1))

/-- The result of the condensation. -/
structure Reduced (K : Type) where
  A : Mat K
  b : List K
  R : Mat K

/-- `AlgEqSystem::staticCondensation`, `AlgEqSystem.C:354-472`, for a matrix and a right-hand side in `StdVector` format. -/
def condense (solve : Sparse K → List K → Option (List K)) (s : Sam K) (A : Sparse K) (R : List K) (extNodes : List Int) : Option (Option (Reduced K)) :=
  match retained s extNodes with
  | none => some none
  | some meq =>
    if meq.any fun e => decide (e ≤ 0) then some none
    else
      let meqn2 := meq.insertionSort (· ≤ ·)
      match split A meqn2 with
      | none => none
      | some none => some none
      | some (some S) =>
        match vecLoop meqn2 R S.a11.nrow S.a21.nrow A.nrow 0 0 [] [] with
        | none => none
        | some (r1, r2) =>
          match solve S.a11 r1 with
          | none => some none
          | some x1 =>
            match S.a21.multiply x1 with
            | none => some none
            | some t =>
              match (List.range S.a21.nrow).mapM fun c => condenseCol solve S (c+1) with
              | none => some none
              | some cols => some (some { A := ⟨S.a21.nrow, S.a21.nrow, (cols.map Prod.fst).flatMap id⟩, b := subV r2 t, R := ⟨S.a11.nrow, 1 + S.a21.nrow, (x1 :: cols.map Prod.snd).flatMap id⟩ })

/-- The full vector, `AlgEqSystem.C:552-560`.  There is no test for the end of `meqn2`. -/
def mergeLoop (meqn2 : List Int) (x1 xe : List K) : Nat → Nat → Nat → Nat → Nat → Option (List K)
  | 0, _, _, _, _ => some []
  | n+1, ieq, ip2, i1, i2 =>
    match meqn2[ip2]? with
    | none => none
    | some e =>
      if (ieq : Int) + 1 < e then
        match x1[i1]? with
        | none => none
        | some v => (mergeLoop meqn2 x1 xe n (ieq+1) ip2 (i1+1) i2).map fun l => v :: l
      else
        match xe[i2]? with
        | none => none
        | some v => (mergeLoop meqn2 x1 xe n (ieq+1) (ip2+1) i1 (i2+1)).map fun l => v :: l

/-- The solution vector in `AlgEqSystem::recoverInternals`, `AlgEqSystem.C:522-560`, before it is expanded. -/
def recoverVector (s : Sam K) (Rmat : Mat K) (extNodes : List Int) (xe : List K) : Option (Option (List K)) :=
  match Rmat.mulVec (1 :: xe) [] false 0 with
  | none => none
  | some (false, _) => some none
  | some (true, x1) =>
    match retained s extNodes with
    | none => some none
    | some meq =>
      let meqn2 := meq.insertionSort (· ≤ ·)
      if (s.neq : Int) - meqn2.length ≠ x1.length ∨ meqn2.length ≠ xe.length then some none
      else (mergeLoop meqn2 x1 xe s.neq 0 0 0 0).map some

/-- `AlgEqSystem::recoverInternals`, `AlgEqSystem.C:522-565`. -/
def recoverInternals (s : Sam K) (Rmat : Mat K) (extNodes : List Int) (xe : List K) : Option (Option (List K)) :=
  match recoverVector s Rmat extNodes xe with
  | none => none
  | some none => some none
  | some (some x) => some (s.expandVector x 1)

/-! ## Transformation to global axes -/

/-- The body of the loops over the blocks, `MatVec.C:98-115`; `r` and `c` are `L` and `K`. -/
def transformBlock (Tn : Mat K) (N : Nat) (A : Mat K) (r c : Nat) : Option (Mat K) := do
  let B ← (Mat.triples N N N).foldlM (fun B q => do
    let t ← Tn.get? ((q.2.1 : Int) + 1) ((q.2.2 : Int) + 1)
    let a ← A.get? ((r : Int) + q.2.2 + 1) ((c : Int) + q.1 + 1)
    B.addAt? ((q.2.1 : Int) + 1) ((q.1 : Int) + 1) (t * a)) (Mat.zero N N)
  let A ← (Mat.pairs N N).foldlM (fun A q => A.setAt? (r + q.2 + 1) (c + q.1 + 1) 0) A
  (Mat.triples N N N).foldlM (fun A q => do
    let b ← B.get? ((q.2.1 : Int) + 1) ((q.2.2 : Int) + 1)
    let t ← Tn.get? ((q.1 : Int) + 1) ((q.2.2 : Int) + 1)
    A.addAt? ((r : Int) + q.2.1 + 1) ((c : Int) + q.1 + 1) (b * t)) A

/-- Number of passes of `for (K = 0; K < M; K += N)`; none if it does not end. -/
def passes (M N : Nat) : Option Nat := if N = 0 then (if M = 0 then some 0 else none) else some ((M + N - 1) / N)

/-- `utl::transform(A,Tn)`, `MatVec.C:88-118`: status and result; `none`: an array is left, or no end. -/
def transformMat (A Tn : Mat K) : Option (Bool × Mat K) :=
  let M := A.nrow
  let N := Tn.nrow
  if M < A.ncol ∨ Tn.ncol < N ∨ M < N then some (false, A)
  else
    match passes M N with
    | none => none
    | some n => ((Mat.pairs n n).foldlM (fun A q => transformBlock Tn N A (q.2 * N) (q.1 * N)) A).map fun A => (true, A)

/-- One block of the vector, `MatVec.C:135-148`. -/
def transformSeg (Tn : Mat K) (N : Nat) (transpose : Bool) (V : List K) (k : Nat) : Option (List K) := do
  let WA ← (Mat.pairs N N).foldlM (fun WA q => do
    let t ← if transpose then Tn.get? ((q.2 : Int) + 1) ((q.1 : Int) + 1) else Tn.get? ((q.1 : Int) + 1) ((q.2 : Int) + 1)
    let v ← at1? V ((k : Int) + q.2 + 1)
    add1? WA ((q.1 : Int) + 1) (t * v)) (List.replicate N 0)
  (List.range N).foldlM (fun V (j : Nat) => do
    let w ← at1? WA ((j : Int) + 1)
    set1? V ((k : Int) + j + 1) w) V

/-- `utl::transform(V,Tn,transpose)`, `MatVec.C:127-152`. -/
def transformVec (V : List K) (Tn : Mat K) (transpose : Bool) : Option (Bool × List K) :=
  let M := V.length
  let N := Tn.nrow
  if Tn.ncol < N ∨ M < N then some (false, V)
  else
    match passes M N with
    | none => none
    | some n => ((List.range n).foldlM (fun V k => transformSeg Tn N transpose V (k * N)) V).map fun V => (true, V)

/-- A superelement patch: nodal coordinates, matrix and load vector.  `ASMsupel::myNodes`, `myElmMat` -/
structure Patch (K : Type) where
  nodes : List (List K)
  A : Mat K
  b : List K

/-- `operator*(A,x)` for points, `Vec3Oper.C:29-48`: with four columns a one is appended; if the dimensions do not match the result is zero. -/
def mapPoint (T : Mat K) (x : List K) : Option (List K) :=
  let xx := if T.ncol = 4 then x ++ [1] else x
  (T.mulVec xx (List.replicate T.nrow 0) false 0).map fun r => r.2.take 3

/-- `ASMsupel::transform`, `ASMsupel.C:214-243`: status and patch. -/
def Patch.transform (p : Patch K) (T : Mat K) : Option (Bool × Patch K) :=
  if T.nrow < 3 ∨ T.ncol < 3 then some (true, p)
  else
    match p.nodes.mapM (mapPoint T) with
    | none => none
    | some nodes =>
      match transformMat p.A T with
      | none => none
      | some (false, A) => some (false, { p with nodes := nodes, A := A })
      | some (true, A) =>
        match transformVec p.b T false with
        | none => none
        | some (ok, b) => some (ok, { nodes := nodes, A := A, b := b })

/-- One superelement in `SIMsupel::recoverInternalDOFs`, `SIMsupel.C:132-161`: the superelement solution in global axes, the transformation (if any) and the substructure model (if any). -/
def recoverOne (recover : Option (List K → Option (List K))) (T : Option (Mat K)) (supSol : List K) : Option (Bool × List K) :=
  match recover with
  | none => some (true, supSol)
  | some back =>
    match T with
    | none => some (match back supSol with
      | some v => (true, v)
      | none => (false, []))
    | some T =>
      match transformVec supSol T true with
      | none => none
      | some (ok, loc) =>
        match back loc with
        | none => some (false, [])
        | some v => if ok then transformVec v T false else some (false, v)

end IFEM.Supel
