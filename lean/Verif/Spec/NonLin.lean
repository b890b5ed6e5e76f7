import Verif.Model.NonLin
/-!
# Specification: convergence of an iteration

The norms observed in the iterations of one step are a sequence `n : Nat → Option K` (`none` = not a number), the norms of the
increments `inc`.
-/
namespace IFEM.Spec
variable {K : Type} [Field K] [LinearOrder K]

/-- The reference norm of a step: the initial norm of this step, or the largest of it and the previous reference norm. -/
def refOf (p : ConvPar K) (ref0 : K) (n0 : Option K) : K := match n0 with
  | some x => if p.first && p.all then |x| else max ref0 |x|
  | none => if p.first && p.all then 0 else ref0

/-- The norm satisfies the absolute or the relative tolerance. -/
def Small (p : ConvPar K) (R : K) (n : Option K) : Prop := ∃ x, n = some x ∧ |x| < max p.aTol (p.rTol * R)

/-- The norm did not decrease or remain constant in iteration `k`. -/
def Grew (n : Nat → Option K) : Nat → Prop
  | 0 => n 0 = none
  | k+1 => ¬ ∃ x y, n k = some x ∧ n (k+1) = some y ∧ |y| ≤ |x|

open Classical in
/-- Number of consecutive iterations up to `k` with growing norm. -/
noncomputable def growth (n : Nat → Option K) : Nat → Int
  | 0 => if Grew n 0 then 1 else 0
  | k+1 => if Grew n (k+1) then growth n k + 1 else 0

/-- The scale of the norms in the divergence test: the reference norm, or one if the absolute tolerance governs. -/
def scaleOf (p : ConvPar K) (R : K) : K := if p.aTol < R * p.rTol then R else 1

/-- The norm exceeds the divergence limit. -/
def Blown (p : ConvPar K) (R : K) (n : Option K) : Prop := ∃ x, n = some x ∧ p.divgLim < |x| / scaleOf p R

/-- Iteration `k` meets the convergence criterion. -/
def Cvg (p : ConvPar K) (R : K) (n inc : Nat → Option K) (k : Nat) : Prop :=
  (k = 0 ∧ (p.linear = true ∨ inc 0 = some 0)) ∨ ((0 < k ∨ p.all = true) ∧ Small p R (n k))

/-- Iteration `k` meets the divergence criterion: the increment is not a number, or the norm grew and this for the `maxIncr+1`'th
consecutive time or beyond the divergence limit. -/
def Dvg (p : ConvPar K) (R : K) (n inc : Nat → Option K) (k : Nat) : Prop :=
  ¬ Cvg p R n inc k ∧ (inc k = none ∨ (Grew n k ∧ (p.maxIncr < growth n k ∨ Blown p R (n k))))

/-- The iterations continue after iteration `k`. -/
def Goes (p : ConvPar K) (R : K) (n inc : Nat → Option K) (k : Nat) : Prop := ¬ Cvg p R n inc k ∧ ¬ Dvg p R n inc k

/-- The sum `a₀ x₀ + … + a_k x_k`. -/
def combo {V : Type} [AddCommGroup V] [Module K V] (a : Nat → K) (x : Nat → V) : Nat → V
  | 0 => a 0 • x 0
  | k+1 => combo a x k + a (k+1) • x (k+1)

variable {V : Type}

/-- Some operation requested in iteration `k` failed. -/
def OpFailed (env : StepEnv K V) (k : Nat) : Prop :=
  env.update k = false ∨ env.dirichlet0 = false ∨ env.dirichlet1 = false ∨ env.asmbl k = .fail ∨ env.extract k = false ∨
  env.solve k = false ∨ (∃ i, env.energy k i = none) ∨ env.updateEnd = false ∨ env.norms = false

/-- What a verdict means.  `N` is the number of allowed checks. -/
def Verdict (p : ConvPar K) (env : StepEnv K V) (R : K) (N : Nat) (st : ConvStatus) (k : Nat) : Prop :=
  k ≤ N ∧ (∀ j < k, Goes p R env.norm env.inc j) ∧
  ((st = .converged ∧ k < N ∧ Cvg p R env.norm env.inc k) ∨
   (st = .diverged ∧ ((k < N ∧ Dvg p R env.norm env.inc k) ∨ k = N ∨ env.asmbl k = .diverged)) ∨
   (st = .failure ∧ OpFailed env k))

end IFEM.Spec
