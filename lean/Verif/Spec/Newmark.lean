import Verif.Model.Newmark
/-!
# Specification: Newmark difference formulas and dynamic equilibrium
-/
namespace IFEM.Spec
open Matrix
variable {K : Type} [Field K] {ι : Type} [Fintype ι]

/-- The Newmark difference formulas between the state `s0` at the start and the state `s` at the end of a step of size `dt`:
`u = u₀ + dt v₀ + dt²((1/2-β)a₀ + β a)`, `v = v₀ + dt((1-γ)a₀ + γ a)`. -/
def NewmarkRel (beta gamma dt : K) (s0 s : NmSol K ι) : Prop :=
  s.u = s0.u + dt • s0.v + (dt * dt) • ((1/2 - beta) • s0.a + beta • s.a) ∧
  s.v = s0.v + dt • ((1 - gamma) • s0.a + gamma • s.a)

/-- Dynamic equilibrium of a linear system with Rayleigh damping: `M a + (C + α₁ M + α₂ K) v + K u = f`. -/
def Equilibrium (M C Kt : Matrix ι ι K) (alpha1 alpha2 : K) (f : ι → K) (u v a : ι → K) : Prop :=
  M *ᵥ a + (C *ᵥ v + alpha1 • (M *ᵥ v) + alpha2 • (Kt *ᵥ v)) + Kt *ᵥ u = f

/-- The equilibrium force `f - (C + α₁ M + α₂ Kₘ) v - (Kₘ + K_g) u` of a linear system with material and geometric stiffness. -/
def netForce (M C Km Kg : Matrix ι ι K) (alpha1 alpha2 : K) (f u v : ι → K) : ι → K :=
  f - (C *ᵥ v + alpha1 • (M *ᵥ v) + alpha2 • (Km *ᵥ v)) - (Km *ᵥ u + Kg *ᵥ u)

/-- The Hilber-Hughes-Taylor equation: `M a = (1+α) F - α F₀`, with `F`, `F₀` the net forces at the end and start of the step. -/
def HHTEquation (alpha : K) (M : Matrix ι ι K) (F F0 a : ι → K) : Prop :=
  M *ᵥ a = (1 + alpha) • F - alpha • F0

/-- An absent matrix is zero. -/
def mat (o : Option (Matrix ι ι K)) : Matrix ι ι K := o.getD 0

end IFEM.Spec
