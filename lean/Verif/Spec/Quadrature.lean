import Mathlib.MeasureTheory.Integral.IntervalIntegral.Basic

/-!
# What a numerical integration over a patch is expected to give
-/
namespace IFEM.Spec
open MeasureTheory

/-- `rd` rounds its argument with a relative error of at most `2^-53` (conversion of a decimal literal to `double`). -/
def Rounds (rd : ℚ → ℝ) : Prop := ∀ q : ℚ, |rd q - q| ≤ 1/2^53 * |(q : ℝ)|

/-- `x`, `w` are the coordinates and weights of an `n`-point rule on `[-1,1]`, with all points inside of the interval and positive weights, which integrates the monomials
of degree `0, ..., 2n-1` with an error of at most `δ` times the length of the interval. -/
structure GaussRule (n : Nat) (δ : ℝ) (x w : List ℝ) : Prop where
  points : x.length = n
  weights : w.length = n
  inside : ∀ i, i < n → -1 < x.getD i 0 ∧ x.getD i 0 < 1
  increasing : ∀ i j, i < j → j < n → x.getD i 0 < x.getD j 0
  positive : ∀ i, i < n → 0 < w.getD i 0
  exact : ∀ k, k < 2*n → |(∑ i ∈ Finset.range n, w.getD i 0 * x.getD i 0 ^ k) - ∫ s in (-1 : ℝ)..1, s^k| ≤ δ*2

/-- `f` is a polynomial of degree less than `N` on the open interval from `a` to `b`, and its coefficients satisfy `∑ |c k| R^k ≤ M` (so that `|f| ≤ M` there if
`[a,b]` is inside of `[-R,R]`). -/
def PolyOn1 (N : Nat) (R M : ℝ) (f : ℝ → ℝ) (a b : ℝ) : Prop :=
  ∃ c : Nat → ℝ, (∀ u, a < u → u < b → f u = ∑ k ∈ Finset.range N, c k * u^k) ∧ (∑ k ∈ Finset.range N, |c k| * R^k) ≤ M

/-- The same for a function of two parameters, polynomial of degree less than `N1` and `N2` in each of them on the open rectangle. -/
def PolyOn2 (N1 N2 : Nat) (R M : ℝ) (f : ℝ → ℝ → ℝ) (a b a' b' : ℝ) : Prop :=
  ∃ c : Nat → Nat → ℝ, (∀ u v, a < u → u < b → a' < v → v < b' → f u v = ∑ k ∈ Finset.range N1, ∑ l ∈ Finset.range N2, c k l * (u^k * v^l)) ∧
    (∑ k ∈ Finset.range N1, ∑ l ∈ Finset.range N2, |c k l| * (R^k * R^l)) ≤ M

/-- The same for a function of three parameters. -/
def PolyOn3 (N1 N2 N3 : Nat) (R M : ℝ) (f : ℝ → ℝ → ℝ → ℝ) (a b a' b' a'' b'' : ℝ) : Prop :=
  ∃ c : Nat → Nat → Nat → ℝ, (∀ u v w, a < u → u < b → a' < v → v < b' → a'' < w → w < b'' →
      f u v w = ∑ k ∈ Finset.range N1, ∑ l ∈ Finset.range N2, ∑ m ∈ Finset.range N3, c k l m * (u^k * v^l * w^m)) ∧
    (∑ k ∈ Finset.range N1, ∑ l ∈ Finset.range N2, ∑ m ∈ Finset.range N3, |c k l m| * (R^k * R^l * R^m)) ≤ M

end IFEM.Spec
