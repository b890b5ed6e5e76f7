import Verif.Model.Immersed
import Mathlib.Algebra.Polynomial.Derivative

/-!
# Specification: integration over elements that are cut by a geometry (C80)
-/
namespace IFEM.Immersed.Spec
variable {K : Type} [Field K]

/-- The point of the element at `(ξ, η)` of the bi-unit square: bilinear interpolation of the corners `X1` at `(-1,-1)`, `X2` at `(1,-1)`, `X3` at `(1,1)` and `X4` at `(-1,1)`. -/
def image (E : Elm K) (ξ η : K) : Pt K := fun k =>
  ((1-ξ)*(1-η)*E.X1 k + (1+ξ)*(1-η)*E.X2 k + (1+ξ)*(1+η)*E.X3 k + (1-ξ)*(1+η)*E.X4 k)/4

/-- Half the side of a cell after `d` divisions. -/
def half (K : Type) [Field K] (d : Nat) : K := 1/2^d

/-- The mean lengths of the edges in the two directions, and the extents of the parameters. -/
def lenX (E : Elm K) : K := (E.hypot (E.X2 0 - E.X1 0) (E.X2 1 - E.X1 1) + E.hypot (E.X3 0 - E.X4 0) (E.X3 1 - E.X4 1))/2
def lenY (E : Elm K) : K := (E.hypot (E.X4 0 - E.X1 0) (E.X4 1 - E.X1 1) + E.hypot (E.X3 0 - E.X2 0) (E.X3 1 - E.X2 1))/2

/-- The offset of a test point from the corner of a cell: a thousandth of the size of the cell, in the directions of the axes. -/
def inset (E : Elm K) (d : Nat) (sx sy : K) : Pt K :=
  ![sx*(half K d*lenX E/1000), sy*(half K d*lenY E/1000), 0, sx*(half K d*(E.X2 3 - E.X1 3)/1000), sy*(half K d*(E.X4 4 - E.X1 4)/1000)]

/-- The value of the inside-outside test near the corner `(sx, sy)` of the cell with the centre `(ξ, η)`. -/
def near (E : Elm K) (d : Nat) (ξ η sx sy : K) : K := E.alpha (image E (ξ + sx*half K d) (η + sy*half K d) + inset E d (-sx) (-sy))

/-- The cell is cut: the test does not give the same value near all four corners. -/
def Cut (E : Elm K) (d : Nat) (ξ η : K) : Prop :=
  ¬ (near E d ξ η (-1) (-1) = near E d ξ η 1 (-1) ∧ near E d ξ η (-1) (-1) = near E d ξ η 1 1 ∧ near E d ξ η (-1) (-1) = near E d ξ η (-1) 1)

open Classical in
/-- The cells `(depth, ξ, η)` of the quadtree below the cell `(d, ξ, η)`: cells that are cut are divided in four, at most `n` times. -/
noncomputable def leaves (E : Elm K) : Nat → Nat → K → K → List (Nat × K × K)
  | 0, d, ξ, η => [(d, ξ, η)]
  | n+1, d, ξ, η =>
    if Cut E d ξ η then
      leaves E n (d+1) (ξ - half K (d+1)) (η - half K (d+1)) ++ leaves E n (d+1) (ξ + half K (d+1)) (η - half K (d+1)) ++
      leaves E n (d+1) (ξ + half K (d+1)) (η + half K (d+1)) ++ leaves E n (d+1) (ξ - half K (d+1)) (η + half K (d+1))
    else [(d, ξ, η)]

/-- The Gauss points of a cell: the rule scaled to the cell. -/
def scaled (rule : List (K × K)) (c : Nat × K × K) : List (Gp K) :=
  rule.flatMap fun gj => rule.map fun gi => (c.2.1 + half K c.1*gi.1, c.2.2 + half K c.1*gj.1, half K c.1^2*(gi.2*gj.2))

/-- The Gauss points of the quadtree of the element. -/
noncomputable def allPoints (E : Elm K) (rule : List (K × K)) (maxDepth : Nat) : List (Gp K) := (leaves E maxDepth 0 0 0).flatMap (scaled rule)

open Polynomial in
/-- The rule integrates polynomials up to degree `N` over `[-1,1]` exactly. -/
def Exact (rule : List (K × K)) (N : Nat) : Prop := ∀ P : K[X], P.natDegree ≤ N+1 → (rule.map fun g => g.2*(derivative P).eval g.1).sum = P.eval 1 - P.eval (-1)

/-- A sum over integration points. -/
def total (l : List (Gp K)) (f : K → K → K) : K := (l.map fun g => g.2.2*f g.1 g.2.1).sum

/-- The squared distance of two points in the plane. -/
def dist2 (x y x' y' : K) : K := (x-x')^2 + (y-y')^2

/-- The closed hole: the points within the distance `R` from the centre, or from the line between the two centres. -/
def InHole [LinearOrder K] (x y : K) : Hole K → Prop
  | .circle R xc yc => dist2 x y xc yc ≤ R^2
  | .oval R x0 y0 x1 y1 => ∃ s : K, 0 ≤ s ∧ s ≤ 1 ∧ dist2 x y ((1-s)*x0 + s*x1) ((1-s)*y0 + s*y1) ≤ R^2

/-- The radius of a hole. -/
def radius : Hole K → K
  | .circle R _ _ => R
  | .oval R _ _ _ _ => R

end IFEM.Immersed.Spec
