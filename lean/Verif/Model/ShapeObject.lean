import Verif.Model.Shape
import Verif.Model.GetTable

/-!
# The shape distributions of the Python module (src/PyShapeDistribution.hpp, src/SingleShapeShapeDistribution.hpp, src/DraineHensleyShapeDistribution.hpp)

Numbers are exact.  `gl n` are the points and weights of the quadrature rule with `n` points between -1 and 1 (`get_gauss_legendre_points_and_weights`, `Model.Special`).
-/
namespace Verif.ShapeObject

open Verif.GetTable (Shapes unsigned32)
open Verif.Shape (density limits fracLimits)

set_option autoImplicit false

noncomputable section

/-- a shape distribution: the limits (`get_minimum_axis_ratio`, `get_maximum_axis_ratio`), and the shapes with their weights (ShapeDistribution.hpp:75-79, 113-137) -/
structure Object where
  minimum : ℝ
  maximum : ℝ
  shapes : Shapes


/-- `SingleShapeShapeDistribution` (SingleShapeShapeDistribution.hpp:42-77), created by `init` (PyShapeDistribution.hpp:138-172) -/
def single (axisRatio : ℝ) : Object := ⟨axisRatio, axisRatio, 1, fun _ => axisRatio, fun _ => 1⟩

/-- `evaluate` (ShapeDistribution.hpp:95-107) with the rule mapped to the interval between the limits (SpecialFunctions.hpp:737-753) -/
def evaluated (rule : (Nat → ℝ) × (Nat → ℝ)) (npoints : Nat) (p : ℝ → ℝ) (a b : ℝ) : Shapes where
  number := npoints
  ratio i := 1 / 2 * (b - a) * rule.1 i + 1 / 2 * (a + b)
  weight i := rule.2 i * (1 / 2 * (b - a)) * p (1 / 2 * (b - a) * rule.1 i + 1 / 2 * (a + b))

/-- the constructor (DraineHensleyShapeDistribution.hpp:229-383); `I a b` is the value of the adaptive quadrature of the density between `a` and `b` (C70); `steps` bounds the
number of iterations of every loop, `none`: it was not sufficient -/
def draineHensley (gl : Nat → (Nat → ℝ) × (Nat → ℝ)) (I : ℝ → ℝ → ℝ) (npoints : Nat) (cutoff fraction : ℝ) (steps : Nat) : Option Object := do
  let l ← if fraction > 0 then fracLimits I fraction steps else limits density cutoff steps
  some ⟨l.1, l.2, evaluated (gl npoints) npoints (density l.1 l.2) l.1 l.2⟩

/-- `DraineHensleyShapeDistribution(npoints, cutoff, fraction)`: all arguments are optional, `npoints` is an `unsigned int` without a check for overflow
(PyShapeDistribution.hpp:228-272) -/
def pyDraineHensley (gl : Nat → (Nat → ℝ) × (Nat → ℝ)) (I : ℝ → ℝ → ℝ) (npoints : Option Int) (cutoff fraction : Option ℝ) (steps : Nat) : Option Object :=
  draineHensley gl I (unsigned32 20 npoints) (cutoff.getD (15 / 100)) (fraction.getD (-1)) steps

/-- `get_limits` (PyShapeDistribution.hpp:104-113) -/
def getLimits (o : Object) : ℝ × ℝ := (o.minimum, o.maximum)

end

end Verif.ShapeObject
