import Verif.Model.ShapeObject
import Verif.Spec.Refine
import Mathlib.MeasureTheory.Integral.IntervalIntegral.Basic

/-!
# Specification: means over shapes
-/
namespace Verif.ShapeObject

open Verif.GetTable (Shapes)

set_option autoImplicit false

noncomputable section

/-- a value for every shape, averaged over the shapes with their weights -/
def mean (S : Shapes) (q : ℝ → ℝ) : ℝ := (∑ i ∈ Finset.range S.number, S.weight i * q (S.ratio i)) / ∑ i ∈ Finset.range S.number, S.weight i

/-- the CDE2 density of axis ratios: `12 L (1 - L)²` in the depolarisation factor `L`, times the derivative of `L` (C68) -/
def cde2Density (d : ℝ) : ℝ := 12 * Shape.shapeFactor d * (1 - Shape.shapeFactor d) ^ 2 * Shape.jacobian d

/-- the mean over the CDE2 distribution between the limits -/
def cde2Mean (a b : ℝ) (q : ℝ → ℝ) : ℝ := (∫ d in a..b, cde2Density d * q d) / ∫ d in a..b, cde2Density d

/-- bounded on the interval, and continuous up to finitely many points -/
structure Piecewise (a b : ℝ) (q : ℝ → ℝ) : Prop where
  bounded : ∃ M, ∀ d ∈ Set.Icc a b, |q d| ≤ M
  continuous : ∃ S : Finset ℝ, ∀ d ∈ Set.Icc a b, d ∉ S → ContinuousWithinAt q (Set.Icc a b) d

end

end Verif.ShapeObject
