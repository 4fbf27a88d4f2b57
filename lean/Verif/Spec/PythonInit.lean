import Verif.Spec.Legendre
import Mathlib.MeasureTheory.Integral.Bochner.Basic
import Mathlib.Analysis.SpecialFunctions.Trigonometric.Basic

/-!
# Distributions of the angle between the axis of a grain and the vertical axis
-/
namespace Verif.Python

open MeasureTheory

/-- a probability distribution of angles -/
structure AngleDist (μ : Measure ℝ) : Prop where
  prob : IsProbabilityMeasure μ
  range : μ (Set.Icc 0 Real.pi)ᶜ = 0

/-- the average of `cos²` over a distribution of angles -/
noncomputable def meanCos2 (μ : Measure ℝ) : ℝ := ∫ β, Real.cos β ^ 2 ∂μ

/-- `p` are the expansion coefficients of the distribution, up to order `N` (Mishchenko 1991, eq. 3.9: averages of Legendre polynomials) -/
def Expands (μ : Measure ℝ) (p : Nat → ℝ) (N : Nat) : Prop := ∀ n ≤ N, p n = ∫ β, (Legendre.P n).eval (Real.cos β) ∂μ

end Verif.Python
