import Mathlib.MeasureTheory.Integral.IntervalIntegral.Basic
import Mathlib.Analysis.SpecialFunctions.Trigonometric.Basic

/-!
# Volume and surface of a spheroid

The spheroid with horizontal semi-axis `a` and vertical semi-axis `b` is the solid of revolution around the vertical axis that
belongs to the curve `ρ t = a sin t`, `z t = b cos t`, `0 ≤ t ≤ π`.
-/
namespace Verif.Spheroid

/-- volume: discs of radius `ρ t` and thickness `|z' t| dt` -/
noncomputable def volume (a b : ℝ) : ℝ := ∫ t in (0 : ℝ)..Real.pi, Real.pi * (a * Real.sin t) ^ 2 * (b * Real.sin t)

/-- surface: rings of radius `ρ t` and width `√(ρ' t ² + z' t ²) dt` -/
noncomputable def surface (a b : ℝ) : ℝ :=
  ∫ t in (0 : ℝ)..Real.pi, 2 * Real.pi * (a * Real.sin t) * Real.sqrt ((a * Real.cos t) ^ 2 + (b * Real.sin t) ^ 2)

/-- `R` is the radius of the sphere with that volume -/
def EqualVolume (a b R : ℝ) : Prop := 0 < R ∧ 4 / 3 * Real.pi * R ^ 3 = volume a b

/-- `R` is the radius of the sphere with that surface -/
def EqualSurface (a b R : ℝ) : Prop := 0 < R ∧ 4 * Real.pi * R ^ 2 = surface a b

end Verif.Spheroid
