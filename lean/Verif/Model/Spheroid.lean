import Mathlib.Analysis.SpecialFunctions.Pow.Real
import Mathlib.Analysis.SpecialFunctions.Trigonometric.Inverse

/-!
# The ratio of equivalent radii of a spheroid (src/SpecialFunctions.hpp)

Exact arithmetic.
-/
namespace Verif.Spheroid

/-- `cbrt` for arguments that are not negative -/
noncomputable def cbrt (x : ℝ) : ℝ := x ^ ((1 : ℝ) / 3)

/-- `get_equal_volume_to_equal_surface_area_sphere_ratio` (SpecialFunctions.hpp:557-583) -/
noncomputable def sphereRatio (axisRatio : ℝ) : ℝ :=
  if axisRatio > 1 then
    let axisRatio2 := axisRatio * axisRatio
    let e := Real.sqrt (1 - 1 / axisRatio2)
    let c := cbrt axisRatio2
    1 / Real.sqrt (1 / 4 * (2 * c + Real.log ((1 + e) / (1 - e)) / (e * c * c)))
  else if axisRatio < 1 then
    let c := cbrt axisRatio
    let e := Real.sqrt (1 - axisRatio * axisRatio)
    1 / Real.sqrt (1 / 2 * (c * c + Real.arcsin e / (e * c)))
  else 1

/-- `get_equal_volume_radius` (CTMModule.cpp:66-95), for two numbers as arguments -/
noncomputable def equalVolumeRadius (radius axisRatio : ℝ) : ℝ := sphereRatio axisRatio * radius

end Verif.Spheroid
