import Mathlib.Analysis.Calculus.Deriv.Basic
import Mathlib.Analysis.Calculus.Deriv.Inv

/-!
# Specification: spherical Bessel functions

Rayleigh's formulas (Abramowitz & Stegun 10.1.25-26), for real or complex arguments; `s` and `c` are the sine and the
cosine on that field.
-/
namespace Verif.Bessel

variable {𝕜 : Type} [NontriviallyNormedField 𝕜]

/-- the operator `(1/z) d/dz` -/
noncomputable def L (f : 𝕜 → 𝕜) : 𝕜 → 𝕜 := fun z => deriv f z / z

/-- `f_n(z) = (-z)^n ((1/z) d/dz)^n f_0(z)` -/
noncomputable def rayleigh (f : 𝕜 → 𝕜) (n : Nat) (z : 𝕜) : 𝕜 := (-z) ^ n * (L^[n] f) z

/-- spherical Bessel function of the first kind, from `j_0 = sin z / z` -/
noncomputable def sphJ (s : 𝕜 → 𝕜) (n : Nat) : 𝕜 → 𝕜 := rayleigh (fun z => s z / z) n

/-- spherical Bessel function of the second kind, from `y_0 = -cos z / z` -/
noncomputable def sphY (c : 𝕜 → 𝕜) (n : Nat) : 𝕜 → 𝕜 := rayleigh (fun z => -c z / z) n

end Verif.Bessel
