import Verif.Spec.Scatter
import Mathlib.Analysis.SpecialFunctions.Trigonometric.Basic
import Mathlib.LinearAlgebra.Matrix.Notation

/-!
# Specification: directions, transverse fields and the reference frame of a particle
-/
namespace Verif.Frame

/-- unit vector in the direction with polar angle `θ` and azimuth `φ` -/
noncomputable def dir (θ φ : ℝ) : Fin 3 → ℝ := ![Real.sin θ * Real.cos φ, Real.sin θ * Real.sin φ, Real.cos θ]

/-- unit vector of increasing polar angle -/
noncomputable def eTheta (θ φ : ℝ) : Fin 3 → ℝ := ![Real.cos θ * Real.cos φ, Real.cos θ * Real.sin φ, -Real.sin θ]

/-- unit vector of increasing azimuth -/
noncomputable def ePhi (φ : ℝ) : Fin 3 → ℝ := ![-Real.sin φ, Real.cos φ, 0]

/-- coordinates with respect to axes turned by the angle `a` around the third axis -/
noncomputable def aboutZ (a : ℝ) : Matrix (Fin 3) (Fin 3) ℝ := !![Real.cos a, Real.sin a, 0; -Real.sin a, Real.cos a, 0; 0, 0, 1]

/-- coordinates with respect to axes turned by the angle `b` around the second axis -/
noncomputable def aboutY (b : ℝ) : Matrix (Fin 3) (Fin 3) ℝ := !![Real.cos b, 0, -Real.sin b; 0, 1, 0; Real.sin b, 0, Real.cos b]

/-- from coordinates in the laboratory to coordinates in the frame of the particle: turn by `α` around `z`, then by `β` around
the new `y` -/
noncomputable def rot (α β : ℝ) : Matrix (Fin 3) (Fin 3) ℝ := aboutY β * aboutZ α

/-- the same for complex vectors -/
noncomputable def rotC (α β : ℝ) : Matrix (Fin 3) (Fin 3) ℂ := (rot α β).map Complex.ofReal

/-- a transverse field with components `Ev` (polar) and `Eh` (azimuthal) of a wave in the direction `(θ, φ)` -/
noncomputable def field (θ φ : ℝ) (Ev Eh : ℂ) : Fin 3 → ℂ := fun c => Ev * (eTheta θ φ c : ℂ) + Eh * (ePhi φ c : ℂ)

end Verif.Frame
