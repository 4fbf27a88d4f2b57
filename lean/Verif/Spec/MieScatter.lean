import Verif.Spec.Mie
import Verif.Spec.Frame
import Verif.Model.Scatter
import Mathlib.LinearAlgebra.CrossProduct

/-!
# Specification: light scattered by a sphere

Bohren & Huffman (1983), sections 4.3.1 and 4.4.4. The scattering plane contains the directions of the incoming and of the scattered light; the component of the field
perpendicular to it is multiplied with `i S₁ / k`, the component in it with `i S₂ / k` (`exp(i k r) / r` apart, with the convention of the amplitude matrix).
-/
namespace Verif.Mie

open Finset Verif.Frame

noncomputable section

/-- angular functions: `π_n = P_n'`, `τ_n = μ π_n - (1 - μ²) π_n'` (Bohren & Huffman, eqs. 4.46 with `P_n^1 = sin θ P_n'`) -/
def πn (n : Nat) (μ : ℝ) : ℝ := (Polynomial.derivative (Legendre.P n)).eval μ
def τn (n : Nat) (μ : ℝ) : ℝ := μ * πn n μ - (1 - μ ^ 2) * (Polynomial.derivative (Polynomial.derivative (Legendre.P n))).eval μ

/-- the amplitudes perpendicular to the scattering plane and in it, for the cosine `μ` of the scattering angle: the series up to order `N`
(Bohren & Huffman, eq. 4.74) -/
def S1 (m : ℂ) (x : ℝ) (N : Nat) (μ : ℝ) : ℂ := ∑ n ∈ Icc 1 N, (2 * n + 1) / (n * (n + 1)) * (a m x n * πn n μ + b m x n * τn n μ)
def S2 (m : ℂ) (x : ℝ) (N : Nat) (μ : ℝ) : ℂ := ∑ n ∈ Icc 1 N, (2 * n + 1) / (n * (n + 1)) * (a m x n * τn n μ + b m x n * πn n μ)

/-- the unit vector of a direction -/
def dirC (θ φ : ℝ) : Fin 3 → ℂ := fun c => (dir θ φ c : ℂ)

/-- cosine of the scattering angle -/
def cosAngle (θi φi θo φo : ℝ) : ℝ := dir θi φi ⬝ᵥ dir θo φo

/-- intensity of the scattered light when unpolarised light comes in -/
def phase (m : ℂ) (x : ℝ) (N : Nat) (k μ : ℝ) : ℝ := (Complex.normSq (S1 m x N μ) + Complex.normSq (S2 m x N μ)) / (2 * k ^ 2)

/-- `S` is the amplitude matrix of a sphere, from direction `(θi, φi)` to direction `(θo, φo)`: for every incoming field, the components perpendicular to the scattering
plane and in the scattering plane are multiplied with the amplitudes of Mie theory -/
def IsSphere (m : ℂ) (x : ℝ) (N : Nat) (k θi φi θo φo : ℝ) (S : Scatter.Amp) : Prop :=
  ∀ Ev Eh : ℂ,
    let E := field θi φi Ev Eh
    let F := field θo φo (S.s0 * Ev + S.s1 * Eh) (S.s2 * Ev + S.s3 * Eh)
    let w := crossProduct (dirC θi φi) (dirC θo φo)
    F ⬝ᵥ w = Complex.I / k * S1 m x N (cosAngle θi φi θo φo) * (E ⬝ᵥ w)
      ∧ F ⬝ᵥ crossProduct w (dirC θo φo) = Complex.I / k * S2 m x N (cosAngle θi φi θo φo) * (E ⬝ᵥ crossProduct w (dirC θi φi))

end

end Verif.Mie
