import Verif.Spec.Content
import Verif.Spec.Bessel
import Verif.Spec.Refine
import Mathlib.Analysis.Complex.Trigonometric
import Mathlib.Analysis.SpecialFunctions.Trigonometric.Deriv

/-!
# Specification: scattering by a sphere (Mie theory)

Bohren & Huffman (1983), sections 4.3 and 4.4, with the sign convention `exp(-iωt)`: the coefficients of the scattered field, and the efficiencies.
-/
namespace Verif.Mie

open Finset

noncomputable section

/-- Riccati-Bessel functions `z j_n(z)`, `z y_n(z)` and `z h_n(z)` -/
def ψ (n : Nat) (z : ℂ) : ℂ := z * Bessel.sphJ Complex.sin n z
def χ (n : Nat) (z : ℂ) : ℂ := z * Bessel.sphY Complex.cos n z
def ξ (n : Nat) (z : ℂ) : ℂ := ψ n z + Complex.I * χ n z

variable (m : ℂ) (x : ℝ) (N : Nat)

/-- electric and magnetic coefficients of order `n` of a sphere with refractive index `m` and size parameter `x` (Bohren & Huffman, eq. 4.53) -/
def a (n : Nat) : ℂ := (m * ψ n (m * x) * deriv (ψ n) x - ψ n x * deriv (ψ n) (m * x)) / (m * ψ n (m * x) * deriv (ξ n) x - ξ n x * deriv (ψ n) (m * x))
def b (n : Nat) : ℂ := (ψ n (m * x) * deriv (ψ n) x - m * ψ n x * deriv (ψ n) (m * x)) / (ψ n (m * x) * deriv (ξ n) x - m * ξ n x * deriv (ψ n) (m * x))

/-- efficiencies for extinction and scattering: the series up to order `N` (Bohren & Huffman, eqs. 4.61, 4.62) -/
def Qext : ℝ := 2 / x ^ 2 * ∑ n ∈ Icc 1 N, (2 * (n : ℝ) + 1) * (a m x n + b m x n).re
def Qsca : ℝ := 2 / x ^ 2 * ∑ n ∈ Icc 1 N, (2 * (n : ℝ) + 1) * (Complex.normSq (a m x n) + Complex.normSq (b m x n))

/-- routines that return the spherical Bessel functions `z_n` and `[z z_n]' / z` -/
def exact : Content.Bessel where
  j := Bessel.sphJ Complex.sin
  dj n z := deriv (ψ n) z / z
  y := Bessel.sphY Complex.cos
  dy n z := deriv (χ n) z / z
  jm := Bessel.sphJ Complex.sin
  djm n z := deriv (ψ n) z / z

/-- size parameter of the grains -/
def size (H : Content.Problem) (p : Graph.Par) : ℝ := Content.waveK H p * H.radius p

/-- The grains of composition, size and wavelength `p` are spheres (all axis ratios are 1), of a material that does not amplify light; the quadrature formulas and the
Bessel functions are the exact ones. -/
structure Spheres (H : Content.Problem) (B : Nat → Content.Bessel) (p : Graph.Par) : Prop where
  round : ∀ s < H.P.nshape, H.axisRatio s = 1
  wavelength : 0 < H.wavelength p
  radius : 0 < H.radius p
  index : H.mr p ≠ 0
  passive : 0 ≤ (H.mr p ^ 2).im
  factor : 1 ≤ H.factor
  order : 1 ≤ H.minOrder
  gauss : ∀ g < H.P.nq, Refine.Gauss (2 * Content.halfPts H g) (H.gl (2 * Content.halfPts H g))
  bessel : ∀ g < H.P.nq, B g = exact

/-- `T` is the T-matrix of a sphere, up to order `N`: no coupling between different waves, no dependence on the projection -/
def IsMie (T : Nat → Nat → Int → Nat → Nat → ℂ) (m : ℂ) (x : ℝ) (N : Nat) : Prop :=
  ∀ (i n : Nat) (k : Int) (i' n' : Nat), i < 2 → i' < 2 → 1 ≤ n → n ≤ N → 1 ≤ n' → n' ≤ N → |k| ≤ n → |k| ≤ n' →
    T i n k i' n' = if i = i' ∧ n = n' then -(if i = 0 then b m x n else a m x n) else 0

/-- the series are cut off at order `N'`: both efficiencies change by no more than the tolerance when the terms from `N + 1` to `N'` are added (and the first one
does change) -/
def Converged (tol : ℝ) (m : ℂ) (x : ℝ) (N N' : Nat) : Prop :=
  |(Qsca m x N - Qsca m x N') / Qsca m x N'| ≤ tol ∧ |(Qext m x N - Qext m x N') / Qext m x N'| ≤ tol ∧ |(Qsca m x N - Qsca m x N') / Qsca m x N'| ≠ 0

/-- order number `g` is the one that is used: the first one for which the series have converged, or the last one -/
def IsCutOff (H : Content.Problem) (p : Graph.Par) (g : Nat) : Prop :=
  g < H.P.nq ∧ (∀ i, 1 ≤ i → i < g → ¬ Converged H.tol (H.mr p) (size H p) (Content.orderAt H (i - 1)) (Content.orderAt H i))
    ∧ (g + 1 = H.P.nq ∨ 1 ≤ g ∧ Converged H.tol (H.mr p) (size H p) (Content.orderAt H (g - 1)) (Content.orderAt H g))

end

end Verif.Mie
