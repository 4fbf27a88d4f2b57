import Mathlib.Algebra.Polynomial.Derivative
import Mathlib.Algebra.Polynomial.AlgebraMap
import Mathlib.Analysis.SpecialFunctions.Trigonometric.Basic
import Mathlib.Analysis.SpecialFunctions.Sqrt

/-!
# Specification: Legendre polynomials and Wigner functions

Independent of the recursions the code uses: Rodrigues' formula.
-/
namespace Verif.Legendre

open Polynomial

/-- Legendre polynomial, by Rodrigues' formula -/
noncomputable def P (n : Nat) : ℝ[X] := C (1 / (2 ^ n * n.factorial : ℝ)) * derivative^[n] ((X ^ 2 - 1) ^ n)

/-- `d^m P_n / dx^m` -/
noncomputable def G (m n : Nat) : ℝ[X] := derivative^[m] (P n)

/-- Wigner function `d^n_{0m}(θ)` for `m ≤ n` (Mishchenko 2002, appendix B):
`sqrt((n-m)!/(n+m)!) sin(θ)^m (d^m P_n/dx^m)(cos θ)`; zero for `n < m` -/
noncomputable def wigner (m n : Nat) (θ : ℝ) : ℝ :=
  if m ≤ n then
    Real.sqrt ((n - m).factorial / (n + m).factorial) * Real.sin θ ^ m * (G m n).eval (Real.cos θ)
  else 0

end Verif.Legendre
