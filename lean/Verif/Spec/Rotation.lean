import Verif.Spec.Alignment
import Verif.Spec.PythonInit
import Mathlib.MeasureTheory.Integral.IntervalIntegral.Basic
import Mathlib.Analysis.SpecialFunctions.Complex.Circle

/-!
# Specification: rotations of the reference frame and averages over orientations
-/
namespace Verif.Rotation

open Polynomial Finset MeasureTheory
open Verif.Clebsch (fac)

/-- `(cos(β/2) X - sin(β/2))^(n+m) (sin(β/2) X + cos(β/2))^(n-m)`: what becomes of the monomial `X^(n+m)` of a homogeneous polynomial of
degree `2n` under a rotation by the angle `β` around the second axis -/
noncomputable def turned (n m : Int) (β : ℝ) : ℝ[X] :=
  (C (Real.cos (β / 2)) * X - C (Real.sin (β / 2))) ^ (n + m).toNat * (C (Real.sin (β / 2)) * X + C (Real.cos (β / 2))) ^ (n - m).toNat

/-- Wigner's function `d^n_{m m'}(β)`: the matrix of that rotation in the normalised basis; zero outside of the matrix -/
noncomputable def d (n m m' : Int) (β : ℝ) : ℝ :=
  if |m| ≤ n ∧ |m'| ≤ n then
    Real.sqrt (fac (n + m') * fac (n - m')) / Real.sqrt (fac (n + m) * fac (n - m)) * (turned n m β).coeff (n + m').toNat
  else 0

/-- Wigner's `D^n_{m m'}` for a rotation by `α` around the third axis and `β` around the new second axis -/
noncomputable def D (n m m' : Int) (α β : ℝ) : ℂ := Complex.exp (-(Complex.I * (m * α))) * d n m m' β

/-- T-matrix in the laboratory of a particle with T-matrix `T` (in its own frame, with `m' = m` only) whose axis has the polar angle `β` and the
azimuth `α` (Mishchenko 1991, eq. 3.1; 2002, eq. 5.29) -/
noncomputable def rotated (T : Nat → Nat → Int → Nat → Nat → ℂ) (α β : ℝ) (i n1 : Nat) (m : Int) (j n2 : Nat) (m' : Int) : ℂ :=
  ∑ m1 ∈ Icc (-(min n1 n2 : Int)) (min n1 n2), D n1 m m1 α β * T i n1 m1 j n2 * (starRingEnd ℂ) (D n2 m' m1 α β)

/-- average over the orientations: all azimuths are equally likely, the polar angle has the distribution `μ` -/
noncomputable def average (μ : Measure ℝ) (f : ℝ → ℝ → ℂ) : ℂ :=
  ∫ β, (1 / (2 * Real.pi) * ∫ α in (0 : ℝ)..2 * Real.pi, f α β) ∂μ

end Verif.Rotation
