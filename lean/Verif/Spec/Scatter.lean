import Verif.Spec.Alignment
import Verif.Spec.Legendre
import Mathlib.Analysis.Calculus.Deriv.Basic
import Mathlib.Analysis.Complex.Trigonometric
import Mathlib.Data.Fin.VecNotation

/-!
# Specification: amplitude matrix, Stokes vectors, cross sections

* `S11 .. S22` (Mishchenko 2000, eqs. 5.11-5.14): the amplitude matrix of an axisymmetric particle, as sums over all orders
  and all (positive and negative) projections. `pi`, `tau` are the angular functions `m d^n_{0m} / sin` and `d d^n_{0m} / dθ`.
* `stokes`: the Stokes vector of a wave with (vertical, horizontal) amplitudes `Ev, Eh` (Mishchenko 2000, eqs. 1.54-1.57, without
  the common constant).
-/
namespace Verif.Scatter

open Finset

/-- the angular functions for one angle, for projections of both signs: `d^n_{0,-m} = (-1)^m d^n_{0m}` -/
structure Angular where
  pi : Int → Nat → ℝ
  tau : Int → Nat → ℝ
  pi_neg : ∀ m n, pi (-m) n = -((-1) ^ m.natAbs * pi m n)
  tau_neg : ∀ m n, tau (-m) n = (-1) ^ m.natAbs * tau m n

/-- `a` are the angular functions of the angle `θ`: `m d^n_{0m}/sin` (its limit, at the poles), and the derivative -/
def Angular.IsOf (a : Angular) (θ : ℝ) : Prop :=
  ∀ m n : Nat, 1 ≤ n → m ≤ n →
    (1 ≤ m → Filter.Tendsto (fun t => m * (Legendre.wigner m n t / Real.sin t)) (nhdsWithin θ {θ}ᶜ) (nhds (a.pi m n)))
    ∧ HasDerivAt (Legendre.wigner m n) (a.tau m n) θ

noncomputable section

/-- sum over all orders and projections of `f m n n'` times `exp(i m φ)` -/
def ampSum (nmax : Nat) (φ : ℝ) (f : Int → Nat → Nat → ℂ) : ℂ :=
  ∑ m ∈ Icc (-(nmax : Int)) nmax, ∑ n' ∈ Icc (max m.natAbs 1) nmax, ∑ n ∈ Icc (max m.natAbs 1) nmax,
    f m n n' * Complex.exp (Complex.I * (m * φ))

variable (T : Nat → Nat → Int → Nat → Nat → ℂ) (α : Nat → Nat → ℂ) (o i : Angular) (k : ℝ) (nmax : Nat) (φ : ℝ)

def S11 : ℂ := 1 / k * ampSum nmax φ fun m n n' => α n n' * (T 0 n m 0 n' * o.pi m n * i.pi m n' + T 1 n m 0 n' * o.tau m n * i.pi m n'
    + T 0 n m 1 n' * o.pi m n * i.tau m n' + T 1 n m 1 n' * o.tau m n * i.tau m n')

def S12 : ℂ := 1 / (Complex.I * k) * ampSum nmax φ fun m n n' => α n n' * (T 0 n m 0 n' * o.pi m n * i.tau m n'
    + T 1 n m 0 n' * o.tau m n * i.tau m n' + T 0 n m 1 n' * o.pi m n * i.pi m n' + T 1 n m 1 n' * o.tau m n * i.pi m n')

def S21 : ℂ := Complex.I / k * ampSum nmax φ fun m n n' => α n n' * (T 0 n m 0 n' * o.tau m n * i.pi m n'
    + T 1 n m 0 n' * o.pi m n * i.pi m n' + T 0 n m 1 n' * o.tau m n * i.tau m n' + T 1 n m 1 n' * o.pi m n * i.tau m n')

def S22 : ℂ := 1 / k * ampSum nmax φ fun m n n' => α n n' * (T 0 n m 0 n' * o.tau m n * i.tau m n'
    + T 1 n m 0 n' * o.pi m n * i.tau m n' + T 0 n m 1 n' * o.tau m n * i.pi m n' + T 1 n m 1 n' * o.pi m n * i.pi m n')

/-- Stokes vector `(I, Q, U, V)` -/
def stokes (Ev Eh : ℂ) : Fin 4 → ℝ :=
  ![Complex.normSq Ev + Complex.normSq Eh, Complex.normSq Ev - Complex.normSq Eh, -2 * (Ev * star Eh).re, 2 * (Ev * star Eh).im]

end

end Verif.Scatter
