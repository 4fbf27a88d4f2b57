import Verif.Spec.Oriented

/-!
# Specification: integrals over all directions
-/
namespace Verif.Rotation

open Finset MeasureTheory

/-- integral over the unit sphere -/
noncomputable def sphere {E : Type} [NormedAddCommGroup E] [NormedSpace ℝ E] (f : ℝ → ℝ → E) : E :=
  ∫ θ in (0 : ℝ)..Real.pi, Real.sin θ • ∫ φ in (0 : ℝ)..2 * Real.pi, f θ φ

/-- the incoming waves with projection `m` never lose less energy than is scattered: the particle does not amplify (`T` is the T-matrix of the particle,
`x` are the expansion coefficients of the wave) -/
def Passive (T : Nat → Nat → Int → Nat → Nat → ℂ) (nmax : Nat) : Prop :=
  ∀ (m : Int) (x : Nat → Nat → ℂ),
    ∑ a ∈ range 2, ∑ n ∈ Icc (max m.natAbs 1) nmax, Complex.normSq (∑ b ∈ range 2, ∑ n' ∈ Icc (max m.natAbs 1) nmax, T a n m b n' * x b n')
      ≤ -(∑ a ∈ range 2, ∑ n ∈ Icc (max m.natAbs 1) nmax,
        (starRingEnd ℂ) (x a n) * ∑ b ∈ range 2, ∑ n' ∈ Icc (max m.natAbs 1) nmax, T a n m b n' * x b n').re

/-- the same with equality: all the energy the wave loses is scattered -/
def Lossless (T : Nat → Nat → Int → Nat → Nat → ℂ) (nmax : Nat) : Prop :=
  ∀ (m : Int) (x : Nat → Nat → ℂ),
    ∑ a ∈ range 2, ∑ n ∈ Icc (max m.natAbs 1) nmax, Complex.normSq (∑ b ∈ range 2, ∑ n' ∈ Icc (max m.natAbs 1) nmax, T a n m b n' * x b n')
      = -(∑ a ∈ range 2, ∑ n ∈ Icc (max m.natAbs 1) nmax,
        (starRingEnd ℂ) (x a n) * ∑ b ∈ range 2, ∑ n' ∈ Icc (max m.natAbs 1) nmax, T a n m b n' * x b n').re

end Verif.Rotation
