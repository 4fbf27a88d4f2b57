import Verif.Spec.Rotation
import Verif.Spec.Frame
import Verif.Properties.DirectScatter

/-!
# Specification: amplitude matrix of a particle with any orientation
-/
namespace Verif.Rotation

open Finset MeasureTheory Verif.Scatter Verif.Frame
open Verif.Direct (theory alphaF)

/-- `S` is the amplitude matrix, in the laboratory, of a particle whose axis has the polar angle `β` and the azimuth `α`, from the direction `(θi, φi)` to
the direction `(θo, φo)`: turn the field to the frame of the particle, scatter it there, and turn it back. -/
def Oriented (T : Nat → Nat → Int → Nat → Nat → ℂ) (k : ℝ) (nmax : Nat) (α β θi φi θo φo : ℝ) (S : Amp) : Prop :=
  ∃ (θi' φi' θo' φo' : ℝ) (i s : Angular),
    dir θi' φi' = _root_.Matrix.mulVec (rot α β) (dir θi φi) ∧ dir θo' φo' = _root_.Matrix.mulVec (rot α β) (dir θo φo)
    ∧ i.IsOf θi' ∧ s.IsOf θo'
    ∧ ∀ Ev Eh, ∃ ev eh, _root_.Matrix.mulVec (rotC α β) (field θi φi Ev Eh) = field θi' φi' ev eh
      ∧ _root_.Matrix.mulVec (rotC α β) (field θo φo (S.s0 * Ev + S.s1 * Eh) (S.s2 * Ev + S.s3 * Eh))
        = field θo' φo' ((theory T k nmax i s (φo' - φi')).s0 * ev + (theory T k nmax i s (φo' - φi')).s1 * eh)
            ((theory T k nmax i s (φo' - φi')).s2 * ev + (theory T k nmax i s (φo' - φi')).s3 * eh)

/-- polar and azimuthal component of the vector functions: `i = 0`: `(π, i τ) exp(i m φ)`, `i = 1`: `(τ, i π) exp(i m φ)` -/
noncomputable def wave (a : Angular) (φ : ℝ) (i n : Nat) (m : Int) (c : Fin 2) : ℂ :=
  Complex.exp (Complex.I * (m * φ)) * (if i = 0 then ![(a.pi m n : ℂ), Complex.I * a.tau m n] c else ![(a.tau m n : ℂ), Complex.I * a.pi m n] c)

/-- amplitude matrix for a T-matrix with all elements (Mishchenko 2000, eqs. 5.11-5.14; 2002, eq. 5.31), component `p` of the scattered
field for component `q` of the incoming field -/
noncomputable def general (T : Nat → Nat → Int → Nat → Nat → Int → ℂ) (k : ℝ) (nmax : Nat) (s : Angular) (φo : ℝ) (i : Angular) (φi : ℝ) (p q : Fin 2) : ℂ :=
  1 / k * ∑ n ∈ Icc 1 nmax, ∑ n' ∈ Icc 1 nmax, ∑ m ∈ Icc (-(n : Int)) n, ∑ m' ∈ Icc (-(n' : Int)) n', ∑ a ∈ range 2, ∑ b ∈ range 2,
    alphaF n n' * ((-1) ^ (m + m').natAbs * T a n m b n' m') * (wave s φo a n m p * (starRingEnd ℂ) (wave i φi b n' m' q))

/-- the elements of an amplitude matrix by indices -/
def entry (S : Amp) (p q : Fin 2) : ℂ := if p = 0 then (if q = 0 then S.s0 else S.s1) else if q = 0 then S.s2 else S.s3

/-- coefficients of the Legendre series of a distribution of angles -/
noncomputable def coefficients (μ : Measure ℝ) (N : Int) : ℝ := ∫ β, (Legendre.P N.toNat).eval (Real.cos β) ∂μ

/-- average over the orientations of a real number -/
noncomputable def mean (μ : Measure ℝ) (f : ℝ → ℝ → ℝ) : ℝ := ∫ β, (1 / (2 * Real.pi) * ∫ α in (0 : ℝ)..2 * Real.pi, f α β) ∂μ

end Verif.Rotation
