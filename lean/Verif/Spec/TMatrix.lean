import Mathlib.Algebra.BigOperators.Intervals
import Mathlib.LinearAlgebra.Matrix.Determinant.Basic
import Mathlib.Algebra.Field.Basic

/-!
# Specification: extended boundary condition method

Mishchenko, Travis & Lacis (2002), section 5.8: the transition matrix of a rotationally symmetric particle is
`T = -Rg Q · Q⁻¹`, where the elements of `Q` are integrals over the surface of vector products of vector spherical wave
functions. Here the integral over the polar angle is a quadrature formula with `npts` points; the common factor of all
elements (`-i k` and the integral over the azimuth) is left out, because it cancels.
-/
namespace Verif.TMatrix.Spec

open Finset

/-- a vector in the basis `e_r`, `e_θ`, `e_φ` -/
structure Vec (K : Type) where
  r : K
  θ : K
  φ : K

variable {K : Type} [Field K]

def cross (a b : Vec K) : Vec K := ⟨a.θ * b.φ - a.φ * b.θ, a.φ * b.r - a.r * b.φ, a.r * b.θ - a.θ * b.r⟩

def dot (a b : Vec K) : K := a.r * b.r + a.θ * b.θ + a.φ * b.φ

/-- what is needed at one point of the surface to evaluate the wave functions of order `n` and degree `m` -/
structure Surface (K : Type) where
  /-- weight of the quadrature point (for an integral over the cosine of the polar angle) -/
  weight : Nat → K
  /-- `1 / sin θ` -/
  sinInv : Nat → K
  /-- radius squared -/
  r2 : Nat → K
  /-- `r'(θ) / r(θ)` -/
  slope : Nat → K
  /-- Wigner function `d^n_{0m}(θ)` and its derivative with respect to `θ` -/
  d : Nat → Nat → Nat → K
  τ : Nat → Nat → Nat → K

/-- a radial function of order `n` at the points of the surface: `z_n(x)`, `[x z_n(x)]'/x` and `1/x` -/
structure Radial (K : Type) where
  z : Nat → Nat → K
  dz : Nat → Nat → K
  xinv : Nat → K

variable (im : K) (S : Surface K)

/-- `π_{mn} = m d^n_{0m} / sin θ` for the degree `±m` (`sgn = ±1`; the factor `(-1)^m` for `-m` is left out: it is the
factor `(-1)^m` in front of the integrals) -/
def πf (sgn : K) (m ig n : Nat) : K := sgn * (m : K) * S.d m ig n * S.sinInv ig

/-- `M_{±m n}` at azimuth 0, without the normalisation -/
def waveM (sgn : K) (Z : Radial K) (m ig n : Nat) : Vec K :=
  ⟨0, Z.z ig n * (im * πf S sgn m ig n), -(Z.z ig n * S.τ m ig n)⟩

/-- `N_{±m n}` at azimuth 0, without the normalisation -/
def waveN (sgn : K) (Z : Radial K) (m ig n : Nat) : Vec K :=
  ⟨(n : K) * ((n : K) + 1) * (Z.z ig n * Z.xinv ig) * S.d m ig n, Z.dz ig n * S.τ m ig n,
    Z.dz ig n * (im * πf S sgn m ig n)⟩

/-- the normal of the surface, times `r²`: `dS = r² sin θ (e_r - (r'/r) e_θ) dθ dφ` -/
def normal (ig : Nat) : Vec K := ⟨S.r2 ig, -(S.r2 ig * S.slope ig), 0⟩

/-- the two kinds of wave functions, `0`: `M`, otherwise `N` -/
def wave (kind : Nat) (sgn : K) (Z : Radial K) (m ig n : Nat) : Vec K :=
  if kind = 0 then waveM im S sgn Z m ig n else waveN im S sgn Z m ig n

/-- surface integral of `n · (X_{-m n} × Y_{m n'})`; `X` of kind `κ` with radial function `Z`, `Y` of kind `κ'` with
radial function `Z'`; `γ` is the normalisation of the pair -/
def J (npts : Nat) (γ : Nat → Nat → K) (Z Z' : Radial K) (κ κ' m n n' : Nat) : K :=
  ∑ ig ∈ range npts, S.weight ig * γ n n'
    * dot (normal S ig) (cross (wave im S κ (-1) Z m ig n) (wave im S κ' 1 Z' m ig n'))

/-- element of `Q` (of `Rg Q` when `Z` is the regular radial function): `a = k m_r · k`, `b = k²` -/
def Q (npts : Nat) (γ : Nat → Nat → K) (a b : K) (Z Z' : Radial K) (m i n i' n' : Nat) : K :=
  let J := fun κ κ' => J im S npts γ Z Z' κ κ' m n n'
  if i = 0 ∧ i' = 0 then a * J 0 1 + b * J 1 0
  else if i = 0 then a * J 0 0 + b * J 1 1
  else if i' = 0 then a * J 1 1 + b * J 0 0
  else a * J 1 0 + b * J 0 1

/-- all elements for one degree `m`: the orders are `max 1 m, ..., nmax`; rows and columns are numbered by the pair
(block, order) -/
def QMatrix (npts : Nat) (γ : Nat → Nat → K) (a b : K) (Z Z' : Radial K) (m nmax : Nat) :
    Matrix (Fin 2 × Fin (nmax + 1 - max 1 m)) (Fin 2 × Fin (nmax + 1 - max 1 m)) K :=
  fun x y => Q im S npts γ a b Z Z' m x.1 (max 1 m + x.2) y.1 (max 1 m + y.2)

/-- `T` (as a function of block and order of row and column) is the transition matrix for degree `m`:
`T · Q = -Rg Q`; `h` is the outgoing radial function, `j` the regular one, `j'` the regular one inside the particle -/
def IsTransition (npts : Nat) (γ : Nat → Nat → K) (a b : K) (h j j' : Radial K) (m nmax : Nat)
    (T : Nat → Nat → Nat → Nat → K) : Prop :=
  ∀ i n i' n', i < 2 → i' < 2 → max 1 m ≤ n → n ≤ nmax → max 1 m ≤ n' → n' ≤ nmax →
    ∑ i'' ∈ range 2, ∑ n'' ∈ Ico (max 1 m) (nmax + 1),
      T i n i'' n'' * Q im S npts γ a b h j' m i'' n'' i' n' = -Q im S npts γ a b j j' m i n i' n'

/-- the surface has a mirror plane, and the quadrature points are symmetric: the mirror image of point `ig` is
`npts - 1 - ig` -/
structure Mirror (npts : Nat) (Z : List (Radial K)) : Prop where
  weight : ∀ ig < npts, S.weight (npts - 1 - ig) = S.weight ig
  sinInv : ∀ ig < npts, S.sinInv (npts - 1 - ig) = S.sinInv ig
  r2 : ∀ ig < npts, S.r2 (npts - 1 - ig) = S.r2 ig
  slope : ∀ ig < npts, S.slope (npts - 1 - ig) = -S.slope ig
  d : ∀ ig < npts, ∀ m n, m ≤ n → 1 ≤ n → S.d m (npts - 1 - ig) n = (-1) ^ (n + m) * S.d m ig n
  τ : ∀ ig < npts, ∀ m n, m ≤ n → 1 ≤ n → S.τ m (npts - 1 - ig) n = -(-1) ^ (n + m) * S.τ m ig n
  z : ∀ Y ∈ Z, ∀ ig < npts, ∀ n, 1 ≤ n → Y.z (npts - 1 - ig) n = Y.z ig n
  dz : ∀ Y ∈ Z, ∀ ig < npts, ∀ n, 1 ≤ n → Y.dz (npts - 1 - ig) n = Y.dz ig n
  xinv : ∀ Y ∈ Z, ∀ ig < npts, Y.xinv (npts - 1 - ig) = Y.xinv ig

end Verif.TMatrix.Spec
