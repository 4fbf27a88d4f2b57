import Verif.Model.Content
import Verif.Spec.TMatrix
import Verif.Spec.Scatter
import Verif.Spec.Symmetry

/-!
# What the entries of a table are meant to be

The inputs of the calculation are the fields of `Problem`.  A grain is a spheroid with a given axis ratio and a given volume-equivalent radius.  Its transition
matrix for a given order is that of the extended boundary condition method (`Spec.TMatrix`) with the Gauss-Legendre points that belong to the order, and with the
spherical Bessel functions that the routines return for the order.  Orders are tried one after the other until the cross sections change by no more than the
tolerance.  The transition matrix for that order is averaged over the orientations (`Spec.Alignment`), and the amplitude matrix (`Spec.Scatter`) gives the
coefficients; these are averaged over the shapes.
-/
namespace Verif.Content

set_option autoImplicit false

open Finset Verif.Graph Verif.TMatrix.Spec

/-- spherical Bessel functions of the first kind, of the second kind, and of the first kind for complex arguments, with `[x z(x)]' / x` -/
structure Bessel where
  j : Nat → ℂ → ℂ
  dj : Nat → ℂ → ℂ
  y : Nat → ℂ → ℂ
  dy : Nat → ℂ → ℂ
  jm : Nat → ℂ → ℂ
  djm : Nat → ℂ → ℂ

/-- for the order `n` a routine returns the functions `z` and `dz`, whatever was in its arrays -/
def Returns (f : Nat → ℂ → (Nat → ℂ) × (Nat → ℂ) → (Nat → ℂ) × (Nat → ℂ)) (n : Nat) (z dz : Nat → ℂ → ℂ) : Prop :=
  ∀ x s l, 1 ≤ l → l ≤ n → (f n x s).1 (l - 1) = z l x ∧ (f n x s).2 (l - 1) = dz l x

noncomputable section

/-- distance from the centre to the surface of the spheroid with the volume of the unit sphere and semi-axes `a` (twice) and `a / d` (axis of symmetry) -/
def spheroid (d θ : ℝ) : ℝ := d ^ (1 / 3 : ℝ) / Real.sqrt (Real.sin θ ^ 2 + d ^ 2 * Real.cos θ ^ 2)

variable (H : Problem) (B : Nat → Bessel) (c : Cell)

/-- order number `g`, and half the number of quadrature points for it -/
def orderAt (g : Nat) : Nat := H.minOrder + g

def halfPts (g : Nat) : Nat := (H.minOrder + g) * H.factor

/-- polar angle of a quadrature point -/
def polar (g i : Nat) : ℝ := Real.arccos ((H.gl (2 * halfPts H g)).1 i)

/-- the surface of the spheroid, seen at the quadrature points -/
def surfaceAt (g : Nat) : Surface ℂ where
  weight i := ((H.gl (2 * halfPts H g)).2 i : ℂ)
  sinInv i := ((1 / Real.sin (polar H g i) : ℝ) : ℂ)
  r2 i := ((spheroid (H.axisRatio c.ish) (polar H g i) ^ 2 : ℝ) : ℂ)
  slope i := ((deriv (spheroid (H.axisRatio c.ish)) (polar H g i) / spheroid (H.axisRatio c.ish) (polar H g i) : ℝ) : ℂ)
  d m i n := ((Legendre.wigner m n (polar H g i) : ℝ) : ℂ)
  τ m i n := ((deriv (Legendre.wigner m n) (polar H g i) : ℝ) : ℂ)

/-- wavenumber outside -/
def waveK (p : Par) : ℝ := 2 * Real.pi / H.wavelength p

/-- size parameter at a quadrature point: distance from the centre times wavenumber -/
def xAt (g i : Nat) : ℂ := (waveK H c.par * (H.radius c.par * spheroid (H.axisRatio c.ish) (polar H g i)) : ℝ)

def outAt (g : Nat) : Radial ℂ where
  z i n := (B g).j n (xAt H c g i) + Complex.I * (B g).y n (xAt H c g i)
  dz i n := (B g).dj n (xAt H c g i) + Complex.I * (B g).dy n (xAt H c g i)
  xinv i := (xAt H c g i)⁻¹

def regAt (g : Nat) : Radial ℂ where
  z i n := (B g).j n (xAt H c g i)
  dz i n := (B g).dj n (xAt H c g i)
  xinv i := (xAt H c g i)⁻¹

def insideAt (g : Nat) : Radial ℂ where
  z i n := (B g).jm n (H.mr c.par * xAt H c g i)
  dz i n := (B g).djm n (H.mr c.par * xAt H c g i)
  xinv i := (H.mr c.par * xAt H c g i)⁻¹

/-- normalisation of a pair of wave functions -/
def norm2 (n n' : Nat) : ℝ := Real.sqrt ((2 * n + 1) * (2 * n' + 1) / (n * (n + 1) * (n' * (n' + 1))))

def γ (n n' : Nat) : ℂ := (norm2 n n' : ℂ)

/-- the factors of the two kinds of surface integrals: `k · (mr k)` and `k²` -/
def factorA (p : Par) : ℂ := waveK H p * (H.mr p * waveK H p)
def factorB (p : Par) : ℂ := (waveK H p : ℂ) ^ 2

/-- `T` is the transition matrix of order number `g` for degree `m` -/
def IsT (g m : Nat) (T : Nat → Nat → Nat → Nat → ℂ) : Prop :=
  IsTransition Complex.I (surfaceAt H c g) (2 * halfPts H g) γ (factorA H c.par) (factorB H c.par) (outAt H B c g) (regAt H B c g) (insideAt H B c g) m (orderAt H g) T

/-- ... for degree `-m` -/
def IsTNeg (g m : Nat) (T : Nat → Nat → Nat → Nat → ℂ) : Prop :=
  IsTransitionNeg Complex.I (surfaceAt H c g) (2 * halfPts H g) γ (factorA H c.par) (factorB H c.par) (outAt H B c g) (regAt H B c g) (insideAt H B c g) m
    (orderAt H g) T

/-- the linear equations for the transition matrix have one solution -/
def Solvable (g m : Nat) : Prop :=
  (QMatrix Complex.I (surfaceAt H c g) (2 * halfPts H g) γ (factorA H c.par) (factorB H c.par) (outAt H B c g) (insideAt H B c g) m (orderAt H g)).det ≠ 0

/-- cross sections (up to a constant) derived from the diagonal elements of degree 0 of a transition matrix of order `N` -/
def scatSum (N : Nat) (T : Nat → Nat → Nat → Nat → ℂ) : ℝ :=
  ∑ n ∈ Icc 1 N, (2 * (n : ℝ) + 1) * (Complex.normSq (T 0 n 0 n) + Complex.normSq (T 1 n 1 n))

def extSum (N : Nat) (T : Nat → Nat → Nat → Nat → ℂ) : ℝ := ∑ n ∈ Icc 1 N, (2 * (n : ℝ) + 1) * ((T 0 n 0 n).re + (T 1 n 1 n).re)

/-- from order `N` to order `N'` both cross sections change by no more than the tolerance (and the first one does change) -/
def Close (tol : ℝ) (N : Nat) (T : Nat → Nat → Nat → Nat → ℂ) (N' : Nat) (T' : Nat → Nat → Nat → Nat → ℂ) : Prop :=
  |(scatSum N T - scatSum N' T') / scatSum N' T'| ≤ tol ∧ |(extSum N T - extSum N' T') / extSum N' T'| ≤ tol
    ∧ |(scatSum N T - scatSum N' T') / scatSum N' T'| ≠ 0

/-- order number `g` is the one that is used: the first one that is close to the one before, or the last one -/
def IsOrder (g : Nat) : Prop :=
  g < H.P.nq ∧ ∃ t : Nat → Nat → Nat → Nat → Nat → ℂ, (∀ i ≤ g, IsT H B c i 0 (t i)) ∧
    (∀ i, 1 ≤ i → i < g → ¬ Close H.tol (orderAt H (i - 1)) (t (i - 1)) (orderAt H i) (t i)) ∧
    (g + 1 = H.P.nq ∨ 1 ≤ g ∧ Close H.tol (orderAt H (g - 1)) (t (g - 1)) (orderAt H g) (t g))

/-- `T` is the T-matrix of a grain with its axis along the direction of alignment, for all projections, with order number `g` -/
structure IsGrain (g : Nat) (T : Nat → Nat → Int → Nat → Nat → ℂ) : Prop where
  order : IsOrder H B c g
  pos : ∀ m ≤ orderAt H g, IsT H B c g m fun i n i' n' => T i n m i' n'
  neg : ∀ m ≤ orderAt H g, IsTNeg H B c g m fun i n i' n' => T i n (-m : Int) i' n'

/-- the T-matrix of the ensemble -/
def ensemble (T : Nat → Nat → Int → Nat → Nat → ℂ) : Nat → Nat → Int → Nat → Nat → ℂ :=
  if H.aligned c then Alignment.averaged (fun x : ℝ => (x : ℂ)) (H.coeff c).v T else T

/-- the phase factors of the amplitude matrix -/
def α (n n' : Nat) : ℂ := Complex.I ^ ((n' : Int) - (n : Int) - 1) * (norm2 n n' : ℂ)

/-- elements of the amplitude matrix of the ensemble with order number `g`, for the angular functions of the outgoing and the incoming direction and the
difference `φ` of the azimuths -/
def amp11 (g : Nat) (T : Nat → Nat → Int → Nat → Nat → ℂ) (o i : Scatter.Angular) (φ : ℝ) : ℂ :=
  Scatter.S11 (ensemble H c T) α o i (waveK H c.par) (orderAt H g) φ
def amp12 (g : Nat) (T : Nat → Nat → Int → Nat → Nat → ℂ) (o i : Scatter.Angular) (φ : ℝ) : ℂ :=
  Scatter.S12 (ensemble H c T) α o i (waveK H c.par) (orderAt H g) φ
def amp21 (g : Nat) (T : Nat → Nat → Int → Nat → Nat → ℂ) (o i : Scatter.Angular) (φ : ℝ) : ℂ :=
  Scatter.S21 (ensemble H c T) α o i (waveK H c.par) (orderAt H g) φ
def amp22 (g : Nat) (T : Nat → Nat → Int → Nat → Nat → ℂ) (o i : Scatter.Angular) (φ : ℝ) : ℂ :=
  Scatter.S22 (ensemble H c T) α o i (waveK H c.par) (orderAt H g) φ

/-- Stokes parameter `r` of the scattered wave when unpolarised light comes in: the mean over two perpendicular polarisations -/
def scattered (g : Nat) (T : Nat → Nat → Int → Nat → Nat → ℂ) (o i : Scatter.Angular) (φ : ℝ) (r : Fin 4) : ℝ :=
  (Scatter.stokes (amp11 H c g T o i φ) (amp21 H c g T o i φ) r + Scatter.stokes (amp12 H c g T o i φ) (amp22 H c g T o i φ) r) / 2

/-- area of the disc with the volume-equivalent radius -/
def disc (p : Par) : ℝ := Real.pi * H.radius p ^ 2

/-- average over the shapes -/
def shapeMean (f : Nat → ℝ) : ℝ := (∑ s ∈ range H.P.nshape, H.weight s * f s) / ∑ s ∈ range H.P.nshape, H.weight s

/-- the optical theorem: extinction cross section for unpolarised light, linear and circular polarisation, in units of the disc -/
def extI (g : Nat) (T : Nat → Nat → Int → Nat → Nat → ℂ) (o : Scatter.Angular) : ℝ :=
  2 * Real.pi / waveK H c.par * (amp11 H c g T o o 0 + amp22 H c g T o o 0).im / disc H c.par
def extQ (g : Nat) (T : Nat → Nat → Int → Nat → Nat → ℂ) (o : Scatter.Angular) : ℝ :=
  2 * Real.pi / waveK H c.par * (amp11 H c g T o o 0 - amp22 H c g T o o 0).im / disc H c.par
def extV (g : Nat) (T : Nat → Nat → Int → Nat → Nat → ℂ) (o : Scatter.Angular) : ℝ :=
  2 * Real.pi / waveK H c.par * (amp22 H c g T o o 0 - amp11 H c g T o o 0).re / disc H c.par

/-- polar angles of a Gauss-Legendre grid, azimuths of a Gauss-Legendre grid on the full circle with their weights -/
def gridθ (n i : Nat) : ℝ := Real.arccos ((H.gl n).1 i)
def gridφ (n i : Nat) : ℝ := Real.pi * (H.gl n).1 i + Real.pi
def gridW (n i : Nat) : ℝ := (H.gl n).2 i * Real.pi

/-- what is scattered, integrated over the directions of the absorption grid (`i j` are the angular functions of polar angle number `j`) -/
def lost (g : Nat) (T : Nat → Nat → Int → Nat → Nat → ℂ) (o : Scatter.Angular) (i : Nat → Scatter.Angular) (r : Fin 4) : ℝ :=
  ∑ j ∈ range H.ngrid, ∑ l ∈ range H.ngrid, (H.gl H.ngrid).2 j * gridW H H.ngrid l * scattered H c g T o (i j) (-gridφ H H.ngrid l) r

end

/-- The inputs make sense for the grains of composition, size and wavelength `p`. -/
structure Proper (H : Problem) (B : Nat → Bessel) (p : Par) : Prop where
  first : 1 ≤ H.minOrder
  orders : H.minOrder + H.P.nq ≤ H.P.maxOrder + 1
  /-- C32 -/
  inside : ∀ g < H.P.nq, ∀ i < 2 * halfPts H g, -1 < (H.gl (2 * halfPts H g)).1 i ∧ (H.gl (2 * halfPts H g)).1 i < 1
  points : ∀ g < H.P.nq, ∀ i < 2 * halfPts H g, (H.gl (2 * halfPts H g)).1 (2 * halfPts H g - 1 - i) = -(H.gl (2 * halfPts H g)).1 i
  weights : ∀ g < H.P.nq, ∀ i < 2 * halfPts H g, (H.gl (2 * halfPts H g)).2 (2 * halfPts H g - 1 - i) = (H.gl (2 * halfPts H g)).2 i
  ratio : ∀ s < H.P.nshape, 0 < H.axisRatio s
  shapes : ∑ s ∈ range H.P.nshape, H.weight s ≠ 0
  bessel : ∀ g < H.P.nq, Returns H.jdj (orderAt H g) (B g).j (B g).dj ∧ Returns H.ydy (orderAt H g) (B g).y (B g).dy ∧ Returns H.jdjm (orderAt H g) (B g).jm (B g).djm
  /-- the workspace of the averages over the orientations is large enough for the order that is used (C61), and there are enough expansion coefficients -/
  workspace : ∀ s < H.P.nshape, H.aligned ⟨p, s⟩ = true → ∀ g, IsOrder H B ⟨p, s⟩ g →
    (2 * orderAt H g + 1) * (2 * orderAt H g + 1) ≤ (H.P.maxOrder + 1) * (2 * H.P.maxOrder + 1) ∧ ((2 * orderAt H g : Nat) : Int) < (H.coeff ⟨p, s⟩).size
  solvable : ∀ s < H.P.nshape, ∀ g < H.P.nq, ∀ m ≤ orderAt H g, Solvable H B ⟨p, s⟩ g m

/-- T-matrices of the grains of all shapes, and the numbers of the orders that are used -/
def Grains (H : Problem) (B : Nat → Bessel) (p : Par) (g : Nat → Nat) (T : Nat → Nat → Nat → Int → Nat → Nat → ℂ) : Prop :=
  ∀ s < H.P.nshape, IsGrain H B ⟨p, s⟩ (g s) (T s)

/-- `E` are the extinction coefficients of the grains, averaged over the shapes -/
def IsExtinction (H : Problem) (p : Par) (g : Nat → Nat) (T : Nat → Nat → Nat → Int → Nat → Nat → ℂ) (E : Interp.ExtRes ℝ) : Prop :=
  ∀ it < H.ntheta, ∀ o : Scatter.Angular, o.IsOf (H.theta it) →
    E.Qext it = shapeMean H (fun s => extI H ⟨p, s⟩ (g s) (T s) o) ∧ E.Qextpol it = shapeMean H (fun s => extQ H ⟨p, s⟩ (g s) (T s) o)
      ∧ E.Qextcpol it = shapeMean H (fun s => extV H ⟨p, s⟩ (g s) (T s) o)

/-- `A` are the absorption coefficients: what is extinguished, without what is scattered if that is to be accounted for -/
def IsAbsorption (H : Problem) (p : Par) (g : Nat → Nat) (T : Nat → Nat → Nat → Int → Nat → Nat → ℂ) (A : Interp.AbsRes ℝ) : Prop :=
  ∀ it < H.ntheta, ∀ o : Scatter.Angular, o.IsOf (H.theta it) → ∀ i : Nat → Scatter.Angular, (∀ j < H.ngrid, (i j).IsOf (gridθ H H.ngrid j)) →
    A.Qabs it = shapeMean H (fun s => extI H ⟨p, s⟩ (g s) (T s) o - if H.accountForScattering then lost H ⟨p, s⟩ (g s) (T s) o i 0 / disc H p else 0)
      ∧ A.Qabspol it = shapeMean H (fun s => extQ H ⟨p, s⟩ (g s) (T s) o - if H.accountForScattering then lost H ⟨p, s⟩ (g s) (T s) o i 1 / disc H p else 0)

/-- `Z` are scattering matrices: they transform the Stokes vector of the incoming light, which comes at an angle `π / 2`, to that of the scattered light -/
def IsScattering (H : Problem) (p : Par) (g : Nat → Nat) (T : Nat → Nat → Nat → Int → Nat → Nat → ℂ) (Z : Nat → Nat → Nat → ℝ) : Prop :=
  ∀ it < H.ntheta, ∀ ip < 2 * H.ntheta, ∀ o i : Scatter.Angular, o.IsOf (gridθ H H.ntheta it) → i.IsOf (Real.pi / 2) → ∀ (Ev Eh : ℂ) (r : Fin 4),
    ∑ k : Fin 4, Z (it * (2 * H.ntheta) + ip) r k * Scatter.stokes Ev Eh k
      = shapeMean H fun s => Scatter.stokes
        (amp11 H ⟨p, s⟩ (g s) (T s) o i (gridφ H (2 * H.ntheta) ip) * Ev + amp12 H ⟨p, s⟩ (g s) (T s) o i (gridφ H (2 * H.ntheta) ip) * Eh)
        (amp21 H ⟨p, s⟩ (g s) (T s) o i (gridφ H (2 * H.ntheta) ip) * Ev + amp22 H ⟨p, s⟩ (g s) (T s) o i (gridφ H (2 * H.ntheta) ip) * Eh) r

end Verif.Content
