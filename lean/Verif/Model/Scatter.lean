import Verif.Model.Special
import Verif.Model.WignerTable
import Verif.Model.TMatrix
import Mathlib.Analysis.Complex.Trigonometric

/-!
# Extinction, absorption and scattering: grids, Wigner tables, amplitude matrix, coefficients

`src/ExtinctionCoefficientTask.hpp`, `src/AbsorptionCoefficientTask.hpp`, `src/ScatteringMatrixTask.hpp`. Numbers are exact: real
numbers for `float_type` and complex numbers for `std::complex<float_type>`. The three tasks contain the same code three
times (Wigner tables, amplitude matrix); the line numbers of all copies are given.
-/
namespace Verif.Scatter

open Verif.Matrix (loop Mat)
open Verif.Special (Ops wignerDsinx)
open Verif.WignerTable (Tab setRow)
open Verif.TMatrix (TRes)

/-! ### angles -/

/-- `sin` from `cos` (ExtinctionCoefficientTask.hpp:220-221, AbsorptionCoefficientTask.hpp:249-250, 269-270,
ScatteringMatrixTask.hpp:164, 240-241) -/
def sinOf {K : Type} [Field K] (o : Ops K) (c : K) : K := o.sqrt ((1 - c) * (1 + c))

/-- its inverse (ExtinctionCoefficientTask.hpp:222-226, AbsorptionCoefficientTask.hpp:251-257, 271-276,
ScatteringMatrixTask.hpp:165-166, 242-246) -/
def invOf {K : Type} [Field K] [DecidableEq K] (s : K) : K := if s ≠ 0 then 1 / s else 9000

/-! ### Wigner tables -/

/-- index of the table for order `n` and degree `m` (ExtinctionCoefficientTask.hpp:342, 375, 405,
AbsorptionCoefficientTask.hpp:410, 425, 460, 493, ScatteringMatrixTask.hpp:388, 440, 473) -/
def tri (n m : Nat) : Nat := (2 + n) * (n - 1) / 2 + m

/-- `number_of_elements` (ExtinctionCoefficientTask.hpp:269, AbsorptionCoefficientTask.hpp:328, ScatteringMatrixTask.hpp:310) -/
def triSize (nmax : Nat) : Nat := (2 + nmax + 1) * nmax / 2

/-- the shapes (rows, columns) of the matrices in the order of the `push_back`s (ExtinctionCoefficientTask.hpp:273-280,
AbsorptionCoefficientTask.hpp:334-345, ScatteringMatrixTask.hpp:316-326) -/
def shapes (rows nmax : Nat) : List (Nat × Nat) :=
  loop 1 (nmax + 1) (fun n l => loop 0 (n + 1) (fun _ l => l ++ [(rows, n)]) l) []

section

variable {K : Type} [Field K] [LinearOrder K] (o : Ops K)

/-- a grid of angles: cosine, sine, inverse sine, number of angles -/
structure Angles (K : Type) where
  c : Nat → K
  s : Nat → K
  inv : Nat → K
  n : Nat

/-- one row of both tables (ExtinctionCoefficientTask.hpp:342-354) -/
def rowStep (g : Angles K) (n m it : Nat) (t : Tab K) : Tab K :=
  let index := tri n m
  let r := wignerDsinx o (g.c it) (g.s it) (g.inv it) n m (t.w index it, t.dw index it)
  ⟨setRow t.w index it r.1, setRow t.dw index it r.2⟩

/-- `execute` of the Wigner resources for one grid (ExtinctionCoefficientTask.hpp:336-359, AbsorptionCoefficientTask.hpp:403-441,
ScatteringMatrixTask.hpp:383-421; the last two fill the tables of two grids, which are independent, in one pass) -/
def fill (g : Angles K) (nmax : Nat) (t : Tab K) : Tab K :=
  loop 1 (nmax + 1) (fun n t => loop 0 (n + 1) (fun m t => loop 0 g.n (fun it t => rowStep o g n m it t) t) t) t

/-- `get_wigner_d_sinx` (ExtinctionCoefficientTask.hpp:369-390, AbsorptionCoefficientTask.hpp:453-474, ScatteringMatrixTask.hpp:433-454) -/
def getD (t : Tab K) (m it n nmax : Nat) : K := t.w (tri nmax m) it (n - 1)

/-- `get_dwigner_d` (ExtinctionCoefficientTask.hpp:399-416, AbsorptionCoefficientTask.hpp:486-502, ScatteringMatrixTask.hpp:466-482) -/
def getDD (t : Tab K) (m it n nmax : Nat) : K := t.dw (tri nmax m) it (n - 1)

end

/-! ### amplitude matrix -/

/-- the array `S[4]` -/
structure Amp where
  s0 : ℂ
  s1 : ℂ
  s2 : ℂ
  s3 : ℂ

noncomputable section

/-- body of the loops over `n'` and `n` (ExtinctionCoefficientTask.hpp:551-610, AbsorptionCoefficientTask.hpp:649-706,
ScatteringMatrixTask.hpp:625-682). `wi`, `dwi`: Wigner functions (divided by the sine) and derivatives for the incoming angle;
`wo`, `dwo`: for the outgoing angle -/
def ampStep (T : TRes ℂ ℝ) (cnn : Nat → Nat → ℂ) (wi dwi wo dwo : Nat → Nat → ℝ) (m : Nat) (fcos fsin : ℝ) (nn n : Nat) (S : Amp) : Amp :=
  let pi_nn := m * wi m nn
  let tau_nn := dwi m nn
  let pi_n := m * wo m n
  let tau_n := dwo m n
  let c_nnn := cnn nn n
  let T11 := T.get 0 n m 0 nn
  let T22 := T.get 1 n m 1 nn
  if m = 0 then
    let factor := c_nnn * (tau_n : ℂ) * (tau_nn : ℂ)
    { S with
      s0 := S.s0 + factor * T22
      s3 := S.s3 + factor * T11 }
  else
    let T12 := T.get 0 n m 1 nn
    let T21 := T.get 1 n m 0 nn
    let real_factor := c_nnn * (fcos : ℂ)
    let imag_factor := c_nnn * (fsin : ℂ)
    let pi_pi : ℂ := ((pi_n * pi_nn : ℝ) : ℂ)
    let pi_tau : ℂ := ((pi_n * tau_nn : ℝ) : ℂ)
    let tau_pi : ℂ := ((tau_n * pi_nn : ℝ) : ℂ)
    let tau_tau : ℂ := ((tau_n * tau_nn : ℝ) : ℂ)
    { s0 := S.s0 + real_factor * (T11 * pi_pi + T21 * tau_pi + T12 * pi_tau + T22 * tau_tau)
      s1 := S.s1 + imag_factor * (T11 * pi_tau + T21 * tau_tau + T12 * pi_pi + T22 * tau_pi)
      s2 := S.s2 - imag_factor * (T11 * tau_pi + T21 * pi_pi + T12 * tau_tau + T22 * pi_tau)
      s3 := S.s3 + real_factor * (T11 * tau_tau + T21 * pi_tau + T12 * tau_pi + T22 * pi_pi) }

/-- `get_forward_scattering_matrix` (ExtinctionCoefficientTask.hpp:517-619, AbsorptionCoefficientTask.hpp:612-715,
ScatteringMatrixTask.hpp:588-691); `z` is `expiphi_p_out_m_in`, `k` the wavenumber -/
def amplitude (T : TRes ℂ ℝ) (cnn : Nat → Nat → ℂ) (wi dwi wo dwo : Nat → Nat → ℝ) (k : ℝ) (z : ℂ) : Amp :=
  let nmax := T.nmax
  let r := loop 0 (nmax + 1) (fun m (s : ℂ × Amp) =>
    let nmin := max m 1
    let fcos := 2 * s.1.re
    let fsin := 2 * s.1.im
    (s.1 * z, loop nmin (nmax + 1) (fun nn S =>
      loop nmin (nmax + 1) (fun n S => ampStep T cnn wi dwi wo dwo m fcos fsin nn n S) S) s.2)) (1, ⟨0, 0, 0, 0⟩)
  let kinv : ℂ := ((1 / k : ℝ) : ℂ)
  ⟨r.2.s0 * kinv, r.2.s1 * kinv, r.2.s2 * kinv, r.2.s3 * kinv⟩

/-! ### the tasks -/

/-- the matrix `Z` of `ScatteringMatrixTask::execute` (ScatteringMatrixTask.hpp:720-751), by row and column -/
def mueller (S : Amp) : Nat → Nat → ℝ
  | 0, 0 => (1 / 2 * (S.s0 * star S.s0 + S.s1 * star S.s1 + S.s2 * star S.s2 + S.s3 * star S.s3)).re
  | 0, 1 => (1 / 2 * (S.s0 * star S.s0 - S.s1 * star S.s1 + S.s2 * star S.s2 - S.s3 * star S.s3)).re
  | 0, 2 => (-S.s0 * star S.s1 - S.s3 * star S.s2).re
  | 0, 3 => (Complex.I * (S.s0 * star S.s1 - S.s3 * star S.s2)).re
  | 1, 0 => (1 / 2 * (S.s0 * star S.s0 + S.s1 * star S.s1 - S.s2 * star S.s2 - S.s3 * star S.s3)).re
  | 1, 1 => (1 / 2 * (S.s0 * star S.s0 - S.s1 * star S.s1 - S.s2 * star S.s2 + S.s3 * star S.s3)).re
  | 1, 2 => (-S.s0 * star S.s1 + S.s3 * star S.s2).re
  | 1, 3 => (Complex.I * (S.s0 * star S.s1 + S.s3 * star S.s2)).re
  | 2, 0 => (-S.s0 * star S.s2 - S.s3 * star S.s1).re
  | 2, 1 => (-S.s0 * star S.s2 + S.s3 * star S.s1).re
  | 2, 2 => (S.s0 * star S.s3 + S.s1 * star S.s2).re
  | 2, 3 => (-Complex.I * (S.s0 * star S.s3 + S.s2 * star S.s1)).re
  | 3, 0 => (Complex.I * (S.s2 * star S.s0 + S.s3 * star S.s1)).re
  | 3, 1 => (Complex.I * (S.s2 * star S.s0 - S.s3 * star S.s1)).re
  | 3, 2 => (-Complex.I * (S.s3 * star S.s0 - S.s1 * star S.s2)).re
  | 3, 3 => (S.s3 * star S.s0 - S.s1 * star S.s2).re
  | _, _ => 0

/-- `ScatteringMatrixTask::execute` (ScatteringMatrixTask.hpp:698-754); `amp it ip` is the amplitude matrix for the pair of
outgoing angles -/
def scattering (amp : Nat → Nat → Amp) (ntheta nphi : Nat) (result : Nat → Nat → Nat → ℝ) : Nat → Nat → Nat → ℝ :=
  loop 0 ntheta (fun it r => loop 0 nphi (fun ip r => Function.update r (it * nphi + ip) (mueller (amp it ip))) r) result

/-- the result arrays of the extinction task -/
structure Ext where
  Qext : Nat → ℝ
  Qextpol : Nat → ℝ
  Qextcpol : Nat → ℝ

/-- `ExtinctionCoefficientTask::execute` (ExtinctionCoefficientTask.hpp:626-654); `a`: radius, `π` stands for `M_PI` -/
def extinction (amp : Nat → Amp) (π k a : ℝ) (ntheta : Nat) (r : Ext) : Ext :=
  loop 0 ntheta (fun it r =>
    let S := amp it
    let prefactor := 2 * π / k
    let norm := π * a * a
    let r : Ext := ⟨Function.update r.Qext it (prefactor * (S.s0 + S.s3).im), Function.update r.Qextpol it (prefactor * (S.s0 - S.s3).im),
      Function.update r.Qextcpol it (prefactor * (S.s3 - S.s0).re)⟩
    ⟨Function.update r.Qext it (r.Qext it / norm), Function.update r.Qextpol it (r.Qextpol it / norm),
      Function.update r.Qextcpol it (r.Qextcpol it / norm)⟩) r

/-- the result arrays of the absorption task -/
structure Abs where
  Qabs : Nat → ℝ
  Qabspol : Nat → ℝ

/-- `AbsorptionCoefficientTask::execute` (AbsorptionCoefficientTask.hpp:722-781); `fwd it`: forward amplitude matrix for an
angle, `amp it jt jp`: amplitude matrix from the quadrature direction `(jt, jp)` to the angle `it`; `wt`, `wp`: weights -/
def absorption (fwd : Nat → Amp) (amp : Nat → Nat → Nat → Amp) (wt wp : Nat → ℝ) (π k a : ℝ) (ntheta ngauss : Nat)
    (accountForScattering : Bool) (r : Abs) : Abs :=
  loop 0 ntheta (fun it r =>
    let S := fwd it
    let prefactor := 2 * π / k
    let r : Abs := ⟨Function.update r.Qabs it (prefactor * (S.s0 + S.s3).im), Function.update r.Qabspol it (prefactor * (S.s0 - S.s3).im)⟩
    let r := if accountForScattering then
        loop 0 ngauss (fun jt r => loop 0 ngauss (fun jp (r : Abs) =>
          let P := amp it jt jp
          let weight := wt jt * wp jp
          let Z00 := (1 / 2 * (P.s0 * star P.s0 + P.s1 * star P.s1 + P.s2 * star P.s2 + P.s3 * star P.s3)).re
          let Z10 := (1 / 2 * (P.s0 * star P.s0 + P.s1 * star P.s1 - P.s2 * star P.s2 - P.s3 * star P.s3)).re
          ⟨Function.update r.Qabs it (r.Qabs it - Z00 * weight), Function.update r.Qabspol it (r.Qabspol it - Z10 * weight)⟩) r) r
      else r
    let norm := π * a * a
    ⟨Function.update r.Qabs it (r.Qabs it / norm), Function.update r.Qabspol it (r.Qabspol it / norm)⟩) r

/-- the call of `get_forward_scattering_matrix` with indices of incoming and outgoing angle: the tables are read with the
order of the T-matrix (ExtinctionCoefficientTask.hpp:554-567, AbsorptionCoefficientTask.hpp:652-665, ScatteringMatrixTask.hpp:628-641) -/
def amplitudeAt (T : TRes ℂ ℝ) (cnn : Nat → Nat → ℂ) (tin : Tab ℝ) (iin : Nat) (tout : Tab ℝ) (iout : Nat) (k : ℝ) (z : ℂ) : Amp :=
  amplitude T cnn (fun m n => getD tin m iin n T.nmax) (fun m n => getDD tin m iin n T.nmax)
    (fun m n => getD tout m iout n T.nmax) (fun m n => getDD tout m iout n T.nmax) k z

/-- the extinction task with its tables (ExtinctionCoefficientTask.hpp:530, 626-654) -/
def extinctionTask (T : TRes ℂ ℝ) (cnn : Nat → Nat → ℂ) (tab : Tab ℝ) (π k a : ℝ) (ntheta : Nat) (r : Ext) : Ext :=
  extinction (fun it => amplitudeAt T cnn tab it tab it k ⟨1, 0⟩) π k a ntheta r

/-- the absorption task with its tables (AbsorptionCoefficientTask.hpp:630, 722-781); `cphi`, `sphi`: `_cos_phi_in`, `_sin_phi_in` -/
def absorptionTask (T : TRes ℂ ℝ) (cnn : Nat → Nat → ℂ) (tout tin : Tab ℝ) (cphi sphi wt wp : Nat → ℝ) (π k a : ℝ) (ntheta ngauss : Nat)
    (accountForScattering : Bool) (r : Abs) : Abs :=
  absorption (fun it => amplitudeAt T cnn tout it tout it k ⟨1, -0⟩)
    (fun it jt jp => amplitudeAt T cnn tin jt tout it k ⟨cphi jp, -sphi jp⟩) wt wp π k a ntheta ngauss accountForScattering r

/-- the scattering matrix task with its tables (ScatteringMatrixTask.hpp:606, 698-754) -/
def scatteringTask (T : TRes ℂ ℝ) (cnn : Nat → Nat → ℂ) (tin tout : Tab ℝ) (cphi sphi : Nat → ℝ) (k : ℝ) (ntheta nphi : Nat)
    (result : Nat → Nat → Nat → ℝ) : Nat → Nat → Nat → ℝ :=
  scattering (fun it ip => amplitudeAt T cnn tin 0 tout it k ⟨cphi ip, sphi ip⟩) ntheta nphi result

end

end Verif.Scatter
