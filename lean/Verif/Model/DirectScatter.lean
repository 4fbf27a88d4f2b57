import Verif.Model.Direct
import Verif.Properties.Special
import Mathlib.Analysis.SpecialFunctions.Trigonometric.Inverse

/-!
# The stand-alone `TMatrix` class: amplitude, scattering and extinction matrices, cross sections (src/TMatrix.hpp)

Exact arithmetic: real numbers for `float_type`, complex numbers for `std::complex<float_type>`.
-/
namespace Verif.Direct

open Verif.Matrix
open Verif.TMatrix (TRes)
open Verif.Special (Ops realOps gaussLegendre gaussLegendreAB wignerDsinx)
open Verif.Scatter (Amp amplitude invOf mueller)

noncomputable section

/-- the loops that compute the factors `c` (TMatrix.hpp:1119-1131), for a matrix that has its previous content -/
def cFill (nmax : Nat) (c : Mat ℂ) : Mat ℂ :=
  (loop 1 (nmax + 1) (fun nn (s : ℂ × Mat ℂ) =>
    let r := loop 1 (nmax + 1) (fun n (q : ℂ × Mat ℂ) =>
      let c := q.2.set (n - 1) (nn - 1) (q.1 * s.1
        * ((Real.sqrt ((2 * (n : ℝ) + 1) * (2 * (nn : ℝ) + 1) / ((n : ℝ) * (nn : ℝ) * ((n : ℝ) + 1) * ((nn : ℝ) + 1))) : ℝ) : ℂ))
      (q.1 / Complex.I, c)) (-1, s.2)
    (s.1 * Complex.I, r.2)) (Complex.I, c)).2

/-- the factors `c` (TMatrix.hpp:1117-1131) -/
def cMat (nmax : Nat) : Mat ℂ := cFill nmax (Mat.new nmax nmax)

/-- what the innermost version of `get_forward_scattering_matrix` takes for one direction (TMatrix.hpp:1109-1114) -/
structure Direction where
  cosTheta : ℝ
  sinTheta : ℝ
  sinThetaInv : ℝ
  cosPhi : ℝ
  sinPhi : ℝ

/-- `pi_in`, `tau_in` (`pi_out`, `tau_out`) for one degree (TMatrix.hpp:1155-1163) -/
def angular (d : Direction) (nmax m : Nat) : (Nat → ℝ) × (Nat → ℝ) :=
  wignerDsinx realOps d.cosTheta d.sinTheta d.sinThetaInv nmax m (fun _ => 0, fun _ => 0)

/-- `get_forward_scattering_matrix` for cosines and sines (TMatrix.hpp:1109-1232); the loops over `m`, `n'` and `n` and their body
(TMatrix.hpp:1148-1231) are the same as in the tasks (`Scatter.amplitude`) -/
def forward (o : Obj ℝ ℂ) (i s : Direction) : Amp :=
  let c := cMat o.nmax
  amplitude o.res (fun nn n => c.get (n - 1) (nn - 1))
    (fun m n => (angular i o.nmax m).1 (n - 1)) (fun m n => (angular i o.nmax m).2 (n - 1))
    (fun m n => (angular s o.nmax m).1 (n - 1)) (fun m n => (angular s o.nmax m).2 (n - 1)) o.k
    ⟨s.cosPhi * i.cosPhi + s.sinPhi * i.sinPhi, s.sinPhi * i.cosPhi - s.cosPhi * i.sinPhi⟩

/-- the direction for given angles (TMatrix.hpp:1259-1286, for each of the two pairs) -/
def directionOf (theta phi : ℝ) : Direction :=
  ⟨Real.cos theta, Real.sin theta, invOf (Real.sin theta), Real.cos phi, Real.sin phi⟩

/-- `get_forward_scattering_matrix` for angles, symmetry axis along `z` (TMatrix.hpp:1246-1292) -/
def forwardAngles (o : Obj ℝ ℂ) (thetaIn phiIn thetaOut phiOut : ℝ) : Amp :=
  forward o (directionOf thetaIn phiIn) (directionOf thetaOut phiOut)

/-- the direction in the reference frame of the particle (TMatrix.hpp:1329-1351, 1353-1372) -/
def particle (alpha beta theta phi : ℝ) : Direction :=
  let cosphirel := Real.cos phi * Real.cos alpha + Real.sin phi * Real.sin alpha
  let sinphirel := Real.sin phi * Real.cos alpha - Real.cos phi * Real.sin alpha
  let costheta_p := Real.cos theta * Real.cos beta + Real.sin theta * Real.sin beta * cosphirel
  let sintheta_p := Real.sin (Real.arccos costheta_p)
  if sintheta_p ≠ 0 then
    let inv := 1 / sintheta_p
    ⟨costheta_p, sintheta_p, inv, (Real.cos beta * Real.sin theta * cosphirel - Real.sin beta * Real.cos theta) * inv,
      Real.sin theta * sinphirel * inv⟩
  else ⟨costheta_p, sintheta_p, 9000, 1, 0⟩

/-- `B` (TMatrix.hpp:1374-1383) -/
def matB (alpha beta : ℝ) : Mat ℝ :=
  ((((((((Mat.new 3 3).set 0 0 (Real.cos alpha * Real.cos beta)).set 0 1 (Real.sin alpha * Real.cos beta)).set 0 2 (-Real.sin beta)).set
    1 0 (-Real.sin alpha)).set 1 1 (Real.cos alpha)).set 2 0 (Real.cos alpha * Real.sin beta)).set 2 1 (Real.sin alpha * Real.sin beta)).set
    2 2 (Real.cos beta)

/-- `AL_in`, `AL_out` (TMatrix.hpp:1385-1391, 1401-1407) -/
def matAL (theta phi : ℝ) : Mat ℝ :=
  (((((Mat.new 3 2).set 0 0 (Real.cos theta * Real.cos phi)).set 0 1 (-Real.sin phi)).set 1 0 (Real.cos theta * Real.sin phi)).set
    1 1 (Real.cos phi)).set 2 0 (-Real.sin theta)

/-- `AP_in`, `AP_out` (TMatrix.hpp:1393-1399, 1409-1415) -/
def matAP (d : Direction) : Mat ℝ :=
  (((((Mat.new 2 3).set 0 0 (d.cosTheta * d.cosPhi)).set 0 1 (d.cosTheta * d.sinPhi)).set 0 2 (-d.sinTheta)).set 1 0 (-d.sinPhi)).set
    1 1 d.cosPhi

/-- the triple loops (TMatrix.hpp:1418-1424, 1426-1432, 1435-1442, 1444-1450): `C(i, j) += A(i, k) * B(k, j)`; only the third of the
four loops has `C(i, j) = 0` (`reset`) -/
def product (reset : Bool) (rows cols : Nat) (A B : Mat ℝ) (C : Mat ℝ) : Mat ℝ :=
  loop 0 rows (fun i C => loop 0 cols (fun j C =>
    loop 0 3 (fun k C => C.set i j (C.get i j + A.get i k * B.get k j)) (if reset then C.set i j 0 else C)) C) C

/-- `C`: first for the incoming, then for the outgoing direction (TMatrix.hpp:1417-1424, 1434-1442) -/
def matCin (alpha beta thetaIn phiIn : ℝ) : Mat ℝ := product false 3 2 (matB alpha beta) (matAL thetaIn phiIn) (Mat.new 3 2)

def matCout (alpha beta thetaIn phiIn thetaOut phiOut : ℝ) : Mat ℝ :=
  product true 3 2 (matB alpha beta) (matAL thetaOut phiOut) (matCin alpha beta thetaIn phiIn)

/-- `R_in`, `R_out` before the inversion (TMatrix.hpp:1425-1432, 1443-1450) -/
def matR (d : Direction) (C : Mat ℝ) : Mat ℝ := product false 2 2 (matAP d) C (Mat.new 2 2)

/-- manual inversion (TMatrix.hpp:1455-1461) -/
def invert (R : Mat ℝ) : Mat ℝ :=
  let d := 1 / (R.get 0 0 * R.get 1 1 - R.get 0 1 * R.get 1 0)
  let temp := R.get 0 0
  let R := R.set 0 0 (R.get 1 1 * d)
  let R := R.set 0 1 (-R.get 0 1 * d)
  let R := R.set 1 0 (-R.get 1 0 * d)
  R.set 1 1 (temp * d)

/-- `get_forward_scattering_matrix` for a particle with the given orientation (TMatrix.hpp:1306-1482) -/
def forwardOriented (o : Obj ℝ ℂ) (alpha beta thetaIn phiIn thetaOut phiOut : ℝ) : Amp :=
  let Rin := matR (particle alpha beta thetaIn phiIn) (matCin alpha beta thetaIn phiIn)
  let Rout := invert (matR (particle alpha beta thetaOut phiOut) (matCout alpha beta thetaIn phiIn thetaOut phiOut))
  let S := forward o (particle alpha beta thetaIn phiIn) (particle alpha beta thetaOut phiOut)
  let cS11 := S.s0 * (Rin.get 0 0 : ℂ) + S.s1 * (Rin.get 1 0 : ℂ)
  let cS12 := S.s0 * (Rin.get 0 1 : ℂ) + S.s1 * (Rin.get 1 1 : ℂ)
  let cS21 := S.s2 * (Rin.get 0 0 : ℂ) + S.s3 * (Rin.get 1 0 : ℂ)
  let cS22 := S.s2 * (Rin.get 0 1 : ℂ) + S.s3 * (Rin.get 1 1 : ℂ)
  ⟨(Rout.get 0 0 : ℂ) * cS11 + (Rout.get 0 1 : ℂ) * cS21, (Rout.get 0 0 : ℂ) * cS12 + (Rout.get 0 1 : ℂ) * cS22,
    (Rout.get 1 0 : ℂ) * cS11 + (Rout.get 1 1 : ℂ) * cS21, (Rout.get 1 0 : ℂ) * cS12 + (Rout.get 1 1 : ℂ) * cS22⟩

/-- `get_scattering_matrix` (TMatrix.hpp:1891-1952): the sixteen expressions are those of the task (`Scatter.mueller`) -/
def scatteringMatrix (o : Obj ℝ ℂ) (alpha beta thetaIn phiIn thetaOut phiOut : ℝ) : Nat → Nat → ℝ :=
  mueller (forwardOriented o alpha beta thetaIn phiIn thetaOut phiOut)

/-- the elements of `K` (TMatrix.hpp:1983-2008) -/
def extinctionOf (S : Amp) (k : ℝ) : Mat ℝ :=
  let prefactor := 2 * Real.pi / k
  let K : Mat ℝ := Mat.new 4 4
  let K := K.set 0 0 (prefactor * (S.s0 + S.s3).im)
  let K := K.set 1 1 (K.get 0 0)
  let K := K.set 2 2 (K.get 0 0)
  let K := K.set 3 3 (K.get 0 0)
  let K := K.set 0 1 (prefactor * (S.s0 - S.s3).im)
  let K := K.set 1 0 (K.get 0 1)
  let K := K.set 0 2 (-prefactor * (S.s1 + S.s2).im)
  let K := K.set 2 0 (K.get 0 2)
  let K := K.set 0 3 (prefactor * (S.s2 - S.s1).re)
  let K := K.set 3 0 (K.get 0 3)
  let K := K.set 1 2 (prefactor * (S.s2 - S.s1).im)
  let K := K.set 2 1 (-K.get 1 2)
  let K := K.set 1 3 (-prefactor * (S.s1 + S.s2).re)
  let K := K.set 3 1 (-K.get 1 3)
  let K := K.set 2 3 (prefactor * (S.s3 - S.s0).re)
  K.set 3 2 (-K.get 2 3)

/-- `get_extinction_matrix` (TMatrix.hpp:1972-2010) -/
def extinctionMatrix (o : Obj ℝ ℂ) (alpha beta theta phi : ℝ) : Mat ℝ :=
  extinctionOf (forwardOriented o alpha beta theta phi theta phi) o.k

/-- `get_reduced_extinction_matrix` (TMatrix.hpp:2034-2048) -/
def reducedExtinction (o : Obj ℝ ℂ) (alpha beta theta phi : ℝ) (output : Nat → ℝ) : Nat → ℝ :=
  let S := forwardOriented o alpha beta theta phi theta phi
  let prefactor := 2 * Real.pi / o.k
  let output := Function.update output 0 (prefactor * (S.s0 + S.s3).im)
  let output := Function.update output 1 (prefactor * (S.s0 - S.s3).im)
  Function.update output 2 (prefactor * (S.s3 - S.s0).re)

/-- `factor` (TMatrix.hpp:2064-2069, 2097-2102) -/
def factor (m : Nat) : ℝ := if 0 < m then 2 else 1

/-- `get_scattering_coefficient` (TMatrix.hpp:2055-2084) -/
def scatteringCoefficient (o : Obj ℝ ℂ) : ℝ :=
  let T := o.res.get
  loop 1 (o.nmax + 1) (fun n1 s => loop 1 (o.nmax + 1) (fun n2 s => loop 0 (n1 + 1) (fun m1 s => loop 0 (n2 + 1) (fun m2 s =>
    if m1 = m2 then
      let s := s + factor m1 * Complex.normSq (T 0 n1 m1 0 n2)
      let s := s + factor m1 * Complex.normSq (T 0 n1 m1 1 n2)
      let s := s + factor m1 * Complex.normSq (T 1 n1 m1 0 n2)
      s + factor m1 * Complex.normSq (T 1 n1 m1 1 n2)
    else s) s) s) s) 0

/-- `get_extinction_coefficient` (TMatrix.hpp:2091-2111) -/
def extinctionCoefficient (o : Obj ℝ ℂ) : ℝ :=
  let T := o.res.get
  loop 1 (o.nmax + 1) (fun n1 s => loop 0 (n1 + 1) (fun m1 s =>
    let s := s + factor m1 * (T 0 n1 m1 0 n1).re
    let s := s + factor m1 * (T 0 n1 m1 1 n1).re
    let s := s + factor m1 * (T 1 n1 m1 0 n1).re
    s + factor m1 * (T 1 n1 m1 1 n1).re) s) 0

/-- `get_absorption_cross_sections` for one angle (TMatrix.hpp:2133-2180); `at_` is the position in the caller's array `result`
points to -/
def absorptionOne (o : Obj ℝ ℂ) (theta : ℝ) (ngauss : Nat) (doCabs doCabspol : Bool) (thetaGL wt phiGL wp : Nat → ℝ) (at_ : Nat)
    (result : Nat → ℝ) : Nat → ℝ :=
  let S := forwardAngles o theta 0 theta 0
  let prefactor := 2 * Real.pi / o.k
  let result := if doCabs then Function.update result at_ (prefactor * (S.s0 + S.s3).im) else result
  let result := if doCabspol then Function.update result (at_ + 1) (prefactor * (S.s0 - S.s3).im) else result
  loop 0 ngauss (fun it result => loop 0 ngauss (fun ip result =>
    let P := forwardAngles o (thetaGL it) (phiGL ip) theta 0
    let weight := wt it * wp ip
    let result := if doCabs then
        let Z00 := (1 / 2 * (P.s0 * star P.s0 + P.s1 * star P.s1 + P.s2 * star P.s2 + P.s3 * star P.s3)).re
        Function.update result at_ (result at_ - Z00 * weight)
      else result
    if doCabspol then
        let Z10 := (1 / 2 * (P.s0 * star P.s0 + P.s1 * star P.s1 - P.s2 * star P.s2 - P.s3 * star P.s3)).re
        Function.update result (at_ + 1) (result (at_ + 1) - Z10 * weight)
      else result) result) result

/-- the quadrature rules (TMatrix.hpp:2199-2209, 2234-2244, 2263-2273): polar angles and weights, azimuths and weights -/
def rules (fuel ngauss : Nat) : Option ((Nat → ℝ) × (Nat → ℝ) × (Nat → ℝ) × (Nat → ℝ)) :=
  match gaussLegendre realOps fuel ngauss (fun _ => 0, fun _ => 0) with
  | none => none
  | some c =>
    match gaussLegendreAB realOps fuel ngauss 0 (2 * Real.pi) (fun _ => 0, fun _ => 0) with
    | none => none
    | some p => some (loop 0 ngauss (fun i t => Function.update t i (Real.arccos (c.1 i))) (fun _ => 0), c.2, p.1, p.2)

/-- `get_absorption_cross_sections` for an array of angles (TMatrix.hpp:2194-2216) -/
def absorptionPairs (o : Obj ℝ ℂ) (fuel : Nat) (theta : Nat → ℝ) (ntheta ngauss : Nat) (Cabs : Nat → ℝ) : Option (Nat → ℝ) :=
  (rules fuel ngauss).map fun r =>
    loop 0 ntheta (fun it C => absorptionOne o (theta it) ngauss true true r.1 r.2.1 r.2.2.1 r.2.2.2 (2 * it) C) Cabs

/-- `get_absorption_cross_section` (TMatrix.hpp:2229-2251) -/
def absorptionArray (o : Obj ℝ ℂ) (fuel : Nat) (theta : Nat → ℝ) (ntheta ngauss : Nat) (Cabs : Nat → ℝ) : Option (Nat → ℝ) :=
  (rules fuel ngauss).map fun r =>
    loop 0 ntheta (fun it C => absorptionOne o (theta it) ngauss true false r.1 r.2.1 r.2.2.1 r.2.2.2 it C) Cabs

/-- `get_average_absorption_cross_section` (TMatrix.hpp:2261-2287); `junk`: initial value of the uninitialised variable `Kabs` -/
def absorptionAverage (o : Obj ℝ ℂ) (fuel ngauss : Nat) (junk : ℝ) : Option ℝ :=
  (rules fuel ngauss).map fun r =>
    1 / 2 * loop 0 ngauss (fun i result =>
      let Kabs := absorptionOne o (r.1 i) ngauss true false r.1 r.2.1 r.2.2.1 r.2.2.2 0 (fun _ => junk)
      result + Kabs 0 * r.2.1 i) 0

end

end Verif.Direct
