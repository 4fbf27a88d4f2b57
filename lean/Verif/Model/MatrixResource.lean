import Verif.Model.DirectScatter

/-!
# `ExtinctionMatrixResource` and `ScatteringMatrixResource` (src/ExtinctionMatrixResource.hpp, src/ScatteringMatrixResource.hpp)

Exact arithmetic, as for the stand-alone class.  The parameters, the wavenumber and the T-matrix are arguments of the functions; the
members that `execute` writes are explicit state, so that a second execution of the same object starts from what the first one left.
The flag that `make_available` sets is not modelled.
-/
namespace Verif.MatRes

open Verif.Matrix
open Verif.TMatrix (TRes)
open Verif.Special (realOps wignerDsinx)
open Verif.Scatter (Amp ampStep amplitude mueller)
open Verif.Direct (Direction angular cFill particle product invert matAL matAP)

noncomputable section

/-- the members `_pi_in`, `_tau_in`, `_pi_out`, `_tau_out` (ScatteringMatrixResource.hpp:107-117) -/
structure Arrays where
  piIn : Nat → ℝ
  tauIn : Nat → ℝ
  piOut : Nat → ℝ
  tauOut : Nat → ℝ

/-- the loop over `m` (ScatteringMatrixResource.hpp:340-425): the arrays and the matrix `S` keep what they contain.  Loop state: the
power of the exponential, the arrays, `S`.  The body of the inner loops is that of the tasks (`Scatter.ampStep`). -/
def sumOver (T : TRes ℂ ℝ) (c : Mat ℂ) (i s : Direction) (w : Arrays) (S : Amp) : ℂ × Arrays × Amp :=
  loop 0 (T.nmax + 1) (fun m (st : ℂ × Arrays × Amp) =>
    let nmin := max m 1
    let a := wignerDsinx realOps i.cosTheta i.sinTheta i.sinThetaInv T.nmax m (st.2.1.piIn, st.2.1.tauIn)
    let b := wignerDsinx realOps s.cosTheta s.sinTheta s.sinThetaInv T.nmax m (st.2.1.piOut, st.2.1.tauOut)
    let fcos := 2 * st.1.re
    let fsin := 2 * st.1.im
    (st.1 * ⟨s.cosPhi * i.cosPhi + s.sinPhi * i.sinPhi, s.sinPhi * i.cosPhi - s.cosPhi * i.sinPhi⟩, ⟨a.1, a.2, b.1, b.2⟩,
      loop nmin (T.nmax + 1) (fun nn S => loop nmin (T.nmax + 1) (fun n S =>
        ampStep T (fun nn n => c.get (n - 1) (nn - 1)) (fun _ n => a.1 (n - 1)) (fun _ n => a.2 (n - 1)) (fun _ n => b.1 (n - 1))
          (fun _ n => b.2 (n - 1)) m fcos fsin nn n S) S) st.2.2)) (1, w, S)

/-- division by the wavenumber (ScatteringMatrixResource.hpp:426-431) -/
def divide (S : Amp) (k : ℝ) : Amp :=
  let kinv : ℂ := ((1 / k : ℝ) : ℂ)
  ⟨S.s0 * kinv, S.s1 * kinv, S.s2 * kinv, S.s3 * kinv⟩

/-- conversion to the laboratory (ScatteringMatrixResource.hpp:433-446, ExtinctionMatrixResource.hpp:317-330) -/
def toLab (S : Amp) (Rin Rout : Mat ℝ) : Amp :=
  let cS11 := S.s0 * (Rin.get 0 0 : ℂ) + S.s1 * (Rin.get 1 0 : ℂ)
  let cS12 := S.s0 * (Rin.get 0 1 : ℂ) + S.s1 * (Rin.get 1 1 : ℂ)
  let cS21 := S.s2 * (Rin.get 0 0 : ℂ) + S.s3 * (Rin.get 1 0 : ℂ)
  let cS22 := S.s2 * (Rin.get 0 1 : ℂ) + S.s3 * (Rin.get 1 1 : ℂ)
  ⟨(Rout.get 0 0 : ℂ) * cS11 + (Rout.get 0 1 : ℂ) * cS21, (Rout.get 0 0 : ℂ) * cS12 + (Rout.get 0 1 : ℂ) * cS22,
    (Rout.get 1 0 : ℂ) * cS11 + (Rout.get 1 1 : ℂ) * cS21, (Rout.get 1 0 : ℂ) * cS12 + (Rout.get 1 1 : ℂ) * cS22⟩

/-! ## the extinction matrix -/

/-- the direction of the wave, for a particle with its axis along `z` (ExtinctionMatrixResource.hpp:102-140) -/
def axisDirection (theta phi : ℝ) : Direction :=
  let sintheta := Real.sin theta
  if sintheta ≠ 0 then
    let inv := 1 / sintheta
    ⟨Real.cos theta, sintheta, inv, sintheta * Real.cos phi * inv, sintheta * Real.sin phi * inv⟩
  else ⟨Real.cos theta, sintheta, 9000, 1, 0⟩

/-- the elements of `_K`, written over its previous content (ExtinctionMatrixResource.hpp:332-355) -/
def fillK (S : Amp) (k : ℝ) (K : Mat ℝ) : Mat ℝ :=
  let prefactor := 2 * Real.pi * (1 / k)
  let K := K.set 0 0 (prefactor * (S.s0 + S.s3).im)
  let K := K.set 1 1 (K.get 0 0)
  let K := K.set 2 2 (K.get 0 0)
  let K := K.set 3 3 (K.get 0 0)
  let K := K.set 0 1 (prefactor * (S.s0 - S.s3).im)
  let K := K.set 1 0 (K.get 0 1)
  let K := K.set 0 2 (-prefactor * (S.s1 + S.s2).im)
  let K := K.set 2 0 (K.get 0 2)
  let K := K.set 0 3 (prefactor * (S.s2 - S.s1).re)
  let K := K.set 3 0 (K.get 0 3)
  let K := K.set 1 2 (prefactor * (S.s2 - S.s1).im)
  let K := K.set 2 1 (-K.get 1 2)
  let K := K.set 1 3 (-prefactor * (S.s1 + S.s2).re)
  let K := K.set 3 1 (-K.get 1 3)
  let K := K.set 2 3 (prefactor * (S.s3 - S.s0).re)
  K.set 3 2 (-K.get 2 3)

/-- constructor (ExtinctionMatrixResource.hpp:75-79): only `_K` is written later -/
def newK : Mat ℝ := Mat.new 4 4

/-- `execute` (ExtinctionMatrixResource.hpp:100-358): `K` is the previous content of `_K`; the loops for `S` and the division by the
wavenumber (ExtinctionMatrixResource.hpp:214-315) are those of the tasks (`Scatter.amplitude`), with arrays that are created anew for
each `m` (`Direct.angular`) -/
def extinction (T : TRes ℂ ℝ) (k theta phi : ℝ) (K : Mat ℝ) : Mat ℝ :=
  let d := axisDirection theta phi
  let Rin := product false 2 2 (matAP d) (matAL theta phi) (Mat.new 2 2)
  let Rout := invert (product false 2 2 (matAP d) (matAL theta phi) (Mat.new 2 2))
  let c := cFill T.nmax (Mat.new T.nmax T.nmax)
  let S := amplitude T (fun nn n => c.get (n - 1) (nn - 1))
    (fun m n => (angular d T.nmax m).1 (n - 1)) (fun m n => (angular d T.nmax m).2 (n - 1))
    (fun m n => (angular d T.nmax m).1 (n - 1)) (fun m n => (angular d T.nmax m).2 (n - 1)) k
    ⟨d.cosPhi * d.cosPhi + d.sinPhi * d.sinPhi, d.sinPhi * d.cosPhi - d.cosPhi * d.sinPhi⟩
  fillK (toLab S Rin Rout) k K

/-! ## the scattering matrix -/

/-- the angles given to the constructor (ScatteringMatrixResource.hpp:133-141) -/
structure Angles where
  alpha : ℝ
  beta : ℝ
  thetaIn : ℝ
  phiIn : ℝ
  thetaOut : ℝ
  phiOut : ℝ

/-- the members that `execute` writes (ScatteringMatrixResource.hpp:75-117) -/
structure State where
  Z : Nat → Nat → ℝ
  B : Mat ℝ
  ALin : Mat ℝ
  APin : Mat ℝ
  ALout : Mat ℝ
  APout : Mat ℝ
  C : Mat ℝ
  Rin : Mat ℝ
  Rout : Mat ℝ
  c : Mat ℂ
  S : Amp
  w : Arrays

/-- constructor (ScatteringMatrixResource.hpp:133-144); `nmax` is the maximum order; the constructor of `Matrix` and of
`std::vector` fill with zeros -/
def State.new (nmax : Nat) : State :=
  ⟨fun _ _ => 0, Mat.new 3 3, Mat.new 3 2, Mat.new 2 3, Mat.new 3 2, Mat.new 2 3, Mat.new 3 2, Mat.new 2 2, Mat.new 2 2,
    Mat.new nmax nmax, ⟨0, 0, 0, 0⟩, ⟨fun _ => 0, fun _ => 0, fun _ => 0, fun _ => 0⟩⟩

/-- `_B` (ScatteringMatrixResource.hpp:244-252) -/
def fillB (alpha beta : ℝ) (B : Mat ℝ) : Mat ℝ :=
  (((((((B.set 0 0 (Real.cos alpha * Real.cos beta)).set 0 1 (Real.sin alpha * Real.cos beta)).set 0 2 (-Real.sin beta)).set
    1 0 (-Real.sin alpha)).set 1 1 (Real.cos alpha)).set 2 0 (Real.cos alpha * Real.sin beta)).set 2 1 (Real.sin alpha * Real.sin beta)).set
    2 2 (Real.cos beta)

/-- `_AL_in`, `_AL_out` (ScatteringMatrixResource.hpp:254-259, 268-273) -/
def fillAL (theta phi : ℝ) (A : Mat ℝ) : Mat ℝ :=
  ((((A.set 0 0 (Real.cos theta * Real.cos phi)).set 0 1 (-Real.sin phi)).set 1 0 (Real.cos theta * Real.sin phi)).set
    1 1 (Real.cos phi)).set 2 0 (-Real.sin theta)

/-- `_AP_in`, `_AP_out` (ScatteringMatrixResource.hpp:261-266, 275-280) -/
def fillAP (d : Direction) (A : Mat ℝ) : Mat ℝ :=
  ((((A.set 0 0 (d.cosTheta * d.cosPhi)).set 0 1 (d.cosTheta * d.sinPhi)).set 0 2 (-d.sinTheta)).set 1 0 (-d.sinPhi)).set
    1 1 d.cosPhi

/-- `execute` (ScatteringMatrixResource.hpp:185-490); all sixteen elements of `_Z` are assigned (`Scatter.mueller`) -/
def execute (T : TRes ℂ ℝ) (k : ℝ) (p : Angles) (st : State) : State :=
  let di := particle p.alpha p.beta p.thetaIn p.phiIn
  let ds := particle p.alpha p.beta p.thetaOut p.phiOut
  let B := fillB p.alpha p.beta st.B
  let ALin := fillAL p.thetaIn p.phiIn st.ALin
  let APin := fillAP di st.APin
  let ALout := fillAL p.thetaOut p.phiOut st.ALout
  let APout := fillAP ds st.APout
  let C := product false 3 2 B ALin st.C
  let Rin := product false 2 2 APin C st.Rin
  let C := product true 3 2 B ALout C
  let Rout := invert (product false 2 2 APout C st.Rout)
  let c := cFill T.nmax st.c
  let r := sumOver T c di ds st.w st.S
  let S := toLab (divide r.2.2 k) Rin Rout
  ⟨mueller S, B, ALin, APin, ALout, APout, C, Rin, Rout, c, S, r.2.1⟩

end

end Verif.MatRes
