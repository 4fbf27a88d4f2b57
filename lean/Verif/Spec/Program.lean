import Verif.Model.Program
import Verif.Spec.Decimal

/-!
# What a user expects from the stand-alone program
-/
namespace Verif.Program.Spec

open Verif.Yaml (Str)
open Verif.Text (Failure convertPhysical convertBool convertReal convertComplex stringToInteger)
open Verif.Text.Spec (Rounded)

/-- the value of a parameter: the value in the file if there is one, otherwise the default -/
def Param {α : Type} (file : Str → Option Str) (convert : Str → Except Failure α) (key : String) (default x : α) : Prop :=
  (file key.toList = none ∧ x = default) ∨ ∃ text, file key.toList = some text ∧ convert text = .ok x

/-- the parameters of a run: values in SI units, angles in radians -/
structure Parameters (file : Str → Option Str) (p : Params) : Prop where
  size : Param file (convertPhysical .length) "DustParticle:size" (10 / 10 ^ 6) p.size
  ratio : ∃ equalVolume, Param file convertBool "DustParticle:is equal volume sphere radius" true equalVolume ∧
    p.ratio = if equalVolume then 1 else 1 / 10
  index : Param file convertComplex "DustParticle:refractive index" (1.5, 0.02) p.index
  axisRatio : Param file convertReal "DustParticle:axis ratio" 0.5 p.axisRatio
  wavelength : Param file (convertPhysical .length) "Radiation:incoming wavelength" (6.283185307 / 10 ^ 6) p.wavelength
  tolerance : Param file convertReal "Calculation:tolerance" 0.0001 p.tolerance
  factor : Param file (stringToInteger ⟨64, false⟩) "Calculation:Gauss Legendre factor" 2 p.factor
  maximumOrder : Param file (stringToInteger ⟨64, false⟩) "Calculation:maximum order" 200 p.maximumOrder
  maximumPoints : Param file (stringToInteger ⟨64, false⟩) "Calculation:maximum number of Gauss Legendre points" 500 p.maximumPoints
  alpha : Param file (convertPhysical .angle) "DustParticle:alpha angle" (145 * (Real.pi / 180)) p.alpha
  beta : Param file (convertPhysical .angle) "DustParticle:beta angle" (52 * (Real.pi / 180)) p.beta
  thetaIn : Param file (convertPhysical .angle) "Radiation:incoming theta" (56 * (Real.pi / 180)) p.thetaIn
  phiIn : Param file (convertPhysical .angle) "Radiation:incoming phi" (114 * (Real.pi / 180)) p.phiIn
  thetaOut : Param file (convertPhysical .angle) "Radiation:outgoing theta" (65 * (Real.pi / 180)) p.thetaOut
  phiOut : Param file (convertPhysical .angle) "Radiation:outgoing phi" (128 * (Real.pi / 180)) p.phiOut

/-- the radius of the sphere with the same volume as the grain: the size in the file, or the size times the ratio of the radii of the spheres with equal volume and
with equal surface area -/
noncomputable def radius (p : Params) : ℝ := if p.ratio = 1 then p.size else Spheroid.sphereRatio p.axisRatio * p.size

/-- the same parameters, real numbers rounded to six significant digits -/
structure RoundedParams (p p' : Params) : Prop where
  size : Rounded p.size p'.size
  ratio : p'.ratio = p.ratio
  index : Rounded p.index.1 p'.index.1 ∧ Rounded p.index.2 p'.index.2
  axisRatio : Rounded p.axisRatio p'.axisRatio
  wavelength : Rounded p.wavelength p'.wavelength
  tolerance : Rounded p.tolerance p'.tolerance
  factor : p'.factor = p.factor
  maximumOrder : p'.maximumOrder = p.maximumOrder
  maximumPoints : p'.maximumPoints = p.maximumPoints
  alpha : Rounded p.alpha p'.alpha
  beta : Rounded p.beta p'.beta
  thetaIn : Rounded p.thetaIn p'.thetaIn
  phiIn : Rounded p.phiIn p'.phiIn
  thetaOut : Rounded p.thetaOut p'.thetaOut
  phiOut : Rounded p.phiOut p'.phiOut

end Verif.Program.Spec
