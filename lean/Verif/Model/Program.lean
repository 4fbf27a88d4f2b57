import Verif.Model.Decimal
import Verif.Model.Yaml
import Verif.Model.CommandLine
import Verif.Model.Calculator
import Verif.Model.Spheroid
import Verif.Model.DirectScatter

/-!
# The stand-alone program (src/CosTuuM.cpp, src/ParameterFile.cpp, src/ParameterFile.hpp)

Numbers are exact.  Not modelled: the terminal output (configuration, command line options, the parameters a second time, the two
matrices as warnings).
-/
namespace Verif.Program

open Verif.Yaml
open Verif.Text (Failure)
open Verif.TMatrix (TRes)

set_option autoImplicit false

noncomputable section

/-! ## types of parameters: `Utilities::convert` and `Utilities::to_string` -/

/-- `double` (Utilities.hpp:222-230, 419-423) -/
def realType : DataType ℝ := ⟨Text.convertReal, Text.showReal⟩

/-- `std::complex<double>` (Utilities.hpp:400-412, 467-471) -/
def complexType : DataType (ℝ × ℝ) := ⟨Text.convertComplex, Text.showComplex⟩

/-- `bool` (Utilities.hpp:353-388, 445-455) -/
def boolType : DataType Bool := ⟨Text.convertBool, Text.showBool⟩

/-- `uint_fast32_t`, 64 bits (Utilities.hpp:108-208, 419-423) -/
def countType : DataType Int := ⟨Text.stringToInteger ⟨64, false⟩, Text.showInt⟩

/-- a physical value (YAMLDictionary.hpp:473-483) -/
def physicalType (q : Units.Quantity) : DataType ℝ := ⟨Text.convertPhysical q, Text.showPhysical q⟩

/-! ## the parameter file -/

/-- the variables of `main` (CosTuuM.cpp:84-149) -/
structure Params where
  size : ℝ
  ratio : ℝ
  index : ℝ × ℝ
  axisRatio : ℝ
  wavelength : ℝ
  tolerance : ℝ
  factor : Int
  maximumOrder : Int
  maximumPoints : Int
  alpha : ℝ
  beta : ℝ
  thetaIn : ℝ
  phiIn : ℝ
  thetaOut : ℝ
  phiOut : ℝ

/-- `ratio_of_radii` (CosTuuM.cpp:88-92) -/
def ratioOf (isEqualVolume : Bool) : ℝ := if !isEqualVolume then 1 / 10 else 1

/-- the parameters, in the order in which they are read (CosTuuM.cpp:84-149); `ParameterFile` passes every query to its dictionary
(ParameterFile.hpp:72-182) -/
def readParams (d : Dictionary) : Except Failure (Params × Dictionary) :=
  match getPhysicalOr (physicalType .length) "DustParticle:size".toList "10. micron".toList d with
  | .error e => .error e
  | .ok (size, d) =>
  match getValueOr boolType "DustParticle:is equal volume sphere radius".toList true d with
  | .error e => .error e
  | .ok (equal, d) =>
  match getValueOr complexType "DustParticle:refractive index".toList (15 / 10, 2 / 100) d with
  | .error e => .error e
  | .ok (index, d) =>
  match getValueOr realType "DustParticle:axis ratio".toList (1 / 2) d with
  | .error e => .error e
  | .ok (axisRatio, d) =>
  match getPhysicalOr (physicalType .length) "Radiation:incoming wavelength".toList "6.283185307 micron".toList d with
  | .error e => .error e
  | .ok (wavelength, d) =>
  match getValueOr realType "Calculation:tolerance".toList (1 / 10 ^ 4) d with
  | .error e => .error e
  | .ok (tolerance, d) =>
  match getValueOr countType "Calculation:Gauss Legendre factor".toList 2 d with
  | .error e => .error e
  | .ok (factor, d) =>
  match getValueOr countType "Calculation:maximum order".toList 200 d with
  | .error e => .error e
  | .ok (maximumOrder, d) =>
  match getValueOr countType "Calculation:maximum number of Gauss Legendre points".toList 500 d with
  | .error e => .error e
  | .ok (maximumPoints, d) =>
  match getPhysicalOr (physicalType .angle) "DustParticle:alpha angle".toList "145. degrees".toList d with
  | .error e => .error e
  | .ok (alpha, d) =>
  match getPhysicalOr (physicalType .angle) "DustParticle:beta angle".toList "52. degrees".toList d with
  | .error e => .error e
  | .ok (beta, d) =>
  match getPhysicalOr (physicalType .angle) "Radiation:incoming theta".toList "56. degrees".toList d with
  | .error e => .error e
  | .ok (thetaIn, d) =>
  match getPhysicalOr (physicalType .angle) "Radiation:incoming phi".toList "114. degrees".toList d with
  | .error e => .error e
  | .ok (phiIn, d) =>
  match getPhysicalOr (physicalType .angle) "Radiation:outgoing theta".toList "65. degrees".toList d with
  | .error e => .error e
  | .ok (thetaOut, d) =>
  match getPhysicalOr (physicalType .angle) "Radiation:outgoing phi".toList "128. degrees".toList d with
  | .error e => .error e
  | .ok (phiOut, d) =>
  .ok (⟨size, ratioOf equal, index, axisRatio, wavelength, tolerance, factor, maximumOrder, maximumPoints, alpha, beta, thetaIn, phiIn, thetaOut,
    phiOut⟩, d)

/-- date and time: `std::tm` (Utilities.hpp:563-564); the year is complete and the month starts from 1 -/
structure Time where
  day : Nat
  month : Nat
  year : Nat
  hour : Nat
  minute : Nat
  second : Nat

/-- a number with a zero in front of it if it is less than ten (Utilities.hpp:566-587) -/
def padded (n : Nat) : Str := (if n < 10 then ['0'] else []) ++ Text.showNat n

/-- `get_timestamp` (Utilities.hpp:562-589) -/
def timestamp (t : Time) : Str :=
  padded t.day ++ "/".toList ++ padded t.month ++ "/".toList ++ Text.showNat t.year ++ ", ".toList ++ padded t.hour ++ ":".toList ++ padded t.minute
    ++ ":".toList ++ padded t.second

/-- `ParameterFile::print_contents` (ParameterFile.cpp:63-68) -/
def usedFile (t : Time) (d : Dictionary) : Str :=
  "# file written on ".toList ++ timestamp t ++ ".\n".toList ++ printUsed d.used d.values

/-! ## the program -/

/-- the options of the parser (CosTuuM.cpp:67-71) -/
def options : List CommandLine.CommandOption :=
  CommandLine.initial ++ [⟨"params".toList, 'p', .string, [], true⟩, ⟨"output".toList, 'o', .string, [], true⟩]

/-- the object that is made from the elements that were computed: the functions below use the order, the wave number and the elements only -/
def object (wavelength : ℝ) (T : TRes ℂ ℝ) : Direct.Obj ℝ ℂ :=
  { Direct.blank Special.realOps Complex.ofRealHom wavelength 1 T.nmax T.ngauss with T := T.T }

/-- what happens after the parameters have been read -/
inductive Finish
  /-- the program ends with an error message -/
  | abort
  /-- undefined behaviour: access to a null pointer -/
  | ub
  /-- exit code 0, with the matrix that is written to the output file -/
  | done (K : Matrix.Mat ℝ)

/-- `R_V` (TMatrixCalculator.hpp:73-80) -/
def radiusV (p : Params) : ℝ := (if |p.ratio - 1| > 1 / 10 ^ 8 then Spheroid.sphereRatio p.axisRatio else p.ratio) * p.size

/-- the T-matrix and its extinction matrix (CosTuuM.cpp:162-197).  `make` is the constructor of `TMatrix` (wavelength, refractive index, radius, axis ratio, order,
number of quadrature points), `complete` its `compute_additional_elements` (`Model.Direct`) -/
def compute (make : ℝ → ℂ → ℝ → ℝ → Nat → Nat → TRes ℂ ℝ) (complete : TRes ℂ ℝ → TRes ℂ ℝ) (p : Params) : Finish :=
  match Calculator.calculate (make p.wavelength ⟨p.index.1, p.index.2⟩ (radiusV p) p.axisRatio) complete
      (Calculator.startOrder Spheroid.sphereRatio p.ratio p.axisRatio p.size p.wavelength) p.maximumOrder.toNat p.factor.toNat p.maximumPoints.toNat
      p.tolerance with
  | .error => .abort
  | .null => .ub
  | .ok T => .done (Direct.extinctionMatrix (object p.wavelength T) p.alpha p.beta p.thetaIn p.phiIn)

/-- what the program does -/
inductive Outcome
  /-- it ends while it reads its arguments -/
  | exit (code : Nat)
  /-- it ends with an error (or has undefined behaviour) before it writes a file -/
  | failed (e : Failure)
  /-- the file `parameters-usedvalues.param` is written, but no output file -/
  | stopped (used : Str) (ub : Bool)
  /-- both files are written: contents of the first, name and contents of the second -/
  | done (used : Str) (output : Str) (dump : List Nat)

/-- `main` (CosTuuM.cpp:59-204).  `files` are the files that can be opened, `real` the conversion of arguments that are numbers (not used by the options of
this program), `enc` the eight bytes of a `double` -/
def main (make : ℝ → ℂ → ℝ → ℝ → Nat → Nat → TRes ℂ ℝ) (complete : TRes ℂ ℝ → TRes ℂ ℝ) (real : Str → Except Failure Str) (enc : ℝ → List Nat)
    (files : Str → Option Str) (now : Time) (args : List Str) : Outcome :=
  match CommandLine.parse real options args with
  | .exit code => .exit code
  | .failed e => .failed e
  | .done o _ =>
    match find o "params".toList with
    | none => .failed .error
    | some name =>
      match files name with
      | none => .failed .error
      | some text =>
        match read text with
        | .error e => .failed e
        | .ok m =>
          match readParams ⟨m, []⟩ with
          | .error e => .failed e
          | .ok (p, d) =>
            match compute make complete p with
            | .abort => .stopped (usedFile now d) false
            | .ub => .stopped (usedFile now d) true
            | .done K =>
              match find o "output".toList with
              | none => .stopped (usedFile now d) false
              | some output => .done (usedFile now d) output (Matrix.binaryDump K 8 enc)

end

end Verif.Program
