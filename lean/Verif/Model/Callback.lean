import Verif.Model.Numpy
import Verif.Model.Orientation

/-!
# Functions provided by the user (src/PyOrientationDistribution.hpp, src/PyDustProperties.hpp)

`CustomOrientationDistribution` and `CustomDustProperties` call a Python function and read a number from the object it returns.  (`float_type` is
`double` or wider: the conversion from `double` is exact.)
-/
namespace Verif.Callback

open Verif.Numpy

/-- element type of an array or NumPy scalar: a real type, or pairs of it (`complex128` is `.pair .f8`) -/
inductive Elem
  | one (d : DType)
  | pair (d : DType)
  deriving DecidableEq

def Elem.size : Elem → Nat
  | .one d => d.size
  | .pair d => 2 * d.size

/-- what a call of a Python function leads to -/
inductive Obj
  /-- an exception: the result of the call is a null pointer -/
  | raised
  /-- an object of the class `float` or a class derived from it (like `numpy.float64`) -/
  | float (v : Num)
  /-- an object of the class `complex` -/
  | complex (re im : Num)
  /-- an object of a class derived from `complex`, which has another name (like `numpy.complex128`) -/
  | derived (re im : Num)
  | int (n : Int)
  /-- NumPy scalar that is none of the above (like `numpy.float32`): type and bytes -/
  | scalar (t : Elem) (bytes : List Nat)
  /-- NumPy array: block of bytes, element type, position of the first element, shape -/
  | array (buf : List Nat) (t : Elem) (data : Nat) (shape : List Nat)
  /-- not a number -/
  | other

/-- what the call of the C++ function leads to -/
inductive Out (α : Type)
  /-- undefined behaviour -/
  | ub
  /-- `ctm_error`: the Python interpreter is stopped -/
  | abort
  | value (v : α)
  deriving DecidableEq

/-- `PyArray_ISFLOAT` -/
def Elem.isFloat : Elem → Bool
  | .one .f8 | .one .f8swapped | .one .f4 => true
  | _ => false

/-- `PyArray_ISCOMPLEX` -/
def Elem.isComplex : Elem → Bool
  | .pair _ => true
  | _ => false

/-- `CustomOrientationDistribution::operator()` after the call (PyOrientationDistribution.hpp:543-583): the macro `PyFloat_Check` looks into the object, also if it is
null -/
def floatOf : Obj → Out Num
  | .raised => .ub
  | .float v => .value v
  | .array buf t data shape =>
    if shape ≠ [] then .abort
    else if ¬ t.isFloat then .abort
    else match View.double.read buf data with
      | none => .ub
      | some v => .value v
  | _ => .abort

/-- `CustomDustProperties::get_refractive_index` after the call (PyDustProperties.hpp:308-352): the name of the class is compared with "complex" -/
def complexOf : Obj → Out (Num × Num)
  | .raised => .ub
  | .complex re im => .value (re, im)
  | .array buf t data shape =>
    if shape ≠ [] then .abort
    else if ¬ t.isComplex then .abort
    else match View.double.read buf data, View.double.read buf (data + 8) with
      | some re, some im => .value (re, im)
      | _, _ => .ub
  | _ => .abort

/-- conversion of a 64 bit integer to `int` -/
def toInt (n : Int) : Int :=
  let r := n % 2 ^ 32
  if r < 2 ^ 31 then r else r - 2 ^ 32

/-- `CustomDustProperties::get_refractive_index` (PyDustProperties.hpp:284-352) for a Python function `f` (its additional argument is the same in all calls) -/
def refractiveIndex (f : Rat → Rat → Int → Obj) (wavelength size : Rat) (type : Int) : Out (Num × Num) := complexOf (f wavelength size (toInt type))

/-- the method `get_refractive_index(type, size, wavelength)` of the Python object (PyDustProperties.hpp:103-146); `type` is parsed as a C `int`, an
integer that is no `int` leads to an exception (`none`) -/
def method (f : Rat → Rat → Int → Obj) (type : Int) (size wavelength : Rat) : Option (Out (Num × Num)) :=
  if -2 ^ 31 ≤ type ∧ type < 2 ^ 31 then some (refractiveIndex f wavelength size type) else none

end Verif.Callback
