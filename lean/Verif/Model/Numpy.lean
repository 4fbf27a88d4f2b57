import Mathlib.Data.Rat.Defs
import Mathlib.Data.List.Basic
import Mathlib.Algebra.Field.Rat

/-!
# Reading NumPy arrays (src/PyHelperFunctions.hpp, src/PyTMatrix.hpp)

An array object is a window on a block of bytes: data pointer, shape, strides (in bytes) and the type of the elements.
`PyArray_Converter` (used for every array argument) accepts arrays of every element type and every layout, and makes an array of
integers of a Python list of integers.  Little endian machine, 64 bit.
-/
namespace Verif.Numpy

/-- A number as Python shows it; the two zeros of floating point formats are not distinguished. -/
inductive Num
  | fin (q : Rat)
  | inf (negative : Bool)
  | nan
  deriving DecidableEq

/-- number stored in a list of bytes, least significant byte first -/
def leNat : List Nat → Nat
  | [] => 0
  | b :: l => b + 256 * leNat l

/-- the value of a floating point number with `e` exponent bits and `m` fraction bits (IEEE 754 binary interchange formats) -/
def decodeFloat (e m : Nat) (bits : Nat) : Num :=
  let fraction := bits % 2 ^ m
  let exponent := bits / 2 ^ m % 2 ^ e
  let negative := bits / 2 ^ (m + e) % 2 == 1
  let bias : Int := 2 ^ (e - 1) - 1
  let sign : Rat := if negative then -1 else 1
  if exponent = 2 ^ e - 1 then
    if fraction = 0 then .inf negative else .nan
  else if exponent = 0 then .fin (sign * fraction * (2 : Rat) ^ (1 - bias - m))
  else .fin (sign * (2 ^ m + fraction) * (2 : Rat) ^ ((exponent : Int) - bias - m))

/-- `double` -/
def decodeDouble : Nat → Num := decodeFloat 11 52

/-- two's complement with `n` bits -/
def decodeInt (n : Nat) (bits : Nat) : Num := .fin (if bits < 2 ^ (n - 1) then (bits : Rat) else (bits : Rat) - 2 ^ n)

/-- element types (`numpy.dtype`): floating point, integer; native or swapped byte order -/
inductive DType
  | f8
  | f8swapped
  | f4
  | i8
  | i4
  deriving DecidableEq

def DType.size : DType → Nat
  | .f8 | .f8swapped | .i8 => 8
  | .f4 | .i4 => 4

/-- the number an element stands for -/
def DType.decode : DType → List Nat → Num
  | .f8, l => decodeDouble (leNat l)
  | .f8swapped, l => decodeDouble (leNat l.reverse)
  | .f4, l => decodeFloat 8 23 (leNat l)
  | .i8, l => decodeInt 64 (leNat l)
  | .i4, l => decodeInt 32 (leNat l)

/-- array object -/
structure NdArray where
  /-- the block of bytes -/
  buf : List Nat
  dtype : DType
  /-- `PyArray_DATA`: where the first element is -/
  data : Nat
  /-- `PyArray_DIMS`; its length is `PyArray_NDIM` -/
  shape : List Nat
  strides : List Int

/-- the `n` bytes at an address; `none`: not inside the block (undefined behaviour) -/
def bytesAt (buf : List Nat) (addr : Int) (n : Nat) : Option (List Nat) :=
  if 0 ≤ addr ∧ addr + n ≤ buf.length then some ((buf.drop addr.toNat).take n) else none

/-- how a function of the library looks at 8 bytes: `*(reinterpret_cast<double *>(p))` or
`*(reinterpret_cast<int_fast32_t *>(p))` (a 64 bit integer) -/
inductive View
  | double
  | int

def View.read (v : View) (buf : List Nat) (addr : Int) : Option Num :=
  (bytesAt buf addr 8).map fun l => match v with
    | .double => decodeDouble (leNat l)
    | .int => decodeInt 64 (leNat l)

/-- the size that the functions use: 1 for an array without axes -/
def NdArray.size (a : NdArray) : Nat := a.shape.head?.getD 1

/-- `PyArray_GETPTR1` (an array without axes has been given one axis of length 1 before) -/
def NdArray.ptr1 (a : NdArray) (i : Nat) : Int := a.data + i * a.strides.head?.getD 8

/-- `unpack_numpy_array` (PyHelperFunctions.hpp:49-80); the outer `none` is undefined behaviour; an array with more than one axis leads to a
warning on standard error and an empty vector -/
def unpack (v : View) (a : NdArray) : Option (List Num) :=
  if 1 < a.shape.length then some []
  else (List.range a.size).mapM fun (i : Nat) => v.read a.buf (a.ptr1 i)

/-- what happens to an array argument of a method -/
inductive Arg
  /-- a null pointer is returned to Python (without an exception having been set) -/
  | null
  /-- undefined behaviour -/
  | ub
  | values (l : List Num)
  deriving DecidableEq

def Arg.ofOption : Option (List Num) → Arg
  | none => .ub
  | some l => .values l

/-- the arguments of `get_extinction_matrix` (PyTMatrix.hpp:485-527, 537-547) -/
def argStrided (a : NdArray) : Arg :=
  if 1 < a.shape.length then .null else .ofOption ((List.range a.size).mapM fun (i : Nat) => View.double.read a.buf (a.ptr1 i))

/-- the argument of `get_absorption_cross_section` and `get_absorption_cross_sections` (PyTMatrix.hpp:299-337, 393-430): `thetadata[i]` with
`const double *thetadata = PyArray_DATA(thetas)` -/
def argData (a : NdArray) : Arg :=
  if 1 < a.shape.length then .null else .ofOption ((List.range a.size).mapM fun (i : Nat) => View.double.read a.buf (a.data + 8 * i))

end Verif.Numpy
