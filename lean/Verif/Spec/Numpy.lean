import Verif.Model.Numpy

/-!
# The elements of an array
-/
namespace Verif.Numpy

/-- number of elements of an array with at most one axis -/
def NdArray.count (a : NdArray) : Nat :=
  match a.shape with
  | [] => 1
  | n :: _ => n

/-- where element number `i` of an array with at most one axis is -/
def NdArray.addr (a : NdArray) (i : Nat) : Int :=
  match a.strides with
  | [] => a.data
  | s :: _ => a.data + i * s

/-- The layout of the array is consistent: bytes are bytes, one stride per axis, every element inside the block (stated for at most one axis). -/
structure NdArray.Ok (a : NdArray) : Prop where
  bytes : ∀ b ∈ a.buf, b < 256
  axes : a.strides.length = a.shape.length
  inside : ∀ i < a.count, 0 ≤ a.addr i ∧ a.addr i + a.dtype.size ≤ a.buf.length

/-- `a[i]` (`a[()]` for an array without axes) -/
def NdArray.item (a : NdArray) (i : Nat) : Option Num := (bytesAt a.buf (a.addr i) a.dtype.size).map a.dtype.decode

/-- the numbers in the array, as `list(a)` shows them -/
def NdArray.Shows (a : NdArray) (l : List Num) : Prop := l.length = a.count ∧ ∀ i < a.count, a.item i = l[i]?

/-- the part `a[::step]` of an array with one axis -/
def NdArray.every (a : NdArray) (step : Nat) : NdArray :=
  { a with shape := [(a.count + step - 1) / step], strides := [step * a.strides.head?.getD 8] }

/-- the elements lie next to each other -/
def NdArray.Contiguous (a : NdArray) : Prop := a.count ≤ 1 ∨ a.strides = [(a.dtype.size : Int)]

end Verif.Numpy
