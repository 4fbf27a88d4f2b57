import Verif.Model.Callback

/-!
# The number that a Python object stands for
-/
namespace Verif.Callback

open Verif.Numpy

/-- real and imaginary part of the element that is stored in some bytes -/
def Elem.decode : Elem → List Nat → Num × Num
  | .one d, l => (d.decode l, .fin 0)
  | .pair d, l => (d.decode (l.take d.size), d.decode (l.drop d.size))

/-- what `complex(x)` gives; `none` for objects that are not a number -/
def Obj.number : Obj → Option (Num × Num)
  | .float v => some (v, .fin 0)
  | .complex re im => some (re, im)
  | .derived re im => some (re, im)
  | .int n => some (.fin n, .fin 0)
  | .scalar t bytes => some (t.decode bytes)
  | .array buf t data [] => (bytesAt buf data t.size).map t.decode
  | _ => none

end Verif.Callback
