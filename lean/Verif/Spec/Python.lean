import Verif.Model.Python
import Verif.Spec.Table

/-!
# Shapes of the arrays that the methods return
-/
namespace Verif.Python

/-- shape of an argument -/
def Input.shape (x : Input) : List Nat := if x.scalar then [] else [x.vals.length]

/-- index of element number `i` of an argument -/
def Input.index (x : Input) (i : Nat) : List Nat := if x.scalar then [] else [i]

/-- not an array with one axis and exactly one element -/
def Input.NoSingleton (x : Input) : Prop := x.scalar = false → x.vals.length ≠ 1

end Verif.Python
