import Verif.Model.Memory
import Mathlib.Algebra.BigOperators.Group.Finset.Basic
import Mathlib.Algebra.BigOperators.Intervals

/-!
# Specification: memory
-/
namespace Verif.Memory

open Verif.Graph

set_option autoImplicit false

/-- bytes of an object and of the elements of its vectors and matrices -/
def occupied (z : Sizes) (A : Args) (x : Item) : Nat := z.object x + ((stores A x).map (Store.elements z)).sum

/-- bytes of the objects in its vectors -/
def headers (z : Sizes) (A : Args) (x : Item) : Nat := ((stores A x).map (Store.headers z)).sum

/-- the bytes of a list of objects -/
def total (f : Item → Nat) (l : List Item) : Nat := (l.map f).sum

/-- the number of bytes that a table calculation needs for objects and elements, but does not account for.  `npars` is the number of combinations of composition, size and wavelength;
`abs` and `scat` tell which quantities are computed. -/
def missing (z : Sizes) (A : Args) (npars : Nat) (abs scat : Bool) : Int :=
  let f : Int := z.float
  let N : Int := A.max
  let nang : Int := A.nang
  let ngauss : Int := A.ngauss
  let nshape : Int := A.nshape
  let factors : Int := 3 * N * N * (f - 1)
  let absorption : Int := ngauss * f + ∑ n ∈ Finset.Icc 1 A.max, ((n : Int) + 1) * (2 * n * (ngauss - nang) * f)
  let scattering : Int := 16 * f * (2 * nang * nang - nang) * (npars * (1 + nshape)) - 2 * nang * f
  factors + (if abs = true then absorption else 0) + (if scat = true then scattering else 0)

end Verif.Memory
