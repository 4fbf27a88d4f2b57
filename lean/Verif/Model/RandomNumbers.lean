import Verif.Model.Text
import Mathlib.Algebra.Order.Floor.Ring
import Mathlib.Data.Rat.Floor
import Mathlib.Tactic.Linarith
import Mathlib.Tactic.NormNum

/-!
# Random numbers (src/Utilities.hpp)

The value of `rand()` is an argument, and so is `RAND_MAX`. `fl` rounds a real
number to a `double`; what is used of it is stated in `Spec/RandomNumbers`.
-/
namespace Verif.RandomNumbers

open Verif.Text (Failure)

set_option autoImplicit false

/-- `random_double` (Utilities.hpp:61): both numbers are converted to `double` -/
def randomDouble (fl : ℚ → ℚ) (randMax rand : ℕ) : ℚ := fl (fl rand / fl randMax)

/-- the conversion of a `double` to an integer drops the fraction -/
def truncate (x : ℚ) : ℤ := if 0 ≤ x then ⌊x⌋ else ⌈x⌉

/-- `random_int` (Utilities.hpp:74-76): the difference is computed as an
integer of 64 bits and its overflow is undefined, as is the conversion of a
`double` that is out of range -/
def randomInt (fl : ℚ → ℚ) (randMax rand : ℕ) (min max : ℤ) : Except Failure ℤ :=
  if -2 ^ 63 ≤ max - min ∧ max - min < 2 ^ 63 then
    let x := fl (fl min + fl (randomDouble fl randMax rand * fl ((max - min : ℤ) : ℚ)))
    if -2 ^ 63 ≤ truncate x ∧ truncate x < 2 ^ 63 then .ok (truncate x) else .error .undefined
  else .error .undefined

end Verif.RandomNumbers
