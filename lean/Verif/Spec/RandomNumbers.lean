import Mathlib.Data.Rat.Defs
import Mathlib.Algebra.Order.Field.Rat
import Mathlib.Tactic.Linarith
import Mathlib.Tactic.NormNum

/-!
# Rounding to `double`

Of the rounding of IEEE 754 (in any rounding mode) only this is needed: it is
monotone, and numbers with at most 53 binary digits are kept. Overflow and
numbers too small to be normal do not occur in what uses this.
-/
namespace Verif.RandomNumbers

set_option autoImplicit false

structure Rounding (fl : ℚ → ℚ) : Prop where
  mono : ∀ x y, x ≤ y → fl x ≤ fl y
  exact : ∀ (n : ℤ) (e : ℕ), |n| ≤ 2 ^ 53 → e ≤ 1000 → fl (n / 2 ^ e) = n / 2 ^ e

end Verif.RandomNumbers
