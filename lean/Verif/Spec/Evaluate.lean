import Verif.Spec.Legendre

/-!
# Legendre series
-/
namespace Verif.Python

/-- the series with coefficients `c`, up to and including order `N`, at the cosine `x` -/
noncomputable def series (c : Nat → ℝ) (N : Nat) (x : ℝ) : ℝ :=
  ∑ n ∈ Finset.range (N + 1), (2 * (n : ℝ) + 1) / 2 * c n * (Legendre.P n).eval x

end Verif.Python
