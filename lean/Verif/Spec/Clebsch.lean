import Mathlib.Algebra.BigOperators.Intervals
import Mathlib.Analysis.SpecialFunctions.Pow.Real
import Mathlib.Data.Nat.Choose.Basic

/-!
# Specification: Clebsch-Gordan coefficients

`cg n1 n2 N M m1` is the coefficient `C^{NM}_{n1 m1 n2 m2}` with `m2 = M - m1` in the convention of Condon and Shortley, in
the closed form of van der Waerden (Varshalovich et al. 1988, section 8.2).
-/
namespace Verif.Clebsch

/-- binomial coefficient with an integer below -/
def ch (n : Nat) (a : Int) : Int := if 0 ≤ a then (n.choose a.toNat : Int) else 0

/-- the alternating sum of the closed form, with `k = n1 + n2 - N`, `b = n1 - n2 + N`, `c = n2 - n1 + N`,
`α = n1 - m1`, `β = n2 + m2` -/
def S (k b c : Nat) (α β : Int) : Int :=
  ∑ i ∈ Finset.range (k + 1), (-1) ^ i * (k.choose i : Int) * (ch b (α - i) * ch c (β - i))

/-- factorial of a non-negative integer -/
def fac (a : Int) : Nat := a.toNat.factorial

/-- Clebsch-Gordan coefficient `C^{NM}_{n1 m1 n2 (M-m1)}` -/
noncomputable def cg (n1 n2 N M m1 : Int) : ℝ :=
  Real.sqrt ((2 * N + 1) * (fac (N + M) * fac (N - M)
      * (fac (n1 + m1) * fac (n1 - m1) * fac (n2 + (M - m1)) * fac (n2 - (M - m1))))
    / (fac (n1 + n2 - N) * fac (n1 - n2 + N) * fac (n2 - n1 + N) * fac (n1 + n2 + N + 1)))
  * S (n1 + n2 - N).toNat (n1 - n2 + N).toNat (n2 - n1 + N).toNat (n1 - m1) (n2 + (M - m1))

/-- the triangle condition -/
structure Triangle (n1 n2 N : Int) : Prop where
  h1 : 0 ≤ n1
  h2 : 0 ≤ n2
  lo : n1 - n2 ≤ N
  lo' : n2 - n1 ≤ N
  hi : N ≤ n1 + n2

end Verif.Clebsch
