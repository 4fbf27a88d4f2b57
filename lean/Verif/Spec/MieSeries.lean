import Verif.Spec.Mie
import Verif.Spec.MieScatter
import Mathlib.Topology.Algebra.InfiniteSum.Defs

/-!
# Specification: the efficiencies of Mie theory, summed over all orders

Bohren & Huffman (1983), eqs. 4.61, 4.62 and 4.74.
-/
namespace Verif.Mie

noncomputable section

variable (m : ℂ) (x : ℝ)

def QextAll : ℝ := 2 / x ^ 2 * ∑' n : ℕ, (2 * ((n + 1 : ℕ) : ℝ) + 1) * (a m x (n + 1) + b m x (n + 1)).re
def QscaAll : ℝ := 2 / x ^ 2 * ∑' n : ℕ, (2 * ((n + 1 : ℕ) : ℝ) + 1) * (Complex.normSq (a m x (n + 1)) + Complex.normSq (b m x (n + 1)))

/-- the amplitudes perpendicular to the scattering plane and in it, for the cosine `μ` of the scattering angle -/
def S1All (μ : ℝ) : ℂ := ∑' n : ℕ, (2 * ((n + 1 : ℕ) : ℂ) + 1) / (((n + 1 : ℕ) : ℂ) * (((n + 1 : ℕ) : ℂ) + 1)) * (a m x (n + 1) * πn (n + 1) μ + b m x (n + 1) * τn (n + 1) μ)
def S2All (μ : ℝ) : ℂ := ∑' n : ℕ, (2 * ((n + 1 : ℕ) : ℂ) + 1) / (((n + 1 : ℕ) : ℂ) * (((n + 1 : ℕ) : ℂ) + 1)) * (a m x (n + 1) * τn (n + 1) μ + b m x (n + 1) * πn (n + 1) μ)

/-- intensity of the scattered light when unpolarised light comes in -/
def phaseAll (k μ : ℝ) : ℝ := (Complex.normSq (S1All m x μ) + Complex.normSq (S2All m x μ)) / (2 * k ^ 2)

end

end Verif.Mie
