import Verif.Spec.Clebsch
import Mathlib.Algebra.Order.Group.Unbundled.Int

/-!
# Specification: average of a T-matrix over the orientations of the particles

`T i n1 m j n2` are the elements of the T-matrix of an axisymmetric particle in the frame of its own axis, for all
projections `-min n1 n2 ≤ m ≤ min n1 n2`; `p N` are the expansion coefficients of the distribution of the angle between the
axis and the direction of alignment. Mishchenko (1991), eq. 3.27.
-/
namespace Verif.Alignment

open Finset Verif.Clebsch

/-- mirror symmetry of an axisymmetric particle: `T^{ij}_{-m n1 -m n2} = (-1)^{i+j} T^{ij}_{m n1 m n2}` -/
def Axisymmetric {K : Type} [Ring K] (T : Nat → Nat → Int → Nat → Nat → K) : Prop :=
  ∀ i n1 m j n2, T i n1 (-m) j n2 = (-1) ^ (i + j) * T i n1 m j n2

/-- the averaged element `⟨T^{ij}_{m n1 m n2}⟩` -/
noncomputable def averaged {K : Type} [Field K] (ι : ℝ → K) (p : Int → ℝ) (T : Nat → Nat → Int → Nat → Nat → K)
    (i n1 : Nat) (m : Int) (j n2 : Nat) : K :=
  ∑ N ∈ Icc |(n1 : Int) - n2| (n1 + n2), ∑ m1 ∈ Icc (-(min n1 n2 : Int)) (min n1 n2),
    ι ((-1) ^ (m + m1).natAbs * p N * cg n1 n2 N 0 m * cg n1 n2 N 0 m1) * T i n1 m1 j n2

end Verif.Alignment
