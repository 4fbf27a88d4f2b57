import Verif.Model.TMatrix
import Mathlib.Analysis.Complex.Basic

/-!
# Specification of the convergence of a stand-alone T-matrix calculation
-/
namespace Verif.Calculator.Spec

open Finset
open Verif.TMatrix (TRes)

/-- scattering factor of the `m = 0` part, up to order `nmax` -/
noncomputable def scaFactor (nmax : Nat) (T : TRes ℂ ℝ) : ℝ :=
  ∑ n ∈ Icc 1 nmax, (2 * n + 1) * (‖T.get 0 n 0 0 n‖ ^ 2 + ‖T.get 1 n 0 1 n‖ ^ 2)

/-- extinction factor of the `m = 0` part, up to order `nmax` -/
noncomputable def extFactor (nmax : Nat) (T : TRes ℂ ℝ) : ℝ :=
  ∑ n ∈ Icc 1 nmax, (2 * n + 1) * ((T.get 0 n 0 0 n).re + (T.get 1 n 0 1 n).re)

/-- both factors change by a fraction `tol` or less -/
def Close (tol : ℝ) (old new : ℝ × ℝ) : Prop := |old.1 - new.1| ≤ tol * |new.1| ∧ |old.2 - new.2| ≤ tol * |new.2|

variable (make : Nat → Nat → TRes ℂ ℝ) (ndgs n0 : Nat) (tol : ℝ)

/-- the factors found for an order, with `ndgs` quadrature points per order -/
noncomputable def orderFactors (n : Nat) : ℝ × ℝ := (scaFactor n (make n (ndgs * n)), extFactor n (make n (ndgs * n)))

/-- the values order `n` is compared with: those for the order before, zero for the first order -/
noncomputable def before (n : Nat) : ℝ × ℝ := if n = n0 then (0, 0) else orderFactors make ndgs (n - 1)

/-- order `n` meets the tolerance -/
def OrderMeets (n : Nat) : Prop := Close tol (before make ndgs n0 n) (orderFactors make ndgs n)

/-- `g` quadrature points meet the tolerance for order `n`: compared with one point less -/
def PointsMeet (n g : Nat) : Prop :=
  Close tol (scaFactor n (make n (g - 1)), extFactor n (make n (g - 1))) (scaFactor n (make n g), extFactor n (make n g))

/-- `n` is the first number from `lo` on with the property `P` -/
def First (P : Nat → Prop) (lo n : Nat) : Prop := lo ≤ n ∧ P n ∧ ∀ k, lo ≤ k → k < n → ¬ P k

end Verif.Calculator.Spec
