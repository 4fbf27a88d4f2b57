import Verif.Spec.Legendre
import Verif.Spec.Content
import Verif.Spec.Sphere
import Verif.Spec.Oriented
import Verif.Spec.PythonInit

/-!
# Specification: Gauss-Legendre rules of all orders; reciprocity
-/
namespace Verif.Refine

open Polynomial

/-- `r` is the Gauss-Legendre rule with `n` points: different zeros of the Legendre polynomial of degree `n`, and their weights -/
structure Gauss (n : Nat) (r : (Nat → ℝ) × (Nat → ℝ)) : Prop where
  zeros : ∀ i < n, (Legendre.P n).eval (r.1 i) = 0
  different : ∀ i < n, ∀ j < n, r.1 i = r.1 j → i = j
  weights : ∀ i < n, r.2 i = 2 / ((1 - r.1 i ^ 2) * (derivative (Legendre.P n)).eval (r.1 i) ^ 2)

/-- the reciprocity relation for a particle with an axis of symmetry (Mishchenko 2002, eq. 5.34 with `m' = m`): source and detector can be exchanged -/
def Reciprocal (T : Nat → Nat → Int → Nat → Nat → ℂ) (nmax : Nat) : Prop :=
  ∀ (a n : Nat) (m : Int) (b n' : Nat), a < 2 → b < 2 → 1 ≤ n → n ≤ nmax → 1 ≤ n' → n' ≤ nmax → |m| ≤ n → |m| ≤ n' → T a n m b n' = T b n' (-m) a n

/-- the particle looks the same upside down: waves of different parity are not coupled -/
def Mirror (T : Nat → Nat → Int → Nat → Nat → ℂ) (nmax : Nat) : Prop :=
  ∀ (a n : Nat) (m : Int) (b n' : Nat), a < 2 → b < 2 → 1 ≤ n → n ≤ nmax → 1 ≤ n' → n' ≤ nmax → |m| ≤ n → |m| ≤ n' → (a + n + b + n') % 2 = 1 → T a n m b n' = 0

noncomputable section

variable (H : Content.Problem) (c : Graph.Cell) (g : Nat) (T : Nat → Nat → Int → Nat → Nat → ℂ) (A : ℝ → Scatter.Angular) (o : Scatter.Angular)

/-- cross section for everything that is lost from a beam with vertical (`0`) or horizontal polarisation in the direction of the angular functions `o`: the optical theorem -/
def extinguished (pol : Fin 2) : ℝ := 4 * Real.pi / Content.waveK H c.par * (if pol = 0 then Content.amp11 H c g T o o 0 else Content.amp22 H c g T o o 0).im

/-- cross section for what is scattered from that beam into all directions (`A` are the angular functions of all polar angles) -/
def dispersed (pol : Fin 2) : ℝ :=
  Rotation.sphere fun θ φ => if pol = 0 then Complex.normSq (Content.amp11 H c g T (A θ) o φ) + Complex.normSq (Content.amp21 H c g T (A θ) o φ)
    else Complex.normSq (Content.amp12 H c g T (A θ) o φ) + Complex.normSq (Content.amp22 H c g T (A θ) o φ)

/-- cross section for absorption, in units of the disc -/
def absorbed (pol : Fin 2) : ℝ := (extinguished H c g T o pol - dispersed H c g T A o pol) / Content.disc H c.par

/-- the expansion coefficients in the table are those of some distribution of the orientations, if the grains are aligned -/
def Distributed : Prop :=
  H.aligned c = true → ∃ μ, Python.AngleDist μ ∧ ∀ n : Nat, n ≤ 2 * Content.orderAt H g → (H.coeff c).v n = Rotation.coefficients μ n

end

end Verif.Refine
