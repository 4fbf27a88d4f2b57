import Verif.Proofs.LegendreOrth
import Verif.Properties.Wigner
import Verif.Spec.MieScatter
import Mathlib.Analysis.Calculus.Deriv.MeanValue
import Mathlib.Analysis.Calculus.Deriv.Polynomial

/-!
# Bounds for Legendre polynomials and for the angular functions
-/
namespace Verif.Legendre

open Polynomial

/-- on the interval where the light is scattered to, Legendre polynomials are at most 1 -/
theorem P_le_one (n : Nat) {x : ℝ} (hx : x ∈ Set.Icc (-1 : ℝ) 1) : |(P n).eval x| ≤ 1 := by
  -- the derivative of `P² + (1 - x²) P'² / (n (n + 1))` is `2 x P'² / (n (n + 1))`
  rcases Nat.eq_zero_or_pos n with rfl | hn
  · simp [P_zero]
  have hk : (0 : ℝ) < (n : ℝ) * (n + 1) := by
    have : (0 : ℝ) < n := by exact_mod_cast hn
    positivity
  set k : ℝ := (n : ℝ) * (n + 1) with hkd
  have pos : ∀ y ∈ Set.Icc (0 : ℝ) 1, |(P n).eval y| ≤ 1 := by
    intro y hy
    let F : ℝ[X] := C k * (P n * P n) + (1 - X ^ 2) * derivative (P n) * derivative (P n)
    have hF : derivative F = 2 * X * (derivative (P n) * derivative (P n)) := by
      have h := legendre_ode n
      rw [← hkd] at h
      have h2 : derivative ((1 - X ^ 2 : ℝ[X]) * derivative (P n)) = (1 - X ^ 2) * derivative (derivative (P n)) - 2 * X * derivative (P n) := by
        rw [derivative_mul, derivative_sub, derivative_one, derivative_X_sq]
        simp only [C_ofNat, zero_sub]
        ring
      simp only [F, derivative_add, derivative_mul, derivative_C, derivative_sub, derivative_one, derivative_X_sq]
      rw [h2] at h
      simp only [C_ofNat, zero_sub, zero_mul, zero_add]
      linear_combination (2 * derivative (P n)) * h
    have hm : MonotoneOn (fun y => F.eval y) (Set.Icc 0 1) := by
      refine monotoneOn_of_deriv_nonneg (convex_Icc 0 1) F.continuous.continuousOn F.differentiable.differentiableOn fun z hz => ?_
      rw [interior_Icc] at hz
      rw [Polynomial.deriv, hF]
      simp only [eval_mul, eval_X, eval_ofNat]
      have := hz.1
      nlinarith [mul_self_nonneg ((derivative (P n)).eval z)]
    have h1 := hm hy (Set.right_mem_Icc.2 zero_le_one) hy.2
    simp only [F, eval_add, eval_mul, eval_C, eval_sub, eval_pow, eval_X, eval_one, P_eval_one] at h1
    have h2 : 0 ≤ (1 - y ^ 2) * (derivative (P n)).eval y * (derivative (P n)).eval y := by
      rw [mul_assoc]
      exact mul_nonneg (by nlinarith [hy.1, hy.2]) (mul_self_nonneg _)
    have h3 : (P n).eval y * (P n).eval y ≤ 1 := by
      refine le_of_mul_le_mul_left ?_ hk
      linarith
    exact abs_le_one_iff_mul_self_le_one.2 h3
  rcases le_total 0 x with h | h
  · exact pos x ⟨h, hx.2⟩
  · have h2 := pos (-x) ⟨by linarith, by linarith [hx.1]⟩
    rw [Special.P_neg, abs_mul, abs_pow, abs_neg, abs_one, one_pow, one_mul] at h2
    exact h2

/-- and the derivatives at most `n (n + 1) / 2` -/
theorem dP_le {x : ℝ} (hx : x ∈ Set.Icc (-1 : ℝ) 1) : ∀ n : Nat, |(derivative (P n)).eval x| ≤ n * (n + 1) / 2
  | 0 => by simp [P_zero]
  | n + 1 => by
    rw [der_P_succ, eval_add, eval_mul, eval_C, eval_mul, eval_X]
    have h1 := P_le_one n hx
    have h2 := dP_le hx n
    have h3 : |x| ≤ 1 := abs_le.2 hx
    refine (abs_add_le _ _).trans ?_
    rw [abs_mul, abs_mul, abs_of_nonneg (by positivity : (0 : ℝ) ≤ n + 1)]
    have h4 := mul_le_mul h3 h2 (abs_nonneg _) zero_le_one
    have h5 := mul_le_mul_of_nonneg_left h1 (by positivity : (0 : ℝ) ≤ n + 1)
    push_cast
    linarith

end Verif.Legendre

namespace Verif.Mie
open Polynomial Verif.Legendre

theorem πn_le {μ : ℝ} (h : μ ∈ Set.Icc (-1 : ℝ) 1) (n : Nat) : |πn n μ| ≤ n * (n + 1) / 2 := dP_le h n

theorem τn_eq (n : Nat) (μ : ℝ) : τn n μ = n * (n + 1) * (P n).eval μ - μ * πn n μ := by
  have h := congrArg (fun q => eval μ q) (legendre_ode n)
  simp only [derivative_mul, derivative_sub, derivative_one, derivative_X_sq, zero_sub, eval_add, eval_mul, eval_neg, eval_C, eval_X, eval_sub, eval_one, eval_pow] at h
  unfold τn πn
  linarith

theorem τn_le {μ : ℝ} (h : μ ∈ Set.Icc (-1 : ℝ) 1) (n : Nat) : |τn n μ| ≤ 3 / 2 * (n * (n + 1)) := by
  rw [τn_eq]
  have h1 := P_le_one n h
  have h2 := πn_le h n
  have h3 : |μ| ≤ 1 := abs_le.2 h
  refine (abs_sub _ _).trans ?_
  rw [abs_mul (_ * _), abs_mul μ, abs_of_nonneg (by positivity : (0 : ℝ) ≤ n * (n + 1))]
  have h4 := mul_le_mul h3 h2 (abs_nonneg _) zero_le_one
  have h5 := mul_le_mul_of_nonneg_left h1 (by positivity : (0 : ℝ) ≤ n * (n + 1))
  linarith

end Verif.Mie
