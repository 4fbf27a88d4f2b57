import Verif.Spec.Legendre
import Mathlib.Tactic.Ring
import Mathlib.Tactic.Linarith
import Mathlib.Tactic.FieldSimp
import Mathlib.Tactic.LinearCombination
import Mathlib.Analysis.SpecialFunctions.Trigonometric.Deriv
import Mathlib.Analysis.Calculus.Deriv.Polynomial

/-! Recursion relations of the Legendre polynomials and Wigner functions -/
namespace Verif.Legendre

open Polynomial

theorem der_iter_X_mul (n : Nat) (f : ℝ[X]) :
    derivative^[n + 1] (X * f) = X * derivative^[n + 1] f + C ((n : ℝ) + 1) * derivative^[n] f := by
  induction n with
  | zero => simp [derivative_mul]; ring
  | succ n ih =>
    rw [Function.iterate_succ_apply', ih]
    simp only [derivative_add, derivative_mul, derivative_X, derivative_C, ← Function.iterate_succ_apply']
    push_cast
    simp only [map_add, map_one, map_natCast]
    ring

theorem der_iter_C_mul (n : Nat) (c : ℝ) (f : ℝ[X]) : derivative^[n] (C c * f) = C c * derivative^[n] f := by
  induction n generalizing f with
  | zero => rfl
  | succ n ih => rw [Function.iterate_succ_apply, derivative_C_mul, ih, Function.iterate_succ_apply]

theorem der_iter_add (n : Nat) (f g : ℝ[X]) :
    derivative^[n] (f + g) = derivative^[n] f + derivative^[n] g := by
  induction n generalizing f g with
  | zero => rfl
  | succ n ih => simp only [Function.iterate_succ_apply, derivative_add, ih]

theorem der_iter_sub (n : Nat) (f g : ℝ[X]) :
    derivative^[n] (f - g) = derivative^[n] f - derivative^[n] g := by
  induction n generalizing f g with
  | zero => rfl
  | succ n ih => simp only [Function.iterate_succ_apply, derivative_sub, ih]

/-- `1/(2^n n!) D^(n-1) (x^2-1)^n`, times `n` -/
noncomputable def Q : Nat → ℝ[X]
  | 0 => 0
  | n + 1 => C (((n : ℝ) + 1) / (2 ^ (n + 1) * (n + 1).factorial : ℝ)) * derivative^[n] ((X ^ 2 - 1) ^ (n + 1))

theorem der_Q (n : Nat) : derivative (Q n) = C (n : ℝ) * P n := by
  cases n with
  | zero => simp [Q]
  | succ n =>
    simp only [Q, P, derivative_C_mul, ← Function.iterate_succ_apply', ← mul_assoc, ← map_mul]
    congr 2
    push_cast
    ring

/-- `P_{n+1} = x P_n + Q_n` -/
theorem P_succ (n : Nat) : P (n + 1) = X * P n + Q n := by
  have h1 : derivative ((X ^ 2 - 1 : ℝ[X]) ^ (n + 1)) = C (2 * ((n : ℝ) + 1)) * (X * (X ^ 2 - 1) ^ n) := by
    rw [derivative_pow_succ]
    simp only [derivative_sub, derivative_X_pow, derivative_one]
    simp only [map_mul, map_add, map_one, map_natCast, map_ofNat]
    simp
    ring
  have hf : ((n + 1).factorial : ℝ) = ((n : ℝ) + 1) * n.factorial := by
    rw [Nat.factorial_succ]; push_cast; ring
  have hn0 : (n.factorial : ℝ) ≠ 0 := by positivity
  have hn1 : (n : ℝ) + 1 ≠ 0 := by positivity
  rw [P, Function.iterate_succ_apply, h1, der_iter_C_mul, ← mul_assoc, ← map_mul]
  have hc : (1 / (2 ^ (n + 1) * ((n + 1).factorial : ℝ)) * (2 * ((n : ℝ) + 1))) = 1 / (2 ^ n * n.factorial) := by
    rw [hf, pow_succ]; field_simp
  rw [hc]
  cases n with
  | zero => simp [P, Q]
  | succ n =>
    rw [der_iter_X_mul, P, Q]
    rw [mul_add, ← mul_assoc, ← mul_assoc, ← mul_assoc, ← map_mul]
    congr 1
    · ring
    · congr 2
      push_cast
      field_simp

/-- `P'_{n+1} = (n+1) P_n + x P'_n` -/
theorem der_P_succ (n : Nat) : derivative (P (n + 1)) = C ((n : ℝ) + 1) * P n + X * derivative (P n) := by
  rw [P_succ, derivative_add, derivative_mul, derivative_X, der_Q]
  simp only [map_add, map_one]
  ring

/-- `(n+1) (P_{n+1} - x P_n) = (x^2-1) P'_n` -/
theorem P_succ_der (n : Nat) :
    C ((n : ℝ) + 1) * (P (n + 1) - X * P n) = (X ^ 2 - 1) * derivative (P n) := by
  -- expand `D^(n+1) ((x^2-1) f_n)` in a second way
  have hf : ((n + 1).factorial : ℝ) = ((n : ℝ) + 1) * n.factorial := by
    rw [Nat.factorial_succ]; push_cast; ring
  have hn0 : (n.factorial : ℝ) ≠ 0 := by positivity
  have hn1 : (n : ℝ) + 1 ≠ 0 := by positivity
  have key : C (2 * ((n : ℝ) + 1)) * P (n + 1)
      = (X ^ 2 - 1) * derivative (P n) + C (2 * ((n : ℝ) + 1)) * (X * P n) + C ((n : ℝ) + 1) * Q n := by
    have hX2 : derivative^[n + 1] ((X ^ 2 - 1 : ℝ[X]) ^ (n + 1))
        = (X ^ 2 - 1) * derivative^[n + 1] ((X ^ 2 - 1) ^ n) + C (2 * ((n : ℝ) + 1)) * (X * derivative^[n] ((X ^ 2 - 1) ^ n))
          + (match n with
              | 0 => 0
              | k + 1 => C (((k : ℝ) + 1) * ((k : ℝ) + 2)) * derivative^[k] ((X ^ 2 - 1) ^ (k + 1))) := by
      have e : (X ^ 2 - 1 : ℝ[X]) ^ (n + 1) = X * (X * (X ^ 2 - 1) ^ n) - (X ^ 2 - 1) ^ n := by rw [pow_succ]; ring
      rw [e, der_iter_sub, der_iter_X_mul, der_iter_X_mul]
      cases n with
      | zero =>
        simp only [Nat.cast_zero, zero_add, mul_one, map_ofNat]
        simp
        ring
      | succ k =>
        rw [der_iter_X_mul]
        simp only [map_mul, map_add, map_one, map_ofNat]
        push_cast
        simp only [map_add, map_one]
        ring
    have hl : C (2 * ((n : ℝ) + 1)) * P (n + 1)
        = C (1 / (2 ^ n * n.factorial : ℝ)) * derivative^[n + 1] ((X ^ 2 - 1 : ℝ[X]) ^ (n + 1)) := by
      rw [P, ← mul_assoc, ← map_mul]
      congr 2
      rw [hf, pow_succ]; field_simp
    rw [hl, hX2, P, derivative_C_mul, ← Function.iterate_succ_apply' (⇑derivative)]
    cases n with
    | zero => simp [Q]
    | succ k =>
      simp only [Q]
      have e2 : C (1 / (2 ^ (k + 1) * ((k + 1).factorial : ℝ)))
            * (C (((k : ℝ) + 1) * ((k : ℝ) + 2)) * derivative^[k] ((X ^ 2 - 1 : ℝ[X]) ^ (k + 1)))
          = C (((k + 1 : ℕ) : ℝ) + 1)
            * (C (((k : ℝ) + 1) / (2 ^ (k + 1) * ((k + 1).factorial : ℝ))) * derivative^[k] ((X ^ 2 - 1) ^ (k + 1))) := by
        rw [← mul_assoc, ← mul_assoc, ← map_mul, ← map_mul]
        congr 2
        push_cast
        field_simp
        ring
      rw [mul_add, mul_add, e2]
      ring
  have hQ : Q n = P (n + 1) - X * P n := by rw [P_succ]; ring
  rw [hQ] at key
  simp only [map_mul, map_add, map_one, map_ofNat] at key ⊢
  linear_combination key

/-- Bonnet's recursion -/
theorem bonnet (n : Nat) :
    C ((n : ℝ) + 2) * P (n + 2) = C (2 * (n : ℝ) + 3) * (X * P (n + 1)) - C ((n : ℝ) + 1) * P n := by
  have h1 := P_succ_der (n + 1)
  have h2 := P_succ_der n
  have h3 := der_P_succ n
  rw [h3] at h1
  push_cast at h1
  simp only [map_mul, map_add, map_one, map_ofNat] at *
  linear_combination h1 - X * h2

theorem P_zero : P 0 = 1 := by simp [P]

theorem P_one : P 1 = X := by rw [P_succ]; simp [P_zero, Q]

/-- `P'_{n} = x P'_{n+1} - (n+1) P_{n+1}` -/
theorem der_P_down (n : Nat) : derivative (P n) = X * derivative (P (n + 1)) - C ((n : ℝ) + 1) * P (n + 1) := by
  rw [der_P_succ]
  have h2 := P_succ_der n
  simp only [map_add, map_one] at *
  linear_combination h2

theorem der_G (m n : Nat) : derivative (G m n) = G (m + 1) n := by
  simp only [G, Function.iterate_succ_apply']

theorem G_zero (n : Nat) : G 0 n = P n := rfl

theorem G_succ_def (m n : Nat) : G (m + 1) n = derivative^[m] (derivative (P n)) := by
  simp only [G, Function.iterate_succ_apply]

theorem der_iter_X_mul' (m : Nat) (f : ℝ[X]) :
    derivative^[m] (X * derivative f) = X * derivative^[m + 1] f + C (m : ℝ) * derivative^[m] f := by
  cases m with
  | zero => simp
  | succ m =>
    rw [der_iter_X_mul, ← Function.iterate_succ_apply, ← Function.iterate_succ_apply]
    push_cast
    rfl

/-- `G^{m+1}_{n+1} = (n+1+m) G^m_n + x G^{m+1}_n` -/
theorem G_up (m n : Nat) : G (m + 1) (n + 1) = C ((n : ℝ) + 1 + m) * G m n + X * G (m + 1) n := by
  rw [G_succ_def, der_P_succ, der_iter_add, der_iter_C_mul, der_iter_X_mul']
  simp only [G, map_add, map_one]
  ring

/-- `G^{m+1}_n = x G^{m+1}_{n+1} - (n+1-m) G^m_{n+1}` -/
theorem G_down (m n : Nat) : G (m + 1) n = X * G (m + 1) (n + 1) - C ((n : ℝ) + 1 - m) * G m (n + 1) := by
  rw [G_succ_def, der_P_down, der_iter_sub, der_iter_C_mul, der_iter_X_mul']
  simp only [G, map_add, map_one, map_sub]
  ring

/-- `(1-x^2) G'_{n+1} = (n+1+m) G_n - (n+1-m) x G_{n+1}` -/
theorem G_der (m n : Nat) :
    (1 - X ^ 2) * G (m + 1) (n + 1) = C ((n : ℝ) + 1 + m) * G m n - C ((n : ℝ) + 1 - m) * (X * G m (n + 1)) := by
  have h1 := G_up m n
  have h2 := G_down m n
  linear_combination h1 + X * h2

/-- recursion for the derivatives of the Legendre polynomials -/
theorem G_rec (m n : Nat) :
    C ((n : ℝ) + 2 - m) * G m (n + 2) = C (2 * (n : ℝ) + 3) * (X * G m (n + 1)) - C ((n : ℝ) + 1 + m) * G m n := by
  cases m with
  | zero =>
    simp only [G_zero, Nat.cast_zero, sub_zero, add_zero]
    exact bonnet n
  | succ m =>
    have h1 := congrArg (derivative^[m + 1]) (bonnet n)
    rw [der_iter_C_mul, der_iter_sub, der_iter_C_mul, der_iter_C_mul, der_iter_X_mul] at h1
    have h2 := G_up m (n + 1)
    have h3 := G_down m n
    simp only [G] at *
    push_cast at *
    simp only [map_mul, map_add, map_one, map_sub, map_ofNat] at *
    linear_combination h1 - (C (m : ℝ) + 1) * h2 + (C (m : ℝ) + 1) * h3

/-- high derivatives vanish -/
theorem G_lt (m n : Nat) (h : n < m) : G m n = 0 := by
  induction n generalizing m with
  | zero =>
    obtain ⟨k, rfl⟩ := Nat.exists_eq_succ_of_ne_zero (by omega : m ≠ 0)
    rw [G_succ_def, P_zero, derivative_one]
    exact iterate_derivative_zero
  | succ n ih =>
    obtain ⟨k, rfl⟩ := Nat.exists_eq_succ_of_ne_zero (by omega : m ≠ 0)
    rw [Nat.succ_eq_add_one, G_up, ih (k + 1) (by omega), ih k (by omega)]
    simp

theorem G_diag_succ (m : Nat) : G (m + 1) (m + 1) = C (2 * (m : ℝ) + 1) * G m m := by
  rw [G_up, G_lt (m + 1) m (by omega)]
  simp only [mul_zero, add_zero]
  congr 2
  ring

/-! ## Wigner functions -/

theorem wigner_lt (m n : Nat) (h : n < m) (θ : ℝ) : wigner m n θ = 0 := by
  rw [wigner, if_neg (by omega)]

/-- normalisation factor -/
noncomputable def N (m n : Nat) : ℝ := Real.sqrt ((n - m).factorial / (n + m).factorial)

theorem wigner_eq (m n : Nat) (h : m ≤ n) (θ : ℝ) :
    wigner m n θ = N m n * Real.sin θ ^ m * (G m n).eval (Real.cos θ) := by
  rw [wigner, if_pos h, N]

/-- `sqrt((n+1)^2 - m^2) N_{n+1} = (n+1-m) N_n` -/
theorem N_succ (m n : Nat) (h : m ≤ n) :
    Real.sqrt (((n : ℝ) + 1) * (n + 1) - m * m) * N m (n + 1) = ((n : ℝ) + 1 - m) * N m n := by
  have hm : (m : ℝ) ≤ n := by exact_mod_cast h
  have hpos : (0 : ℝ) < (n : ℝ) + 1 - m := by linarith
  have hpos2 : (0 : ℝ) < (n : ℝ) + 1 + m := by positivity
  unfold N
  rw [← Real.sqrt_mul (by nlinarith)]
  have e1 : ((n : ℝ) + 1 - m) = Real.sqrt (((n : ℝ) + 1 - m) ^ 2) := (Real.sqrt_sq hpos.le).symm
  conv_rhs => rw [e1]
  rw [← Real.sqrt_mul (by positivity)]
  congr 1
  have f1 : ((n + 1 - m).factorial : ℝ) = ((n : ℝ) + 1 - m) * (n - m).factorial := by
    rw [show n + 1 - m = (n - m) + 1 by omega, Nat.factorial_succ]
    push_cast [Nat.cast_sub h]
    ring
  have f2 : ((n + 1 + m).factorial : ℝ) = ((n : ℝ) + 1 + m) * (n + m).factorial := by
    rw [show n + 1 + m = (n + m) + 1 by omega, Nat.factorial_succ]
    push_cast
    ring
  have hf : ((n + m).factorial : ℝ) ≠ 0 := by positivity
  rw [f1, f2]
  field_simp
  ring

/-- `(n+1+m) N_{n+1} = sqrt((n+1)^2 - m^2) N_n` -/
theorem N_succ' (m n : Nat) (h : m ≤ n) :
    ((n : ℝ) + 1 + m) * N m (n + 1) = Real.sqrt (((n : ℝ) + 1) * (n + 1) - m * m) * N m n := by
  have hm : (m : ℝ) ≤ n := by exact_mod_cast h
  have hpos : (0 : ℝ) < (n : ℝ) + 1 - m := by linarith
  have h0 : (0 : ℝ) ≤ ((n : ℝ) + 1) * (n + 1) - m * m := by nlinarith
  have hs : Real.sqrt (((n : ℝ) + 1) * (n + 1) - m * m) * Real.sqrt (((n : ℝ) + 1) * (n + 1) - m * m)
      = ((n : ℝ) + 1 - m) * (n + 1 + m) := by
    rw [Real.mul_self_sqrt h0]; ring
  have := N_succ m n h
  have h2 := congrArg (fun x => Real.sqrt (((n : ℝ) + 1) * (n + 1) - m * m) * x) this
  rw [← mul_assoc, hs] at h2
  have h3 : ((n : ℝ) + 1 - m) * (((n : ℝ) + 1 + m) * N m (n + 1))
      = ((n : ℝ) + 1 - m) * (Real.sqrt (((n : ℝ) + 1) * (n + 1) - m * m) * N m n) := by linear_combination h2
  exact mul_left_cancel₀ hpos.ne' h3

/-- recursion for the Wigner functions, `n ≥ m` -/
theorem wigner_rec (m n : Nat) (h : m ≤ n + 1) (θ : ℝ) :
    Real.sqrt (((n : ℝ) + 2) * (n + 2) - m * m) * wigner m (n + 2) θ
      = (2 * (n : ℝ) + 3) * Real.cos θ * wigner m (n + 1) θ
        - Real.sqrt (((n : ℝ) + 1) * (n + 1) - m * m) * wigner m n θ := by
  have hG := congrArg (fun p => Polynomial.eval (Real.cos θ) p) (G_rec m n)
  simp only [eval_mul, eval_sub, eval_C, eval_X] at hG
  rw [wigner_eq m (n + 2) (by omega), wigner_eq m (n + 1) h]
  have hN2 := N_succ m (n + 1) h
  push_cast at hN2
  rw [show (n : ℝ) + 1 + 1 = n + 2 by ring] at hN2
  by_cases hmn : m ≤ n
  · rw [wigner_eq m n hmn]
    have hN1 := N_succ' m n hmn
    linear_combination (Real.sin θ ^ m * (G m (n + 2)).eval (Real.cos θ)) * hN2
      + (N m (n + 1) * Real.sin θ ^ m) * hG - (Real.sin θ ^ m * (G m n).eval (Real.cos θ)) * hN1
  · have : m = n + 1 := by omega
    subst this
    rw [wigner_lt _ _ (by omega)]
    rw [G_lt (n + 1) n (by omega)] at hG
    simp only [eval_zero] at hG
    linear_combination (Real.sin θ ^ (n + 1) * (G (n + 1) (n + 2)).eval (Real.cos θ)) * hN2
      + (N (n + 1) (n + 1) * Real.sin θ ^ (n + 1)) * hG

/-- derivative of the Wigner functions -/
theorem wigner_deriv (m n : Nat) (h : m ≤ n + 1) (θ : ℝ) (hs : Real.sin θ ≠ 0) :
    HasDerivAt (wigner m (n + 1))
      ((1 / Real.sin θ) * (((n : ℝ) + 1) * Real.sqrt (((n : ℝ) + 2) * (n + 2) - m * m) * wigner m (n + 2) θ
        - ((n : ℝ) + 2) * Real.sqrt (((n : ℝ) + 1) * (n + 1) - m * m) * wigner m n θ) / (2 * (n : ℝ) + 3)) θ := by
  have hd : HasDerivAt (wigner m (n + 1))
      (N m (n + 1) * ((m : ℝ) * Real.sin θ ^ (m - 1) * Real.cos θ * (G m (n + 1)).eval (Real.cos θ)
        + Real.sin θ ^ m * ((G (m + 1) (n + 1)).eval (Real.cos θ) * -Real.sin θ))) θ := by
    have h1 : HasDerivAt (fun t => Real.sin t ^ m) ((m : ℝ) * Real.sin θ ^ (m - 1) * Real.cos θ) θ :=
      (Real.hasDerivAt_sin θ).pow m
    have h2 : HasDerivAt (fun t => (G m (n + 1)).eval (Real.cos t))
        ((G (m + 1) (n + 1)).eval (Real.cos θ) * -Real.sin θ) θ := by
      have := (G m (n + 1)).hasDerivAt (Real.cos θ)
      rw [der_G] at this
      exact this.comp θ (Real.hasDerivAt_cos θ)
    have h3 := (h1.mul h2).const_mul (N m (n + 1))
    refine h3.congr_of_eventuallyEq ?_
    filter_upwards with t
    rw [wigner_eq m (n + 1) h]
    simp only [Pi.mul_apply]
    ring
  convert hd using 1
  have hrec := wigner_rec m n h θ
  have hG := congrArg (fun p => Polynomial.eval (Real.cos θ) p) (G_der m n)
  simp only [eval_mul, eval_sub, eval_C, eval_X, eval_one, eval_pow] at hG
  have hsc : Real.sin θ ^ 2 = 1 - Real.cos θ ^ 2 := by
    have := Real.sin_sq_add_cos_sq θ; linarith
  have hp : Real.sin θ * ((m : ℝ) * Real.sin θ ^ (m - 1)) = m * Real.sin θ ^ m := by
    cases m with
    | zero => simp
    | succ m => simp only [Nat.add_sub_cancel, pow_succ]; ring
  have h23 : (2 * (n : ℝ) + 3) ≠ 0 := by positivity
  rw [div_eq_iff h23, one_div, inv_mul_eq_iff_eq_mul₀ hs]
  -- `sqrt(..) d_n` in terms of `N_{n+1}`
  have hlow : Real.sqrt (((n : ℝ) + 1) * (n + 1) - m * m) * wigner m n θ
      = N m (n + 1) * Real.sin θ ^ m * (((n : ℝ) + 1 + m) * (G m n).eval (Real.cos θ)) := by
    by_cases hmn : m ≤ n
    · rw [wigner_eq m n hmn]
      have hN1 := N_succ' m n hmn
      linear_combination -(Real.sin θ ^ m * (G m n).eval (Real.cos θ)) * hN1
    · rw [wigner_lt m n (by omega), G_lt m n (by omega)]; simp
  have hw := wigner_eq m (n + 1) h θ
  rw [show ((n : ℝ) + 1) * Real.sqrt (((n : ℝ) + 2) * (n + 2) - m * m) * wigner m (n + 2) θ
      = ((n : ℝ) + 1) * (Real.sqrt (((n : ℝ) + 2) * (n + 2) - m * m) * wigner m (n + 2) θ) by ring, hrec,
    show ((n : ℝ) + 2) * Real.sqrt (((n : ℝ) + 1) * (n + 1) - m * m) * wigner m n θ
      = ((n : ℝ) + 2) * (Real.sqrt (((n : ℝ) + 1) * (n + 1) - m * m) * wigner m n θ) by ring, hlow, hw]
  have e : Real.sin θ * (N m (n + 1) * ((m : ℝ) * Real.sin θ ^ (m - 1) * Real.cos θ * (G m (n + 1)).eval (Real.cos θ)
        + Real.sin θ ^ m * ((G (m + 1) (n + 1)).eval (Real.cos θ) * -Real.sin θ)))
      = N m (n + 1) * Real.sin θ ^ m * ((m : ℝ) * Real.cos θ * (G m (n + 1)).eval (Real.cos θ)
        - (1 - Real.cos θ ^ 2) * (G (m + 1) (n + 1)).eval (Real.cos θ)) := by
    rw [← hsc]
    linear_combination (N m (n + 1) * Real.cos θ * (G m (n + 1)).eval (Real.cos θ)) * hp
  rw [show Real.sin θ * (N m (n + 1) * ((m : ℝ) * Real.sin θ ^ (m - 1) * Real.cos θ * (G m (n + 1)).eval (Real.cos θ)
        + Real.sin θ ^ m * ((G (m + 1) (n + 1)).eval (Real.cos θ) * -Real.sin θ)) * (2 * (n : ℝ) + 3))
      = Real.sin θ * (N m (n + 1) * ((m : ℝ) * Real.sin θ ^ (m - 1) * Real.cos θ * (G m (n + 1)).eval (Real.cos θ)
        + Real.sin θ ^ m * ((G (m + 1) (n + 1)).eval (Real.cos θ) * -Real.sin θ))) * (2 * (n : ℝ) + 3) by ring, e, hG]
  ring

theorem wigner_zero_zero (θ : ℝ) : wigner 0 0 θ = 1 := by
  rw [wigner_eq 0 0 le_rfl]; simp [N, G_zero, P_zero]

theorem wigner_zero_one (θ : ℝ) : wigner 0 1 θ = Real.cos θ := by
  rw [wigner_eq 0 1 (by omega)]; simp [N, G_zero, P_one]

/-- start of the recursion: `d^m_{0m} = A_m sin^m` -/
theorem wigner_diag_succ (m : Nat) (θ : ℝ) :
    wigner (m + 1) (m + 1) θ
      = wigner m m θ * (Real.sqrt ((2 * ((m : ℝ) + 1) - 1) / (2 * ((m : ℝ) + 1))) * Real.sin θ) := by
  rw [wigner_eq _ _ le_rfl, wigner_eq _ _ le_rfl, G_diag_succ]
  simp only [eval_mul, eval_C]
  have : N (m + 1) (m + 1) * (2 * (m : ℝ) + 1) = N m m * Real.sqrt ((2 * ((m : ℝ) + 1) - 1) / (2 * ((m : ℝ) + 1))) := by
    unfold N
    have hp : (0 : ℝ) < 2 * (m : ℝ) + 1 := by positivity
    rw [← Real.sqrt_mul (by positivity)]
    conv_lhs => rw [show (2 * (m : ℝ) + 1) = Real.sqrt ((2 * (m : ℝ) + 1) ^ 2) from (Real.sqrt_sq hp.le).symm]
    rw [← Real.sqrt_mul (by positivity)]
    congr 1
    have f2 : ((m + 1 + (m + 1)).factorial : ℝ) = (2 * (m : ℝ) + 2) * ((2 * (m : ℝ) + 1) * (m + m).factorial) := by
      rw [show m + 1 + (m + 1) = (m + m) + 1 + 1 by omega, Nat.factorial_succ, Nat.factorial_succ]
      push_cast
      ring
    have hf : ((m + m).factorial : ℝ) ≠ 0 := by positivity
    rw [f2]
    simp only [Nat.sub_self, Nat.factorial_zero, Nat.cast_one]
    field_simp
    ring
  rw [pow_succ]
  linear_combination (Real.sin θ ^ m * Real.sin θ * (G m m).eval (Real.cos θ)) * this

end Verif.Legendre
