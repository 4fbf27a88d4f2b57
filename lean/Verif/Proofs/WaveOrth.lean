import Verif.Proofs.LegendreOrth
import Verif.Properties.Wigner
import Verif.Properties.Oriented

/-!
# Orthogonality of the vector angular functions
-/
namespace Verif.Legendre

open Polynomial

/-- `(1 - X²) G_{m+2} - 2 (m+1) X G_{m+1} + (n (n+1) - m (m+1)) G_m = 0` -/
theorem G_ode (m n : Nat) :
    (1 - X ^ 2) * derivative (derivative (G m n)) - C (2 * ((m : ℝ) + 1)) * X * derivative (G m n) + C ((n : ℝ) * (n + 1) - m * (m + 1)) * G m n = 0 := by
  induction m with
  | zero =>
    have h := legendre_ode n
    rw [derivative_mul] at h
    simp only [G_zero, derivative_sub, derivative_one, derivative_X_pow, zero_sub] at h ⊢
    simp only [C_mul, C_add, C_sub, map_natCast, map_one, Nat.cast_zero, Nat.cast_ofNat, map_ofNat, C_0] at h ⊢
    linear_combination h
  | succ m ih =>
    have e : ∀ m, G (m + 1) n = derivative (G m n) := fun m => by
      unfold G
      rw [Function.iterate_succ_apply']
    rw [e]
    have h := congrArg derivative ih
    simp only [derivative_add, derivative_sub, derivative_mul, derivative_one, derivative_X_pow, derivative_X, derivative_C, derivative_zero, zero_sub] at h
    simp only [C_mul, C_add, C_sub, map_natCast, map_one, Nat.cast_ofNat, map_ofNat, Nat.cast_succ, Nat.cast_add, Nat.cast_one] at h ⊢
    linear_combination h

/-- weighted integral -/
noncomputable def I (m n k : Nat) : ℝ := integral ((1 - X ^ 2) ^ m * (G m n * G m k))

theorem G_next (m n : Nat) : G (m + 1) n = derivative (G m n) := by
  unfold G
  rw [Function.iterate_succ_apply']

theorem I_succ (m n k : Nat) : I (m + 1) n k = (((n : ℝ) * (n + 1) - m * (m + 1)) * I m n k) := by
  have h := by_parts ((1 - X ^ 2) ^ (m + 1) * G (m + 1) n) (G m k) (by simp) (by simp)
  have e : derivative ((1 - X ^ 2) ^ (m + 1) * G (m + 1) n) = -(C ((n : ℝ) * (n + 1) - m * (m + 1)) * ((1 - X ^ 2) ^ m * G m n)) := by
    have o := G_ode m n
    rw [derivative_mul, derivative_pow, G_next]
    simp only [derivative_sub, derivative_one, derivative_X_pow, zero_sub]
    simp only [C_mul, C_add, C_sub, map_natCast, map_one, Nat.cast_ofNat, map_ofNat, Nat.cast_add, Nat.cast_one, Nat.add_sub_cancel] at o ⊢
    linear_combination (1 - X ^ 2) ^ m * o
  rw [e, ← G_next] at h
  unfold I
  rw [← integral_C_mul, show (1 - X ^ 2) ^ (m + 1) * (G (m + 1) n * G (m + 1) k) = (1 - X ^ 2) ^ (m + 1) * G (m + 1) n * G (m + 1) k by ring]
  rw [show C ((n : ℝ) * (n + 1) - m * (m + 1)) * ((1 - X ^ 2) ^ m * (G m n * G m k)) = -(-(C ((n : ℝ) * (n + 1) - m * (m + 1)) * ((1 - X ^ 2) ^ m * G m n)) * G m k) by ring, integral_neg, h]
  ring

theorem I_ne {m n k : Nat} (h : n ≠ k) : I m n k = 0 := by
  induction m with
  | zero =>
    unfold I
    rw [G_zero, G_zero, pow_zero, one_mul, orthogonal h]
  | succ m ih => rw [I_succ, ih, mul_zero]

theorem I_self {m n : Nat} (h : m ≤ n) : I m n n = (n + m).factorial / (n - m).factorial * (2 / (2 * n + 1)) := by
  induction m with
  | zero =>
    unfold I
    rw [G_zero, pow_zero, one_mul, norm_sq]
    have : ((n.factorial : Nat) : ℝ) ≠ 0 := by exact_mod_cast n.factorial_ne_zero
    simp only [Nat.add_zero, Nat.sub_zero]
    field_simp
  | succ m ih =>
    rw [I_succ, ih (by omega)]
    obtain ⟨j, rfl⟩ := Nat.exists_eq_add_of_le h
    rw [show m + 1 + j - m = j + 1 by omega, show m + 1 + j - (m + 1) = j by omega, Nat.factorial_succ, show m + 1 + j + (m + 1) = (m + 1 + j + m) + 1 by ring, Nat.factorial_succ]
    have h0 : ((j.factorial : Nat) : ℝ) ≠ 0 := by exact_mod_cast j.factorial_ne_zero
    push_cast
    field_simp
    ring

/-- `π π' + τ τ'` for projections from 1, as polynomial (without the normalisation) -/
noncomputable def ppl (m n k : Nat) : ℝ[X] := (1 - X ^ 2) ^ m * (C (((m : ℝ) + 1) ^ 2) * (G (m + 1) n * G (m + 1) k)
  + (C ((m : ℝ) + 1) * X * G (m + 1) n - (1 - X ^ 2) * derivative (G (m + 1) n)) * (C ((m : ℝ) + 1) * X * G (m + 1) k - (1 - X ^ 2) * derivative (G (m + 1) k)))

theorem ppl_integral (m n k : Nat) : integral (ppl m n k) = (n : ℝ) * (n + 1) * I (m + 1) n k := by
  have h := by_parts (X * (1 - X ^ 2) ^ (m + 1)) (G (m + 1) n * G (m + 1) k) (by simp) (by simp)
  have h2 := I_succ (m + 1) n k
  unfold I at h2 ⊢
  rw [G_next (m + 1)] at h2
  rw [G_next (m + 1)] at h2
  set g := G (m + 1) n
  set f := G (m + 1) k
  have e1 : derivative (X * (1 - X ^ 2) ^ (m + 1)) = (1 - X ^ 2) ^ (m + 1) - C (2 * ((m : ℝ) + 1)) * X ^ 2 * (1 - X ^ 2) ^ m := by
    rw [derivative_mul, derivative_pow]
    simp only [derivative_sub, derivative_one, derivative_X_pow, derivative_X, zero_sub]
    simp only [C_mul, C_add, C_sub, map_natCast, map_one, Nat.cast_ofNat, map_ofNat, Nat.cast_add, Nat.cast_one, Nat.add_sub_cancel]
    ring
  rw [e1, derivative_mul] at h
  have e2 : ppl m n k = C ((m : ℝ) + 1) * (C ((m : ℝ) + 2) * ((1 - X ^ 2) ^ (m + 1) * (g * f)))
      + (1 - X ^ 2) ^ (m + 1 + 1) * (derivative g * derivative f)
      - C ((m : ℝ) + 1) * ((((1 - X ^ 2) ^ (m + 1) - C (2 * ((m : ℝ) + 1)) * X ^ 2 * (1 - X ^ 2) ^ m) * (g * f))
        + X * (1 - X ^ 2) ^ (m + 1) * (derivative g * f + g * derivative f)) := by
    unfold ppl
    simp only [C_mul, C_add, C_sub, map_natCast, map_one, Nat.cast_ofNat, map_ofNat, Nat.cast_add, Nat.cast_one, C_pow]
    ring
  rw [e2, integral_sub, integral_add, integral_C_mul, integral_C_mul, integral_C_mul, integral_add, h, h2]
  push_cast
  ring

/-- the same for projection 0 -/
theorem ppl_zero (n k : Nat) : integral ((1 - X ^ 2) * (derivative (P n) * derivative (P k))) = (n : ℝ) * (n + 1) * I 0 n k := by
  have h := I_succ 0 n k
  rw [show I (0 + 1) n k = integral ((1 - X ^ 2) * (derivative (P n) * derivative (P k))) by
    unfold I
    rw [G_next, G_next, G_zero, G_zero, zero_add, pow_one]] at h
  rw [h]
  push_cast
  ring

end Verif.Legendre

namespace Verif.Rotation

open Finset MeasureTheory Verif.Scatter Verif.Frame Polynomial
open Verif.Legendre (G N I wigner)

theorem pi_eq {a : Angular} {θ : ℝ} (ha : a.IsOf θ) {m n : Nat} (hn : 1 ≤ n) (hm : m ≤ n) :
    a.pi m n = m * (N m n * Real.sin θ ^ (m - 1) * (G m n).eval (Real.cos θ)) := by
  rcases Nat.eq_zero_or_pos m with rfl | h1
  · have := a.pi_neg 0 n
    simp at this
    simp
    linarith
  · have h := (ha m n hn hm).1 h1
    have hc : Filter.Tendsto (fun t => m * (N m n * Real.sin t ^ (m - 1) * (G m n).eval (Real.cos t))) (nhdsWithin θ {θ}ᶜ)
        (nhds (m * (N m n * Real.sin θ ^ (m - 1) * (G m n).eval (Real.cos θ)))) := by
      refine Filter.Tendsto.mono_left (Continuous.tendsto ?_ θ) nhdsWithin_le_nhds
      have := (G m n).continuous
      fun_prop
    refine tendsto_nhds_unique (h.congr' ?_) hc
    filter_upwards [sin_punctured θ] with t ht
    rw [Legendre.wigner_eq m n hm]
    obtain ⟨j, rfl⟩ : ∃ j, m = j + 1 := ⟨m - 1, by omega⟩
    rw [Nat.add_sub_cancel, pow_succ]
    field_simp

theorem tau_eq {a : Angular} {θ : ℝ} (ha : a.IsOf θ) {m n : Nat} (hn : 1 ≤ n) (hm : m ≤ n) :
    a.tau m n = N m n * ((m : ℝ) * Real.sin θ ^ (m - 1) * Real.cos θ * (G m n).eval (Real.cos θ)
      + Real.sin θ ^ m * ((G (m + 1) n).eval (Real.cos θ) * -Real.sin θ)) :=
  (ha m n hn hm).2.unique (Special.wigner_hasDeriv m n hm θ)

/-- substitution `x = cos θ` -/
theorem cos_subst (f : ℝ[X]) : ∫ θ in (0 : ℝ)..Real.pi, Real.sin θ * f.eval (Real.cos θ) = Legendre.integral f := by
  have h := intervalIntegral.integral_comp_mul_deriv (a := 0) (b := Real.pi) (f := Real.cos) (f' := fun x => -Real.sin x) (g := fun x => f.eval x)
    (fun x _ => Real.hasDerivAt_cos x) (by fun_prop) f.continuous
  unfold Legendre.integral
  rw [intervalIntegral.integral_symm (a := 1) (b := -1)]
  simp only [Real.cos_zero, Real.cos_pi] at h
  rw [← h, ← intervalIntegral.integral_neg]
  congr 1
  funext x
  simp only [Function.comp]
  ring

theorem N_sq {m n : Nat} : N m n ^ 2 = ((n - m).factorial : ℝ) / (n + m).factorial := by
  unfold N
  exact Real.sq_sqrt (by positivity)

theorem norm_I {m n k : Nat} (hn : m ≤ n) : N m n * N m k * ((n : ℝ) * (n + 1) * I m n k) = if n = k then 2 * (n : ℝ) * (n + 1) / (2 * n + 1) else 0 := by
  split
  · rename_i h
    subst h
    rw [Legendre.I_self hn, ← sq, N_sq]
    have h0 : (((n - m).factorial : Nat) : ℝ) ≠ 0 := by exact_mod_cast (n - m).factorial_ne_zero
    have h1 : (((n + m).factorial : Nat) : ℝ) ≠ 0 := by exact_mod_cast (n + m).factorial_ne_zero
    field_simp
  · rename_i h
    rw [Legendre.I_ne h]
    ring

theorem parallel_nat {A : ℝ → Angular} (hA : ∀ θ, (A θ).IsOf θ) {m n k : Nat} (hn : 1 ≤ n) (hk : 1 ≤ k) (hmn : m ≤ n) (hmk : m ≤ k) :
    ∫ θ in (0 : ℝ)..Real.pi, Real.sin θ * ((A θ).pi m n * (A θ).pi m k + (A θ).tau m n * (A θ).tau m k) = if n = k then 2 * (n : ℝ) * (n + 1) / (2 * n + 1) else 0 := by
  rw [← norm_I hmn]
  rcases m with _ | m
  · rw [← Legendre.ppl_zero, ← Legendre.integral_C_mul, ← cos_subst]
    congr 1
    funext θ
    rw [pi_eq (hA θ) hn hmn, pi_eq (hA θ) hk hmk, tau_eq (hA θ) hn hmn, tau_eq (hA θ) hk hmk, Legendre.G_next, Legendre.G_next, Legendre.G_zero, Legendre.G_zero]
    simp
    rw [← Real.sin_sq]
    ring_nf
    simp
  · rw [← Legendre.ppl_integral, ← Legendre.integral_C_mul, ← cos_subst]
    congr 1
    funext θ
    rw [pi_eq (hA θ) hn hmn, pi_eq (hA θ) hk hmk, tau_eq (hA θ) hn hmn, tau_eq (hA θ) hk hmk, Legendre.G_next (m + 1), Legendre.G_next (m + 1)]
    unfold Legendre.ppl
    simp
    rw [← Real.sin_sq]
    ring_nf
    simp

theorem crossed_nat {A : ℝ → Angular} (hA : ∀ θ, (A θ).IsOf θ) {m n k : Nat} (hn : 1 ≤ n) (hk : 1 ≤ k) (hmn : m ≤ n) (hmk : m ≤ k) :
    ∫ θ in (0 : ℝ)..Real.pi, Real.sin θ * ((A θ).pi m n * (A θ).tau m k + (A θ).tau m n * (A θ).pi m k) = 0 := by
  rcases m with _ | m
  · have e : ∀ θ, Real.sin θ * ((A θ).pi (0 : Nat) n * (A θ).tau (0 : Nat) k + (A θ).tau (0 : Nat) n * (A θ).pi (0 : Nat) k) = 0 := by
      intro θ
      rw [pi_eq (hA θ) hn hmn, pi_eq (hA θ) hk hmk]
      simp
    simp only [e]
    simp
  · have e : ∀ θ, Real.sin θ * ((A θ).pi (m + 1 : Nat) n * (A θ).tau (m + 1 : Nat) k + (A θ).tau (m + 1 : Nat) n * (A θ).pi (m + 1 : Nat) k)
        = (m + 1) * ((A θ).tau (m + 1 : Nat) n * wigner (m + 1) k θ + wigner (m + 1) n θ * (A θ).tau (m + 1 : Nat) k) := by
      intro θ
      rw [pi_eq (hA θ) hn hmn, pi_eq (hA θ) hk hmk, Legendre.wigner_eq _ _ hmn, Legendre.wigner_eq _ _ hmk]
      push_cast
      ring
    simp only [e]
    rw [intervalIntegral.integral_const_mul]
    have hc : ∀ {n : Nat}, 1 ≤ n → m + 1 ≤ n → Continuous fun θ => (A θ).tau (m + 1 : Nat) n := by
      intro n hn hm
      rw [show (fun θ => (A θ).tau (m + 1 : Nat) n) = fun θ => _ from funext fun θ => tau_eq (hA θ) hn hm]
      have h1 := (G (m + 1) n).continuous
      have h2 := (G (m + 1 + 1) n).continuous
      fun_prop
    have hw : ∀ n, m + 1 ≤ n → Continuous (wigner (m + 1) n) := by
      intro n hm
      rw [show wigner (m + 1) n = fun θ => _ from funext fun θ => Legendre.wigner_eq _ _ hm θ]
      have h1 := (G (m + 1) n).continuous
      fun_prop
    rw [intervalIntegral.integral_eq_sub_of_hasDerivAt (f := fun θ => wigner (m + 1) n θ * wigner (m + 1) k θ)]
    · simp [Legendre.wigner_eq _ _ hmn, Legendre.wigner_eq _ _ hmk]
    · intro θ _
      exact (hA θ (m + 1) n hn hmn).2.mul (hA θ (m + 1) k hk hmk).2
    · refine Continuous.intervalIntegrable ?_ _ _
      exact ((hc hn hmn).mul (hw k hmk)).add ((hw n hmn).mul (hc hk hmk))

end Verif.Rotation
