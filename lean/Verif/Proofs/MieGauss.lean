import Verif.Proofs.WaveOrth
import Verif.Proofs.Refine

/-!
# Gauss-Legendre rules integrate products of the angular functions exactly
-/
namespace Verif.Mie

open Finset Polynomial Verif.Scatter Verif.Refine Verif.Rotation
open Verif.Legendre (G N I wigner ppl P)

theorem G_degree (m n : Nat) : (G m n).natDegree ≤ n - m := by
  have h : (P n).natDegree ≤ n := by
    unfold Legendre.P
    refine natDegree_C_mul_le _ _ |>.trans ?_
    refine (natDegree_iterate_derivative _ _).trans ?_
    have : ((X ^ 2 - 1 : ℝ[X]) ^ n).natDegree ≤ n * 2 := by
      refine natDegree_pow_le.trans (Nat.mul_le_mul_left _ ?_)
      exact (natDegree_sub_le _ _).trans (by simp)
    omega
  exact (natDegree_iterate_derivative _ _).trans (Nat.sub_le_sub_right h _)

theorem one_sub_degree (m : Nat) : ((1 - X ^ 2 : ℝ[X]) ^ m).natDegree ≤ 2 * m := by
  refine natDegree_pow_le.trans ?_
  have : (1 - X ^ 2 : ℝ[X]).natDegree ≤ 2 := (natDegree_sub_le _ _).trans (by simp)
  nlinarith

theorem mul_degree {p q : ℝ[X]} {a b c : Nat} (hp : p.natDegree ≤ a) (hq : q.natDegree ≤ b) (h : a + b ≤ c) : (p * q).natDegree ≤ c :=
  natDegree_mul_le.trans (by omega)

theorem ppl_degree {m n k : Nat} (hn : m + 1 ≤ n) (hk : m + 1 ≤ k) : (ppl m n k).natDegree ≤ n + k := by
  unfold Legendre.ppl
  have hX : (1 - X ^ 2 : ℝ[X]).natDegree ≤ 2 := (natDegree_sub_le _ _).trans (by simp)
  have inner : ∀ n, m + 1 ≤ n → (C ((m : ℝ) + 1) * X * G (m + 1) n - (1 - X ^ 2) * derivative (G (m + 1) n)).natDegree ≤ n - m := by
    intro n hn
    refine (natDegree_sub_le _ _).trans (max_le ?_ ?_)
    · refine mul_degree (a := 1) (b := n - (m + 1)) ?_ (G_degree _ _) (by omega)
      exact (natDegree_C_mul_le _ _).trans natDegree_X_le
    · rw [← Legendre.G_next]
      rcases Nat.lt_or_ge (m + 1) n with h | h
      · exact mul_degree (a := 2) (b := n - (m + 1 + 1)) hX (G_degree _ _) (by omega)
      · have e : n = m + 1 := by omega
        subst e
        have : (G (m + 1 + 1) (m + 1)) = 0 := by
          rw [Legendre.G_next]
          have h := G_degree (m + 1) (m + 1)
          rw [Nat.sub_self] at h
          rw [eq_C_of_natDegree_le_zero h, derivative_C]
        rw [this]
        simp
  refine mul_degree (a := 2 * m) (b := n + k - 2 * m) (one_sub_degree m) ?_ (by omega)
  refine (natDegree_add_le _ _).trans (max_le ?_ ?_)
  · refine (natDegree_C_mul_le _ _).trans ?_
    exact mul_degree (G_degree _ _) (G_degree _ _) (by omega)
  · exact mul_degree (inner n hn) (inner k hk) (by omega)

/-- `π π' + τ τ'` is a polynomial in the cosine -/
theorem parallel_poly {m n k : Nat} (hn : 1 ≤ n) (hk : 1 ≤ k) (hmn : m ≤ n) (hmk : m ≤ k) :
    ∃ f : ℝ[X], f.natDegree ≤ n + k ∧ Legendre.integral f = (if n = k then 2 * (n : ℝ) * (n + 1) / (2 * n + 1) else 0)
      ∧ ∀ (θ : ℝ) (a : Angular), a.IsOf θ → a.pi m n * a.pi m k + a.tau m n * a.tau m k = f.eval (Real.cos θ) := by
  rcases m with _ | m
  · refine ⟨C (N 0 n * N 0 k) * ((1 - X ^ 2) * (derivative (P n) * derivative (P k))), ?_, ?_, ?_⟩
    · refine (natDegree_C_mul_le _ _).trans ?_
      have h := fun n => G_degree 1 n
      have e : ∀ n, derivative (P n) = G 1 n := fun n => by rw [Legendre.G_next, Legendre.G_zero]
      rw [e, e]
      refine mul_degree (a := 2) (b := n + k - 2) ((natDegree_sub_le _ _).trans (by simp)) ?_ (by omega)
      exact mul_degree (h n) (h k) (by omega)
    · rw [Legendre.integral_C_mul, Legendre.ppl_zero, norm_I hmn]
    · intro θ a ha
      rw [pi_eq ha hn hmn, pi_eq ha hk hmk, tau_eq ha hn hmn, tau_eq ha hk hmk, Legendre.G_next, Legendre.G_next, Legendre.G_zero, Legendre.G_zero]
      simp
      rw [← Real.sin_sq]
      ring_nf
  · refine ⟨C (N (m + 1) n * N (m + 1) k) * ppl m n k, ?_, ?_, ?_⟩
    · exact (natDegree_C_mul_le _ _).trans (ppl_degree hmn hmk)
    · rw [Legendre.integral_C_mul, Legendre.ppl_integral, norm_I hmn]
    · intro θ a ha
      rw [pi_eq ha hn hmn, pi_eq ha hk hmk, tau_eq ha hn hmn, tau_eq ha hk hmk, Legendre.G_next (m + 1), Legendre.G_next (m + 1)]
      unfold Legendre.ppl
      simp
      rw [← Real.sin_sq]
      ring_nf

/-- `π τ' + τ π'` is a polynomial in the cosine, with integral 0 -/
theorem crossed_poly {m n k : Nat} (hn : 1 ≤ n) (hk : 1 ≤ k) (hmn : m ≤ n) (hmk : m ≤ k) :
    ∃ f : ℝ[X], f.natDegree ≤ n + k ∧ Legendre.integral f = 0
      ∧ ∀ (θ : ℝ) (a : Angular), a.IsOf θ → a.pi m n * a.tau m k + a.tau m n * a.pi m k = f.eval (Real.cos θ) := by
  rcases m with _ | m
  · refine ⟨0, by simp, by simp [Legendre.integral], fun θ a ha => ?_⟩
    rw [pi_eq ha hn hmn, pi_eq ha hk hmk]
    simp
  · refine ⟨C (-((m : ℝ) + 1) * (N (m + 1) n * N (m + 1) k)) * derivative ((1 - X ^ 2) ^ (m + 1) * (G (m + 1) n * G (m + 1) k)), ?_, ?_, ?_⟩
    · refine (natDegree_C_mul_le _ _).trans ((natDegree_derivative_le _).trans ?_)
      have := mul_degree (one_sub_degree (m + 1)) (mul_degree (G_degree (m + 1) n) (G_degree (m + 1) k) le_rfl) (c := n + k) (by omega)
      omega
    · rw [Legendre.integral_C_mul, Legendre.integral_derivative]
      simp
    · intro θ a ha
      rw [pi_eq ha hn hmn, pi_eq ha hk hmk, tau_eq ha hn hmn, tau_eq ha hk hmk, derivative_mul, derivative_mul, ← Legendre.G_next, ← Legendre.G_next, derivative_pow]
      simp
      rw [← Real.sin_sq]
      ring_nf

variable {q : Nat} {r : (Nat → ℝ) × (Nat → ℝ)} (h : Gauss q r)
include h

theorem parallel_gauss {m n k : Nat} (hn : 1 ≤ n) (hk : 1 ≤ k) (hmn : m ≤ n) (hmk : m ≤ k) (hq : n + k < 2 * q) {a : Nat → Angular}
    (ha : ∀ i < q, (a i).IsOf (Real.arccos (r.1 i))) :
    ∑ i ∈ range q, r.2 i * ((a i).pi m n * (a i).pi m k + (a i).tau m n * (a i).tau m k) = if n = k then 2 * (n : ℝ) * (n + 1) / (2 * n + 1) else 0 := by
  obtain ⟨f, hf, hi, he⟩ := parallel_poly hn hk hmn hmk
  rw [← hi, ← h.exact f (by omega)]
  refine sum_congr rfl fun i hi => ?_
  have hi := mem_range.1 hi
  rw [he _ _ (ha i hi), Real.cos_arccos (h.interior hi).1.le (h.interior hi).2.le]

theorem crossed_gauss {m n k : Nat} (hn : 1 ≤ n) (hk : 1 ≤ k) (hmn : m ≤ n) (hmk : m ≤ k) (hq : n + k < 2 * q) {a : Nat → Angular}
    (ha : ∀ i < q, (a i).IsOf (Real.arccos (r.1 i))) :
    ∑ i ∈ range q, r.2 i * ((a i).pi m n * (a i).tau m k + (a i).tau m n * (a i).pi m k) = 0 := by
  obtain ⟨f, hf, hi, he⟩ := crossed_poly hn hk hmn hmk
  rw [← hi, ← h.exact f (by omega)]
  refine sum_congr rfl fun i hi => ?_
  have hi := mem_range.1 hi
  rw [he _ _ (ha i hi), Real.cos_arccos (h.interior hi).1.le (h.interior hi).2.le]

end Verif.Mie
