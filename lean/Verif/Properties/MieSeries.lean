import Verif.Proofs.MieLimit
import Verif.Spec.MieSeries
import Verif.Proofs.GaussRule
import Mathlib.Analysis.SpecificLimits.Normed

/-!
# C115: the Mie series converges, and the order that is used is large enough
-/
namespace Verif.Mie

open Verif.Bessel Filter Topology Finset

/-! ## derivatives for large orders -/

section
variable {z : ℂ} (hz : z ≠ 0)
include hz

/-- the derivatives relative to the leading order -/
theorem dψ_us (n : Nat) : deriv (ψ (n + 1)) z = z ^ (n + 1) * jc (n + 1) * ((2 * n + 3) * us z n - (n + 1) * us z (n + 1)) := by
  have h3 := (odd_ne n).1
  have e : jc n = (2 * n + 3) * jc (n + 1) := by
    conv_rhs => unfold jc
    field_simp
  rw [(ψ_deriv n hz).deriv, ψ_us hz n, ψ_us hz (n + 1), e]
  field_simp
  ring

theorem dχ_vs (n : Nat) : deriv (χ (n + 1)) z = yc (n + 1) / z ^ (n + 2) * ((n + 1) * vs z (n + 1) - z ^ 2 / (2 * n + 1) * vs z n) := by
  have h1 := (odd_ne n).2
  have e : yc (n + 1) = (2 * n + 1) * yc n := rfl
  rw [(χ_deriv n hz).deriv, χ_vs hz n, χ_vs hz (n + 1), e]
  generalize 2 * (n : ℂ) + 1 = w at h1
  field_simp
  ring

omit hz in
theorem ratio_one (k : ℂ) : Tendsto (fun n : Nat => ((n : ℂ) + 1)⁻¹ * k) atTop (𝓝 0) := by
  have h := tendsto_one_div_add_atTop_nhds_zero_nat (𝕜 := ℂ)
  have := h.mul_const k
  simpa using this

omit hz in
theorem succ_ne (n : Nat) : ((n : ℂ) + 1) ≠ 0 := by exact_mod_cast Nat.succ_ne_zero n

theorem p_limit : Tendsto (fun n : Nat => ((n : ℂ) + 1)⁻¹ * ((2 * n + 3) * us z n - (n + 1) * us z (n + 1))) atTop (𝓝 1) := by
  have hu := us_limit hz
  have h := ((hu.const_mul 2).add ((ratio_one 1).mul hu)).sub (hu.comp (tendsto_add_atTop_nat 1))
  rw [show (2 : ℂ) * 1 + 0 * 1 - 1 = 1 by ring] at h
  refine h.congr fun n => ?_
  have := succ_ne n
  simp only [Function.comp]
  field_simp
  ring

theorem q_limit : Tendsto (fun n : Nat => ((n : ℂ) + 1)⁻¹ * ((n + 1) * vs z (n + 1) - z ^ 2 / (2 * n + 1) * vs z n)) atTop (𝓝 1) := by
  obtain ⟨C, hC⟩ := vs_bounded hz
  have h0 : Tendsto (fun n : Nat => ((n : ℂ) + 1)⁻¹ * (z ^ 2 / (2 * n + 1) * vs z n)) atTop (𝓝 0) := by
    have hr := tendsto_zero_iff_norm_tendsto_zero.1 (ratio_one (‖z‖ ^ 2 * C : ℂ))
    rw [tendsto_zero_iff_norm_tendsto_zero]
    refine squeeze_zero (fun n => norm_nonneg _) (fun n => ?_) hr
    rw [norm_mul, norm_mul _ ((‖z‖ : ℂ) ^ 2 * C)]
    refine mul_le_mul_of_nonneg_left ?_ (norm_nonneg _)
    have hC0 : 0 ≤ C := (norm_nonneg _).trans (hC 0)
    rw [norm_mul, norm_div, norm_pow, norm_mul, norm_pow, Complex.norm_real, Complex.norm_real, norm_norm, Real.norm_of_nonneg hC0,
      show (2 * (n : ℂ) + 1) = ((2 * n + 1 : ℕ) : ℂ) by push_cast; ring, Complex.norm_natCast]
    refine mul_le_mul (div_le_self (by positivity) ?_) (hC n) (norm_nonneg _) (by positivity)
    exact_mod_cast Nat.le_add_left 1 (2 * n)
  have h := (vs_limit hz).sub h0
  rw [sub_zero] at h
  refine h.congr fun n => ?_
  have := succ_ne n
  rw [mul_sub, inv_mul_cancel_left₀ this]

end

/-! ## coefficients for large orders -/

/-- what the coefficients of order `n + 1` are compared with -/
noncomputable def rs (x : ℝ) (n : Nat) : ℂ := (x : ℂ) ^ (2 * n + 3) * (jc (n + 1) / yc (n + 1))

theorem rs_ne {x : ℝ} (hx : 0 < x) (n : Nat) : rs x n ≠ 0 :=
  mul_ne_zero (pow_ne_zero _ (Complex.ofReal_ne_zero.2 hx.ne')) (div_ne_zero (jc_ne _) (yc_ne _))

theorem rs_succ (x : ℝ) (n : Nat) : rs x (n + 1) = rs x n * ((x : ℂ) ^ 2 / ((2 * n + 5) * (2 * n + 3))) := by
  have h1 : jc (n + 1 + 1) = jc (n + 1) / (2 * n + 5) := by
    conv_lhs => unfold jc
    push_cast
    ring_nf
  have h2 : yc (n + 1 + 1) = (2 * n + 3) * yc (n + 1) := by
    conv_lhs => unfold yc
    push_cast
    ring
  unfold rs
  rw [h1, h2]
  have := yc_ne (n + 1)
  have h3 := (odd_ne n).1
  have h5 : (2 * (n : ℂ) + 5) ≠ 0 := by exact_mod_cast (by omega : 2 * n + 5 ≠ 0)
  field_simp
  ring

theorem rs_summable {x : ℝ} (hx : 0 < x) : Summable fun n : Nat => (2 * (n : ℂ) + 3) * rs x n := by
  refine summable_of_ratio_test_tendsto_lt_one (l := 0) one_pos (Eventually.of_forall fun n => mul_ne_zero (odd_ne n).1 (rs_ne hx n)) ?_
  have h : ∀ n : Nat, ‖(2 * ((n + 1 : ℕ) : ℂ) + 3) * rs x (n + 1)‖ / ‖(2 * (n : ℂ) + 3) * rs x n‖ ≤ x ^ 2 / (2 * n + 3) := by
    intro n
    have h3 := (odd_ne n).1
    have h5 : (2 * (n : ℂ) + 5) ≠ 0 := by exact_mod_cast (by omega : 2 * n + 5 ≠ 0)
    have hr := rs_ne hx n
    have e : (2 * ((n + 1 : ℕ) : ℂ) + 3) * rs x (n + 1) / ((2 * (n : ℂ) + 3) * rs x n) = (x : ℂ) ^ 2 / (2 * n + 3) / (2 * n + 3) := by
      rw [rs_succ]
      push_cast
      rw [show 2 * ((n : ℂ) + 1) + 3 = 2 * n + 5 by ring]
      field_simp
    rw [← norm_div, e, norm_div, norm_div, norm_pow, Complex.norm_real, Real.norm_of_nonneg hx.le, show (2 * (n : ℂ) + 3) = ((2 * n + 3 : ℕ) : ℂ) by push_cast; ring, Complex.norm_natCast]
    push_cast
    refine div_le_self (by positivity) ?_
    have : (0 : ℝ) ≤ n := Nat.cast_nonneg n
    linarith
  exact squeeze_zero (fun n => by positivity) h (inv_zero 2 (x ^ 2) (by norm_num))

theorem rs_zero {x : ℝ} (hx : 0 < x) : Tendsto (rs x) atTop (𝓝 0) := by
  have h := (rs_summable hx).tendsto_atTop_zero
  rw [tendsto_zero_iff_norm_tendsto_zero] at h ⊢
  refine squeeze_zero (fun n => norm_nonneg _) (fun n => ?_) h
  rw [norm_mul, show (2 * (n : ℂ) + 3) = ((2 * n + 3 : ℕ) : ℂ) by push_cast; ring, Complex.norm_natCast]
  refine le_mul_of_one_le_left (norm_nonneg _) ?_
  exact_mod_cast (by omega : 1 ≤ 2 * n + 3)

section
variable {m : ℂ} (hm : m ≠ 0) {x : ℝ} (hx : 0 < x)
include hm hx

/-- **C115**: the electric coefficients of large order -/
theorem a_large (h1 : m ^ 2 + 1 ≠ 0) : Tendsto (fun n => a m x (n + 1) / rs x n) atTop (𝓝 ((m ^ 2 - 1) / (Complex.I * (m ^ 2 + 1)))) := by
  have hxc : (x : ℂ) ≠ 0 := Complex.ofReal_ne_zero.2 hx.ne'
  have hmx : m * (x : ℂ) ≠ 0 := mul_ne_zero hm hxc
  have ux := (us_limit hxc).comp (tendsto_add_atTop_nat 1)
  have um := (us_limit hmx).comp (tendsto_add_atTop_nat 1)
  have px := p_limit hxc
  have pm := p_limit hmx
  have qx := q_limit hxc
  have vx := vs_limit hxc
  have r0 := rs_zero hx
  have num := ((um.mul px).const_mul (m ^ 2)).sub (ux.mul pm)
  have den := ((um.mul ((r0.mul px).add (qx.const_mul Complex.I))).const_mul (m ^ 2)).sub (((ux.mul r0).sub (vx.const_mul Complex.I)).mul pm)
  have e1 : m ^ 2 * (1 * 1) - 1 * 1 = m ^ 2 - 1 := by ring
  have e2 : m ^ 2 * (1 * (0 * 1 + Complex.I * 1)) - (1 * 0 - Complex.I * 1) * 1 = Complex.I * (m ^ 2 + 1) := by ring
  rw [e1] at num
  rw [e2] at den
  refine (num.div den (mul_ne_zero Complex.I_ne_zero h1)).congr fun n => ?_
  have hj := jc_ne (n + 1)
  have hy := yc_ne (n + 1)
  have hn := succ_ne n
  have hr := rs_ne hx n
  simp only [Function.comp, Pi.div_apply]
  unfold a
  rw [ξ_deriv n hxc, dψ_us hxc, dψ_us hmx, dχ_vs hxc]
  unfold ξ
  rw [ψ_us hxc (n + 1), ψ_us hmx (n + 1), χ_vs hxc (n + 1)]
  set P := (2 * (n : ℂ) + 3) * us (x : ℂ) n - (n + 1) * us (x : ℂ) (n + 1) with hP
  set P' := (2 * (n : ℂ) + 3) * us (m * x) n - (n + 1) * us (m * x) (n + 1) with hP'
  set Q := ((n : ℂ) + 1) * vs (x : ℂ) (n + 1) - (x : ℂ) ^ 2 / (2 * n + 1) * vs (x : ℂ) n with hQ
  set K := ((n : ℂ) + 1) * m ^ (n + 1) * jc (n + 1) * yc (n + 1) with hK
  have hK0 : K ≠ 0 := mul_ne_zero (mul_ne_zero (mul_ne_zero hn (pow_ne_zero _ hm)) hj) hy
  have t1 : m * (us (m * x) (n + 1) * ((m * x) ^ (n + 1 + 1) * jc (n + 1))) * ((x : ℂ) ^ (n + 1) * jc (n + 1) * P) - us (x : ℂ) (n + 1) * ((x : ℂ) ^ (n + 1 + 1) * jc (n + 1)) * ((m * x) ^ (n + 1) * jc (n + 1) * P')
      = K * rs x n * (m ^ 2 * (us (m * x) (n + 1) * (((n : ℂ) + 1)⁻¹ * P)) - us (x : ℂ) (n + 1) * (((n : ℂ) + 1)⁻¹ * P')) := by
    rw [hK]
    unfold rs
    rw [mul_pow, mul_pow]
    field_simp
    ring
  have t2 : m * (us (m * x) (n + 1) * ((m * x) ^ (n + 1 + 1) * jc (n + 1))) * ((x : ℂ) ^ (n + 1) * jc (n + 1) * P + Complex.I * (yc (n + 1) / (x : ℂ) ^ (n + 2) * Q))
        - (us (x : ℂ) (n + 1) * ((x : ℂ) ^ (n + 1 + 1) * jc (n + 1)) + Complex.I * (-vs (x : ℂ) (n + 1) * yc (n + 1) / (x : ℂ) ^ (n + 1))) * ((m * x) ^ (n + 1) * jc (n + 1) * P')
      = K * (m ^ 2 * (us (m * x) (n + 1) * (rs x n * (((n : ℂ) + 1)⁻¹ * P) + Complex.I * (((n : ℂ) + 1)⁻¹ * Q))) - (us (x : ℂ) (n + 1) * rs x n - Complex.I * vs (x : ℂ) (n + 1)) * (((n : ℂ) + 1)⁻¹ * P')) := by
    rw [hK]
    unfold rs
    rw [mul_pow, mul_pow]
    field_simp
    ring
  rw [t1, t2, mul_assoc K, mul_div_mul_left _ _ hK0, div_right_comm, mul_div_cancel_left₀ _ hr]

/-- the magnetic ones are smaller -/
theorem b_large : Tendsto (fun n => b m x (n + 1) / rs x n) atTop (𝓝 0) := by
  have hxc : (x : ℂ) ≠ 0 := Complex.ofReal_ne_zero.2 hx.ne'
  have hmx : m * (x : ℂ) ≠ 0 := mul_ne_zero hm hxc
  have ux := (us_limit hxc).comp (tendsto_add_atTop_nat 1)
  have um := (us_limit hmx).comp (tendsto_add_atTop_nat 1)
  have px := p_limit hxc
  have pm := p_limit hmx
  have qx := q_limit hxc
  have vx := vs_limit hxc
  have r0 := rs_zero hx
  have num := (um.mul px).sub (ux.mul pm)
  have den := (um.mul ((r0.mul px).add (qx.const_mul Complex.I))).sub (((ux.mul r0).sub (vx.const_mul Complex.I)).mul pm)
  have e1 : (1 : ℂ) * 1 - 1 * 1 = 0 := by ring
  have e2 : (1 : ℂ) * (0 * 1 + Complex.I * 1) - (1 * 0 - Complex.I * 1) * 1 = Complex.I * 2 := by ring
  rw [e1] at num
  rw [e2] at den
  have h := num.div den (mul_ne_zero Complex.I_ne_zero two_ne_zero)
  rw [zero_div] at h
  refine h.congr fun n => ?_
  have hj := jc_ne (n + 1)
  have hy := yc_ne (n + 1)
  have hn := succ_ne n
  have hr := rs_ne hx n
  simp only [Function.comp, Pi.div_apply]
  unfold b
  rw [ξ_deriv n hxc, dψ_us hxc, dψ_us hmx, dχ_vs hxc]
  unfold ξ
  rw [ψ_us hxc (n + 1), ψ_us hmx (n + 1), χ_vs hxc (n + 1)]
  set P := (2 * (n : ℂ) + 3) * us (x : ℂ) n - (n + 1) * us (x : ℂ) (n + 1) with hP
  set P' := (2 * (n : ℂ) + 3) * us (m * x) n - (n + 1) * us (m * x) (n + 1) with hP'
  set Q := ((n : ℂ) + 1) * vs (x : ℂ) (n + 1) - (x : ℂ) ^ 2 / (2 * n + 1) * vs (x : ℂ) n with hQ
  set K := ((n : ℂ) + 1) * m ^ (n + 2) * jc (n + 1) * yc (n + 1) with hK
  have hK0 : K ≠ 0 := mul_ne_zero (mul_ne_zero (mul_ne_zero hn (pow_ne_zero _ hm)) hj) hy
  have t1 : us (m * x) (n + 1) * ((m * x) ^ (n + 1 + 1) * jc (n + 1)) * ((x : ℂ) ^ (n + 1) * jc (n + 1) * P) - m * (us (x : ℂ) (n + 1) * ((x : ℂ) ^ (n + 1 + 1) * jc (n + 1))) * ((m * x) ^ (n + 1) * jc (n + 1) * P')
      = K * rs x n * (us (m * x) (n + 1) * (((n : ℂ) + 1)⁻¹ * P) - us (x : ℂ) (n + 1) * (((n : ℂ) + 1)⁻¹ * P')) := by
    rw [hK]
    unfold rs
    rw [mul_pow, mul_pow]
    field_simp
    ring
  have t2 : us (m * x) (n + 1) * ((m * x) ^ (n + 1 + 1) * jc (n + 1)) * ((x : ℂ) ^ (n + 1) * jc (n + 1) * P + Complex.I * (yc (n + 1) / (x : ℂ) ^ (n + 2) * Q))
        - m * (us (x : ℂ) (n + 1) * ((x : ℂ) ^ (n + 1 + 1) * jc (n + 1)) + Complex.I * (-vs (x : ℂ) (n + 1) * yc (n + 1) / (x : ℂ) ^ (n + 1))) * ((m * x) ^ (n + 1) * jc (n + 1) * P')
      = K * (us (m * x) (n + 1) * (rs x n * (((n : ℂ) + 1)⁻¹ * P) + Complex.I * (((n : ℂ) + 1)⁻¹ * Q)) - (us (x : ℂ) (n + 1) * rs x n - Complex.I * vs (x : ℂ) (n + 1)) * (((n : ℂ) + 1)⁻¹ * P')) := by
    rw [hK]
    unfold rs
    rw [mul_pow, mul_pow]
    field_simp
    ring
  rw [t1, t2, mul_assoc K, mul_div_mul_left _ _ hK0, div_right_comm, mul_div_cancel_left₀ _ hr]

end

/-! ## sums over all orders -/

theorem sum_range_orders (f : Nat → ℝ) (N : Nat) : ∑ n ∈ Icc 1 N, f n = ∑ n ∈ range N, f (n + 1) := by
  induction N with
  | zero => simp
  | succ N ih => rw [Finset.sum_Icc_succ_top (by omega), Finset.sum_range_succ, ih]

section
variable {m : ℂ} (hm : m ≠ 0) (h1 : m ^ 2 + 1 ≠ 0) {x : ℝ} (hx : 0 < x)
include hm h1 hx

theorem norm_summable : (Summable fun n : Nat => (2 * ((n + 1 : ℕ) : ℝ) + 1) * ‖a m x (n + 1)‖) ∧ Summable fun n : Nat => (2 * ((n + 1 : ℕ) : ℝ) + 1) * ‖b m x (n + 1)‖ := by
  have hr := (rs_summable hx).norm
  have key : ∀ (f : Nat → ℂ) (l : ℂ), Tendsto (fun n => f n / rs x n) atTop (𝓝 l) → Summable fun n : Nat => (2 * ((n + 1 : ℕ) : ℝ) + 1) * ‖f n‖ := by
    intro f l hl
    have hb : ∀ᶠ n : Nat in atTop, ‖f n / rs x n‖ ≤ ‖l‖ + 1 := by
      have := hl.norm.eventually (gt_mem_nhds (show ‖l‖ < ‖l‖ + 1 by linarith))
      exact this.mono fun n h => h.le
    refine (hr.mul_left (‖l‖ + 1)).of_norm_bounded_eventually_nat ?_
    filter_upwards [hb] with n hn
    have h0 := norm_pos_iff.2 (rs_ne hx n)
    rw [norm_div, div_le_iff₀ h0] at hn
    rw [norm_mul, norm_mul, norm_norm, show (2 * (n : ℂ) + 3) = ((2 * n + 3 : ℕ) : ℂ) by push_cast; ring, Complex.norm_natCast, Real.norm_of_nonneg (by positivity)]
    push_cast
    have : (0 : ℝ) ≤ 2 * n + 3 := by positivity
    nlinarith
  exact ⟨key _ _ (a_large hm hx h1), key _ _ (b_large hm hx)⟩

theorem ext_summable : Summable fun n : Nat => (2 * ((n + 1 : ℕ) : ℝ) + 1) * (a m x (n + 1) + b m x (n + 1)).re := by
  obtain ⟨sa, sb⟩ := norm_summable hm h1 hx
  refine (sa.add sb).of_norm_bounded fun n => ?_
  rw [norm_mul, Real.norm_of_nonneg (by positivity : (0 : ℝ) ≤ 2 * ((n + 1 : ℕ) : ℝ) + 1), ← mul_add]
  exact mul_le_mul_of_nonneg_left ((Complex.abs_re_le_norm _).trans (norm_add_le _ _)) (by positivity)

theorem sca_summable (him : 0 ≤ (m ^ 2).im) :
    Summable fun n : Nat => (2 * ((n + 1 : ℕ) : ℝ) + 1) * (Complex.normSq (a m x (n + 1)) + Complex.normSq (b m x (n + 1))) := by
  refine (ext_summable hm h1 hx).of_nonneg_of_le (fun n => ?_) fun n => ?_
  · exact mul_nonneg (by positivity) (add_nonneg (Complex.normSq_nonneg _) (Complex.normSq_nonneg _))
  · obtain ⟨_, ⟨ha, hb⟩, _⟩ := c101_coefficients hm him hx (Nat.le_add_left 1 n)
    rw [Complex.add_re]
    exact mul_le_mul_of_nonneg_left (add_le_add ha hb) (by positivity)

/-- **C115**: with the number of orders the extinction efficiency tends to that of Mie theory -/
theorem c115_extinction : Tendsto (fun N => Qext m x N) atTop (𝓝 (QextAll m x)) := by
  have h := ((ext_summable hm h1 hx).hasSum.tendsto_sum_nat).const_mul (2 / x ^ 2)
  refine h.congr fun N => ?_
  unfold Qext
  rw [sum_range_orders]

/-- **C115**: and so does the scattering efficiency -/
theorem c115_scattering (him : 0 ≤ (m ^ 2).im) : Tendsto (fun N => Qsca m x N) atTop (𝓝 (QscaAll m x)) := by
  have h := ((sca_summable hm h1 hx him).hasSum.tendsto_sum_nat).const_mul (2 / x ^ 2)
  refine h.congr fun N => ?_
  unfold Qsca
  rw [sum_range_orders]

omit h1 in
theorem Qsca_step (N : Nat) : Qsca m x (N + 1) - Qsca m x N = 2 / x ^ 2 * ((2 * ((N + 1 : ℕ) : ℝ) + 1) * (Complex.normSq (a m x (N + 1)) + Complex.normSq (b m x (N + 1)))) := by
  unfold Qsca
  rw [Finset.sum_Icc_succ_top (by omega)]
  ring

omit h1 in
theorem Qsca_mono : Monotone (Qsca m x) := by
  refine monotone_nat_of_le_succ fun N => ?_
  have := Qsca_step hm hx N
  have h : 0 ≤ 2 / x ^ 2 * ((2 * ((N + 1 : ℕ) : ℝ) + 1) * (Complex.normSq (a m x (N + 1)) + Complex.normSq (b m x (N + 1)))) :=
    mul_nonneg (by positivity) (mul_nonneg (by positivity) (add_nonneg (Complex.normSq_nonneg _) (Complex.normSq_nonneg _)))
  linarith

omit h1 in
theorem Qsca_le_Qext (him : 0 ≤ (m ^ 2).im) (N : Nat) : Qsca m x N ≤ Qext m x N := by
  unfold Qsca Qext
  refine mul_le_mul_of_nonneg_left (Finset.sum_le_sum fun n hn => ?_) (by positivity)
  obtain ⟨_, ⟨ha, hb⟩, _⟩ := c101_coefficients hm him hx (mem_Icc.1 hn).1
  rw [Complex.add_re]
  exact mul_le_mul_of_nonneg_left (add_le_add ha hb) (by positivity)

/-- **C115**: the series converge: for every tolerance, the criterion of the program is met from some order on (unless the grain does not scatter at all) -/
theorem c115_converged (him : 0 ≤ (m ^ 2).im) (h2 : m ^ 2 ≠ 1) {tol : ℝ} (ht : 0 < tol) : ∃ N0, ∀ N ≥ N0, Converged tol m x N (N + 1) := by
  have hne : ∀ᶠ n : Nat in atTop, a m x (n + 1) ≠ 0 := by
    have hl : (m ^ 2 - 1) / (Complex.I * (m ^ 2 + 1)) ≠ 0 := div_ne_zero (sub_ne_zero.2 h2) (mul_ne_zero Complex.I_ne_zero h1)
    filter_upwards [(a_large hm hx h1).eventually_ne hl] with n hn h0
    rw [h0, zero_div] at hn
    exact hn rfl
  obtain ⟨n0, hn0⟩ := eventually_atTop.1 hne
  have step : ∀ N ≥ n0, Qsca m x N < Qsca m x (N + 1) := by
    intro N hN
    have := Qsca_step hm hx N
    have ha : 0 < Complex.normSq (a m x (N + 1)) := Complex.normSq_pos.2 (hn0 N hN)
    have hb := Complex.normSq_nonneg (b m x (N + 1))
    have : 0 < 2 / x ^ 2 * ((2 * ((N + 1 : ℕ) : ℝ) + 1) * (Complex.normSq (a m x (N + 1)) + Complex.normSq (b m x (N + 1)))) := by positivity
    linarith
  have hS0 : 0 ≤ Qsca m x n0 := by
    have := Qsca_mono hm hx (Nat.zero_le n0)
    simpa [Qsca] using this
  have pos : ∀ N ≥ n0, 0 < Qsca m x (N + 1) := fun N hN => lt_of_le_of_lt (hS0.trans (Qsca_mono hm hx hN)) (step N hN)
  have tS := c115_scattering hm h1 hx him
  have tE := c115_extinction hm h1 hx
  have hSa : 0 < QscaAll m x := lt_of_lt_of_le (pos n0 le_rfl) ((Qsca_mono hm hx).ge_of_tendsto tS (n0 + 1))
  have hEa : 0 < QextAll m x := lt_of_lt_of_le hSa (le_of_tendsto_of_tendsto' tS tE fun N => Qsca_le_Qext hm hx him N)
  have lim : ∀ (Q : Nat → ℝ) (l : ℝ), 0 < l → Tendsto Q atTop (𝓝 l) → ∀ᶠ N in atTop, |(Q N - Q (N + 1)) / Q (N + 1)| ≤ tol := by
    intro Q l hl hQ
    have hs := hQ.comp (tendsto_add_atTop_nat 1)
    have := ((hQ.sub hs).div hs hl.ne').abs
    rw [sub_self, zero_div, abs_zero] at this
    exact (this.eventually (gt_mem_nhds ht)).mono fun N h => h.le
  obtain ⟨N0, hN0⟩ := eventually_atTop.1 ((lim _ _ hSa tS).and (lim _ _ hEa tE))
  refine ⟨max N0 n0, fun N hN => ⟨(hN0 N (le_trans (le_max_left _ _) hN)).1, (hN0 N (le_trans (le_max_left _ _) hN)).2, ?_⟩⟩
  have hN' : N ≥ n0 := le_trans (le_max_right _ _) hN
  have := step N hN'
  exact abs_ne_zero.2 (div_ne_zero (by linarith) (pos N hN').ne')

/-- **C115**: for a given tolerance the order that is used does not grow with the largest order that is allowed -/
theorem c115_order (him : 0 ≤ (m ^ 2).im) (h2 : m ^ 2 ≠ 1) {tol : ℝ} (ht : 0 < tol) : ∃ N0, ∀ {H : Content.Problem} {p : Graph.Par} {g : Nat},
    H.mr p = m → size H p = x → H.tol = tol → IsCutOff H p g → Content.orderAt H g ≤ max (H.minOrder + 1) N0 := by
  obtain ⟨N0, hN⟩ := c115_converged hm h1 hx him h2 ht
  refine ⟨N0 + 1, fun {H p g} hmr hsz htol hg => ?_⟩
  by_contra hlt
  rw [not_le, max_lt_iff] at hlt
  obtain ⟨l1, l2⟩ := hlt
  unfold Content.orderAt at l1 l2
  refine hg.2.1 (g - 1) (by omega) (by omega) ?_
  rw [hmr, hsz, htol]
  have e : Content.orderAt H (g - 1) = Content.orderAt H (g - 1 - 1) + 1 := by
    unfold Content.orderAt
    omega
  rw [e]
  exact hN _ (by unfold Content.orderAt; omega)

omit h1 in
/-- the order that is used is large if the tolerance is small enough and large orders are allowed -/
theorem order_large (N1 : Nat) : ∃ tol0 > 0, ∀ {H : Content.Problem} {p : Graph.Par} {g : Nat},
    H.mr p = m → size H p = x → H.tol < tol0 → N1 < H.minOrder + H.P.nq → IsCutOff H p g → N1 ≤ Content.orderAt H g := by
  set rel : Nat → ℝ := fun N => |(Qsca m x N - Qsca m x (N + 1)) / Qsca m x (N + 1)| with hrel
  have h : ∀ᶠ t : ℝ in 𝓝[>] 0, ∀ N ∈ range N1, rel N = 0 ∨ t < rel N := by
    refine (Filter.eventually_all_finset (range N1)).2 fun N _ => ?_
    rcases eq_or_lt_of_le (abs_nonneg ((Qsca m x N - Qsca m x (N + 1)) / Qsca m x (N + 1))) with h0 | h0
    · exact Eventually.of_forall fun t => .inl h0.symm
    · exact eventually_nhdsWithin_of_eventually_nhds ((gt_mem_nhds h0).mono fun t ht => .inr ht)
  obtain ⟨t, ht, ht0⟩ := (h.and eventually_mem_nhdsWithin).exists
  refine ⟨t, ht0, fun {H p g} hmr hsz htol hN hg => ?_⟩
  rcases hg.2.2 with q | ⟨q1, q2⟩
  · unfold Content.orderAt
    omega
  · by_contra hlt
    have e : Content.orderAt H g = Content.orderAt H (g - 1) + 1 := by
      unfold Content.orderAt
      omega
    rw [hmr, hsz, e] at q2
    obtain ⟨c1, _, c3⟩ := q2
    rcases ht (Content.orderAt H (g - 1)) (mem_range.2 (by omega)) with h0 | h0
    · exact c3 h0
    · have c1 : rel (Content.orderAt H (g - 1)) ≤ H.tol := c1
      linarith

end

/-! ## tables -/

section run
open Verif.Exec Verif.Store Verif.Api Verif.Graph Verif.Content
open Verif.Special (realOps)

/-- **C115** For every refractive index, size parameter and required accuracy there are a tolerance and a largest order so that, for every calculation with a smaller tolerance and
a larger largest order, every schedule, number of threads and memory limit, the entries of the table are the extinction efficiencies of Mie theory up to the required accuracy. -/
theorem c115_run {m : ℂ} (h1 : m ^ 2 + 1 ≠ 0) {x : ℝ} (hx : 0 < x) (hm : m ≠ 0) {ε : ℝ} (hε : 0 < ε) : ∃ tol0 > 0, ∃ N0 : Nat, ∀ {H : Problem} (_ : Sensible H.P) {l : List Call} (_ : generate H.P = some l)
    (m0 : Place Loc → Val) (_ : AllClean H.P (clean H) m0) (_ : ∀ c, m0 (.inl (.conv c)) = .ctl Ctl.new) (ty : Tk → Nat) (pl : Tk → List Nat) (_ : ∀ t, (pl t).length ≤ 8000) (J Jp : Junk)
    (hist : List (Op × Junk)) (_ : hist.map Prod.fst = toOps ty pl l) (nq nth : Nat) (_ : 0 < nq) (_ : nth ≤ nq) (weight0 : Nat → Int),
    ∃ s r, exec (hist ++ [(.prepare, Jp)]) (init J) = some s ∧ prepareOf s nq weight0 = some r ∧
      ∀ pr y, XReach _ (bodyOf l (placed H.P (code realOps H))) ⟨startOf s nq nth r, m0, pr⟩ y →
        (∃ th, y.st.pc th = .exited) → ∀ p, H.P.want .ext = true → p ∈ pars H.P → ∀ B, Spheres H B p → Proper H B p → Directions H .ext →
          (∀ s < H.P.nshape, H.aligned ⟨p, s⟩ = true → (H.coeff ⟨p, s⟩).v 0 = 1) →
          H.mr p = m → size H p = x → H.tol < tol0 → N0 < H.minOrder + H.P.nq →
          ∃ E, y.mem (.inl (.result .ext p)) = .ext E ∧
            ∀ it < H.ntheta, |E.Qext it - QextAll m x| ≤ ε ∧ E.Qextpol it = 0 ∧ E.Qextcpol it = 0 := by
  obtain ⟨N1, hN1⟩ := eventually_atTop.1 ((c115_extinction hm h1 hx).eventually (Metric.closedBall_mem_nhds _ hε))
  obtain ⟨tol0, ht, hb⟩ := order_large hm hx N1
  refine ⟨tol0, ht, N1, fun {H} hP {l} h m0 hcl hv ty pl hpl J Jp hist hh nq nth hq hth weight0 => ?_⟩
  obtain ⟨s, r, e1, e2, e3⟩ := c101_run hP h m0 hcl hv ty pl hpl J Jp hist hh nq nth hq hth weight0
  refine ⟨s, r, e1, e2, fun pr y hy hex p hw hp B hS hpr hd hc hmr hsz htol hN => ?_⟩
  obtain ⟨g0, E, hg0, hE, hval⟩ := e3 pr y hy hex p hw hp B hS hpr hd hc
  refine ⟨E, hE, fun it hit => ?_⟩
  obtain ⟨v1, v2, v3⟩ := hval it hit
  refine ⟨?_, v2, v3⟩
  have := hN1 _ (hb hmr hsz htol hN hg0)
  rw [v1, hmr, hsz]
  simpa [Real.dist_eq] using this

end run

/-! ## examples -/

section
open Verif.Content

/-- calculations with any number of orders and any tolerance, and the Gauss-Legendre rules with ordered points -/
noncomputable def exL (m : ℂ) (N : Nat) (t : ℝ) : Problem :=
  { exS m with
    P := ⟨N + 1, N + 2, 2, 1, 1, 1, 1, fun _ => true⟩
    tol := t
    gl := fun n => if n = 2 then (exS m).gl 2 else Classical.choose (Refine.rule_exists n)
    coeff := fun _ => ⟨2 * N + 5, fun k => if k = 0 then 1 else if k = 2 then 1 / 2 else 0, true⟩ }

theorem exL_gauss (m : ℂ) (N : Nat) (t : ℝ) (n : Nat) : Refine.Gauss n ((exL m N t).gl n)
    ∧ (∀ i < n, ((exL m N t).gl n).1 (n - 1 - i) = -((exL m N t).gl n).1 i) ∧ ∀ i < n, ((exL m N t).gl n).2 (n - 1 - i) = ((exL m N t).gl n).2 i := by
  have e : (exL m N t).gl n = if n = 2 then (exS m).gl 2 else Classical.choose (Refine.rule_exists n) := rfl
  rw [e]
  split_ifs with h
  · subst h
    refine ⟨exS_gauss m, fun i hi => ?_, fun _ _ => rfl⟩
    change (if 2 - 1 - i = 0 then (-(1 / Real.sqrt 3) : ℝ) else 1 / Real.sqrt 3) = -(if i = 0 then -(1 / Real.sqrt 3) else 1 / Real.sqrt 3)
    interval_cases i <;> norm_num
  · exact Classical.choose_spec (Refine.rule_exists n)

theorem exL_spheres {m : ℂ} (hm : m ≠ 0) (him : 0 ≤ (m ^ 2).im) (N : Nat) (t : ℝ) (p : Graph.Par) : Spheres (exL m N t) (fun _ => exact) p where
  round _ _ := rfl
  wavelength := show (0 : ℝ) < 2 by norm_num
  radius := show (0 : ℝ) < 1 / 10 by norm_num
  index := hm
  passive := him
  factor := show 1 ≤ 1 from le_rfl
  order := show 1 ≤ 1 from le_rfl
  gauss _ _ := (exL_gauss m N t _).1
  bessel _ _ := rfl

theorem exL_proper {m : ℂ} (hm : m ≠ 0) (him : 0 ≤ (m ^ 2).im) (N : Nat) (t : ℝ) (p : Graph.Par)
    (hN : ∀ g, IsCutOff (exL m N t) p g → 2 * (1 + g) ≤ N) : Proper (exL m N t) (fun _ => exact) p := by
  refine c101_proper (exL_spheres hm him N t p) (show 1 + (N + 1) ≤ N + 2 + 1 by omega) (fun g _ => (exL_gauss m N t _).2.1) (fun g _ => (exL_gauss m N t _).2.2) ?_
    (fun g _ => ⟨?_, ?_, ?_⟩) fun s hs _ g hg => ?_
  · exact (exS_proper hm him p).shapes
  · intro x _ l h1 _
    change exact.j (l - 1 + 1) x = _ ∧ exact.dj (l - 1 + 1) x = _
    rw [Nat.sub_add_cancel h1]
    exact ⟨rfl, rfl⟩
  · intro x _ l h1 _
    change exact.y (l - 1 + 1) x = _ ∧ exact.dy (l - 1 + 1) x = _
    rw [Nat.sub_add_cancel h1]
    exact ⟨rfl, rfl⟩
  · intro x _ l h1 _
    change exact.jm (l - 1 + 1) x = _ ∧ exact.djm (l - 1 + 1) x = _
    rw [Nat.sub_add_cancel h1]
    exact ⟨rfl, rfl⟩
  · have h : g < N + 1 := hg.1
    refine ⟨show (2 * (1 + g) + 1) * (2 * (1 + g) + 1) ≤ (N + 2 + 1) * (2 * (N + 2) + 1) from ?_, show ((2 * (1 + g) : Nat) : Int) < 2 * N + 5 from ?_⟩
    · have := hN g (order_cutoff (exL_spheres hm him N t p) hs hg)
      nlinarith
    · omega

/-- for every index, tolerance and largest order there are calculations, with a shape of which the grains are aligned, that meet the hypotheses of `c115_run` -/
theorem exL_meets {m : ℂ} (hm : m ≠ 0) (h1 : m ^ 2 + 1 ≠ 0) (h2 : m ^ 2 ≠ 1) (him : 0 ≤ (m ^ 2).im) {tol0 : ℝ} (ht : 0 < tol0) (N0 : Nat) :
    ∃ N, Graph.Sensible (exL m N (tol0 / 2)).P ∧ (∃ l, Graph.generate (exL m N (tol0 / 2)).P = some l) ∧ (exL m N (tol0 / 2)).P.want .ext = true
    ∧ (∀ p, Spheres (exL m N (tol0 / 2)) (fun _ => exact) p ∧ Proper (exL m N (tol0 / 2)) (fun _ => exact) p ∧ (exL m N (tol0 / 2)).mr p = m ∧ size (exL m N (tol0 / 2)) p = Real.pi / 10
      ∧ ∀ s, (exL m N (tol0 / 2)).aligned ⟨p, s⟩ = true → ((exL m N (tol0 / 2)).coeff ⟨p, s⟩).v 0 = 1)
    ∧ (⟨0, 0, 0⟩ : Graph.Par) ∈ Graph.pars (exL m N (tol0 / 2)).P ∧ 1 < (exL m N (tol0 / 2)).P.nshape ∧ 0 < (exL m N (tol0 / 2)).tol ∧ (exL m N (tol0 / 2)).tol < tol0
    ∧ N0 < (exL m N (tol0 / 2)).minOrder + (exL m N (tol0 / 2)).P.nq := by
  have hpi := Real.pi_pos
  obtain ⟨N1, h⟩ := c115_order hm h1 (x := Real.pi / 10) (by positivity) him h2 (half_pos ht)
  have hsz : ∀ N p, size (exL m N (tol0 / 2)) p = Real.pi / 10 := by
    intro N p
    change 2 * Real.pi / 2 * (1 / 10) = Real.pi / 10
    ring
  have hN : ∀ p g, IsCutOff (exL m (N0 + 2 * N1 + 4) (tol0 / 2)) p g → 2 * (1 + g) ≤ N0 + 2 * N1 + 4 := by
    intro p g hg
    have : 1 + g ≤ max (1 + 1) N1 := h rfl (hsz _ p) rfl hg
    rcases le_max_iff.1 this with h | h <;> omega
  exact ⟨N0 + 2 * N1 + 4, ⟨show 0 < 1 by decide, Nat.succ_pos _, show N0 + 2 * N1 + 4 + 1 ≤ N0 + 2 * N1 + 4 + 2 by omega⟩, Graph.c19_total (Nat.succ_pos _), rfl,
    fun p => ⟨exL_spheres hm him _ _ p, exL_proper hm him _ _ p (hN p), rfl, hsz _ p, fun _ _ => rfl⟩, by simp [Graph.pars, exL],
    show 1 < 2 by decide, half_pos ht, half_lt_self ht, show N0 < 1 + (N0 + 2 * N1 + 4 + 1) by omega⟩

example {m : ℂ} (hm : m ≠ 0) (h1 : m ^ 2 + 1 ≠ 0) (h2 : m ^ 2 ≠ 1) (him : 0 ≤ (m ^ 2).im) {tol0 : ℝ} (ht : 0 < tol0) (N0 : Nat) :
    ∃ H : Problem, Graph.Sensible H.P ∧ (∃ l, Graph.generate H.P = some l) ∧ H.P.want .ext = true
    ∧ (∀ p, Spheres H (fun _ => exact) p ∧ Proper H (fun _ => exact) p ∧ H.mr p = m ∧ size H p = Real.pi / 10 ∧ ∀ s, H.aligned ⟨p, s⟩ = true → (H.coeff ⟨p, s⟩).v 0 = 1)
    ∧ Directions H .ext ∧ (⟨0, 0, 0⟩ : Graph.Par) ∈ Graph.pars H.P ∧ H.aligned ⟨⟨0, 0, 0⟩, 1⟩ = true ∧ 1 < H.P.nshape ∧ 0 < H.tol ∧ H.tol < tol0 ∧ N0 < H.minOrder + H.P.nq
    ∧ 0 < H.ntheta := by
  obtain ⟨N, s, g, w, p, a, b, c, d, e⟩ := exL_meets hm h1 h2 him ht N0
  exact ⟨exL m N (tol0 / 2), s, g, w, p, ex_directions .ext, a, rfl, b, c, d, e, show 0 < 2 by decide⟩

/-- glass and an absorbing material meet the hypotheses on the refractive index -/
example : ((3 / 2 : ℂ) ≠ 0 ∧ (3 / 2 : ℂ) ^ 2 + 1 ≠ 0 ∧ (3 / 2 : ℂ) ^ 2 ≠ 1 ∧ 0 ≤ ((3 / 2 : ℂ) ^ 2).im)
    ∧ (1 + Complex.I ≠ 0 ∧ (1 + Complex.I) ^ 2 + 1 ≠ 0 ∧ (1 + Complex.I) ^ 2 ≠ 1 ∧ 0 ≤ ((1 + Complex.I) ^ 2).im) := by
  have h : (1 + Complex.I) ^ 2 = 2 * Complex.I := by
    linear_combination Complex.I_sq
  refine ⟨⟨by norm_num, by norm_num, by norm_num, by norm_num [pow_two]⟩, fun h => ?_, fun h2 => ?_, fun h2 => ?_, ?_⟩
  · have := congrArg Complex.re h
    norm_num at this
  · rw [h] at h2
    have := congrArg Complex.re h2
    norm_num at this
  · rw [h] at h2
    have := congrArg Complex.re h2
    norm_num at this
  · rw [h]
    norm_num

end

end Verif.Mie
