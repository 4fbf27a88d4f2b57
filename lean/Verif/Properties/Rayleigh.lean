import Verif.Properties.MieScatter
import Verif.Spec.Rayleigh

/-!
# C114: grains that are small compared with the wavelength
-/
namespace Verif.Mie

open Verif.Bessel Filter Topology Finset

/-! ## Riccati-Bessel functions close to the origin -/

/-- `1 / (2 n + 1)!!` -/
noncomputable def jc : Nat → ℂ
  | 0 => 1
  | n + 1 => jc n / (2 * n + 3)

/-- `(2 n - 1)!!` -/
noncomputable def yc : Nat → ℂ
  | 0 => 1
  | n + 1 => (2 * n + 1) * yc n

theorem odd_ne (n : Nat) : (2 * (n : ℂ) + 3) ≠ 0 ∧ (2 * (n : ℂ) + 1) ≠ 0 := by
  constructor
  · exact_mod_cast (by omega : 2 * n + 3 ≠ 0)
  · exact_mod_cast (by omega : 2 * n + 1 ≠ 0)

theorem jc_ne : ∀ n, jc n ≠ 0
  | 0 => one_ne_zero
  | n + 1 => div_ne_zero (jc_ne n) (odd_ne n).1

theorem yc_ne : ∀ n, yc n ≠ 0
  | 0 => one_ne_zero
  | n + 1 => mul_ne_zero (odd_ne n).2 (yc_ne n)

theorem ne_zero_ev : ∀ᶠ z : ℂ in 𝓝[≠] 0, z ≠ 0 := eventually_mem_nhdsWithin

theorem to_zero : Tendsto (fun z : ℂ => z) (𝓝[≠] 0) (𝓝 0) := tendsto_id.mono_left nhdsWithin_le_nhds

theorem ψ_three (n : Nat) {z : ℂ} (hz : z ≠ 0) : ψ (n + 2) z = (2 * n + 3) / z * ψ (n + 1) z - ψ n z := by
  unfold ψ sphJ
  rw [startJ.three_term n z hz]
  ring

theorem χ_three (n : Nat) {z : ℂ} (hz : z ≠ 0) : χ (n + 2) z = (2 * n + 3) / z * χ (n + 1) z - χ n z := by
  unfold χ sphY
  rw [startY.three_term n z hz]
  ring

/-- `ψ_(n + 2)` is two orders smaller than `ψ_n` -/
theorem ψ_small (n : Nat) : Tendsto (fun z => ψ (n + 2) z / z ^ (n + 1)) (𝓝[≠] 0) (𝓝 0) := by
  obtain ⟨C, R, hR, hC, h⟩ := small
  have hl : Tendsto (fun z : ℂ => C * ‖z‖ ^ 2) (𝓝[≠] 0) (𝓝 0) := by
    have : Tendsto (fun z : ℂ => C * ‖z‖ ^ 2) (𝓝 0) (𝓝 (C * ‖(0 : ℂ)‖ ^ 2)) := (Continuous.tendsto (by fun_prop) 0)
    simpa using this.mono_left nhdsWithin_le_nhds
  refine squeeze_zero_norm' ?_ hl
  have hball : ∀ᶠ z : ℂ in 𝓝[≠] 0, ‖z‖ ≤ R := by
    refine eventually_nhdsWithin_of_eventually_nhds ?_
    filter_upwards [Metric.closedBall_mem_nhds (0 : ℂ) hR] with z hz
    simpa using hz
  filter_upwards [ne_zero_ev, hball] with z hz hzR
  have hp : 0 < ‖z‖ := norm_pos_iff.2 hz
  rw [norm_div, norm_pow, div_le_iff₀ (by positivity)]
  refine (h (n + 2) z hz hzR).trans (le_of_eq ?_)
  ring

theorem ψ_origin : ∀ n, Tendsto (fun z => ψ n z / z ^ (n + 1)) (𝓝[≠] 0) (𝓝 (jc n))
  | 0 => by
    have h := (Complex.hasDerivAt_sin 0).tendsto_slope_zero
    rw [Complex.cos_zero] at h
    refine h.congr' ?_
    filter_upwards [ne_zero_ev] with z hz
    unfold ψ
    rw [j_zero]
    simp
    field_simp
  | n + 1 => by
    have h := ((ψ_origin n).add (ψ_small n)).div_const (2 * (n : ℂ) + 3)
    rw [add_zero] at h
    refine h.congr' ?_
    filter_upwards [ne_zero_ev] with z hz
    rw [ψ_three n hz]
    have := (odd_ne n).1
    field_simp
    ring

theorem χ_origin : ∀ n, Tendsto (fun z => χ n z * z ^ n) (𝓝[≠] 0) (𝓝 (-yc n)) ∧ Tendsto (fun z => χ (n + 1) z * z ^ (n + 1)) (𝓝[≠] 0) (𝓝 (-yc (n + 1)))
  | 0 => by
    have hc : Tendsto (fun z : ℂ => -Complex.cos z) (𝓝[≠] 0) (𝓝 (-1)) := by
      have : Tendsto (fun z : ℂ => -Complex.cos z) (𝓝 0) (𝓝 (-Complex.cos 0)) := Continuous.tendsto (by fun_prop) 0
      rw [Complex.cos_zero] at this
      exact this.mono_left nhdsWithin_le_nhds
    have hs : Tendsto (fun z : ℂ => -Complex.cos z - z * Complex.sin z) (𝓝[≠] 0) (𝓝 (-1)) := by
      have : Tendsto (fun z : ℂ => -Complex.cos z - z * Complex.sin z) (𝓝 0) (𝓝 (-Complex.cos 0 - 0 * Complex.sin 0)) := Continuous.tendsto (by fun_prop) 0
      rw [Complex.cos_zero, zero_mul, sub_zero] at this
      exact this.mono_left nhdsWithin_le_nhds
    constructor
    · refine hc.congr' ?_
      filter_upwards [ne_zero_ev] with z hz
      unfold χ
      rw [y_zero]
      field_simp
    · have e : yc 1 = 1 := by simp [yc]
      rw [e]
      refine hs.congr' ?_
      filter_upwards [ne_zero_ev] with z hz
      unfold χ
      rw [y_one hz]
      field_simp
      ring
  | n + 1 => by
    obtain ⟨h0, h1⟩ := χ_origin n
    refine ⟨h1, ?_⟩
    have h := (h1.const_mul (2 * (n : ℂ) + 3)).sub ((to_zero.pow 2).mul h0)
    have e : (2 * (n : ℂ) + 3) * -yc (n + 1) - 0 ^ 2 * -yc n = -yc (n + 2) := by
      conv_rhs => unfold yc
      push_cast
      ring
    rw [e] at h
    refine h.congr' ?_
    filter_upwards [ne_zero_ev] with z hz
    rw [χ_three n hz]
    field_simp
    ring

theorem dψ_origin (n : Nat) : Tendsto (fun z => deriv (ψ (n + 1)) z / z ^ (n + 1)) (𝓝[≠] 0) (𝓝 ((n + 2) * jc (n + 1))) := by
  have h := (ψ_origin n).sub ((ψ_origin (n + 1)).const_mul ((n : ℂ) + 1))
  have e : jc n - ((n : ℂ) + 1) * jc (n + 1) = (n + 2) * jc (n + 1) := by
    have := (odd_ne n).1
    have e : jc n = (2 * n + 3) * jc (n + 1) := by
      conv_rhs => unfold jc
      field_simp
    rw [e]
    ring
  rw [e] at h
  refine h.congr' ?_
  filter_upwards [ne_zero_ev] with z hz
  rw [(ψ_deriv n hz).deriv]
  field_simp
  ring

theorem dχ_origin (n : Nat) : Tendsto (fun z => deriv (χ (n + 1)) z * z ^ (n + 2)) (𝓝[≠] 0) (𝓝 ((n + 1) * yc (n + 1))) := by
  obtain ⟨h0, h1⟩ := χ_origin n
  have h := ((to_zero.pow 2).mul h0).sub (h1.const_mul ((n : ℂ) + 1))
  have e : (0 : ℂ) ^ 2 * -yc n - ((n : ℂ) + 1) * -yc (n + 1) = (n + 1) * yc (n + 1) := by ring
  rw [e] at h
  refine h.congr' ?_
  filter_upwards [ne_zero_ev] with z hz
  rw [(χ_deriv n hz).deriv]
  field_simp
  ring

theorem ξ_origin (n : Nat) : Tendsto (fun z => ξ (n + 1) z * z ^ (n + 1)) (𝓝[≠] 0) (𝓝 (-Complex.I * yc (n + 1))) := by
  have h := ((ψ_origin (n + 1)).mul (to_zero.pow (2 * n + 3))).add ((χ_origin n).2.const_mul Complex.I)
  have e : jc (n + 1) * 0 ^ (2 * n + 3) + Complex.I * -yc (n + 1) = -Complex.I * yc (n + 1) := by
    rw [zero_pow (by omega)]
    ring
  rw [e] at h
  refine h.congr' ?_
  filter_upwards [ne_zero_ev] with z hz
  unfold ξ
  rw [show 2 * n + 3 = (n + 1 + 1) + (n + 1) by ring, pow_add]
  field_simp
  ring

theorem dξ_origin (n : Nat) : Tendsto (fun z => deriv (ξ (n + 1)) z * z ^ (n + 2)) (𝓝[≠] 0) (𝓝 (Complex.I * ((n + 1) * yc (n + 1)))) := by
  have h := ((dψ_origin n).mul (to_zero.pow (2 * n + 3))).add ((dχ_origin n).const_mul Complex.I)
  have e : (n + 2) * jc (n + 1) * 0 ^ (2 * n + 3) + Complex.I * ((n + 1) * yc (n + 1)) = Complex.I * ((n + 1) * yc (n + 1)) := by
    rw [zero_pow (by omega)]
    ring
  rw [e] at h
  refine h.congr' ?_
  filter_upwards [ne_zero_ev] with z hz
  rw [ξ_deriv n hz, show 2 * n + 3 = (n + 1) + (n + 2) by ring, pow_add]
  field_simp
  ring

/-! ## coefficients -/

/-- real size parameters that tend to zero -/
theorem real_zero : Tendsto (fun x : ℝ => (x : ℂ)) (𝓝[>] 0) (𝓝[≠] 0) := by
  refine tendsto_nhdsWithin_iff.2 ⟨?_, ?_⟩
  · have : Tendsto (fun x : ℝ => (x : ℂ)) (𝓝 0) (𝓝 ((0 : ℝ) : ℂ)) := Complex.continuous_ofReal.tendsto 0
    rw [Complex.ofReal_zero] at this
    exact this.mono_left nhdsWithin_le_nhds
  · filter_upwards [eventually_mem_nhdsWithin] with x hx
    exact Complex.ofReal_ne_zero.2 (ne_of_gt hx)

theorem scaled_zero {m : ℂ} (hm : m ≠ 0) : Tendsto (fun x : ℝ => m * (x : ℂ)) (𝓝[>] 0) (𝓝[≠] 0) := by
  refine tendsto_nhdsWithin_iff.2 ⟨?_, ?_⟩
  · have := (real_zero.mono_right nhdsWithin_le_nhds).const_mul m
    rwa [mul_zero] at this
  · filter_upwards [eventually_mem_nhdsWithin] with x hx
    exact mul_ne_zero hm (Complex.ofReal_ne_zero.2 (ne_of_gt hx))

variable {m : ℂ} (hm : m ≠ 0)
include hm

theorem inside_ψ (n : Nat) : Tendsto (fun x : ℝ => ψ (n + 1) (m * x) / (x : ℂ) ^ (n + 2)) (𝓝[>] 0) (𝓝 (m ^ (n + 2) * jc (n + 1))) := by
  refine (((ψ_origin (n + 1)).comp (scaled_zero hm)).const_mul (m ^ (n + 2))).congr' ?_
  filter_upwards [eventually_mem_nhdsWithin] with x hx
  have : (x : ℂ) ≠ 0 := Complex.ofReal_ne_zero.2 (ne_of_gt hx)
  simp only [Function.comp]
  rw [mul_pow]
  field_simp

theorem inside_dψ (n : Nat) : Tendsto (fun x : ℝ => deriv (ψ (n + 1)) (m * x) / (x : ℂ) ^ (n + 1)) (𝓝[>] 0) (𝓝 (m ^ (n + 1) * ((n + 2) * jc (n + 1)))) := by
  refine (((dψ_origin n).comp (scaled_zero hm)).const_mul (m ^ (n + 1))).congr' ?_
  filter_upwards [eventually_mem_nhdsWithin] with x hx
  have : (x : ℂ) ≠ 0 := Complex.ofReal_ne_zero.2 (ne_of_gt hx)
  simp only [Function.comp]
  rw [mul_pow]
  field_simp

/-- the electric coefficients -/
theorem a_origin (n : Nat) (h : ((n : ℂ) + 1) * m ^ 2 + (n + 2) ≠ 0) :
    Tendsto (fun x : ℝ => a m x (n + 1) / (x : ℂ) ^ (2 * n + 3)) (𝓝[>] 0)
      (𝓝 (-Complex.I * (jc (n + 1) / yc (n + 1)) * ((n + 2) * (m ^ 2 - 1) / ((n + 1) * m ^ 2 + (n + 2))))) := by
  have num := (((inside_ψ hm n).mul ((dψ_origin n).comp real_zero)).const_mul m).sub (((ψ_origin (n + 1)).comp real_zero).mul (inside_dψ hm n))
  have den := (((inside_ψ hm n).mul ((dξ_origin n).comp real_zero)).const_mul m).sub (((ξ_origin n).comp real_zero).mul (inside_dψ hm n))
  have hj := jc_ne (n + 1)
  have hy := yc_ne (n + 1)
  have e : m * (m ^ (n + 2) * jc (n + 1) * (Complex.I * ((n + 1) * yc (n + 1)))) - -Complex.I * yc (n + 1) * (m ^ (n + 1) * ((n + 2) * jc (n + 1)))
      = Complex.I * jc (n + 1) * yc (n + 1) * m ^ (n + 1) * ((n + 1) * m ^ 2 + (n + 2)) := by ring
  have hd : m * (m ^ (n + 2) * jc (n + 1) * (Complex.I * ((n + 1) * yc (n + 1)))) - -Complex.I * yc (n + 1) * (m ^ (n + 1) * ((n + 2) * jc (n + 1))) ≠ 0 := by
    rw [e]
    exact mul_ne_zero (mul_ne_zero (mul_ne_zero (mul_ne_zero Complex.I_ne_zero hj) hy) (pow_ne_zero _ hm)) h
  have q := num.div den hd
  rw [e] at q
  have e2 : (m * (m ^ (n + 2) * jc (n + 1) * ((n + 2) * jc (n + 1))) - jc (n + 1) * (m ^ (n + 1) * ((n + 2) * jc (n + 1))))
        / (Complex.I * jc (n + 1) * yc (n + 1) * m ^ (n + 1) * ((n + 1) * m ^ 2 + (n + 2)))
      = -Complex.I * (jc (n + 1) / yc (n + 1)) * ((n + 2) * (m ^ 2 - 1) / ((n + 1) * m ^ 2 + (n + 2))) := by
    have hI := Complex.I_ne_zero
    have hI2 := Complex.I_sq
    field_simp
    rw [hI2]
    ring
  rw [e2] at q
  refine q.congr' ?_
  filter_upwards [eventually_mem_nhdsWithin] with x hx
  have hx : (x : ℂ) ≠ 0 := Complex.ofReal_ne_zero.2 (ne_of_gt hx)
  simp only [Function.comp, Pi.div_apply]
  unfold a
  have p1 : (x : ℂ) ^ (2 * n + 3) = (x : ℂ) ^ (n + 2) * (x : ℂ) ^ (n + 1) := by ring
  rw [p1]
  rw [div_div, mul_comm _ ((x : ℂ) ^ (n + 2) * (x : ℂ) ^ (n + 1)), ← div_div]
  congr 1
  · field_simp
  · field_simp

/-- the magnetic coefficients are of higher order -/
theorem b_origin (n : Nat) : Tendsto (fun x : ℝ => b m x (n + 1) / (x : ℂ) ^ (2 * n + 3)) (𝓝[>] 0) (𝓝 0) := by
  have num := ((inside_ψ hm n).mul ((dψ_origin n).comp real_zero)).sub ((((ψ_origin (n + 1)).comp real_zero).mul (inside_dψ hm n)).const_mul m)
  have den := ((inside_ψ hm n).mul ((dξ_origin n).comp real_zero)).sub ((((ξ_origin n).comp real_zero).mul (inside_dψ hm n)).const_mul m)
  have hj := jc_ne (n + 1)
  have hy := yc_ne (n + 1)
  have e : m ^ (n + 2) * jc (n + 1) * (Complex.I * ((n + 1) * yc (n + 1))) - m * (-Complex.I * yc (n + 1) * (m ^ (n + 1) * ((n + 2) * jc (n + 1))))
      = Complex.I * jc (n + 1) * yc (n + 1) * m ^ (n + 2) * (2 * n + 3) := by ring
  have hd : m ^ (n + 2) * jc (n + 1) * (Complex.I * ((n + 1) * yc (n + 1))) - m * (-Complex.I * yc (n + 1) * (m ^ (n + 1) * ((n + 2) * jc (n + 1)))) ≠ 0 := by
    rw [e]
    exact mul_ne_zero (mul_ne_zero (mul_ne_zero (mul_ne_zero Complex.I_ne_zero hj) hy) (pow_ne_zero _ hm)) (odd_ne n).1
  have q := num.div den hd
  have e2 : m ^ (n + 2) * jc (n + 1) * ((n + 2) * jc (n + 1)) - m * (jc (n + 1) * (m ^ (n + 1) * ((n + 2) * jc (n + 1)))) = 0 := by ring
  rw [e2, zero_div] at q
  refine q.congr' ?_
  filter_upwards [eventually_mem_nhdsWithin] with x hx
  have hx : (x : ℂ) ≠ 0 := Complex.ofReal_ne_zero.2 (ne_of_gt hx)
  simp only [Function.comp, Pi.div_apply]
  unfold b
  have p1 : (x : ℂ) ^ (2 * n + 3) = (x : ℂ) ^ (n + 2) * (x : ℂ) ^ (n + 1) := by ring
  rw [p1]
  rw [div_div, mul_comm _ ((x : ℂ) ^ (n + 2) * (x : ℂ) ^ (n + 1)), ← div_div]
  congr 1
  · field_simp
  · field_simp

omit hm in
theorem resonance (hs : Solid m) (n : Nat) : ((n : ℂ) + 1) * m ^ 2 + (n + 2) ≠ 0 := by
  intro h
  have hr := congrArg Complex.re h
  have hi := congrArg Complex.im h
  have e : ((n : ℂ) + 1) = ((n + 1 : ℝ) : ℂ) := by push_cast; ring
  have e2 : ((n : ℂ) + 2) = ((n + 2 : ℝ) : ℂ) := by push_cast; ring
  rw [e, e2, Complex.add_im, Complex.im_ofReal_mul, Complex.ofReal_im, add_zero, Complex.zero_im] at hi
  rw [e, e2, Complex.add_re, Complex.re_ofReal_mul, Complex.ofReal_re, Complex.zero_re] at hr
  have hn : (0 : ℝ) ≤ n := Nat.cast_nonneg n
  rcases hs.2 with q | q
  · rcases mul_eq_zero.1 hi with r | r
    · linarith
    · exact q r
  · nlinarith

/-- the limits of the coefficients, divided by the volume -/
theorem a_limit (hs : Solid m) {n : Nat} (hn : 1 ≤ n) :
    Tendsto (fun x : ℝ => a m x n / (x : ℂ) ^ 3) (𝓝[>] 0) (𝓝 (if n = 1 then -Complex.I * (2 / 3) * clausius m else 0)) := by
  obtain ⟨n, rfl⟩ : ∃ k, n = k + 1 := ⟨n - 1, by omega⟩
  have h := a_origin hm n (resonance hs n)
  rcases Nat.eq_zero_or_pos n with rfl | h0
  · have e : -Complex.I * (jc (0 + 1) / yc (0 + 1)) * ((((0 : ℕ) : ℂ) + 2) * (m ^ 2 - 1) / ((((0 : ℕ) : ℂ) + 1) * m ^ 2 + (((0 : ℕ) : ℂ) + 2)))
        = if (0 : ℕ) + 1 = 1 then -Complex.I * (2 / 3) * clausius m else 0 := by
      rw [if_pos rfl]
      unfold clausius
      simp [jc, yc]
      ring
    rw [e] at h
    exact h
  · rw [if_neg (by omega)]
    have q := h.mul ((real_zero.mono_right nhdsWithin_le_nhds).pow (2 * n))
    rw [zero_pow (by omega), mul_zero] at q
    refine q.congr' ?_
    filter_upwards [eventually_mem_nhdsWithin] with x hx
    have hx : (x : ℂ) ≠ 0 := Complex.ofReal_ne_zero.2 (ne_of_gt hx)
    rw [show 2 * n + 3 = 3 + 2 * n by ring, pow_add]
    field_simp

theorem b_limit {n : Nat} (hn : 1 ≤ n) : Tendsto (fun x : ℝ => b m x n / (x : ℂ) ^ 3) (𝓝[>] 0) (𝓝 0) := by
  obtain ⟨n, rfl⟩ : ∃ k, n = k + 1 := ⟨n - 1, by omega⟩
  have q := (b_origin hm n).mul ((real_zero.mono_right nhdsWithin_le_nhds).pow (2 * n))
  rw [zero_mul] at q
  refine q.congr' ?_
  filter_upwards [eventually_mem_nhdsWithin] with x hx
  have hx : (x : ℂ) ≠ 0 := Complex.ofReal_ne_zero.2 (ne_of_gt hx)
  rw [show 2 * n + 3 = 3 + 2 * n by ring, pow_add]
  field_simp

/-! ## efficiencies -/

omit hm

/-- **C114**: the extinction efficiency of small spheres is proportional to the size -/
theorem c114_extinction (hs : Solid m) {N : Nat} (hN : 1 ≤ N) : Tendsto (fun x => Qext m x N / x) (𝓝[>] 0) (𝓝 (4 * (clausius m).im)) := by
  have h : Tendsto (fun x : ℝ => ∑ n ∈ Icc 1 N, 2 * (2 * (n : ℝ) + 1) * (a m x n / (x : ℂ) ^ 3 + b m x n / (x : ℂ) ^ 3).re) (𝓝[>] 0)
      (𝓝 (∑ n ∈ Icc 1 N, 2 * (2 * (n : ℝ) + 1) * ((if n = 1 then -Complex.I * (2 / 3) * clausius m else 0) + 0).re)) := by
    refine tendsto_finsetSum _ fun n hn => ?_
    have h1 := (mem_Icc.1 hn).1
    exact ((Complex.continuous_re.tendsto _).comp ((a_limit hs.1 hs h1).add (b_limit hs.1 h1))).const_mul _
  rw [Finset.sum_eq_single 1 (by intro n _ h1; rw [if_neg h1]; simp) (by intro h1; exact absurd (mem_Icc.2 ⟨le_refl _, hN⟩) h1), if_pos rfl] at h
  have e : 2 * (2 * ((1 : ℕ) : ℝ) + 1) * (-Complex.I * (2 / 3) * clausius m + 0).re = 4 * (clausius m).im := by
    have : (-Complex.I * (2 / 3) * clausius m + 0).re = 2 / 3 * (clausius m).im := by
      rw [show -Complex.I * (2 / 3) * clausius m + 0 = ((2 / 3 : ℝ) : ℂ) * (-Complex.I * clausius m) by push_cast; ring, Complex.re_ofReal_mul]
      simp
    rw [this]
    push_cast
    ring
  rw [e] at h
  refine h.congr' ?_
  filter_upwards [eventually_mem_nhdsWithin] with x hx
  have hx : x ≠ 0 := ne_of_gt hx
  unfold Qext
  rw [mul_div_right_comm, Finset.mul_sum]
  refine Finset.sum_congr rfl fun n _ => ?_
  rw [← add_div, ← Complex.ofReal_pow, Complex.div_ofReal_re]
  field_simp

/-- **C114**: the scattering efficiency of small spheres is proportional to the fourth power of the size -/
theorem c114_scattering (hs : Solid m) {N : Nat} (hN : 1 ≤ N) : Tendsto (fun x => Qsca m x N / x ^ 4) (𝓝[>] 0) (𝓝 (8 / 3 * Complex.normSq (clausius m))) := by
  have h : Tendsto (fun x : ℝ => ∑ n ∈ Icc 1 N, 2 * (2 * (n : ℝ) + 1) * (Complex.normSq (a m x n / (x : ℂ) ^ 3) + Complex.normSq (b m x n / (x : ℂ) ^ 3))) (𝓝[>] 0)
      (𝓝 (∑ n ∈ Icc 1 N, 2 * (2 * (n : ℝ) + 1) * (Complex.normSq (if n = 1 then -Complex.I * (2 / 3) * clausius m else 0) + Complex.normSq 0))) := by
    refine tendsto_finsetSum _ fun n hn => ?_
    have h1 := (mem_Icc.1 hn).1
    exact (((Complex.continuous_normSq.tendsto _).comp (a_limit hs.1 hs h1)).add ((Complex.continuous_normSq.tendsto _).comp (b_limit hs.1 h1))).const_mul _
  rw [Finset.sum_eq_single 1 (by intro n _ h1; rw [if_neg h1]; simp) (by intro h1; exact absurd (mem_Icc.2 ⟨le_refl _, hN⟩) h1), if_pos rfl] at h
  have e : 2 * (2 * ((1 : ℕ) : ℝ) + 1) * (Complex.normSq (-Complex.I * (2 / 3) * clausius m) + Complex.normSq 0) = 8 / 3 * Complex.normSq (clausius m) := by
    rw [Complex.normSq_mul, Complex.normSq_mul, Complex.normSq_neg, Complex.normSq_I, Complex.normSq_div, Complex.normSq_zero]
    norm_num [Complex.normSq_ofNat]
    ring
  rw [e] at h
  refine h.congr' ?_
  filter_upwards [eventually_mem_nhdsWithin] with x hx
  have hx : x ≠ 0 := ne_of_gt hx
  unfold Qsca
  rw [mul_div_right_comm, Finset.mul_sum]
  refine Finset.sum_congr rfl fun n _ => ?_
  rw [Complex.normSq_div, Complex.normSq_div, ← Complex.ofReal_pow, Complex.normSq_ofReal]
  field_simp

/-- **C114**: small spheres absorb more than they scatter: the absorption efficiency is the extinction efficiency in the limit -/
theorem c114_absorption (hs : Solid m) {N : Nat} (hN : 1 ≤ N) : Tendsto (fun x => (Qext m x N - Qsca m x N) / x) (𝓝[>] 0) (𝓝 (4 * (clausius m).im)) := by
  have hx : Tendsto (fun x : ℝ => x) (𝓝[>] 0) (𝓝 0) := tendsto_id.mono_left nhdsWithin_le_nhds
  have h := (c114_extinction hs hN).sub ((c114_scattering hs hN).mul (hx.pow 3))
  rw [zero_pow (by norm_num), mul_zero, sub_zero] at h
  refine h.congr' ?_
  filter_upwards [eventually_mem_nhdsWithin] with x hx
  have hx : x ≠ 0 := ne_of_gt hx
  field_simp

/-- the limit is not negative if the material does not amplify light, and positive if it absorbs -/
theorem c114_sign (hs : Solid m) : (clausius m).im = 3 * (m ^ 2).im / Complex.normSq (m ^ 2 + 2) ∧ m ^ 2 + 2 ≠ 0 := by
  have h := resonance hs 0
  have h2 : m ^ 2 + 2 ≠ 0 := by
    intro q
    apply h
    push_cast
    linear_combination q
  refine ⟨?_, h2⟩
  unfold clausius
  have h3 : Complex.normSq (m ^ 2 + 2) ≠ 0 := fun q => h2 (Complex.normSq_eq_zero.1 q)
  rw [Complex.div_im]
  simp only [Complex.sub_im, Complex.sub_re, Complex.add_im, Complex.add_re, Complex.one_im, Complex.one_re, Complex.re_ofNat, Complex.im_ofNat]
  field_simp
  ring

/-! ## angular distribution -/

/-- the angular functions are bounded -/
theorem angular_bounded (N : Nat) : ∃ C : ℝ, 0 ≤ C ∧ ∀ n ∈ Icc 1 N, ∀ μ ∈ Set.Icc (-1 : ℝ) 1,
    ‖((2 * (n : ℂ) + 1) / ((n : ℂ) * ((n : ℂ) + 1))) * πn n μ‖ ≤ C ∧ ‖((2 * (n : ℂ) + 1) / ((n : ℂ) * ((n : ℂ) + 1))) * τn n μ‖ ≤ C := by
  have hp : ∀ n : Nat, ∃ C : ℝ, ∀ μ ∈ Set.Icc (-1 : ℝ) 1, ‖((2 * (n : ℂ) + 1) / ((n : ℂ) * ((n : ℂ) + 1))) * πn n μ‖ ≤ C := by
    intro n
    refine isCompact_Icc.exists_bound_of_continuousOn (Continuous.continuousOn ?_)
    exact continuous_const.mul (Complex.continuous_ofReal.comp (Polynomial.continuous _))
  have ht : ∀ n : Nat, ∃ C : ℝ, ∀ μ ∈ Set.Icc (-1 : ℝ) 1, ‖((2 * (n : ℂ) + 1) / ((n : ℂ) * ((n : ℂ) + 1))) * τn n μ‖ ≤ C := by
    intro n
    refine isCompact_Icc.exists_bound_of_continuousOn (Continuous.continuousOn ?_)
    refine continuous_const.mul (Complex.continuous_ofReal.comp ?_)
    unfold τn πn
    exact (continuous_id.mul (Polynomial.continuous _)).sub ((continuous_const.sub (continuous_id.pow 2)).mul (Polynomial.continuous _))
  choose C1 h1 using hp
  choose C2 h2 using ht
  have n1 : ∀ n, 0 ≤ C1 n := fun n => (norm_nonneg _).trans (h1 n 0 (by norm_num))
  have n2 : ∀ n, 0 ≤ C2 n := fun n => (norm_nonneg _).trans (h2 n 0 (by norm_num))
  refine ⟨∑ n ∈ Icc 1 N, (C1 n + C2 n), Finset.sum_nonneg fun n _ => add_nonneg (n1 n) (n2 n), fun n hn μ hμ => ?_⟩
  have : C1 n + C2 n ≤ ∑ n ∈ Icc 1 N, (C1 n + C2 n) := Finset.single_le_sum (f := fun n => C1 n + C2 n) (fun n _ => add_nonneg (n1 n) (n2 n)) hn
  have t1 := h1 n μ hμ
  have t2 := h2 n μ hμ
  have := n1 n
  have := n2 n
  constructor <;> linarith

theorem πτ_one (μ : ℝ) : πn 1 μ = 1 ∧ τn 1 μ = μ := by
  unfold τn πn
  simp [Legendre.P_one]

/-- what the amplitudes, divided by the volume, differ from those of a dipole -/
theorem amplitudes_limit (hs : Solid m) {N : Nat} (hN : 1 ≤ N) : ∃ e : ℝ → ℝ, Tendsto e (𝓝[>] 0) (𝓝 0) ∧ ∀ x, 0 < x → ∀ μ ∈ Set.Icc (-1 : ℝ) 1,
    ‖S1 m x N μ / (x : ℂ) ^ 3 - -Complex.I * clausius m‖ ≤ e x ∧ ‖S2 m x N μ / (x : ℂ) ^ 3 - -Complex.I * clausius m * μ‖ ≤ e x := by
  obtain ⟨C, hC, hb⟩ := angular_bounded N
  set A : Nat → ℂ := fun n => if n = 1 then -Complex.I * (2 / 3) * clausius m else 0 with hA
  refine ⟨fun x => ∑ n ∈ Icc 1 N, C * (‖a m x n / (x : ℂ) ^ 3 - A n‖ + ‖b m x n / (x : ℂ) ^ 3‖), ?_, fun x hx μ hμ => ?_⟩
  · have h : Tendsto (fun x : ℝ => ∑ n ∈ Icc 1 N, C * (‖a m x n / (x : ℂ) ^ 3 - A n‖ + ‖b m x n / (x : ℂ) ^ 3‖)) (𝓝[>] 0) (𝓝 (∑ n ∈ Icc 1 N, C * (‖A n - A n‖ + ‖(0 : ℂ)‖))) := by
      refine tendsto_finsetSum _ fun n hn => ?_
      have h1 := (mem_Icc.1 hn).1
      exact ((((a_limit hs.1 hs h1).sub_const (A n)).norm).add (b_limit hs.1 h1).norm).const_mul C
    simpa using h
  · have hx0 : (x : ℂ) ≠ 0 := Complex.ofReal_ne_zero.2 (ne_of_gt hx)
    have hm1 : (1 : Nat) ∈ Icc 1 N := mem_Icc.2 ⟨le_refl _, hN⟩
    have one : ∀ f : Nat → ℝ, ∑ n ∈ Icc 1 N, ((2 * (n : ℂ) + 1) / ((n : ℂ) * ((n : ℂ) + 1))) * (A n * f n) = -Complex.I * clausius m * f 1 := by
      intro f
      rw [Finset.sum_eq_single 1 (by intro n _ h1; rw [hA]; simp only []; rw [if_neg h1]; ring) (fun h => absurd hm1 h), hA]
      simp only [if_true]
      push_cast
      ring
    constructor
    · have e : S1 m x N μ / (x : ℂ) ^ 3 - -Complex.I * clausius m
          = ∑ n ∈ Icc 1 N, (((2 * (n : ℂ) + 1) / ((n : ℂ) * ((n : ℂ) + 1))) * πn n μ * (a m x n / (x : ℂ) ^ 3 - A n) + ((2 * (n : ℂ) + 1) / ((n : ℂ) * ((n : ℂ) + 1))) * τn n μ * (b m x n / (x : ℂ) ^ 3)) := by
        have o := one fun n => πn n μ
        rw [(πτ_one μ).1, Complex.ofReal_one, mul_one] at o
        rw [← o]
        unfold S1
        rw [Finset.sum_div, ← Finset.sum_sub_distrib]
        refine Finset.sum_congr rfl fun n _ => ?_
        ring
      rw [e]
      refine (norm_sum_le _ _).trans (Finset.sum_le_sum fun n hn => (norm_add_le _ _).trans ?_)
      rw [norm_mul _ (a m x n / (x : ℂ) ^ 3 - A n), norm_mul _ (b m x n / (x : ℂ) ^ 3), mul_add C]
      exact add_le_add (mul_le_mul_of_nonneg_right (hb n hn μ hμ).1 (norm_nonneg _)) (mul_le_mul_of_nonneg_right (hb n hn μ hμ).2 (norm_nonneg _))
    · have e : S2 m x N μ / (x : ℂ) ^ 3 - -Complex.I * clausius m * μ
          = ∑ n ∈ Icc 1 N, (((2 * (n : ℂ) + 1) / ((n : ℂ) * ((n : ℂ) + 1))) * τn n μ * (a m x n / (x : ℂ) ^ 3 - A n) + ((2 * (n : ℂ) + 1) / ((n : ℂ) * ((n : ℂ) + 1))) * πn n μ * (b m x n / (x : ℂ) ^ 3)) := by
        have o := one fun n => τn n μ
        rw [(πτ_one μ).2] at o
        rw [← o]
        unfold S2
        rw [Finset.sum_div, ← Finset.sum_sub_distrib]
        refine Finset.sum_congr rfl fun n _ => ?_
        ring
      rw [e]
      refine (norm_sum_le _ _).trans (Finset.sum_le_sum fun n hn => (norm_add_le _ _).trans ?_)
      rw [norm_mul _ (a m x n / (x : ℂ) ^ 3 - A n), norm_mul _ (b m x n / (x : ℂ) ^ 3), mul_add C]
      exact add_le_add (mul_le_mul_of_nonneg_right (hb n hn μ hμ).2 (norm_nonneg _)) (mul_le_mul_of_nonneg_right (hb n hn μ hμ).1 (norm_nonneg _))

theorem normSq_close (z w : ℂ) {K e : ℝ} (hw : ‖w‖ ≤ K) (h : ‖z - w‖ ≤ e) : |Complex.normSq z - Complex.normSq w| ≤ e * (e + 2 * K) := by
  rw [Complex.normSq_eq_norm_sq, Complex.normSq_eq_norm_sq]
  have h1 : |‖z‖ - ‖w‖| ≤ e := (abs_norm_sub_norm_le z w).trans h
  have h2 : ‖z‖ ≤ ‖w‖ + e := by linarith [(abs_le.1 h1).2]
  have h3 : ‖z‖ ^ 2 - ‖w‖ ^ 2 = (‖z‖ - ‖w‖) * (‖z‖ + ‖w‖) := by ring
  have he : 0 ≤ e := (norm_nonneg _).trans h
  rw [h3, abs_mul, abs_of_nonneg (by positivity : 0 ≤ ‖z‖ + ‖w‖)]
  exact mul_le_mul h1 (by linarith) (by positivity) he

/-- **C114**: the light that small spheres scatter is distributed as that of a dipole, for all directions alike -/
theorem c114_phase (hs : Solid m) {N : Nat} (hN : 1 ≤ N) {ε : ℝ} (hε : 0 < ε) :
    ∀ᶠ x : ℝ in 𝓝[>] 0, ∀ k : ℝ, 0 < k → ∀ μ ∈ Set.Icc (-1 : ℝ) 1, |phase m x N k μ * k ^ 2 / x ^ 6 - Complex.normSq (clausius m) * (1 + μ ^ 2) / 2| ≤ ε := by
  obtain ⟨e, he, hb⟩ := amplitudes_limit hs hN
  have hl : Tendsto (fun x => e x * (e x + 2 * ‖clausius m‖)) (𝓝[>] 0) (𝓝 (0 * (0 + 2 * ‖clausius m‖))) := he.mul (he.add_const _)
  rw [zero_mul] at hl
  filter_upwards [hl.eventually (gt_mem_nhds hε), eventually_mem_nhdsWithin] with x hxε hx k hk μ hμ
  have hx : 0 < x := hx
  obtain ⟨b1, b2⟩ := hb x hx μ hμ
  have w1 : ‖-Complex.I * clausius m‖ ≤ ‖clausius m‖ := by simp
  have w2 : ‖-Complex.I * clausius m * μ‖ ≤ ‖clausius m‖ := by
    rw [norm_mul, Complex.norm_real]
    have : ‖μ‖ ≤ 1 := abs_le.2 hμ
    calc ‖-Complex.I * clausius m‖ * ‖μ‖ ≤ ‖clausius m‖ * 1 := mul_le_mul w1 this (norm_nonneg _) (norm_nonneg _)
      _ = _ := mul_one _
  have c1 := normSq_close _ _ w1 b1
  have c2 := normSq_close _ _ w2 b2
  have d : ∀ z : ℂ, Complex.normSq (z / (x : ℂ) ^ 3) = Complex.normSq z / x ^ 6 := by
    intro z
    rw [Complex.normSq_div, ← Complex.ofReal_pow, Complex.normSq_ofReal]
    congr 1
    ring
  have q1 : Complex.normSq (-Complex.I * clausius m) = Complex.normSq (clausius m) := by simp [Complex.normSq_mul]
  have q2 : Complex.normSq (-Complex.I * clausius m * μ) = Complex.normSq (clausius m) * μ ^ 2 := by
    rw [Complex.normSq_mul, q1, Complex.normSq_ofReal]
    ring
  rw [d, q1] at c1
  rw [d, q2] at c2
  have key : phase m x N k μ * k ^ 2 / x ^ 6 - Complex.normSq (clausius m) * (1 + μ ^ 2) / 2
      = 1 / 2 * ((Complex.normSq (S1 m x N μ) / x ^ 6 - Complex.normSq (clausius m)) + (Complex.normSq (S2 m x N μ) / x ^ 6 - Complex.normSq (clausius m) * μ ^ 2)) := by
    unfold phase
    field_simp
    ring
  rw [key, abs_mul, abs_of_pos (by norm_num : (0 : ℝ) < 1 / 2)]
  have := abs_add_le (Complex.normSq (S1 m x N μ) / x ^ 6 - Complex.normSq (clausius m)) (Complex.normSq (S2 m x N μ) / x ^ 6 - Complex.normSq (clausius m) * μ ^ 2)
  linarith

/-! ## tables -/

/-- for all orders up to a maximum alike -/
theorem all_orders {P : Nat → ℝ → Prop} (h : ∀ N, 1 ≤ N → ∀ᶠ x : ℝ in 𝓝[>] 0, P N x) (M : Nat) : ∃ δ > 0, ∀ N, 1 ≤ N → N ≤ M → ∀ x, 0 < x → x < δ → P N x := by
  have : ∀ᶠ x : ℝ in 𝓝[>] 0, ∀ N ∈ Icc 1 M, P N x := (Filter.eventually_all_finset (Icc 1 M)).2 fun N hN => h N (mem_Icc.1 hN).1
  obtain ⟨δ, hδ, hb⟩ := mem_nhdsGT_iff_exists_Ioo_subset.1 this
  exact ⟨δ, hδ, fun N h1 h2 x hx hxδ => hb ⟨hx, hxδ⟩ N (mem_Icc.2 ⟨h1, h2⟩)⟩

/-- **C114** The same for the absorption coefficients, when the grid of directions is refined: they tend to values that differ from those of small dipoles by no more than
the tolerance times the size parameter. -/
theorem c114_table_absorption (hs : Solid m) (M : Nat) {ε : ℝ} (hε : 0 < ε) : ∃ δ > 0, ∀ {H : Content.Problem} {B : Nat → Content.Bessel} {p : Graph.Par} (_ : Spheres H B p)
    {g : Nat → Nat} {T : Nat → Nat → Nat → Int → Nat → Nat → ℂ} (_ : Content.Grains H B p g T) (_ : ∑ s ∈ range H.P.nshape, H.weight s ≠ 0)
    (_ : ∀ s < H.P.nshape, H.aligned ⟨p, s⟩ = true → (H.coeff ⟨p, s⟩).v 0 = 1) (_ : ∀ n, 0 < n → Refine.Gauss n (H.gl n)) (_ : H.accountForScattering = true)
    {R : Nat → Interp.AbsRes ℝ} (_ : ∀ n, Content.IsAbsorption { H with ngrid := n } p g T (R n)),
    H.mr p = m → H.minOrder + H.P.nq ≤ M + 1 → size H p < δ →
    ∃ q : ℝ, |q - 4 * (clausius m).im * size H p| ≤ ε * size H p ∧ ∀ it < H.ntheta, Tendsto (fun n => (R n).Qabs it) atTop (𝓝 q) ∧ Tendsto (fun n => (R n).Qabspol it) atTop (𝓝 0) := by
  obtain ⟨δ, hδ, hb⟩ := all_orders (P := fun N x => |(Qext m x N - Qsca m x N) / x - 4 * (clausius m).im| ≤ ε)
    (fun N hN => ((c114_absorption hs hN).eventually (Metric.closedBall_mem_nhds _ hε)).mono fun x h => by simpa [Real.dist_eq] using h) M
  refine ⟨δ, hδ, fun {H B p} hS {g T} hG hw hc hgl hacc {R} hR hmr hM hsz => ?_⟩
  obtain ⟨g0, hg0, _, _, hl⟩ := c101_absorption hS hG hw hc hgl hacc hR
  have hx0 := size_pos hS
  have h1 := hS.order
  have hg := hg0.1
  have := hb (Content.orderAt H g0) (by unfold Content.orderAt; omega) (by unfold Content.orderAt; omega) _ hx0 hsz
  rw [hmr] at hl
  refine ⟨_, ?_, hl⟩
  have q : Qext m (size H p) (Content.orderAt H g0) - Qsca m (size H p) (Content.orderAt H g0) - 4 * (clausius m).im * size H p
      = ((Qext m (size H p) (Content.orderAt H g0) - Qsca m (size H p) (Content.orderAt H g0)) / size H p - 4 * (clausius m).im) * size H p := by
    field_simp
  rw [q, abs_mul, abs_of_pos hx0]
  exact mul_le_mul_of_nonneg_right this hx0.le

section run
open Verif.Exec Verif.Store Verif.Api Verif.Graph Verif.Content Verif.Frame
open Verif.Special (realOps)

/-- **C114** For every refractive index, every largest order and every tolerance there is a size parameter below which, for every calculation, schedule, number of threads and
memory limit, the entries of the table of the extinction coefficients of spheres are those of small dipoles, up to the tolerance times the size parameter. -/
theorem c114_run_extinction (hs : Solid m) (M : Nat) {ε : ℝ} (hε : 0 < ε) : ∃ δ > 0, ∀ {H : Problem} (_ : Sensible H.P) {l : List Call} (_ : generate H.P = some l) (m0 : Place Loc → Val)
    (_ : AllClean H.P (clean H) m0) (_ : ∀ c, m0 (.inl (.conv c)) = .ctl Ctl.new) (ty : Tk → Nat) (pl : Tk → List Nat) (_ : ∀ t, (pl t).length ≤ 8000) (J Jp : Junk)
    (hist : List (Op × Junk)) (_ : hist.map Prod.fst = toOps ty pl l) (nq nth : Nat) (_ : 0 < nq) (_ : nth ≤ nq) (weight0 : Nat → Int),
    ∃ s r, exec (hist ++ [(.prepare, Jp)]) (init J) = some s ∧ prepareOf s nq weight0 = some r ∧
      ∀ pr x, XReach _ (bodyOf l (placed H.P (code realOps H))) ⟨startOf s nq nth r, m0, pr⟩ x →
        (∃ th, x.st.pc th = .exited) → ∀ p, H.P.want .ext = true → p ∈ pars H.P → ∀ B, Spheres H B p → Proper H B p → Directions H .ext →
          (∀ s < H.P.nshape, H.aligned ⟨p, s⟩ = true → (H.coeff ⟨p, s⟩).v 0 = 1) →
          H.mr p = m → H.P.maxOrder ≤ M → size H p < δ →
          ∃ E, x.mem (.inl (.result .ext p)) = .ext E ∧
            ∀ it < H.ntheta, |E.Qext it - 4 * (clausius m).im * size H p| ≤ ε * size H p ∧ E.Qextpol it = 0 ∧ E.Qextcpol it = 0 := by
  obtain ⟨δ, hδ, hb⟩ := all_orders (P := fun N x => |Qext m x N / x - 4 * (clausius m).im| ≤ ε)
    (fun N hN => ((c114_extinction hs hN).eventually (Metric.closedBall_mem_nhds _ hε)).mono fun x h => by simpa [Real.dist_eq] using h) M
  refine ⟨δ, hδ, fun {H} hP {l} h m0 hcl hv ty pl hpl J Jp hist hh nq nth hq hth weight0 => ?_⟩
  obtain ⟨s, r, e1, e2, e3⟩ := c101_run hP h m0 hcl hv ty pl hpl J Jp hist hh nq nth hq hth weight0
  refine ⟨s, r, e1, e2, fun pr x hx hex p hw hp B hS hpr hd hc hmr hM hsz => ?_⟩
  obtain ⟨g0, E, hg0, hE, hval⟩ := e3 pr x hx hex p hw hp B hS hpr hd hc
  refine ⟨E, hE, fun it hit => ?_⟩
  obtain ⟨v1, v2, v3⟩ := hval it hit
  refine ⟨?_, v2, v3⟩
  have hx0 := size_pos hS
  have ho := hpr.orders
  have h1 := hpr.first
  have hg := hg0.1
  have := hb (orderAt H g0) (by unfold orderAt; omega) (by unfold orderAt; omega) _ hx0 hsz
  rw [v1, hmr]
  have q : Qext m (size H p) (orderAt H g0) - 4 * (clausius m).im * size H p = (Qext m (size H p) (orderAt H g0) / size H p - 4 * (clausius m).im) * size H p := by
    field_simp
  rw [q, abs_mul, abs_of_pos hx0]
  exact mul_le_mul_of_nonneg_right this hx0.le

/-- **C114** The same for the scattering matrices: the element for unpolarised light, for light along the horizontal axis scattered into the directions of the table. -/
theorem c114_run_scattering (hs : Solid m) (M : Nat) {ε : ℝ} (hε : 0 < ε) : ∃ δ > 0, ∀ {H : Problem} (_ : Sensible H.P) {l : List Call} (_ : generate H.P = some l) (m0 : Place Loc → Val)
    (_ : AllClean H.P (clean H) m0) (_ : ∀ c, m0 (.inl (.conv c)) = .ctl Ctl.new) (ty : Tk → Nat) (pl : Tk → List Nat) (_ : ∀ t, (pl t).length ≤ 8000) (J Jp : Junk)
    (hist : List (Op × Junk)) (_ : hist.map Prod.fst = toOps ty pl l) (nq nth : Nat) (_ : 0 < nq) (_ : nth ≤ nq) (weight0 : Nat → Int),
    ∃ s r, exec (hist ++ [(.prepare, Jp)]) (init J) = some s ∧ prepareOf s nq weight0 = some r ∧
      ∀ pr x, XReach _ (bodyOf l (placed H.P (code realOps H))) ⟨startOf s nq nth r, m0, pr⟩ x →
        (∃ th, x.st.pc th = .exited) → ∀ p, H.P.want .scat = true → p ∈ pars H.P → ∀ B, Spheres H B p → Proper H B p → Directions H .scat →
          (∀ s < H.P.nshape, H.aligned ⟨p, s⟩ = true → (H.coeff ⟨p, s⟩).v 0 = 1) →
          H.mr p = m → H.P.maxOrder ≤ M → size H p < δ →
          ∃ Z, x.mem (.inl (.result .scat p)) = .scat Z ∧
            ∀ it < H.ntheta, ∀ ip < 2 * H.ntheta,
              |Z (it * (2 * H.ntheta) + ip) 0 0 * waveK H p ^ 2 / size H p ^ 6
                - Complex.normSq (clausius m) * (1 + (Real.sin (gridθ H H.ntheta it) * Real.cos (gridφ H (2 * H.ntheta) ip)) ^ 2) / 2| ≤ ε := by
  obtain ⟨δ, hδ, hb⟩ := all_orders (fun N hN => c114_phase hs hN hε) M
  refine ⟨δ, hδ, fun {H} hP {l} h m0 hcl hv ty pl hpl J Jp hist hh nq nth hq hth weight0 => ?_⟩
  obtain ⟨s, r, e1, e2, e3⟩ := c113_run hP h m0 hcl hv ty pl hpl J Jp hist hh nq nth hq hth weight0
  refine ⟨s, r, e1, e2, fun pr x hx hex p hw hp B hS hpr hd hc hmr hM hsz => ?_⟩
  obtain ⟨g0, Z, hg0, hZ, hval⟩ := e3 pr x hx hex p hw hp B hS hpr hd hc
  refine ⟨Z, hZ, fun it hit ip hip => ?_⟩
  have hx0 := size_pos hS
  have ho := hpr.orders
  have h1 := hpr.first
  have hg := hg0.1
  have hk : 0 < waveK H p := by
    unfold waveK
    have := hS.wavelength
    positivity
  rw [(hval it hit ip hip).2, hmr]
  refine hb (orderAt H g0) (by unfold orderAt; omega) (by unfold orderAt; omega) _ hx0 hsz _ hk _ ?_
  refine abs_le.1 ?_
  rw [abs_mul]
  exact mul_le_one₀ (Real.abs_sin_le_one _) (abs_nonneg _) (Real.abs_cos_le_one _)

end run

/-! ## examples -/

/-- spheres of any radius -/
noncomputable def exR (m : ℂ) (r : ℝ) : Content.Problem := { exS m with radius := fun _ => r }

theorem exR_spheres {m : ℂ} (hm : m ≠ 0) (him : 0 ≤ (m ^ 2).im) {r : ℝ} (hr : 0 < r) (p : Graph.Par) : Spheres (exR m r) (fun _ => exact) p where
  round _ _ := rfl
  wavelength := show (0 : ℝ) < 2 by norm_num
  radius := hr
  index := hm
  passive := him
  factor := show 1 ≤ 1 from le_rfl
  order := show 1 ≤ 1 from le_rfl
  gauss g hg := by
    obtain rfl : g = 0 := Nat.lt_one_iff.1 hg
    exact exS_gauss m
  bessel _ _ := rfl

theorem exR_proper {m : ℂ} (hm : m ≠ 0) (him : 0 ≤ (m ^ 2).im) {r : ℝ} (hr : 0 < r) (p : Graph.Par) : Content.Proper (exR m r) (fun _ => exact) p := by
  refine c101_proper (exR_spheres hm him hr p) (show 1 + 1 ≤ 2 + 1 by decide) (fun g hg i hi => ?_) (fun _ _ _ _ => rfl) ?_
    (fun g _ => ⟨?_, ?_, ?_⟩) fun s _ _ g hg => ?_
  · obtain rfl : g = 0 := Nat.lt_one_iff.1 hg
    have hi : i < 2 := hi
    change (if 2 - 1 - i = 0 then (-(1 / Real.sqrt 3) : ℝ) else 1 / Real.sqrt 3) = -(if i = 0 then -(1 / Real.sqrt 3) else 1 / Real.sqrt 3)
    interval_cases i <;> norm_num
  · exact (exS_proper hm him p).shapes
  · intro x _ l h1 _
    change exact.j (l - 1 + 1) x = _ ∧ exact.dj (l - 1 + 1) x = _
    rw [Nat.sub_add_cancel h1]
    exact ⟨rfl, rfl⟩
  · intro x _ l h1 _
    change exact.y (l - 1 + 1) x = _ ∧ exact.dy (l - 1 + 1) x = _
    rw [Nat.sub_add_cancel h1]
    exact ⟨rfl, rfl⟩
  · intro x _ l h1 _
    change exact.jm (l - 1 + 1) x = _ ∧ exact.djm (l - 1 + 1) x = _
    rw [Nat.sub_add_cancel h1]
    exact ⟨rfl, rfl⟩
  · obtain rfl : g = 0 := Nat.lt_one_iff.1 hg.1
    exact ⟨show (2 * 1 + 1) * (2 * 1 + 1) ≤ (2 + 1) * (2 * 2 + 1) by decide, show (2 : Int) < 3 by decide⟩

/-- the largest order of these calculations is 2, and there are spheres that are as small as required, for which the theorems hold -/
example (m : ℂ) (hm : m ≠ 0) (him : 0 ≤ (m ^ 2).im) {δ : ℝ} (hδ : 0 < δ) : ∃ H : Content.Problem, ∀ p, H.mr p = m ∧ H.P.maxOrder ≤ 2 ∧ size H p < δ ∧ 0 < size H p
    ∧ Spheres H (fun _ => exact) p ∧ Content.Proper H (fun _ => exact) p := by
  have hpi := Real.pi_pos
  refine ⟨exR m (δ / (2 * Real.pi)), fun p => ?_⟩
  have hr : 0 < δ / (2 * Real.pi) := by positivity
  have e : size (exR m (δ / (2 * Real.pi))) p = δ / 2 := by
    change 2 * Real.pi / 2 * (δ / (2 * Real.pi)) = δ / 2
    field_simp
  refine ⟨rfl, le_refl 2, by rw [e]; linarith, by rw [e]; linarith, exR_spheres hm him hr p, exR_proper hm him hr p⟩

/-- glass: small spheres do not absorb -/
example : Solid (3 / 2) ∧ clausius (3 / 2) = 5 / 17 := by
  refine ⟨⟨by norm_num, .inr ?_⟩, by unfold clausius; norm_num⟩
  norm_num [pow_two]

/-- an absorbing material: they do, and the efficiency is proportional to the size -/
example : Solid (1 + Complex.I) ∧ clausius (1 + Complex.I) = 1 / 4 + 3 / 4 * Complex.I := by
  have h : (1 + Complex.I) ^ 2 = 2 * Complex.I := by
    linear_combination Complex.I_sq
  refine ⟨⟨?_, .inl ?_⟩, ?_⟩
  · intro h
    have := congrArg Complex.re h
    norm_num at this
  · rw [h]
    norm_num
  · unfold clausius
    rw [h]
    have h2 : 2 * Complex.I + 2 ≠ 0 := by
      intro h
      have := congrArg Complex.re h
      norm_num at this
    rw [div_eq_iff h2]
    linear_combination -3 / 2 * Complex.I_sq

end Verif.Mie
