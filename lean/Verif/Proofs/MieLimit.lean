import Verif.Properties.Rayleigh

/-!
# Riccati-Bessel functions of large order
-/
namespace Verif.Mie

open Verif.Bessel Filter Topology Finset
open scoped Nat

theorem jc_fact : ∀ n, jc n * ((2 * n + 1)‼ : ℕ) = 1
  | 0 => by simp [jc]
  | n + 1 => by
    have h := jc_fact n
    have h3 := (odd_ne n).1
    rw [show 2 * (n + 1) + 1 = (2 * n + 1) + 2 by ring, Nat.doubleFactorial_add_two]
    unfold jc
    push_cast
    field_simp
    linear_combination (2 * (n : ℂ) + 3) * h

theorem sin_cubic (R : ℝ) : ∃ ε : ℝ, 0 ≤ ε ∧ ∀ z : ℂ, ‖z‖ ≤ R → ‖Complex.sin z - z‖ ≤ ε * ‖z‖ ^ 3 / 3 := by
  obtain ⟨C, hC⟩ := (isCompact_closedBall (0 : ℂ) R).exists_bound_of_continuousOn (f := fun z => Complex.sin z - z) (Continuous.continuousOn (by fun_prop))
  refine ⟨3 * (|C| + 1), by positivity, fun z hz => ?_⟩
  have h0 := norm_nonneg z
  rcases le_total ‖z‖ 1 with h1 | h1
  · have hb := Complex.sin_bound h1
    have e : Complex.sin z - z = (Complex.sin z - (z - z ^ 3 / 6)) - z ^ 3 / 6 := by ring
    have h3 : ‖z ^ 3 / 6‖ = ‖z‖ ^ 3 / 6 := by simp
    have h5 : ‖z‖ ^ 5 ≤ ‖z‖ ^ 3 := pow_le_pow_of_le_one h0 h1 (by norm_num)
    have hp : 0 ≤ ‖z‖ ^ 3 := by positivity
    have := abs_nonneg C
    calc ‖Complex.sin z - z‖ ≤ ‖Complex.sin z - (z - z ^ 3 / 6)‖ + ‖z ^ 3 / 6‖ := by rw [e]; exact norm_sub_le _ _
      _ ≤ ‖z‖ ^ 5 / 100 + ‖z‖ ^ 3 / 6 := by rw [h3]; linarith
      _ ≤ 3 * (|C| + 1) * ‖z‖ ^ 3 / 3 := by nlinarith
  · have hb := hC z (by simpa using hz)
    have hp : 1 ≤ ‖z‖ ^ 3 := one_le_pow₀ h1
    have := le_abs_self C
    have := abs_nonneg C
    calc ‖Complex.sin z - z‖ ≤ C := hb
      _ ≤ 3 * (|C| + 1) * ‖z‖ ^ 3 / 3 := by nlinarith

/-- the numerators are the powers of leading order, up to terms that are smaller by a factor of the order -/
theorem num_close {ε R : ℝ} (h0 : ∀ z : ℂ, ‖z‖ ≤ R → ‖Complex.sin z - z‖ ≤ ε * ‖z‖ ^ 3 / 3) :
    ∀ n (z : ℂ), ‖z‖ ≤ R → ‖num Complex.sin Complex.cos n z - z ^ (2 * n + 1) / ((2 * n + 1)‼ : ℕ)‖ ≤ ε * ‖z‖ ^ (2 * n + 3) / ((2 * n + 3)‼ : ℕ) := by
  intro n
  induction n with
  | zero =>
    intro z hz
    have := h0 z hz
    simpa [num, show (3‼ : ℕ) = 3 from rfl] using this
  | succ n ih =>
    intro z hz
    have hd : ((2 * n + 1)‼ : ℝ) ≠ 0 := by exact_mod_cast (Nat.doubleFactorial_pos _).ne'
    have hd' : ((2 * n + 1)‼ : ℂ) ≠ 0 := by exact_mod_cast (Nat.doubleFactorial_pos _).ne'
    have hk : (2 * (n : ℝ) + 3) ≠ 0 := by positivity
    have hk5 : (2 * (n : ℝ) + 5) ≠ 0 := by positivity
    have hk' : (2 * (n : ℂ) + 3) ≠ 0 := by exact_mod_cast (show 2 * n + 3 ≠ 0 by omega)
    have edf : ((2 * (n + 1) + 1)‼ : ℕ) = (2 * n + 3) * (2 * n + 1)‼ := by
      rw [show 2 * (n + 1) + 1 = (2 * n + 1) + 2 by ring, Nat.doubleFactorial_add_two]
    have edf3 : ((2 * n + 3)‼ : ℕ) = (2 * n + 3) * (2 * n + 1)‼ := by
      rw [show 2 * n + 3 = (2 * n + 1) + 2 by ring, Nat.doubleFactorial_add_two]
    have edf5 : ((2 * (n + 1) + 3)‼ : ℕ) = (2 * n + 5) * ((2 * n + 3) * (2 * n + 1)‼) := by
      rw [show 2 * (n + 1) + 3 = (2 * n + 3) + 2 by ring, Nat.doubleFactorial_add_two, edf3]
    set f : ℝ → ℂ := fun t => num Complex.sin Complex.cos (n + 1) ((t : ℂ) * z) - ((t : ℂ) * z) ^ (2 * (n + 1) + 1) / ((2 * (n + 1) + 1)‼ : ℕ) with hf
    set B : ℝ → ℝ := fun t => ε * (t * ‖z‖) ^ (2 * (n + 1) + 3) / ((2 * (n + 1) + 3)‼ : ℕ) with hB
    have hl : ∀ t : ℝ, HasDerivAt (fun t : ℝ => (t : ℂ) * z) z t := by
      intro t
      have := (Complex.ofRealCLM).hasDerivAt (x := t)
      simpa using this.mul_const z
    have hfd : ∀ t : ℝ, HasDerivAt f (z * ((t : ℂ) * z) * (num Complex.sin Complex.cos n ((t : ℂ) * z) - ((t : ℂ) * z) ^ (2 * n + 1) / ((2 * n + 1)‼ : ℕ))) t := by
      intro t
      have d1 := ((num_deriv isTrig_complex n ((t : ℂ) * z)).1).scomp t (hl t)
      have d2 := ((hl t).pow (2 * (n + 1) + 1)).div_const (((2 * (n + 1) + 1)‼ : ℕ) : ℂ)
      refine (d1.sub d2).congr_deriv ?_
      rw [edf]
      simp only [smul_eq_mul]
      push_cast
      field_simp
      ring
    have hBd : ∀ t : ℝ, HasDerivAt B (‖z‖ * (t * ‖z‖) * (ε * (t * ‖z‖) ^ (2 * n + 3) / ((2 * n + 3)‼ : ℕ))) t := by
      intro t
      have d2 := ((((hasDerivAt_id t).mul_const ‖z‖).pow (2 * (n + 1) + 3)).const_mul ε).div_const (((2 * (n + 1) + 3)‼ : ℕ) : ℝ)
      refine d2.congr_deriv ?_
      rw [edf5, edf3]
      simp only [id]
      push_cast
      field_simp
      ring
    have key := image_norm_le_of_norm_deriv_right_le_deriv_boundary (f := f) (a := 0) (b := 1) (B := B)
      (fun t _ => (hfd t).continuousAt.continuousWithinAt) (fun t _ => (hfd t).hasDerivWithinAt)
      (by simp [hf, hB, (num_zero Complex.sin_zero n).2]) hBd (by
        intro t ht'
        have ht0 : 0 ≤ t := ht'.1
        have ht1 : t ≤ 1 := ht'.2.le
        have hn : ‖(t : ℂ) * z‖ = t * ‖z‖ := by rw [norm_mul, Complex.norm_real, Real.norm_of_nonneg ht0]
        have := ih ((t : ℂ) * z) (by rw [hn]; nlinarith [norm_nonneg z])
        rw [hn] at this
        rw [norm_mul, norm_mul z, hn]
        exact mul_le_mul_of_nonneg_left this (by positivity)) (x := 1) (by simp)
    simpa [hf, hB] using key

/-- functions of the first kind, relative to the leading order -/
noncomputable def us (z : ℂ) (n : Nat) : ℂ := ψ n z / (z ^ (n + 1) * jc n)

/-- functions of the second kind, relative to the leading order -/
noncomputable def vs (z : ℂ) (n : Nat) : ℂ := -(χ n z * z ^ n) / yc n

theorem inv_zero (a b : ℝ) (ha : 0 < a) : Tendsto (fun n : Nat => b / (a * n + 3)) atTop (𝓝 0) :=
  tendsto_const_nhds.div_atTop (tendsto_atTop_add_const_right _ _ (tendsto_natCast_atTop_atTop.const_mul_atTop ha))

variable {z : ℂ} (hz : z ≠ 0)
include hz

theorem ψ_us (n : Nat) : ψ n z = us z n * (z ^ (n + 1) * jc n) := by
  unfold us
  rw [div_mul_cancel₀]
  exact mul_ne_zero (pow_ne_zero _ hz) (jc_ne n)

theorem χ_vs (n : Nat) : χ n z = -vs z n * yc n / z ^ n := by
  unfold vs
  have := yc_ne n
  have := pow_ne_zero n hz
  field_simp

theorem us_limit : Tendsto (us z) atTop (𝓝 1) := by
  obtain ⟨ε, hε, h0⟩ := sin_cubic ‖z‖
  have hb : ∀ n, ‖us z n - 1‖ ≤ ε * ‖z‖ ^ 2 / (2 * n + 3) := by
    intro n
    have h := num_close h0 n z le_rfl
    rw [(num_eq isTrig_complex z hz n).1, show z ^ (n + 1) * sphJ Complex.sin n z = z ^ n * ψ n z by unfold ψ; ring] at h
    have hj := jc_fact n
    have hf : (((2 * n + 1)‼ : ℕ) : ℂ) ≠ 0 := by exact_mod_cast (Nat.doubleFactorial_pos _).ne'
    have hfr : (0 : ℝ) < ((2 * n + 1)‼ : ℕ) := by exact_mod_cast Nat.doubleFactorial_pos _
    have ej : jc n = 1 / (((2 * n + 1)‼ : ℕ) : ℂ) := by
      rw [eq_div_iff hf, hj]
    rw [ψ_us hz n, ej] at h
    have e : z ^ n * (us z n * (z ^ (n + 1) * (1 / (((2 * n + 1)‼ : ℕ) : ℂ)))) - z ^ (2 * n + 1) / (((2 * n + 1)‼ : ℕ) : ℂ) = (us z n - 1) * (z ^ (2 * n + 1) / (((2 * n + 1)‼ : ℕ) : ℂ)) := by
      ring
    have e3 : (((2 * n + 3)‼ : ℕ) : ℝ) = (2 * n + 3) * ((2 * n + 1)‼ : ℕ) := by
      rw [show 2 * n + 3 = (2 * n + 1) + 2 by ring, Nat.doubleFactorial_add_two]
      push_cast
      ring
    rw [e, norm_mul, norm_div, norm_pow, Complex.norm_natCast, e3] at h
    have hp : 0 < ‖z‖ := norm_pos_iff.2 hz
    have hq : 0 < ‖z‖ ^ (2 * n + 1) / (((2 * n + 1)‼ : ℕ) : ℝ) := by positivity
    refine le_of_mul_le_mul_right (h.trans (le_of_eq ?_)) hq
    field_simp
    ring
  rw [tendsto_iff_norm_sub_tendsto_zero]
  exact squeeze_zero (fun n => norm_nonneg _) hb (inv_zero 2 (ε * ‖z‖ ^ 2) (by norm_num))

theorem casorati_us (n : Nat) : us z n * vs z (n + 1) = 1 + z ^ 2 / ((2 * n + 3) * (2 * n + 1)) * (us z (n + 1) * vs z n) := by
  have h := casorati (c := fun n => (2 * (n : ℂ) + 3) / z) (u := fun n => sphJ Complex.sin n z) (v := fun n => sphY Complex.cos n z) (N := n)
    (fun n _ => startJ.three_term n z hz) (fun n _ => startY.three_term n z hz) n le_rfl
  simp only [j_zero, y_zero, j_one hz, y_one hz] at h
  have hp := Complex.sin_sq_add_cos_sq z
  have h' : ψ n z * χ (n + 1) z - ψ (n + 1) z * χ n z = -1 := by
    have : z ^ 2 * (sphJ Complex.sin n z * sphY Complex.cos (n + 1) z - sphJ Complex.sin (n + 1) z * sphY Complex.cos n z) = -1 := by
      rw [h]
      field_simp
      linear_combination -z * hp
    unfold ψ χ
    linear_combination this
  have jy : ∀ n, jc n * yc (n + 1) = 1 := by
    intro n
    induction n with
    | zero => simp [jc, yc]
    | succ n ih =>
      have h3 := (odd_ne n).1
      have e1 : jc (n + 1) = jc n / (2 * n + 3) := rfl
      have e2 : yc (n + 1 + 1) = (2 * n + 3) * yc (n + 1) := by
        conv_lhs => unfold yc
        push_cast
        ring
      rw [e1, e2, ← ih]
      field_simp
  have e1 : jc (n + 1) = jc n / (2 * n + 3) := rfl
  have e2 : yc (n + 1) = (2 * n + 1) * yc n := rfl
  have hjy := jy n
  have h3 := (odd_ne n).1
  have h1 := (odd_ne n).2
  have hzn := pow_ne_zero n hz
  rw [ψ_us hz, ψ_us hz, χ_vs hz, χ_vs hz] at h'
  have t1 : us z n * (z ^ (n + 1) * jc n) * (-vs z (n + 1) * yc (n + 1) / z ^ (n + 1)) = -(us z n * vs z (n + 1)) := by
    rw [show us z n * (z ^ (n + 1) * jc n) * (-vs z (n + 1) * yc (n + 1) / z ^ (n + 1)) = -(us z n * vs z (n + 1)) * (jc n * yc (n + 1)) * (z ^ (n + 1) / z ^ (n + 1)) by ring, hjy,
      div_self (pow_ne_zero _ hz)]
    ring
  have t2 : us z (n + 1) * (z ^ (n + 1 + 1) * jc (n + 1)) * (-vs z n * yc n / z ^ n) = -(z ^ 2 / ((2 * n + 3) * (2 * n + 1)) * (us z (n + 1) * vs z n)) := by
    rw [e2] at hjy
    have hy : jc n * yc n = 1 / (2 * n + 1) := by
      rw [eq_div_iff h1]
      linear_combination hjy
    rw [show us z (n + 1) * (z ^ (n + 1 + 1) * jc (n + 1)) * (-vs z n * yc n / z ^ n) = -(us z (n + 1) * vs z n) * (jc (n + 1) * yc n) * z ^ 2 * (z ^ n / z ^ n) by ring, div_self hzn, e1,
      show jc n / (2 * (n : ℂ) + 3) * yc n = jc n * yc n / (2 * n + 3) by ring, hy]
    field_simp
  rw [t1, t2] at h'
  linear_combination -h'

theorem vs_bounded : ∃ C, ∀ n, ‖vs z n‖ ≤ C := by
  have hu := us_limit hz
  have h1 : ∀ᶠ n : Nat in atTop, ‖us z n - 1‖ ≤ 1 / 2 := by
    have := (tendsto_iff_norm_sub_tendsto_zero.1 hu).eventually (gt_mem_nhds (by norm_num : (0 : ℝ) < 1 / 2))
    exact this.mono fun n h => h.le
  have h2 : ∀ᶠ n : Nat in atTop, ‖z‖ ^ 2 / (2 * n + 3) ≤ 1 / 6 := by
    have := (inv_zero 2 (‖z‖ ^ 2) (by norm_num)).eventually (gt_mem_nhds (by norm_num : (0 : ℝ) < 1 / 6))
    exact this.mono fun n h => h.le
  obtain ⟨n0, hn0⟩ := eventually_atTop.1 (h1.and h2)
  have step : ∀ n ≥ n0, ‖vs z (n + 1)‖ ≤ 2 + 1 / 2 * ‖vs z n‖ := by
    intro n hn
    have a1 := (hn0 n hn).1
    have a2 := (hn0 (n + 1) (by omega)).1
    have a3 := (hn0 n hn).2
    have lo : 1 / 2 ≤ ‖us z n‖ := by
      have := norm_sub_norm_le 1 (us z n)
      rw [norm_one, norm_sub_rev] at this
      linarith
    have hi : ‖us z (n + 1)‖ ≤ 3 / 2 := by
      have := norm_sub_norm_le (us z (n + 1)) 1
      rw [norm_one] at this
      linarith
    have key := congrArg norm (casorati_us hz n)
    rw [norm_mul] at key
    have q : ‖z ^ 2 / ((2 * (n : ℂ) + 3) * (2 * n + 1))‖ ≤ 1 / 6 := by
      have e : ‖z ^ 2 / ((2 * (n : ℂ) + 3) * (2 * n + 1))‖ = ‖z‖ ^ 2 / (2 * n + 3) / (2 * n + 1) := by
        rw [norm_div, norm_pow, norm_mul, show (2 * (n : ℂ) + 3) = ((2 * n + 3 : ℕ) : ℂ) by push_cast; ring, show (2 * (n : ℂ) + 1) = ((2 * n + 1 : ℕ) : ℂ) by push_cast; ring,
          Complex.norm_natCast, Complex.norm_natCast, div_div]
        push_cast
        ring
      rw [e]
      refine (div_le_self (by positivity) ?_).trans a3
      have : (0 : ℝ) ≤ n := Nat.cast_nonneg n
      linarith
    have r : ‖1 + z ^ 2 / ((2 * (n : ℂ) + 3) * (2 * n + 1)) * (us z (n + 1) * vs z n)‖ ≤ 1 + 1 / 4 * ‖vs z n‖ := by
      refine (norm_add_le _ _).trans ?_
      rw [norm_one, norm_mul, norm_mul]
      have := mul_le_mul q hi (norm_nonneg _) (by norm_num)
      have := mul_le_mul_of_nonneg_right this (norm_nonneg (vs z n))
      nlinarith
    rw [← key] at r
    have := mul_le_mul_of_nonneg_right lo (norm_nonneg (vs z (n + 1)))
    linarith
  have hb : ∀ k, ‖vs z (n0 + k)‖ ≤ ‖vs z n0‖ + 4 := by
    intro k
    induction k with
    | zero => simp
    | succ k ih =>
      have := step (n0 + k) (by omega)
      have := norm_nonneg (vs z n0)
      rw [← add_assoc]
      linarith
  refine ⟨(∑ n ∈ range n0, ‖vs z n‖) + (‖vs z n0‖ + 4), fun n => ?_⟩
  rcases lt_or_ge n n0 with h | h
  · have t : ‖vs z n‖ ≤ ∑ n ∈ range n0, ‖vs z n‖ := Finset.single_le_sum (f := fun n => ‖vs z n‖) (fun i _ => norm_nonneg _) (mem_range.2 h)
    have := norm_nonneg (vs z n0)
    linarith
  · obtain ⟨k, rfl⟩ := Nat.exists_eq_add_of_le h
    have : 0 ≤ ∑ n ∈ range n0, ‖vs z n‖ := Finset.sum_nonneg fun _ _ => norm_nonneg _
    linarith [hb k]

theorem factor_zero : Tendsto (fun n : Nat => z ^ 2 / ((2 * (n : ℂ) + 3) * (2 * n + 1))) atTop (𝓝 0) := by
  rw [tendsto_zero_iff_norm_tendsto_zero]
  refine squeeze_zero (fun n => norm_nonneg _) (fun n => ?_) (inv_zero 2 (‖z‖ ^ 2) (by norm_num))
  rw [norm_div, norm_pow, norm_mul, show (2 * (n : ℂ) + 3) = ((2 * n + 3 : ℕ) : ℂ) by push_cast; ring, show (2 * (n : ℂ) + 1) = ((2 * n + 1 : ℕ) : ℂ) by push_cast; ring,
    Complex.norm_natCast, Complex.norm_natCast, ← div_div]
  push_cast
  refine div_le_self (by positivity) ?_
  have : (0 : ℝ) ≤ n := Nat.cast_nonneg n
  linarith

theorem vs_limit : Tendsto (fun n => vs z (n + 1)) atTop (𝓝 1) := by
  have hu := us_limit hz
  obtain ⟨C, hC⟩ := vs_bounded hz
  have hp : Tendsto (fun n : Nat => z ^ 2 / ((2 * (n : ℂ) + 3) * (2 * n + 1)) * us z (n + 1)) atTop (𝓝 0) := by
    have := (factor_zero hz).mul (hu.comp (tendsto_add_atTop_nat 1))
    rwa [zero_mul] at this
  have hq : Tendsto (fun n : Nat => z ^ 2 / ((2 * (n : ℂ) + 3) * (2 * n + 1)) * us z (n + 1) * vs z n) atTop (𝓝 0) := by
    rw [tendsto_zero_iff_norm_tendsto_zero] at hp ⊢
    have hp2 := hp.mul_const C
    rw [zero_mul] at hp2
    refine squeeze_zero (fun n => norm_nonneg _) (fun n => ?_) hp2
    rw [norm_mul]
    exact mul_le_mul_of_nonneg_left (hC n) (norm_nonneg _)
  have h := ((tendsto_const_nhds (x := (1 : ℂ))).add hq).div hu one_ne_zero
  rw [add_zero, div_one] at h
  refine h.congr' ?_
  have : ∀ᶠ n : Nat in atTop, us z n ≠ 0 := hu.eventually_ne one_ne_zero
  filter_upwards [this] with n hn
  have := casorati_us hz n
  rw [Pi.div_apply, div_eq_iff hn]
  linear_combination -this

end Verif.Mie
