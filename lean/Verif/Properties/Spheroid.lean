import Verif.Model.Spheroid
import Verif.Spec.Spheroid
import Mathlib.Analysis.SpecialFunctions.Arsinh
import Mathlib.Analysis.SpecialFunctions.Trigonometric.InverseDeriv
import Mathlib.Analysis.SpecialFunctions.Integrals.Basic
import Mathlib.MeasureTheory.Integral.IntervalIntegral.FundThmCalculus
import Mathlib.MeasureTheory.Integral.IntervalIntegral.IntegrationByParts
import Mathlib.Tactic.Linarith
import Mathlib.Tactic.FieldSimp
import Mathlib.Tactic.Positivity
import Mathlib.Tactic.LinearCombination

/-!
# C85: the equal volume radius and the equal surface radius of a spheroid
-/
namespace Verif.Spheroid

open Real

/-- the integral to which the surface reduces -/
noncomputable def arc (k : ℝ) : ℝ := ∫ u in (-1 : ℝ)..1, √(1 + k * u ^ 2)

theorem volume_eq (a b : ℝ) : volume a b = 4 / 3 * π * a ^ 2 * b := by
  have h : ∀ t : ℝ, π * (a * sin t) ^ 2 * (b * sin t) = (π * a ^ 2 * b) * sin t ^ 3 := fun t => by ring
  unfold volume
  simp only [h]
  rw [intervalIntegral.integral_const_mul, integral_sin_pow_three]
  norm_num
  ring

theorem surface_eq {a b d : ℝ} (hb : 0 < b) (ha : a = d * b) : surface a b = 2 * π * d * b ^ 2 * arc (d ^ 2 - 1) := by
  have h : ∀ t : ℝ, 2 * π * (a * sin t) * √((a * cos t) ^ 2 + (b * sin t) ^ 2)
      = (2 * π * d * b ^ 2) * ((fun u => √(1 + (d ^ 2 - 1) * u ^ 2)) (cos t) * sin t) := by
    intro t
    have e : (a * cos t) ^ 2 + (b * sin t) ^ 2 = b ^ 2 * (1 + (d ^ 2 - 1) * cos t ^ 2) := by
      rw [ha]
      linear_combination b ^ 2 * sin_sq_add_cos_sq t
    rw [e, sqrt_mul (by positivity), sqrt_sq hb.le, ha]
    ring
  unfold surface
  simp only [h]
  rw [intervalIntegral.integral_const_mul]
  congr 1
  have k := intervalIntegral.integral_comp_mul_deriv (a := 0) (b := π) (f := cos) (f' := fun x => -sin x)
    (g := fun u => √(1 + (d ^ 2 - 1) * u ^ 2)) (fun x _ => hasDerivAt_cos x) (by fun_prop) (by fun_prop)
  simp only [cos_zero, cos_pi, Function.comp, mul_neg, intervalIntegral.integral_neg] at k
  rw [intervalIntegral.integral_symm (-1) 1, neg_inj] at k
  exact k

theorem arc_prolate {d e : ℝ} (hd : 0 < d) (he : 0 < e) (h : e ^ 2 = 1 - d ^ 2) : arc (d ^ 2 - 1) = d + arcsin e / e := by
  have he1 : e < 1 := by nlinarith
  have key : ∀ u ∈ Set.uIcc (-1 : ℝ) 1,
      HasDerivAt (fun u => 1 / 2 * (u * √(1 - e ^ 2 * u ^ 2) + arcsin (e * u) / e)) (√(1 + (d ^ 2 - 1) * u ^ 2)) u := by
    intro u hu
    rw [Set.uIcc_of_le (by norm_num)] at hu
    have hu2 : u ^ 2 ≤ 1 := by nlinarith [hu.1, hu.2]
    have hp : 0 < 1 - e ^ 2 * u ^ 2 := by nlinarith [mul_pos he he]
    have hs : 0 < √(1 - e ^ 2 * u ^ 2) := sqrt_pos.mpr hp
    have h1 : HasDerivAt (fun u : ℝ => 1 - e ^ 2 * u ^ 2) (-(e ^ 2 * (2 * u))) u := by
      have := ((hasDerivAt_pow 2 u).const_mul (e ^ 2)).const_sub 1
      simpa using this
    have h2 := (hasDerivAt_id u).mul (h1.sqrt hp.ne')
    have h3 : HasDerivAt (fun u : ℝ => arcsin (e * u)) (1 / √(1 - (e * u) ^ 2) * e) u := by
      have hm : HasDerivAt (fun u : ℝ => e * u) e u := by simpa using (hasDerivAt_id u).const_mul e
      refine (hasDerivAt_arcsin ?_ ?_).comp u hm
      · nlinarith [hu.1]
      · nlinarith [hu.2]
    have h4 := ((h2.add (h3.div_const e)).const_mul (1 / 2))
    refine (h4.congr_deriv ?_)
    rw [show (e * u) ^ 2 = e ^ 2 * u ^ 2 by ring, show 1 + (d ^ 2 - 1) * u ^ 2 = 1 - e ^ 2 * u ^ 2 by rw [h]; ring]
    have hq : √(1 - e ^ 2 * u ^ 2) ^ 2 = 1 - e ^ 2 * u ^ 2 := sq_sqrt hp.le
    simp only [id]
    field_simp
    rw [hq]
    ring
  unfold arc
  rw [intervalIntegral.integral_eq_sub_of_hasDerivAt key (by
    apply Continuous.intervalIntegrable
    fun_prop)]
  have : √(1 - e ^ 2) = d := by rw [h, show 1 - (1 - d ^ 2) = d ^ 2 by ring, sqrt_sq hd.le]
  simp only [one_pow, mul_one, even_two.neg_pow, mul_neg, arcsin_neg, this]
  ring

theorem arc_oblate {d k : ℝ} (hd : 0 < d) (hk : 0 < k) (h : k ^ 2 = d ^ 2 - 1) : arc (d ^ 2 - 1) = d + arsinh k / k := by
  have key : ∀ u ∈ Set.uIcc (-1 : ℝ) 1,
      HasDerivAt (fun u => 1 / 2 * (u * √(1 + k ^ 2 * u ^ 2) + arsinh (k * u) / k)) (√(1 + (d ^ 2 - 1) * u ^ 2)) u := by
    intro u _
    have hp : 0 < 1 + k ^ 2 * u ^ 2 := by positivity
    have hs : 0 < √(1 + k ^ 2 * u ^ 2) := sqrt_pos.mpr hp
    have h1 : HasDerivAt (fun u : ℝ => 1 + k ^ 2 * u ^ 2) (k ^ 2 * (2 * u)) u := by
      have := ((hasDerivAt_pow 2 u).const_mul (k ^ 2)).const_add 1
      simpa using this
    have h2 := (hasDerivAt_id u).mul (h1.sqrt hp.ne')
    have h3 : HasDerivAt (fun u : ℝ => arsinh (k * u)) ((√(1 + (k * u) ^ 2))⁻¹ * k) u := by
      have hm : HasDerivAt (fun u : ℝ => k * u) k u := by simpa using (hasDerivAt_id u).const_mul k
      exact (hasDerivAt_arsinh _).comp u hm
    have h4 := ((h2.add (h3.div_const k)).const_mul (1 / 2))
    refine (h4.congr_deriv ?_)
    rw [show (k * u) ^ 2 = k ^ 2 * u ^ 2 by ring, ← h]
    have hq : √(1 + k ^ 2 * u ^ 2) ^ 2 = 1 + k ^ 2 * u ^ 2 := sq_sqrt hp.le
    simp only [id]
    field_simp
    rw [hq]
    ring
  unfold arc
  rw [intervalIntegral.integral_eq_sub_of_hasDerivAt key (by
    apply Continuous.intervalIntegrable
    fun_prop)]
  have : √(1 + k ^ 2) = d := by rw [h, show 1 + (d ^ 2 - 1) = d ^ 2 by ring, sqrt_sq hd.le]
  simp only [one_pow, mul_one, even_two.neg_pow, mul_neg, arsinh_neg, this]
  ring

theorem arc_pos {d : ℝ} (hd : 0 < d) : 0 < arc (d ^ 2 - 1) := by
  unfold arc
  apply intervalIntegral.intervalIntegral_pos_of_pos_on
  · apply Continuous.intervalIntegrable
    fun_prop
  · intro u hu
    apply sqrt_pos.mpr
    have : u ^ 2 < 1 := by nlinarith [hu.1, hu.2]
    nlinarith [mul_pos hd hd, sq_nonneg u]
  · norm_num

theorem cbrt_pow {x : ℝ} (hx : 0 ≤ x) : cbrt x ^ 3 = x := by
  unfold cbrt
  rw [← rpow_natCast, ← rpow_mul hx]
  norm_num

theorem cbrt_pos {x : ℝ} (hx : 0 < x) : 0 < cbrt x := rpow_pos_of_pos hx _

theorem cbrt_sq {x : ℝ} (h : 0 ≤ x) : cbrt (x * x) = cbrt x * cbrt x := mul_rpow h h

theorem radius_volume {b d R : ℝ} (hb : 0 < b) (hd : 0 < d) (h : EqualVolume (d * b) b R) : R = cbrt d ^ 2 * b := by
  obtain ⟨hR, h⟩ := h
  rw [volume_eq] at h
  have hc := cbrt_pos hd
  have e : R ^ 3 = (cbrt d ^ 2 * b) ^ 3 := by
    have : (cbrt d ^ 2 * b) ^ 3 = (cbrt d ^ 3) ^ 2 * b ^ 3 := by ring
    rw [this, cbrt_pow hd.le]
    have hp := pi_pos
    have : π * (R ^ 3 - d ^ 2 * b ^ 3) = 0 := by linear_combination 3 / 4 * h
    rcases mul_eq_zero.mp this with h0 | h0
    · exact absurd h0 hp.ne'
    · linarith
  exact (pow_left_inj₀ hR.le (by positivity) (by norm_num)).mp e

theorem radius_surface {b d R : ℝ} (hb : 0 < b) (h : EqualSurface (d * b) b R) : R ^ 2 = d * b ^ 2 * arc (d ^ 2 - 1) / 2 := by
  obtain ⟨hR, h⟩ := h
  rw [surface_eq hb rfl] at h
  have hp := pi_pos
  have : π * (R ^ 2 - d * b ^ 2 * arc (d ^ 2 - 1) / 2) = 0 := by linear_combination 1 / 4 * h
  rcases mul_eq_zero.mp this with h0 | h0
  · exact absurd h0 hp.ne'
  · linarith

/-- the quantity under the root -/
theorem ratio_eq {b d RV RS : ℝ} (hb : 0 < b) (hd : 0 < d) (hV : EqualVolume (d * b) b RV) (hS : EqualSurface (d * b) b RS) :
    RV / RS = 1 / √(arc (d ^ 2 - 1) / (2 * cbrt d)) := by
  have hc := cbrt_pos hd
  have e : arc (d ^ 2 - 1) / (2 * cbrt d) = (RS / RV) ^ 2 := by
    rw [div_pow, radius_surface hb hS, radius_volume hb hd hV]
    have h3 := cbrt_pow hd.le
    rw [div_eq_div_iff (by positivity) (by positivity)]
    linear_combination (arc (d ^ 2 - 1) * b ^ 2 * cbrt d) * h3
  have : 0 < RS / RV := div_pos hS.1 hV.1
  rw [e, sqrt_sq this.le, one_div_div]

theorem asinh_log {d e k : ℝ} (hd : 1 < d) (hk : 0 < k) (h : k ^ 2 = d ^ 2 - 1) (he : e = k / d) : log ((1 + e) / (1 - e)) = 2 * arsinh k := by
  have hd0 : 0 < d := by linarith
  have hkd : k < d := by nlinarith
  have hs : √(1 + k ^ 2) = d := by rw [h, show 1 + (d ^ 2 - 1) = d ^ 2 by ring, sqrt_sq hd0.le]
  have : (1 + e) / (1 - e) = (k + d) ^ 2 := by
    rw [he]
    have h1 : d - k ≠ 0 := by linarith
    have : 1 - k / d ≠ 0 := by
      rw [one_sub_div hd0.ne']
      exact div_ne_zero h1 hd0.ne'
    rw [div_eq_iff this]
    field_simp
    linear_combination (k + d) * h
  rw [this, log_pow, arsinh, hs]
  norm_num

theorem sphereRatio_eq {d : ℝ} (hd : 0 < d) : sphereRatio d = 1 / √(arc (d ^ 2 - 1) / (2 * cbrt d)) := by
  have hc := cbrt_pos hd
  have h3 := cbrt_pow hd.le
  unfold sphereRatio
  rcases lt_trichotomy d 1 with h | h | h
  · rw [if_neg (not_lt.mpr h.le), if_pos h]
    have hpos : 0 < 1 - d * d := by nlinarith
    have he := sqrt_pos.mpr hpos
    have hsq : √(1 - d * d) ^ 2 = 1 - d ^ 2 := by rw [sq_sqrt hpos.le]; ring
    rw [arc_prolate hd he hsq]
    dsimp only
    congr 2
    field_simp
    linear_combination h3
  · subst h
    rw [if_neg (lt_irrefl _), if_neg (lt_irrefl _)]
    have : arc ((1 : ℝ) ^ 2 - 1) = 2 := by
      unfold arc
      norm_num
    rw [this, show cbrt 1 = 1 from one_rpow _]
    norm_num
  · rw [if_pos h]
    have hk2 : 0 < d ^ 2 - 1 := by nlinarith
    have hk := sqrt_pos.mpr hk2
    have hsq : √(d ^ 2 - 1) ^ 2 = d ^ 2 - 1 := sq_sqrt hk2.le
    have he : √(1 - 1 / (d * d)) = √(d ^ 2 - 1) / d := by
      rw [show 1 - 1 / (d * d) = (d ^ 2 - 1) / d ^ 2 by field_simp, sqrt_div hk2.le, sqrt_sq hd.le]
    rw [arc_oblate hd hk hsq]
    dsimp only
    rw [asinh_log h hk hsq he, he, cbrt_sq hd.le]
    congr 2
    field_simp
    linear_combination (4 * √(d ^ 2 - 1) * cbrt d ^ 3 - 4 * arsinh (√(d ^ 2 - 1))) * h3

/-- **C85** For every spheroid (axis ratio `d`: horizontal over vertical semi-axis), the function returns the radius of the sphere
of the same volume divided by the radius of the sphere of the same surface. -/
theorem c85_ratio {a b RV RS : ℝ} (ha : 0 < a) (hb : 0 < b) (hV : EqualVolume a b RV) (hS : EqualSurface a b RS) :
    sphereRatio (a / b) = RV / RS := by
  have e : a = a / b * b := by field_simp
  have hd : 0 < a / b := div_pos ha hb
  rw [e] at hV hS
  rw [sphereRatio_eq hd, ratio_eq hb hd hV hS]

/-- Every spheroid has these two radii. -/
theorem c85_exists {a b : ℝ} (ha : 0 < a) (hb : 0 < b) : (∃ RV, EqualVolume a b RV) ∧ ∃ RS, EqualSurface a b RS := by
  have e : a = a / b * b := by field_simp
  have hd : 0 < a / b := div_pos ha hb
  have hp := pi_pos
  constructor
  · refine ⟨cbrt (a ^ 2 * b), cbrt_pos (by positivity), ?_⟩
    rw [cbrt_pow (by positivity), volume_eq]
    ring
  · have hA : 0 < surface a b := by
      rw [surface_eq hb e]
      have := arc_pos hd
      positivity
    refine ⟨√(surface a b / (4 * π)), sqrt_pos.mpr (by positivity), ?_⟩
    rw [sq_sqrt (by positivity)]
    field_simp

/-- For a sphere the ratio is 1. -/
theorem c85_sphere : sphereRatio 1 = 1 := by simp [sphereRatio]

/-- the mean of the integrand is at least the cube root of the axis ratio: twice convexity of the exponential function -/
theorem integrand_le {d : ℝ} (hd : 0 < d) (u : ℝ) (hu : u ^ 2 ≤ 1) :
    exp (log d / 3) * (1 + (u ^ 2 - 1 / 3) * log d) ≤ √(1 + (d ^ 2 - 1) * u ^ 2) := by
  have h1 : exp (u ^ 2 * (2 * log d)) ≤ 1 + (d ^ 2 - 1) * u ^ 2 := by
    have h := convexOn_exp.2 (Set.mem_univ (0 : ℝ)) (Set.mem_univ (2 * log d)) (sub_nonneg.2 hu) (sq_nonneg u) (by ring)
    simp only [smul_eq_mul, mul_zero, zero_add, exp_zero] at h
    have e : exp (2 * log d) = d ^ 2 := by rw [two_mul, exp_add, exp_log hd]; ring
    rw [e] at h
    linarith
  have h2 : exp (u ^ 2 * log d) ≤ √(1 + (d ^ 2 - 1) * u ^ 2) := by
    apply le_sqrt_of_sq_le
    rw [← exp_nat_mul]
    refine le_of_eq_of_le ?_ h1
    push_cast
    ring_nf
  refine le_trans ?_ h2
  have h3 : exp (u ^ 2 * log d) = exp (log d / 3) * exp ((u ^ 2 - 1 / 3) * log d) := by
    rw [← exp_add]; ring_nf
  rw [h3]
  apply mul_le_mul_of_nonneg_left _ (exp_pos _).le
  have := add_one_le_exp ((u ^ 2 - 1 / 3) * log d)
  linarith

theorem integral_mean (c L : ℝ) : ∫ u in (-1 : ℝ)..1, c * (1 + (u ^ 2 - 1 / 3) * L) = 2 * c := by
  have : ∀ u : ℝ, c * (1 + (u ^ 2 - 1 / 3) * L) = (c - c * L / 3) + c * L * u ^ 2 := by intro u; ring
  simp only [this]
  rw [intervalIntegral.integral_add (Continuous.intervalIntegrable (by fun_prop) _ _) (Continuous.intervalIntegrable (by fun_prop) _ _), intervalIntegral.integral_const, intervalIntegral.integral_const_mul, integral_pow]
  norm_num
  ring

theorem cbrt_exp {d : ℝ} (hd : 0 < d) : cbrt d = exp (log d / 3) := by
  rw [cbrt, rpow_def_of_pos hd]; ring_nf

/-- the isoperimetric inequality -/
theorem arc_ge {d : ℝ} (hd : 0 < d) : 2 * cbrt d ≤ arc (d ^ 2 - 1) := by
  rw [cbrt_exp hd, ← integral_mean _ (log d), arc]
  apply intervalIntegral.integral_mono_on (by norm_num) (Continuous.intervalIntegrable (by fun_prop) _ _) (Continuous.intervalIntegrable (by fun_prop) _ _)
  intro u hu
  exact integrand_le hd u (by nlinarith [hu.1, hu.2])

theorem arc_gt {d : ℝ} (hd : 0 < d) (h1 : d ≠ 1) : 2 * cbrt d < arc (d ^ 2 - 1) := by
  rw [cbrt_exp hd, ← integral_mean _ (log d), arc]
  apply intervalIntegral.integral_lt_integral_of_continuousOn_of_le_of_exists_lt (by norm_num) (Continuous.continuousOn (by fun_prop)) (Continuous.continuousOn (by fun_prop))
  · intro u hu
    exact integrand_le hd u (by nlinarith [hu.1, hu.2])
  · refine ⟨0, by norm_num, ?_⟩
    have hL : log d ≠ 0 := by
      intro h
      rcases log_eq_zero.1 h with h | h | h <;> [linarith; exact h1 h; linarith]
    have h2 := add_one_lt_exp (x := -(log d / 3)) (by intro h; apply hL; linarith)
    have h3 : exp (log d / 3) * exp (-(log d / 3)) = 1 := by rw [← exp_add]; simp
    have h4 := mul_lt_mul_of_pos_left h2 (exp_pos (log d / 3))
    rw [h3] at h4
    norm_num
    linarith

/-- **C85** The equal volume radius is never larger than the equal surface radius, and it is equal for spheres only. -/
theorem c85_isoperimetric {d : ℝ} (hd : 0 < d) : 0 < sphereRatio d ∧ sphereRatio d ≤ 1 ∧ (sphereRatio d = 1 ↔ d = 1) := by
  have hc := cbrt_pos hd
  have ha := arc_pos hd
  have h0 : 0 < arc (d ^ 2 - 1) / (2 * cbrt d) := by positivity
  rw [sphereRatio_eq hd]
  refine ⟨by positivity, ?_, ?_⟩
  · rw [div_le_one (sqrt_pos.2 h0), one_le_sqrt, one_le_div (by positivity)]
    exact arc_ge hd
  · constructor
    · intro h
      by_contra hne
      have h1 : 1 < √(arc (d ^ 2 - 1) / (2 * cbrt d)) := by
        rw [lt_sqrt (by norm_num), one_pow, one_lt_div (by positivity)]
        exact arc_gt hd hne
      rw [div_eq_one_iff_eq (by linarith)] at h
      linarith
    · rintro rfl
      rw [← sphereRatio_eq one_pos]
      exact c85_sphere

/-- **C85** What the Python function returns for the equal surface radius and the axis ratio of a spheroid is its equal volume radius: positive, not
larger than the argument, and in the same unit of length. -/
theorem c85_radius {a b RV RS : ℝ} (ha : 0 < a) (hb : 0 < b) (hV : EqualVolume a b RV) (hS : EqualSurface a b RS) :
    equalVolumeRadius RS (a / b) = RV ∧ RV ≤ RS ∧ (RV = RS ↔ a = b) ∧ ∀ unit, 0 < unit → equalVolumeRadius (unit * RS) (a / b) = unit * RV := by
  have hr := c85_ratio ha hb hV hS
  have hp : 0 < RS := hS.1
  obtain ⟨-, i1, i2⟩ := c85_isoperimetric (div_pos ha hb)
  rw [hr] at i1 i2
  have e : sphereRatio (a / b) * RS = RV := by rw [hr]; field_simp
  refine ⟨e, (div_le_one hp).1 i1, ?_, ?_⟩
  · rw [div_eq_one_iff_eq hp.ne', div_eq_one_iff_eq hb.ne'] at i2
    exact i2
  · intro unit _
    rw [equalVolumeRadius, mul_left_comm, e]

/-- an example: a sphere of radius 2 -/
example : EqualVolume 2 2 2 ∧ EqualSurface 2 2 2 := by
  refine ⟨⟨by norm_num, ?_⟩, by norm_num, ?_⟩
  · rw [volume_eq]
    ring
  · rw [surface_eq (d := 1) (by norm_num) (by norm_num)]
    have : arc ((1 : ℝ) ^ 2 - 1) = 2 := by
      unfold arc
      norm_num
    rw [this]
    ring

/-- and a spheroid that is no sphere -/
example : ∃ RV RS, EqualVolume 3 1 RV ∧ EqualSurface 3 1 RS ∧ sphereRatio 3 = RV / RS := by
  obtain ⟨⟨RV, hV⟩, RS, hS⟩ := c85_exists (show (0 : ℝ) < 3 by norm_num) one_pos
  refine ⟨RV, RS, hV, hS, ?_⟩
  have := c85_ratio (by norm_num) one_pos hV hS
  rwa [div_one] at this

end Verif.Spheroid
