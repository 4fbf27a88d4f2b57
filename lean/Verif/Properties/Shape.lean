import Verif.Model.Shape
import Verif.Properties.Quadrature
import Mathlib.Analysis.SpecialFunctions.Log.Deriv
import Mathlib.Analysis.SpecialFunctions.Sqrt
import Mathlib.Analysis.SpecialFunctions.Trigonometric.InverseDeriv
import Mathlib.Analysis.SpecialFunctions.Trigonometric.Bounds
import Mathlib.Analysis.SpecialFunctions.Trigonometric.Deriv
import Mathlib.MeasureTheory.Integral.IntervalIntegral.FundThmCalculus
import Mathlib.Analysis.Calculus.FDeriv.Measurable
import Mathlib.MeasureTheory.Function.SpecialFunctions.Inner
import Mathlib.MeasureTheory.Function.SpecialFunctions.Basic
import Mathlib.Analysis.Complex.ExponentialBounds
import Mathlib.Tactic.Linarith
import Mathlib.Tactic.FieldSimp
import Mathlib.Tactic.LinearCombination
import Mathlib.Tactic.Positivity

/-!
# C68: the shape distribution
-/
namespace Verif.Shape

open Real

/-! ### the Jacobian is the derivative -/

theorem deriv_prolate {d : ℝ} (h0 : 0 < d) (h1 : d < 1) :
    HasDerivAt shapeFactor (1 / 2 * sqrt (1 - (1 - d * d)) * ((3 - (1 - d * d)) * log ((1 + sqrt (1 - d * d)) / (1 - sqrt (1 - d * d)))
      - 6 * sqrt (1 - d * d)) / ((1 - d * d) * (1 - d * d) * sqrt (1 - d * d))) d := by
  have he2 : 0 < 1 - d * d := by nlinarith
  set e := sqrt (1 - d * d) with he
  have hepos : 0 < e := sqrt_pos.mpr he2
  have hee : e * e = 1 - d * d := mul_self_sqrt he2.le
  have he1 : e < 1 := by nlinarith
  have hs : sqrt (1 - (1 - d * d)) = d := by rw [sub_sub_cancel]; exact sqrt_mul_self h0.le
  have d2 : HasDerivAt (fun x : ℝ => 1 - x * x) (-(2 * d)) d := by
    have := ((hasDerivAt_id' d).mul (hasDerivAt_id' d)).const_sub 1
    exact this.congr_deriv (by ring)
  have de : HasDerivAt (fun x : ℝ => sqrt (1 - x * x)) (-(d / e)) d := by
    refine (d2.sqrt he2.ne').congr_deriv ?_
    rw [← he]; field_simp
  have dl : HasDerivAt (fun x : ℝ => log ((1 + sqrt (1 - x * x)) / (1 - sqrt (1 - x * x)))) (-(2 / (d * e))) d := by
    have h1e : 1 - e ≠ 0 := by linarith
    have h1p : 1 + e ≠ 0 := by linarith
    have hq := ((de.const_add 1).div (de.const_sub 1) (by rw [← he]; exact h1e)).log (by
      show (1 + sqrt (1 - d * d)) / (1 - sqrt (1 - d * d)) ≠ 0
      rw [← he]; exact div_ne_zero h1p h1e)
    refine HasDerivAt.congr_deriv (f := fun x : ℝ => log ((1 + sqrt (1 - x * x)) / (1 - sqrt (1 - x * x)))) hq ?_
    show (_ : ℝ) / ((1 + sqrt (1 - d * d)) / (1 - sqrt (1 - d * d))) = _
    rw [← he]
    have : 1 - e * e = d * d := by linarith
    field_simp
    linear_combination (-2) * hee
  have hfull : HasDerivAt (fun x : ℝ => (1 - (1 - x * x)) * (1 / 2 * log ((1 + sqrt (1 - x * x)) / (1 - sqrt (1 - x * x))) / sqrt (1 - x * x) - 1)
      / (1 - x * x)) _ d :=
    ((d2.const_sub 1).mul (((dl.const_mul (1 / 2)).div de (by rw [← he]; exact hepos.ne')).sub_const 1)).div d2 he2.ne'
  have hev : shapeFactor =ᶠ[nhds d] (fun x : ℝ => (1 - (1 - x * x)) * (1 / 2 * log ((1 + sqrt (1 - x * x)) / (1 - sqrt (1 - x * x))) / sqrt (1 - x * x) - 1)
      / (1 - x * x)) := by
    filter_upwards [Iio_mem_nhds h1] with x hx
    unfold shapeFactor
    rw [if_pos (show x < 1 from hx)]
  refine (hfull.congr_of_eventuallyEq hev).congr_deriv ?_
  simp only [Pi.mul_apply, Pi.div_apply]
  rw [hs, ← he]
  generalize log ((1 + e) / (1 - e)) = l
  rw [← hee]
  have hd2 : d * d = 1 - e * e := by linarith
  field_simp
  linear_combination 2 * e * hee

theorem deriv_oblate {d : ℝ} (h1 : 1 < d) :
    HasDerivAt shapeFactor ((1 - (1 - 1 / (d * d))) * ((3 - 2 * (1 - 1 / (d * d))) * arcsin (sqrt (1 - 1 / (d * d)))
      - 3 * sqrt (1 - 1 / (d * d)) * sqrt (1 - (1 - 1 / (d * d)))) / ((1 - 1 / (d * d)) * (1 - 1 / (d * d)) * sqrt (1 - 1 / (d * d)))) d := by
  have h0 : 0 < d := by linarith
  have hdd : 1 < d * d := by nlinarith
  have he2 : 0 < 1 - 1 / (d * d) := by
    have : 1 / (d * d) < 1 := by rw [div_lt_one (by linarith)]; exact hdd
    linarith
  set e := sqrt (1 - 1 / (d * d)) with he
  have hepos : 0 < e := sqrt_pos.mpr he2
  have hee : e * e = 1 - 1 / (d * d) := mul_self_sqrt he2.le
  have hle : 0 < 1 / (d * d) := by positivity
  have he1 : e < 1 := by nlinarith
  have hs : ∀ x : ℝ, 0 < x → sqrt (1 - (1 - 1 / (x * x))) = 1 / x := fun x hx => by
    rw [sub_sub_cancel, show 1 / (x * x) = 1 / x * (1 / x) by field_simp]
    exact sqrt_mul_self (by positivity)
  have di : HasDerivAt (fun x : ℝ => 1 / x) (-(1 / (d * d))) d := by
    have := hasDerivAt_inv h0.ne'
    simp only [one_div]
    exact this.congr_deriv (by rw [pow_two])
  have d2 : HasDerivAt (fun x : ℝ => 1 - 1 / (x * x)) (2 / (d * d * d)) d := by
    have h := (di.mul di).const_sub 1
    have hf : (fun x : ℝ => 1 - 1 / (x * x)) = fun x => 1 - ((fun x : ℝ => 1 / x) * (fun x : ℝ => 1 / x) : ℝ → ℝ) x := by
      funext x
      simp only [Pi.mul_apply]
      by_cases hx : x = 0
      · simp [hx]
      · field_simp
    rw [hf]
    exact h.congr_deriv (by field_simp; norm_num)
  have de : HasDerivAt (fun x : ℝ => sqrt (1 - 1 / (x * x))) (1 / (d * d * d * e)) d := by
    refine (d2.sqrt he2.ne').congr_deriv ?_
    rw [← he]; field_simp
  have da : HasDerivAt (fun x : ℝ => arcsin (sqrt (1 - 1 / (x * x)))) (1 / (d * d * e)) d := by
    have ha := (hasDerivAt_arcsin (x := e) (by linarith) (by linarith)).comp d de
    refine HasDerivAt.congr_deriv (f := fun x : ℝ => arcsin (sqrt (1 - 1 / (x * x)))) ha ?_
    rw [pow_two, hee, hs d h0]
    field_simp
  have hfull : HasDerivAt (fun x : ℝ => (1 - 1 / x * arcsin (sqrt (1 - 1 / (x * x))) / sqrt (1 - 1 / (x * x))) / (1 - 1 / (x * x))) _ d :=
    (((di.mul da).div de (by rw [← he]; exact hepos.ne')).const_sub 1).div d2 he2.ne'
  have hev : shapeFactor =ᶠ[nhds d] (fun x : ℝ => (1 - 1 / x * arcsin (sqrt (1 - 1 / (x * x))) / sqrt (1 - 1 / (x * x))) / (1 - 1 / (x * x))) := by
    filter_upwards [Ioi_mem_nhds h1] with x hx
    have hx : 1 < x := hx
    unfold shapeFactor
    rw [if_neg (by linarith), if_pos hx]
    dsimp only
    rw [hs x (by linarith)]
  refine (hfull.congr_of_eventuallyEq hev).congr_deriv ?_
  simp only [Pi.mul_apply, Pi.div_apply]
  rw [hs d h0, ← he]
  generalize arcsin e = l
  rw [← hee]
  have hd2 : d * d * (1 - e * e) = 1 := by
    rw [hee]; field_simp; ring
  field_simp
  linear_combination (3 * d * e + l * (-(d * d) * (3 - 2 * (e * e)) - 3)) * hd2


/-- the strip around 1 in which the Jacobian is replaced by a series -/
def Strip (d : ℝ) : Prop := (d < 1 ∧ 1 - d * d < 1 / 10 ^ 5) ∨ (1 < d ∧ 1 - 1 / (d * d) < 1 / 10 ^ 5) ∨ d = 1

/-- **C68**: outside the strip the Jacobian is the derivative of the depolarisation factor -/
theorem c68_jacobian {d : ℝ} (h0 : 0 < d) (hs : ¬ Strip d) : HasDerivAt shapeFactor (jacobian d) d := by
  unfold Strip at hs
  push Not at hs
  rcases lt_trichotomy d 1 with h | h | h
  · refine (deriv_prolate h0 h).congr_deriv ?_
    unfold jacobian
    rw [if_pos h]
    dsimp only
    rw [if_neg (not_lt.mpr (hs.1 h))]
  · exact absurd h hs.2.2
  · refine (deriv_oblate h).congr_deriv ?_
    unfold jacobian
    rw [if_neg (by linarith), if_pos h]
    dsimp only
    rw [if_neg (not_lt.mpr (hs.2.1 h))]

/-! ### signs -/

theorem log_ge {e : ℝ} (h0 : 0 < e) (h1 : e < 1) : 2 * (e + e ^ 3 / 3 + e ^ 5 / 5) ≤ log ((1 + e) / (1 - e)) := by
  rw [log_div (by linarith) (by linarith)]
  have h := hasSum_log_sub_log_of_abs_lt_one (x := e) (by rw [abs_lt]; constructor <;> linarith)
  have h2 := sum_le_hasSum (Finset.range 3) (fun k _ => by positivity) h
  refine le_trans (le_of_eq ?_) h2
  simp [Finset.sum_range_succ]
  ring

theorem tan_ge {p : ℝ} (h0 : 0 ≤ p) (h1 : p ≤ π / 2) : p * cos p ≤ sin p := by
  rcases eq_or_lt_of_le h1 with h | h
  · rw [h, cos_pi_div_two]; simp
  · have := le_tan h0 h
    rw [tan_eq_sin_div_cos] at this
    have hc : 0 < cos p := cos_pos_of_mem_Ioo ⟨by linarith, h⟩
    exact (le_div_iff₀ hc).mp this

theorem cusa {p : ℝ} (h0 : 0 ≤ p) (h1 : p ≤ π / 2) : 0 ≤ (3 - 2 * (sin p * sin p)) * p - 3 * (sin p * cos p) := by
  have hd : ∀ x : ℝ, HasDerivAt (fun x : ℝ => (3 - 2 * (sin x * sin x)) * x - 3 * (sin x * cos x)) (4 * sin x * (sin x - x * cos x)) x := by
    intro x
    have h := ((((hasDerivAt_sin x).mul (hasDerivAt_sin x)).const_mul 2).const_sub 3 |>.mul (hasDerivAt_id' x)).sub
      (((hasDerivAt_sin x).mul (hasDerivAt_cos x)).const_mul 3)
    refine HasDerivAt.congr_deriv (f := fun x : ℝ => (3 - 2 * (sin x * sin x)) * x - 3 * (sin x * cos x)) h ?_
    simp only [Pi.mul_apply]
    linear_combination (-3) * sin_sq_add_cos_sq x
  have hm : MonotoneOn (fun x : ℝ => (3 - 2 * (sin x * sin x)) * x - 3 * (sin x * cos x)) (Set.Icc 0 (π / 2)) := by
    refine monotoneOn_of_deriv_nonneg (convex_Icc _ _) (fun x _ => (hd x).continuousAt.continuousWithinAt)
      (fun x _ => (hd x).differentiableAt.differentiableWithinAt) ?_
    intro x hx
    rw [interior_Icc] at hx
    rw [(hd x).deriv]
    have hs : 0 ≤ sin x := sin_nonneg_of_nonneg_of_le_pi hx.1.le (by linarith [hx.2, pi_pos])
    have := tan_ge hx.1.le hx.2.le
    have h3 : 0 ≤ sin x - x * cos x := by linarith
    positivity
  have := hm (Set.left_mem_Icc.mpr (by positivity)) ⟨h0, h1⟩ h0
  simpa using this

/-- eccentricity and angle of an oblate spheroid -/
theorem oblate_angle {d : ℝ} (h1 : 1 < d) : ∃ p, 0 < p ∧ p < π / 2 ∧ sqrt (1 - 1 / (d * d)) = sin p ∧ arcsin (sqrt (1 - 1 / (d * d))) = p ∧
    1 - 1 / (d * d) = sin p * sin p ∧ sqrt (1 - (1 - 1 / (d * d))) = cos p ∧ 0 < sin p ∧ 0 < cos p := by
  have hdd : 1 < d * d := by nlinarith
  have he2 : 0 < 1 - 1 / (d * d) := by
    have : 1 / (d * d) < 1 := by rw [div_lt_one (by linarith)]; exact hdd
    linarith
  have hepos := sqrt_pos.mpr he2
  have hee := mul_self_sqrt he2.le
  have hle : 0 < 1 / (d * d) := by positivity
  set e := sqrt (1 - 1 / (d * d)) with he
  have he1 : e < 1 := by nlinarith
  have hsin : sin (arcsin e) = e := sin_arcsin (by linarith) he1.le
  have hcos : cos (arcsin e) = sqrt (1 - e ^ 2) := cos_arcsin e
  have hp2 : arcsin e < π / 2 := arcsin_lt_pi_div_two.mpr he1
  refine ⟨arcsin e, arcsin_pos.mpr hepos, hp2, hsin.symm, rfl, by rw [hsin]; exact hee.symm, ?_, by rw [hsin]; exact hepos, ?_⟩
  · rw [hcos, ← hee, pow_two]
  · exact cos_pos_of_mem_Ioo ⟨by linarith [arcsin_pos.mpr hepos, pi_pos], hp2⟩

/-- depolarisation factors are non-negative -/
theorem shapeFactor_nonneg {d : ℝ} (h0 : 0 < d) : 0 ≤ shapeFactor d := by
  unfold shapeFactor
  split_ifs with h h
  · dsimp only
    have he2 : 0 < 1 - d * d := by nlinarith
    have hepos := sqrt_pos.mpr he2
    have hee := mul_self_sqrt he2.le
    set e := sqrt (1 - d * d) with he
    have he1 : e < 1 := by nlinarith
    have hl := log_ge hepos he1
    have : 1 ≤ 1 / 2 * log ((1 + e) / (1 - e)) / e := by
      rw [le_div_iff₀ hepos]
      have : 0 < e ^ 3 := by positivity
      have : 0 < e ^ 5 := by positivity
      linarith
    apply div_nonneg _ he2.le
    exact mul_nonneg (by nlinarith) (by linarith)
  · dsimp only
    obtain ⟨p, hp0, hp1, hs, ha, hee, hc, hsp, hcp⟩ := oblate_angle h
    rw [ha, hc, hs, hee]
    apply div_nonneg _ (by positivity)
    have := tan_ge hp0.le hp1.le
    rw [sub_nonneg, div_le_one hsp]
    linarith
  · norm_num

/-- the Jacobian is non-negative, also in the strip -/
theorem jacobian_nonneg {d : ℝ} (h0 : 0 < d) : 0 ≤ jacobian d := by
  unfold jacobian
  split_ifs with h h
  · dsimp only
    have he2 : 0 < 1 - d * d := by nlinarith
    split_ifs with hst
    · positivity
    have hepos := sqrt_pos.mpr he2
    have hee := mul_self_sqrt he2.le
    set e := sqrt (1 - d * d) with he
    have he1 : e < 1 := by nlinarith
    have hl := log_ge hepos he1
    apply div_nonneg _ (by positivity)
    refine mul_nonneg (by positivity) ?_
    rw [← hee]
    have h3 : (3 - e * e) * (2 * (e + e ^ 3 / 3 + e ^ 5 / 5)) ≤ (3 - e * e) * log ((1 + e) / (1 - e)) :=
      mul_le_mul_of_nonneg_left hl (by nlinarith)
    have h4 : (3 - e * e) * (2 * (e + e ^ 3 / 3 + e ^ 5 / 5)) - 6 * e = 2 * e ^ 5 * (4 / 15 - e ^ 2 / 5) := by ring
    have h5 : 0 ≤ 2 * e ^ 5 * (4 / 15 - e ^ 2 / 5) := mul_nonneg (by positivity) (by nlinarith)
    linarith
  · dsimp only
    have hdd : 1 < d * d := by nlinarith
    have he2 : 0 < 1 - 1 / (d * d) := by
      have : 1 / (d * d) < 1 := by rw [div_lt_one (by linarith)]; exact hdd
      linarith
    split_ifs with hst
    · nlinarith
    obtain ⟨p, hp0, hp1, hs, ha, hee, hc, hsp, hcp⟩ := oblate_angle h
    rw [hc, ha, hs, hee]
    apply div_nonneg _ (by positivity)
    refine mul_nonneg (by nlinarith [sin_sq_add_cos_sq p]) ?_
    have := cusa hp0.le hp1.le
    linarith
  · norm_num

/-! ### the density -/

theorem cde2_nonneg {L : ℝ} (h : 0 ≤ L) : 0 ≤ cde2 L := by
  unfold cde2
  have : 0 ≤ (L - 1) * (L - 1) := mul_self_nonneg _
  have : 0 ≤ 12 * L * ((L - 1) * (L - 1)) := by positivity
  linarith

/-- **C68**: the density is non-negative and zero outside its limits -/
theorem c68_density (dmin dmax d : ℝ) (h0 : 0 < dmin) :
    0 ≤ density dmin dmax d ∧ (d < dmin ∨ dmax < d → density dmin dmax d = 0) := by
  unfold density
  constructor
  · split_ifs with h
    · have hd : 0 < d := by linarith [h.1]
      exact mul_nonneg (cde2_nonneg (shapeFactor_nonneg hd)) (jacobian_nonneg hd)
    · exact le_rfl
  · intro h
    rw [if_neg]
    rintro ⟨h1, h2⟩
    rcases h with h | h <;> linarith

/-- probability that the depolarisation factor is below `L` in the CDE2 distribution, density `12 L (1 - L)^2` -/
noncomputable def cde2Cumulative (L : ℝ) : ℝ := ∫ t in (0 : ℝ)..L, 12 * t * (1 - t) ^ 2

theorem cde2Cumulative_eq (L : ℝ) : cde2Cumulative L = 6 * L ^ 2 - 8 * L ^ 3 + 3 * L ^ 4 := by
  unfold cde2Cumulative
  have hd : ∀ x ∈ Set.uIcc 0 L, HasDerivAt (fun x : ℝ => 6 * x ^ 2 - 8 * x ^ 3 + 3 * x ^ 4) (12 * x * (1 - x) ^ 2) x := by
    intro x _
    have h := (((hasDerivAt_pow 2 x).const_mul 6).sub ((hasDerivAt_pow 3 x).const_mul 8)).add ((hasDerivAt_pow 4 x).const_mul 3)
    refine HasDerivAt.congr_deriv (f := fun x : ℝ => 6 * x ^ 2 - 8 * x ^ 3 + 3 * x ^ 4) h ?_
    norm_num
    ring
  rw [intervalIntegral.integral_eq_sub_of_hasDerivAt hd]
  · ring
  · exact Continuous.intervalIntegrable (by fun_prop) _ _

/-- the distribution of depolarisation factors is normalised on [0, 1] -/
theorem cde2_normalised : cde2Cumulative 1 = 1 := by rw [cde2Cumulative_eq]; norm_num

/-- **C68**: integrated over an interval of axis ratios (inside the limits, outside the strip) the density is the CDE2
probability of the depolarisation factors of that interval -/
theorem c68_probability (dmin dmax a b : ℝ) (h0 : 0 < dmin) (ha : dmin ≤ a) (hab : a ≤ b) (hb : b ≤ dmax)
    (hs : ∀ x, a ≤ x → x ≤ b → ¬ Strip x) :
    ∫ x in a..b, density dmin dmax x = cde2Cumulative (shapeFactor b) - cde2Cumulative (shapeFactor a) := by
  have hd : ∀ x ∈ Set.Icc a b, HasDerivAt (fun x => cde2Cumulative (shapeFactor x)) (density dmin dmax x) x := by
    intro x hx
    have hx0 : 0 < x := by linarith [hx.1]
    have hj := c68_jacobian hx0 (hs x hx.1 hx.2)
    have hf : (fun x => cde2Cumulative (shapeFactor x)) =
        fun x => 6 * shapeFactor x ^ 2 - 8 * shapeFactor x ^ 3 + 3 * shapeFactor x ^ 4 := by
      funext y
      exact cde2Cumulative_eq _
    rw [hf]
    have h := (((hj.pow 2).const_mul 6).sub ((hj.pow 3).const_mul 8)).add ((hj.pow 4).const_mul 3)
    refine HasDerivAt.congr_deriv (f := fun x => 6 * shapeFactor x ^ 2 - 8 * shapeFactor x ^ 3 + 3 * shapeFactor x ^ 4) h ?_
    unfold density
    rw [if_pos ⟨by linarith [hx.1], by linarith [hx.2]⟩]
    unfold cde2
    norm_num
    ring
  have hi : IntervalIntegrable (density dmin dmax) MeasureTheory.volume a b := by
    refine intervalIntegral.intervalIntegrable_deriv_of_nonneg (g := fun x => cde2Cumulative (shapeFactor x)) ?_ ?_ ?_
    · rw [Set.uIcc_of_le hab]
      exact fun x hx => (hd x hx).continuousAt.continuousWithinAt
    · intro x hx
      rw [min_eq_left hab, max_eq_right hab] at hx
      exact hd x ⟨hx.1.le, hx.2.le⟩
    · intro x _
      exact (c68_density dmin dmax x h0).1
  exact intervalIntegral.integral_eq_sub_of_hasDerivAt (fun x hx => hd x (by rwa [Set.uIcc_of_le hab] at hx)) hi


/-! ### inside the strip -/

theorem atanh_bounds {e : ℝ} (h0 : 0 < e) (h1 : e * e < 1 / 10 ^ 5) :
    1 + e ^ 2 / 3 + e ^ 4 / 5 + e ^ 6 / 7 + e ^ 8 / 9 ≤ 1 / 2 * log ((1 + e) / (1 - e)) / e ∧
    1 / 2 * log ((1 + e) / (1 - e)) / e ≤ 1 + e ^ 2 / 3 + e ^ 4 / 5 + e ^ 6 / 7 + e ^ 8 / 9 + e ^ 10 / 10 := by
  have he1 : e < 1 / 10 := by nlinarith
  rw [log_div (by linarith) (by linarith)]
  have h := hasSum_log_sub_log_of_abs_lt_one (x := e) (by rw [abs_lt]; constructor <;> linarith)
  constructor
  · rw [le_div_iff₀ h0]
    have h2 := sum_le_hasSum (Finset.range 5) (fun k _ => by positivity) h
    simp [Finset.sum_range_succ] at h2
    linarith
  · rw [div_le_iff₀ h0]
    have hg := (hasSum_geometric_of_lt_one (r := e ^ 2) (by positivity) (by nlinarith)).mul_left (2 / 11 * e ^ 11)
    have h3 := (hasSum_nat_add_iff' 5).mpr h
    have h4 := hasSum_le (fun k => ?_) h3 hg
    · simp [Finset.sum_range_succ] at h4
      have h5 : (1 - e ^ 2)⁻¹ ≤ 11 / 10 := by
        rw [inv_le_comm₀ (by nlinarith) (by norm_num)]
        nlinarith
      have h6 : 2 / 11 * e ^ 11 * (1 - e ^ 2)⁻¹ ≤ 2 / 11 * e ^ 11 * (11 / 10) := mul_le_mul_of_nonneg_left h5 (by positivity)
      linarith
    · have : e ^ (2 * (k + 5) + 1) = e ^ 11 * (e ^ 2) ^ k := by ring
      rw [this]
      have h7 : 1 / (2 * ((k + 5 : Nat) : ℝ) + 1) ≤ 1 / 11 := by
        rw [div_le_div_iff₀ (by positivity) (by norm_num)]
        push_cast
        have : (0 : ℝ) ≤ k := Nat.cast_nonneg k
        linarith
      have h8 : 0 ≤ e ^ 11 * (e ^ 2) ^ k := by positivity
      nlinarith

theorem sqrt_bounds {t : ℝ} (h0 : 0 ≤ t) (h1 : t < 1 / 10 ^ 5) :
    1 - t / 2 - t ^ 2 / 8 - t ^ 3 / 8 ≤ sqrt (1 - t) ∧ sqrt (1 - t) ≤ 1 - t / 2 - t ^ 2 / 8 := by
  have ht2 : 0 ≤ t ^ 2 := by positivity
  have ht3 : 0 ≤ t ^ 3 := by positivity
  constructor
  · apply le_sqrt_of_sq_le
    have : (1 - t / 2 - t ^ 2 / 8 - t ^ 3 / 8) ^ 2 = (1 - t) - t ^ 3 * (1 / 8 - t * (1 / 8 + 1 / 64) - t ^ 2 / 32 - t ^ 3 / 64) := by ring
    rw [this]
    have : 0 ≤ t ^ 3 * (1 / 8 - t * (1 / 8 + 1 / 64) - t ^ 2 / 32 - t ^ 3 / 64) := mul_nonneg ht3 (by nlinarith)
    linarith
  · rw [sqrt_le_left (by nlinarith)]
    have : (1 - t / 2 - t ^ 2 / 8) ^ 2 = (1 - t) + t ^ 3 / 8 + t ^ 4 / 64 := by ring
    rw [this]
    have : 0 ≤ t ^ 4 := by positivity
    linarith

/-- product of two expansions up to the second order -/
theorem expansion {t S B p1 p2 q0 q1 q2 j0 j1 j2 : ℝ} (h0 : 0 ≤ t) (h1 : t < 1 / 10 ^ 5)
    (hS : |S - (1 + p1 * t + p2 * t ^ 2)| ≤ t ^ 3) (hB : |B - (q0 + q1 * t + q2 * t ^ 2)| ≤ 2 * t ^ 3)
    (hp1 : |p1| ≤ 1) (hp2 : |p2| ≤ 1) (hq0 : |q0| ≤ 1) (hq1 : |q1| ≤ 1) (hq2 : |q2| ≤ 1)
    (e0 : j0 = q0) (e1 : j1 = q1 + p1 * q0) (e2 : j2 = q2 + p1 * q1 + p2 * q0) :
    |S * B - (j0 + j1 * t + j2 * t ^ 2)| ≤ 10 * t ^ 3 := by
  obtain ⟨σ, hσ⟩ : ∃ σ, σ = S - (1 + p1 * t + p2 * t ^ 2) := ⟨_, rfl⟩
  obtain ⟨β, hβ⟩ : ∃ β, β = B - (q0 + q1 * t + q2 * t ^ 2) := ⟨_, rfl⟩
  rw [← hσ] at hS
  rw [← hβ] at hB
  have hs : S = 1 + p1 * t + p2 * t ^ 2 + σ := by rw [hσ]; ring
  have hb : B = q0 + q1 * t + q2 * t ^ 2 + β := by rw [hβ]; ring
  have ht3 : 0 ≤ t ^ 3 := by positivity
  have hexp : S * B - (j0 + j1 * t + j2 * t ^ 2) =
      t ^ 3 * (p1 * q2 + p2 * q1 + t * (p2 * q2)) + (1 + p1 * t + p2 * t ^ 2) * β + σ * (q0 + q1 * t + q2 * t ^ 2 + β) := by
    rw [hs, hb, e0, e1, e2]; ring
  have abs1 : ∀ a b : ℝ, |a| ≤ 1 → |b| ≤ 1 → |a * b| ≤ 1 := fun a b ha hb => by
    rw [abs_mul]; exact mul_le_one₀ ha (abs_nonneg _) hb
  have absx : ∀ a x : ℝ, |a| ≤ 1 → 0 ≤ x → |a * x| ≤ x := fun a x ha hx => by
    rw [abs_mul, abs_of_nonneg hx]
    nlinarith
  have b1 : |t ^ 3 * (p1 * q2 + p2 * q1 + t * (p2 * q2))| ≤ t ^ 3 * 3 := by
    rw [abs_mul, abs_of_nonneg ht3]
    refine mul_le_mul_of_nonneg_left ?_ ht3
    have := abs_le.mp (abs1 _ _ hp1 hq2)
    have := abs_le.mp (abs1 _ _ hp2 hq1)
    have := abs_le.mp (abs1 _ _ (show |t| ≤ 1 by rw [abs_of_nonneg h0]; linarith) (abs1 _ _ hp2 hq2))
    rw [abs_le]; constructor <;> linarith
  have b2 : |(1 + p1 * t + p2 * t ^ 2) * β| ≤ 2 * (2 * t ^ 3) := by
    rw [abs_mul]
    refine mul_le_mul ?_ hB (abs_nonneg _) (by norm_num)
    have := abs_le.mp (absx _ t hp1 h0)
    have := abs_le.mp (absx _ (t ^ 2) hp2 (by positivity))
    have ht2' : t ^ 2 ≤ 1 / 10 := by nlinarith
    rw [abs_le]; constructor <;> linarith
  have b3 : |σ * (q0 + q1 * t + q2 * t ^ 2 + β)| ≤ t ^ 3 * 3 := by
    rw [abs_mul]
    refine mul_le_mul hS ?_ (abs_nonneg _) ht3
    have := abs_le.mp hq0
    have := abs_le.mp (absx _ t hq1 h0)
    have := abs_le.mp (absx _ (t ^ 2) hq2 (by positivity))
    have := abs_le.mp hB
    have ht2' : t ^ 2 ≤ 1 / 10 := by nlinarith
    have ht3' : t ^ 3 ≤ 1 / 10 := by
      have h3 : t ^ 3 = t * t ^ 2 := by ring
      rw [h3]
      nlinarith
    rw [abs_le]; constructor <;> linarith
  rw [hexp]
  have := abs_add_three (t ^ 3 * (p1 * q2 + p2 * q1 + t * (p2 * q2))) ((1 + p1 * t + p2 * t ^ 2) * β) (σ * (q0 + q1 * t + q2 * t ^ 2 + β))
  linarith

theorem strip_prolate {d : ℝ} (h0 : 0 < d) (h1 : d < 1) (h : 1 - d * d < 1 / 10 ^ 5) :
    ∃ D, HasDerivAt shapeFactor D d ∧ |D - jacobian d| ≤ 10 * (1 - d * d) ^ 3 := by
  refine ⟨_, deriv_prolate h0 h1, ?_⟩
  unfold jacobian
  rw [if_pos h1]
  dsimp only
  rw [if_pos h]
  have he2 : 0 < 1 - d * d := by nlinarith
  have hepos := sqrt_pos.mpr he2
  have hee := mul_self_sqrt he2.le
  set e := sqrt (1 - d * d) with he
  obtain ⟨l1, l2⟩ := atanh_bounds hepos (by rw [hee]; exact h)
  obtain ⟨s1, s2⟩ := sqrt_bounds he2.le h
  set S := sqrt (1 - (1 - d * d)) with hS
  obtain ⟨A, hA⟩ : ∃ A, A = 1 / 2 * log ((1 + e) / (1 - e)) / e := ⟨_, rfl⟩
  have hlog : log ((1 + e) / (1 - e)) = 2 * e * A := by rw [hA]; field_simp
  rw [← hA] at l1 l2
  rw [hlog]
  obtain ⟨t, ht⟩ : ∃ t, t = 1 - d * d := ⟨_, rfl⟩
  rw [← ht] at hee s1 s2 h he2 ⊢
  have e2 : e ^ 2 = t := by rw [pow_two, hee]
  rw [show e ^ 4 = (e ^ 2) ^ 2 by ring, show e ^ 6 = (e ^ 2) ^ 3 by ring, show e ^ 8 = (e ^ 2) ^ 4 by ring, e2] at l1 l2
  rw [show e ^ 10 = (e ^ 2) ^ 5 by ring, e2] at l2
  have hD : 1 / 2 * S * ((3 - t) * (2 * e * A) - 6 * e) / (t * t * e) = S * (((3 - t) * A - 3) / t ^ 2) := by field_simp; ring
  rw [hD]
  have hj : 4 / 15 + 2 * t / 21 + 3 * t * t / 70 = 4 / 15 + 2 / 21 * t + 3 / 70 * t ^ 2 := by ring
  rw [hj]
  have ht3 : 0 < t ^ 3 := by positivity
  have ht2 : 0 < t ^ 2 := by positivity
  have m1 := mul_le_mul_of_nonneg_left l1 (show 0 ≤ 3 - t by linarith)
  have m2 := mul_le_mul_of_nonneg_left l2 (show 0 ≤ 3 - t by linarith)
  refine expansion (p1 := -(1 / 2)) (p2 := -(1 / 8)) (q0 := 4 / 15) (q1 := 8 / 35) (q2 := 4 / 21) he2.le h ?_ ?_ (by norm_num [abs_le])
    (by norm_num [abs_le]) (by norm_num [abs_le]) (by norm_num [abs_le]) (by norm_num [abs_le]) (by norm_num) (by norm_num) (by norm_num)
  · rw [abs_le]; constructor <;> linarith
  · have : ((3 - t) * A - 3) / t ^ 2 - (4 / 15 + 8 / 35 * t + 4 / 21 * t ^ 2) =
        ((3 - t) * A - 3 - t ^ 2 * (4 / 15 + 8 / 35 * t + 4 / 21 * t ^ 2)) / t ^ 2 := by field_simp
    have t5 : 0 < t ^ 5 := by positivity
    have t6 : 0 < t ^ 6 := by positivity
    rw [this, abs_le, le_div_iff₀ ht2, div_le_iff₀ ht2]
    constructor <;> nlinarith

theorem sqrt_bounds4 {t : ℝ} (h0 : 0 ≤ t) (h1 : t ≤ 1 / 100) :
    1 - t / 2 - t ^ 2 / 8 - t ^ 3 / 16 - 5 * t ^ 4 / 128 - t ^ 5 / 16 ≤ sqrt (1 - t) ∧
      sqrt (1 - t) ≤ 1 - t / 2 - t ^ 2 / 8 - t ^ 3 / 16 - 5 * t ^ 4 / 128 := by
  have ht2 : 0 ≤ t ^ 2 := by positivity
  have ht3 : 0 ≤ t ^ 3 := by positivity
  have ht4 : 0 ≤ t ^ 4 := by positivity
  have ht5 : 0 ≤ t ^ 5 := by positivity
  have hle : ∀ n : ℕ, 1 ≤ n → t ^ n ≤ 1 / 100 := fun n hn => by
    calc t ^ n ≤ t ^ 1 := pow_le_pow_of_le_one h0 (by linarith) hn
      _ ≤ 1 / 100 := by rw [pow_one]; exact h1
  have l2 := hle 2 (by norm_num)
  have l3 := hle 3 (by norm_num)
  have l4 := hle 4 (by norm_num)
  have l5 := hle 5 (by norm_num)
  constructor
  · apply le_sqrt_of_sq_le
    have : (1 - t / 2 - t ^ 2 / 8 - t ^ 3 / 16 - 5 * t ^ 4 / 128 - t ^ 5 / 16) ^ 2 = (1 - t) + t ^ 5 * (-9 / 128 + 39 * t / 512 + 21 * t ^ 2 / 1024
        + 153 * t ^ 3 / 16384 + 5 * t ^ 4 / 1024 + t ^ 5 / 256) := by ring
    rw [this]
    have : 0 ≤ t ^ 5 * (9 / 128 - 39 * t / 512 - 21 * t ^ 2 / 1024
        - 153 * t ^ 3 / 16384 - 5 * t ^ 4 / 1024 - t ^ 5 / 256) := mul_nonneg ht5 (by linarith)
    linarith
  · rw [sqrt_le_left (by linarith)]
    have : (1 - t / 2 - t ^ 2 / 8 - t ^ 3 / 16 - 5 * t ^ 4 / 128) ^ 2 = (1 - t) + t ^ 5 * (7 / 128 + 7 * t / 512 + 5 * t ^ 2 / 1024 + 25 * t ^ 3 / 16384) := by ring
    rw [this]
    have : 0 ≤ t ^ 5 * (7 / 128 + 7 * t / 512 + 5 * t ^ 2 / 1024 + 25 * t ^ 3 / 16384) := by positivity
    linarith

theorem arcsin_bounds {x : ℝ} (h0 : 0 ≤ x) (h1 : x ≤ 1 / 10) :
    x + x ^ 3 / 6 + 3 * x ^ 5 / 40 + 5 * x ^ 7 / 112 + 35 * x ^ 9 / 1152 ≤ arcsin x ∧
      arcsin x ≤ x + x ^ 3 / 6 + 3 * x ^ 5 / 40 + 5 * x ^ 7 / 112 + 35 * x ^ 9 / 1152 + x ^ 11 / 10 := by
  have dP : ∀ c y : ℝ, HasDerivAt (fun y : ℝ => y + y ^ 3 / 6 + 3 * y ^ 5 / 40 + 5 * y ^ 7 / 112 + 35 * y ^ 9 / 1152 + c * y ^ 11 / 10)
      (1 + y ^ 2 / 2 + 3 * y ^ 4 / 8 + 5 * y ^ 6 / 16 + 35 * y ^ 8 / 128 + c * (11 * y ^ 10 / 10)) y := by
    intro c y
    have h := (((((hasDerivAt_id' y).add ((hasDerivAt_pow 3 y).div_const 6)).add (((hasDerivAt_pow 5 y).const_mul 3).div_const 40)).add
      (((hasDerivAt_pow 7 y).const_mul 5).div_const 112)).add (((hasDerivAt_pow 9 y).const_mul 35).div_const 1152)).add
      (((hasDerivAt_pow 11 y).const_mul c).div_const 10)
    refine HasDerivAt.congr_deriv (f := fun y : ℝ => y + y ^ 3 / 6 + 3 * y ^ 5 / 40 + 5 * y ^ 7 / 112 + 35 * y ^ 9 / 1152 + c * y ^ 11 / 10) h ?_
    norm_num
    ring
  have dA : ∀ y ∈ Set.Icc (0 : ℝ) (1 / 10), HasDerivAt arcsin (1 / sqrt (1 - y ^ 2)) y := fun y hy =>
    hasDerivAt_arcsin (by linarith [hy.1]) (by linarith [hy.2])
  have key : ∀ y ∈ Set.Icc (0 : ℝ) (1 / 10),
      1 + y ^ 2 / 2 + 3 * y ^ 4 / 8 + 5 * y ^ 6 / 16 + 35 * y ^ 8 / 128 ≤ 1 / sqrt (1 - y ^ 2) ∧
      1 / sqrt (1 - y ^ 2) ≤ 1 + y ^ 2 / 2 + 3 * y ^ 4 / 8 + 5 * y ^ 6 / 16 + 35 * y ^ 8 / 128 + 11 * y ^ 10 / 10 := by
    intro y hy
    obtain ⟨t, ht⟩ : ∃ t, t = y ^ 2 := ⟨_, rfl⟩
    have ht0 : 0 ≤ t := by rw [ht]; positivity
    have ht1 : t ≤ 1 / 100 := by rw [ht]; nlinarith [hy.1, hy.2]
    obtain ⟨s1, s2⟩ := sqrt_bounds4 ht0 ht1
    have hs : 0 < sqrt (1 - t) := sqrt_pos.mpr (by linarith)
    rw [show y ^ 4 = (y ^ 2) ^ 2 by ring, show y ^ 6 = (y ^ 2) ^ 3 by ring, show y ^ 8 = (y ^ 2) ^ 4 by ring,
      show y ^ 10 = (y ^ 2) ^ 5 by ring, ← ht]
    have ht2 : 0 ≤ t ^ 2 := by positivity
    have ht3 : 0 ≤ t ^ 3 := by positivity
    have ht4 : 0 ≤ t ^ 4 := by positivity
    have ht5 : 0 ≤ t ^ 5 := by positivity
    have hle : ∀ n : ℕ, 1 ≤ n → t ^ n ≤ 1 / 100 := fun n hn => by
      calc t ^ n ≤ t ^ 1 := pow_le_pow_of_le_one ht0 (by linarith) hn
        _ ≤ 1 / 100 := by rw [pow_one]; exact ht1
    have l2 := hle 2 (by norm_num)
    have l3 := hle 3 (by norm_num)
    have l4 := hle 4 (by norm_num)
    have l5 := hle 5 (by norm_num)
    constructor
    · rw [le_div_iff₀ hs]
      have h := mul_le_mul_of_nonneg_left s2 (show 0 ≤ 1 + t / 2 + 3 * t ^ 2 / 8 + 5 * t ^ 3 / 16 + 35 * t ^ 4 / 128 by positivity)
      have : (1 + t / 2 + 3 * t ^ 2 / 8 + 5 * t ^ 3 / 16 + 35 * t ^ 4 / 128) * (1 - t / 2 - t ^ 2 / 8 - t ^ 3 / 16 - 5 * t ^ 4 / 128)
        = 1 - t ^ 5 * (7 / 32 + 35 * t / 512 + 15 * t ^ 2 / 512 + 175 * t ^ 3 / 16384) := by ring
      have : 0 ≤ t ^ 5 * (7 / 32 + 35 * t / 512 + 15 * t ^ 2 / 512 + 175 * t ^ 3 / 16384) := by positivity
      linarith
    · rw [div_le_iff₀ hs]
      have h := mul_le_mul_of_nonneg_left s1 (show 0 ≤ 1 + t / 2 + 3 * t ^ 2 / 8 + 5 * t ^ 3 / 16 + 35 * t ^ 4 / 128 + 11 * t ^ 5 / 10 by positivity)
      have : (1 + t / 2 + 3 * t ^ 2 / 8 + 5 * t ^ 3 / 16 + 35 * t ^ 4 / 128 + 11 * t ^ 5 / 10) * (1 - t / 2 - t ^ 2 / 8 - t ^ 3 / 16 - 5 * t ^ 4 / 128 - t ^ 5 / 16)
        = 1 + t ^ 5 * (131 / 160 - 1663 * t / 2560 - 487 * t ^ 2 / 2560 - 8107 * t ^ 3 / 81920 - 123 * t ^ 4 / 2048 - 11 * t ^ 5 / 160) := by ring
      have : 0 ≤ t ^ 5 * (131 / 160 - 1663 * t / 2560 - 487 * t ^ 2 / 2560 - 8107 * t ^ 3 / 81920 - 123 * t ^ 4 / 2048 - 11 * t ^ 5 / 160) := mul_nonneg ht5 (by linarith)
      linarith
  have mono : ∀ f f' : ℝ → ℝ, (∀ y ∈ Set.Icc (0 : ℝ) (1 / 10), HasDerivAt f (f' y) y) → (∀ y ∈ Set.Icc (0 : ℝ) (1 / 10), 0 ≤ f' y) → f 0 = 0 → 0 ≤ f x := by
    intro f f' hf hf' hz
    have hm : MonotoneOn f (Set.Icc 0 (1 / 10)) := by
      refine monotoneOn_of_deriv_nonneg (convex_Icc _ _) (fun y hy => (hf y hy).continuousAt.continuousWithinAt)
        (fun y hy => (hf y (interior_subset hy)).differentiableAt.differentiableWithinAt) ?_
      intro y hy
      rw [(hf y (interior_subset hy)).deriv]
      exact hf' y (interior_subset hy)
    rw [← hz]
    exact hm (Set.left_mem_Icc.mpr (by norm_num)) ⟨h0, h1⟩ h0
  constructor
  · have := mono _ _ (fun y hy => (dA y hy).sub (dP 0 y)) (fun y hy => by have := (key y hy).1; linarith) (by norm_num)
    simp only [Pi.sub_apply] at this
    linarith
  · have := mono _ _ (fun y hy => (dP 1 y).sub (dA y hy)) (fun y hy => by have := (key y hy).2; linarith) (by norm_num)
    simp only [Pi.sub_apply] at this
    linarith

theorem strip_oblate {d : ℝ} (h1 : 1 < d) (h : 1 - 1 / (d * d) < 1 / 10 ^ 5) :
    ∃ D, HasDerivAt shapeFactor D d ∧ |D - jacobian d| ≤ 10 * (1 - 1 / (d * d)) ^ 3 := by
  refine ⟨_, deriv_oblate h1, ?_⟩
  unfold jacobian
  rw [if_neg (by linarith), if_pos h1]
  dsimp only
  rw [if_pos h]
  have hdd : 1 < d * d := by nlinarith
  have he2 : 0 < 1 - 1 / (d * d) := by
    have : 1 / (d * d) < 1 := by rw [div_lt_one (by linarith)]; exact hdd
    linarith
  have hepos := sqrt_pos.mpr he2
  have hee := mul_self_sqrt he2.le
  set e := sqrt (1 - 1 / (d * d)) with he
  obtain ⟨t, ht⟩ : ∃ t, t = 1 - 1 / (d * d) := ⟨_, rfl⟩
  rw [← ht] at hee h he2 ⊢
  have he10 : e ≤ 1 / 10 := by nlinarith
  obtain ⟨l1, l2⟩ := arcsin_bounds hepos.le he10
  obtain ⟨s1, s2⟩ := sqrt_bounds4 he2.le (show t ≤ 1 / 100 by linarith)
  set S := sqrt (1 - t) with hS
  obtain ⟨A, hA⟩ : ∃ A, A = arcsin e / e := ⟨_, rfl⟩
  have hasin : arcsin e = e * A := by rw [hA]; field_simp
  rw [hasin]
  have e2 : e ^ 2 = t := by rw [pow_two, hee]
  have k1 : 1 + t / 6 + 3 * t ^ 2 / 40 + 5 * t ^ 3 / 112 + 35 * t ^ 4 / 1152 ≤ A := by
    rw [hA, le_div_iff₀ hepos, ← e2]; linarith
  have k2 : A ≤ 1 + t / 6 + 3 * t ^ 2 / 40 + 5 * t ^ 3 / 112 + 35 * t ^ 4 / 1152 + t ^ 5 / 10 := by
    rw [hA, div_le_iff₀ hepos, ← e2]; linarith
  have hD : (1 - t) * ((3 - 2 * t) * (e * A) - 3 * e * S) / (t * t * e) = (1 - t) * (((3 - 2 * t) * A - 3 * S) / t ^ 2) := by field_simp
  rw [hD]
  have hj : 4 / 15 - 2 * t / 21 - 11 * t * t / 210 = 4 / 15 + (-(2 / 21)) * t + (-(11 / 210)) * t ^ 2 := by ring
  rw [hj]
  have ht3 : 0 < t ^ 3 := by positivity
  have ht2 : 0 < t ^ 2 := by positivity
  have m1 := mul_le_mul_of_nonneg_left k1 (show 0 ≤ 3 - 2 * t by linarith)
  have m2 := mul_le_mul_of_nonneg_left k2 (show 0 ≤ 3 - 2 * t by linarith)
  refine expansion (p1 := -1) (p2 := 0) (q0 := 4 / 15) (q1 := 6 / 35) (q2 := 5 / 42) he2.le h ?_ ?_ (by norm_num [abs_le])
    (by norm_num [abs_le]) (by norm_num [abs_le]) (by norm_num [abs_le]) (by norm_num [abs_le]) (by norm_num) (by norm_num) (by norm_num)
  · rw [abs_le]; constructor <;> linarith
  · have : ((3 - 2 * t) * A - 3 * S) / t ^ 2 - (4 / 15 + 6 / 35 * t + 5 / 42 * t ^ 2) =
        ((3 - 2 * t) * A - 3 * S - t ^ 2 * (4 / 15 + 6 / 35 * t + 5 / 42 * t ^ 2)) / t ^ 2 := by field_simp
    have t5 : 0 < t ^ 5 := by positivity
    have t6 : 0 < t ^ 6 := by positivity
    rw [this, abs_le, le_div_iff₀ ht2, div_le_iff₀ ht2]
    constructor <;> nlinarith

/-- **C68**: in the strip (other than at 1) the series is the derivative up to `10^-14` -/
theorem c68_strip {d : ℝ} (h0 : 0 < d) (hs : Strip d) (hd : d ≠ 1) :
    ∃ D, HasDerivAt shapeFactor D d ∧ |D - jacobian d| ≤ 1 / 10 ^ 14 := by
  have small : ∀ t : ℝ, 0 ≤ t → t < 1 / 10 ^ 5 → 10 * t ^ 3 ≤ 1 / 10 ^ 14 := fun t ht h => by
    have := pow_le_pow_left₀ ht h.le 3
    norm_num at this ⊢
    linarith
  rcases hs with ⟨h, hh⟩ | ⟨h, hh⟩ | h
  · obtain ⟨D, hD, hb⟩ := strip_prolate h0 h hh
    exact ⟨D, hD, hb.trans (small _ (by nlinarith) hh)⟩
  · obtain ⟨D, hD, hb⟩ := strip_oblate h hh
    refine ⟨D, hD, hb.trans (small _ ?_ hh)⟩
    have hdd : 1 < d * d := by nlinarith
    have : 1 / (d * d) < 1 := by rw [div_lt_one (by linarith)]; exact hdd
    linarith
  · exact absurd h hd

/-! ### the sphere, and intervals across it -/

theorem factor_near {d : ℝ} (h0 : 0 < d) (hs : Strip d) : |shapeFactor d - 1 / 3| ≤ 2 * (|1 - d * d| + |1 - 1 / (d * d)|) := by
  rcases hs with ⟨h1, h⟩ | ⟨h1, h⟩ | h
  · unfold shapeFactor
    rw [if_pos h1]
    dsimp only
    have he2 : 0 < 1 - d * d := by nlinarith
    have hepos := sqrt_pos.mpr he2
    have hee := mul_self_sqrt he2.le
    set e := sqrt (1 - d * d) with he
    obtain ⟨l1, l2⟩ := atanh_bounds hepos (by rw [hee]; exact h)
    set A := 1 / 2 * log ((1 + e) / (1 - e)) / e with hA
    obtain ⟨t, ht⟩ : ∃ t, t = 1 - d * d := ⟨_, rfl⟩
    rw [← ht] at hee h he2 ⊢
    have e2 : e ^ 2 = t := by rw [pow_two, hee]
    rw [show e ^ 4 = (e ^ 2) ^ 2 by ring, show e ^ 6 = (e ^ 2) ^ 3 by ring, show e ^ 8 = (e ^ 2) ^ 4 by ring, e2] at l1 l2
    rw [show e ^ 10 = (e ^ 2) ^ 5 by ring, e2] at l2
    have hle : ∀ n : ℕ, 2 ≤ n → t ^ n ≤ t ^ 2 := fun n hn => pow_le_pow_of_le_one he2.le (by linarith) hn
    have := hle 3 (by norm_num)
    have := hle 4 (by norm_num)
    have := hle 5 (by norm_num)
    have p2 : 0 < t ^ 2 := by positivity
    have p3 : 0 < t ^ 3 := by positivity
    have p4 : 0 < t ^ 4 := by positivity
    have : |(1 - t) * (A - 1) / t - 1 / 3| ≤ 2 * t := by
      rw [abs_le, show (1 - t) * (A - 1) / t - 1 / 3 = ((1 - t) * (A - 1) - t / 3) / t by field_simp, le_div_iff₀ he2, div_le_iff₀ he2]
      have m1 := mul_le_mul_of_nonneg_left l1 (show 0 ≤ 1 - t by linarith)
      have m2 := mul_le_mul_of_nonneg_left l2 (show 0 ≤ 1 - t by linarith)
      constructor <;> nlinarith
    rw [abs_of_pos he2]
    have := abs_nonneg (1 - 1 / (d * d))
    linarith
  · unfold shapeFactor
    rw [if_neg (by linarith), if_pos h1]
    dsimp only
    have hdd : 1 < d * d := by nlinarith
    have he2 : 0 < 1 - 1 / (d * d) := by
      have : 1 / (d * d) < 1 := by rw [div_lt_one (by linarith)]; exact hdd
      linarith
    have hepos := sqrt_pos.mpr he2
    have hee := mul_self_sqrt he2.le
    set e := sqrt (1 - 1 / (d * d)) with he
    obtain ⟨t, ht⟩ : ∃ t, t = 1 - 1 / (d * d) := ⟨_, rfl⟩
    rw [← ht] at hee h he2 ⊢
    have he10 : e ≤ 1 / 10 := by nlinarith
    obtain ⟨l1, l2⟩ := arcsin_bounds hepos.le he10
    obtain ⟨s1, s2⟩ := sqrt_bounds he2.le h
    obtain ⟨A, hA⟩ : ∃ A, A = arcsin e / e := ⟨_, rfl⟩
    have e2 : e ^ 2 = t := by rw [pow_two, hee]
    have k1 : 1 + t / 6 + 3 * t ^ 2 / 40 + 5 * t ^ 3 / 112 + 35 * t ^ 4 / 1152 ≤ A := by
      rw [hA, le_div_iff₀ hepos, ← e2]; linarith
    have k2 : A ≤ 1 + t / 6 + 3 * t ^ 2 / 40 + 5 * t ^ 3 / 112 + 35 * t ^ 4 / 1152 + t ^ 5 / 10 := by
      rw [hA, div_le_iff₀ hepos, ← e2]; linarith
    have hle : ∀ n : ℕ, 2 ≤ n → t ^ n ≤ t ^ 2 := fun n hn => pow_le_pow_of_le_one he2.le (by linarith) hn
    have := hle 3 (by norm_num)
    have := hle 4 (by norm_num)
    have := hle 5 (by norm_num)
    have p2 : 0 < t ^ 2 := by positivity
    have p2' : t ^ 2 < t / 10 ^ 5 := by nlinarith
    have p3 : 0 < t ^ 3 := by positivity
    have p4 : 0 < t ^ 4 := by positivity
    have a1 : 1 + t / 6 ≤ A := by linarith
    have a2 : A ≤ 1 + t / 6 + t ^ 2 / 2 := by linarith
    have b1 : 1 - t / 2 - t ^ 2 / 4 ≤ sqrt (1 - t) := by linarith
    have b2 : sqrt (1 - t) ≤ 1 - t / 2 := by linarith
    rw [show sqrt (1 - t) * arcsin e / e = sqrt (1 - t) * A by rw [hA]; ring]
    set S := sqrt (1 - t)
    have c1 : S * A ≤ (1 - t / 2) * (1 + t / 6 + t ^ 2 / 2) := mul_le_mul b2 a2 (by linarith) (by linarith)
    have c2 : (1 - t / 2 - t ^ 2 / 4) * (1 + t / 6) ≤ S * A := mul_le_mul b1 a1 (by linarith) (by linarith)
    have : |(1 - S * A) / t - 1 / 3| ≤ 2 * t := by
      rw [abs_le, show (1 - S * A) / t - 1 / 3 = ((1 - S * A) - t / 3) / t by field_simp, le_div_iff₀ he2, div_le_iff₀ he2]
      constructor <;> nlinarith
    rw [abs_of_pos he2]
    have := abs_nonneg (1 - d * d)
    linarith
  · have : shapeFactor d = 1 / 3 := by unfold shapeFactor; rw [if_neg (by linarith), if_neg (by linarith)]
    rw [this]
    simp only [sub_self, abs_zero]
    positivity

theorem strip_nhds : ∀ᶠ d in nhds (1 : ℝ), 0 < d ∧ Strip d := by
  have c1 : ContinuousAt (fun d : ℝ => 1 - d * d) 1 := by fun_prop
  have c2 : ContinuousAt (fun d : ℝ => 1 - 1 / (d * d)) 1 :=
    continuousAt_const.sub (continuousAt_const.div (by fun_prop) (by norm_num))
  have e1 := c1.eventually (Iio_mem_nhds (show (1 : ℝ) - 1 * 1 < 1 / 10 ^ 5 by norm_num))
  have e2 := c2.eventually (Iio_mem_nhds (show (1 : ℝ) - 1 / (1 * 1) < 1 / 10 ^ 5 by norm_num))
  filter_upwards [e1, e2, Ioi_mem_nhds (show (0 : ℝ) < 1 by norm_num)] with d h1 h2 h3
  refine ⟨h3, ?_⟩
  rcases lt_trichotomy d 1 with h | h | h
  · exact Or.inl ⟨h, h1⟩
  · exact Or.inr (Or.inr h)
  · exact Or.inr (Or.inl ⟨h, h2⟩)

theorem dev_tendsto (c : ℝ) : Filter.Tendsto (fun d : ℝ => c * (|1 - d * d| + |1 - 1 / (d * d)|)) (nhds 1) (nhds 0) := by
  have c2 : ContinuousAt (fun d : ℝ => c * (|1 - d * d| + |1 - 1 / (d * d)|)) 1 := by
    refine continuousAt_const.mul (ContinuousAt.add (by fun_prop) (ContinuousAt.abs ?_))
    exact continuousAt_const.sub (continuousAt_const.div (by fun_prop) (by norm_num))
  have := c2.tendsto
  simpa using this

theorem continuous_sphere : ContinuousAt shapeFactor 1 := by
  have h1 : shapeFactor 1 = 1 / 3 := by unfold shapeFactor; norm_num
  unfold ContinuousAt
  rw [h1, tendsto_iff_norm_sub_tendsto_zero]
  refine squeeze_zero' (Filter.Eventually.of_forall fun _ => norm_nonneg _) ?_ (dev_tendsto 2)
  filter_upwards [strip_nhds] with d hd
  exact factor_near hd.1 hd.2

theorem jacobian_near {d : ℝ} (h0 : 0 < d) (hs : Strip d) (hd : d ≠ 1) :
    DifferentiableAt ℝ shapeFactor d ∧ |deriv shapeFactor d - 4 / 15| ≤ 20 * (|1 - d * d| + |1 - 1 / (d * d)|) := by
  rcases hs with ⟨h1, h⟩ | ⟨h1, h⟩ | h
  · obtain ⟨D, hD, hb⟩ := strip_prolate h0 h1 h
    refine ⟨hD.differentiableAt, ?_⟩
    rw [hD.deriv]
    unfold jacobian at hb
    rw [if_pos h1] at hb
    dsimp only at hb
    rw [if_pos h] at hb
    have he2 : 0 < 1 - d * d := by nlinarith
    rw [abs_of_pos he2]
    have hn := abs_nonneg (1 - 1 / (d * d))
    generalize 1 - d * d = t at *
    have p2 : t ^ 2 < t := by nlinarith
    have p3 : t ^ 3 < t := by
      have : t ^ 3 = t * t ^ 2 := by ring
      nlinarith
    rw [abs_le] at hb ⊢
    constructor <;> nlinarith [hb.1, hb.2]
  · obtain ⟨D, hD, hb⟩ := strip_oblate h1 h
    refine ⟨hD.differentiableAt, ?_⟩
    rw [hD.deriv]
    unfold jacobian at hb
    rw [if_neg (by linarith), if_pos h1] at hb
    dsimp only at hb
    rw [if_pos h] at hb
    have he2 : 0 < 1 - 1 / (d * d) := by
      have hdd : 1 < d * d := by nlinarith
      have : 1 / (d * d) < 1 := by rw [div_lt_one (by linarith)]; exact hdd
      linarith
    rw [abs_of_pos he2]
    have hn := abs_nonneg (1 - d * d)
    generalize 1 - 1 / (d * d) = t at *
    have p2 : t ^ 2 < t := by nlinarith
    have p3 : t ^ 3 < t := by
      have : t ^ 3 = t * t ^ 2 := by ring
      nlinarith
    rw [abs_le] at hb ⊢
    constructor <;> nlinarith [hb.1, hb.2]
  · exact absurd h hd

/-- **C68**: at the sphere the Jacobian is exactly the derivative -/
theorem c68_sphere : HasDerivAt shapeFactor (jacobian 1) 1 := by
  have hj : jacobian 1 = 4 / 15 := by unfold jacobian; norm_num
  rw [hj]
  obtain ⟨s, hs, hso, hs1⟩ := eventually_nhds_iff.mp strip_nhds
  have hmem : s ∈ nhds (1 : ℝ) := hso.mem_nhds hs1
  have lim : ∀ l : Filter ℝ, l ≤ nhds 1 → (∀ᶠ d in l, d ≠ 1) → Filter.Tendsto (fun d => deriv shapeFactor d) l (nhds (4 / 15)) := by
    intro l hl hne
    rw [tendsto_iff_norm_sub_tendsto_zero]
    refine squeeze_zero' (Filter.Eventually.of_forall fun _ => norm_nonneg _) ?_ ((dev_tendsto 20).mono_left hl)
    filter_upwards [hl hmem, hne] with d hd hd1
    exact (jacobian_near (hs d hd).1 (hs d hd).2 hd1).2
  have right : HasDerivWithinAt shapeFactor (4 / 15) (Set.Ici 1) 1 := by
    refine hasDerivWithinAt_Ici_of_tendsto_deriv (s := s ∩ Set.Ioi 1) ?_ continuous_sphere.continuousWithinAt
      (Filter.inter_mem (nhdsWithin_le_nhds hmem) self_mem_nhdsWithin) (lim _ nhdsWithin_le_nhds ?_)
    · exact fun d hd => (jacobian_near (hs d hd.1).1 (hs d hd.1).2 (ne_of_gt hd.2)).1.differentiableWithinAt
    · filter_upwards [self_mem_nhdsWithin] with d hd using ne_of_gt hd
  have left : HasDerivWithinAt shapeFactor (4 / 15) (Set.Iic 1) 1 := by
    refine hasDerivWithinAt_Iic_of_tendsto_deriv (s := s ∩ Set.Iio 1) ?_ continuous_sphere.continuousWithinAt
      (Filter.inter_mem (nhdsWithin_le_nhds hmem) self_mem_nhdsWithin) (lim _ nhdsWithin_le_nhds ?_)
    · exact fun d hd => (jacobian_near (hs d hd.1).1 (hs d hd.1).2 (ne_of_lt hd.2)).1.differentiableWithinAt
    · filter_upwards [self_mem_nhdsWithin] with d hd using ne_of_lt hd
  have := left.union right
  rw [Set.Iic_union_Ici] at this
  exact this.hasDerivAt Filter.univ_mem

/-- depolarisation factors are at most 1 -/
theorem shapeFactor_le_one {d : ℝ} (h0 : 0 < d) : shapeFactor d ≤ 1 := by
  unfold shapeFactor
  split_ifs with h h
  · dsimp only
    have he2 : 0 < 1 - d * d := by nlinarith
    have hepos := sqrt_pos.mpr he2
    have hee := mul_self_sqrt he2.le
    set e := sqrt (1 - d * d) with he
    have he1 : e < 1 := by nlinarith
    have hl : log ((1 + e) / (1 - e)) ≤ 2 * e * (1 - e ^ 2)⁻¹ := by
      rw [log_div (by linarith) (by linarith)]
      have h := hasSum_log_sub_log_of_abs_lt_one (x := e) (by rw [abs_lt]; constructor <;> linarith)
      have hg := (hasSum_geometric_of_lt_one (r := e ^ 2) (by positivity) (by nlinarith)).mul_left (2 * e)
      refine hasSum_le (fun k => ?_) h hg
      have : e ^ (2 * k + 1) = e * (e ^ 2) ^ k := by ring
      rw [this]
      have h7 : 1 / (2 * (k : ℝ) + 1) ≤ 1 := by
        rw [div_le_one (by positivity)]
        have : (0 : ℝ) ≤ k := Nat.cast_nonneg k
        linarith
      have h8 : 0 ≤ e * (e ^ 2) ^ k := by positivity
      nlinarith
    rw [pow_two, hee, sub_sub_cancel] at hl
    rw [div_le_one he2]
    have hdd : 0 < d * d := by positivity
    have : 1 / 2 * log ((1 + e) / (1 - e)) / e ≤ (d * d)⁻¹ := by
      rw [div_le_iff₀ hepos]; linarith
    have h3 : (1 - (1 - d * d)) * (1 / 2 * log ((1 + e) / (1 - e)) / e - 1) ≤ (d * d) * ((d * d)⁻¹ - 1) := by
      rw [sub_sub_cancel]
      exact mul_le_mul_of_nonneg_left (by linarith) hdd.le
    have h4 : d * d * ((d * d)⁻¹ - 1) = 1 - d * d := by field_simp
    linarith
  · dsimp only
    obtain ⟨p, hp0, hp1, hs, ha, hee, hc, hsp, hcp⟩ := oblate_angle h
    rw [ha, hc, hs, hee]
    rw [div_le_one (by positivity)]
    have h1 := sin_lt hp0
    have h2 := cos_le_one p
    have h3 := sin_sq_add_cos_sq p
    have h4 : cos p * cos p ≤ cos p * p / sin p := by
      rw [le_div_iff₀ hsp]
      have : cos p * sin p ≤ p := by nlinarith
      nlinarith
    nlinarith
  · norm_num

theorem strip_jacobian_pos {d : ℝ} (h0 : 0 < d) (hs : Strip d) : 1 / 10 ≤ jacobian d := by
  unfold jacobian
  rcases hs with ⟨h1, h⟩ | ⟨h1, h⟩ | h
  · rw [if_pos h1]
    dsimp only
    rw [if_pos h]
    have he2 : 0 < 1 - d * d := by nlinarith
    generalize 1 - d * d = t at *
    nlinarith
  · rw [if_neg (by linarith), if_pos h1]
    dsimp only
    rw [if_pos h]
    have he2 : 0 < 1 - 1 / (d * d) := by
      have hdd : 1 < d * d := by nlinarith
      have : 1 / (d * d) < 1 := by rw [div_lt_one (by linarith)]; exact hdd
      linarith
    generalize 1 - 1 / (d * d) = t at *
    nlinarith
  · rw [if_neg (by linarith), if_neg (by linarith)]
    norm_num

/-- **C68**: everywhere, the Jacobian is the derivative up to `10^-14` -/
theorem c68_everywhere {d : ℝ} (h0 : 0 < d) :
    ∃ D, HasDerivAt shapeFactor D d ∧ 0 ≤ D ∧ |D - jacobian d| ≤ 1 / 10 ^ 14 := by
  by_cases hs : Strip d
  · by_cases h1 : d = 1
    · subst h1
      exact ⟨_, c68_sphere, jacobian_nonneg h0, by simp⟩
    · obtain ⟨D, hD, hb⟩ := c68_strip h0 hs h1
      refine ⟨D, hD, ?_, hb⟩
      have := strip_jacobian_pos h0 hs
      have := (abs_le.mp hb).1
      norm_num at this
      linarith
  · exact ⟨_, c68_jacobian h0 hs, jacobian_nonneg h0, by simp⟩

theorem measurable_shapeFactor : Measurable shapeFactor := by
  unfold shapeFactor
  refine Measurable.ite measurableSet_Iio (by fun_prop) (Measurable.ite measurableSet_Ioi ?_ (by fun_prop))
  have := measurable_arcsin
  fun_prop

theorem measurable_jacobian : Measurable jacobian := by
  unfold jacobian
  have := measurable_arcsin
  refine Measurable.ite measurableSet_Iio (Measurable.ite ?_ (by fun_prop) (by fun_prop))
    (Measurable.ite measurableSet_Ioi (Measurable.ite ?_ (by fun_prop) (by fun_prop)) (by fun_prop))
  · exact measurableSet_lt (by fun_prop) (by fun_prop)
  · exact measurableSet_lt (by fun_prop) (by fun_prop)

theorem measurable_density (dmin dmax : ℝ) : Measurable (density dmin dmax) := by
  unfold density cde2
  have := measurable_shapeFactor
  have := measurable_jacobian
  refine Measurable.ite ?_ (by fun_prop) (by fun_prop)
  exact measurableSet_Icc

/-- **C68**: integrated over any interval inside the limits, the density is the CDE2 probability up to `10^-13` per
unit of axis ratio -/
theorem c68_probability_all (dmin dmax a b : ℝ) (h0 : 0 < dmin) (ha : dmin ≤ a) (hab : a ≤ b) (hb : b ≤ dmax) :
    |(∫ x in a..b, density dmin dmax x) - (cde2Cumulative (shapeFactor b) - cde2Cumulative (shapeFactor a))| ≤ 1 / 10 ^ 13 * |b - a| := by
  have hder : ∀ x ∈ Set.Icc a b, HasDerivAt shapeFactor (deriv shapeFactor x) x ∧ 0 ≤ deriv shapeFactor x ∧
      |deriv shapeFactor x - jacobian x| ≤ 1 / 10 ^ 14 := fun x hx => by
    obtain ⟨D, hD, hn, hbd⟩ := c68_everywhere (show 0 < x by linarith [hx.1])
    rw [hD.deriv]
    exact ⟨hD, hn, hbd⟩
  have hd : ∀ x ∈ Set.Icc a b, HasDerivAt (fun x => cde2Cumulative (shapeFactor x)) (cde2 (shapeFactor x) * deriv shapeFactor x) x := by
    intro x hx
    have hj := (hder x hx).1
    have hf : (fun x => cde2Cumulative (shapeFactor x)) =
        fun x => 6 * shapeFactor x ^ 2 - 8 * shapeFactor x ^ 3 + 3 * shapeFactor x ^ 4 := by
      funext y
      exact cde2Cumulative_eq _
    rw [hf]
    have h := (((hj.pow 2).const_mul 6).sub ((hj.pow 3).const_mul 8)).add ((hj.pow 4).const_mul 3)
    refine HasDerivAt.congr_deriv (f := fun x => 6 * shapeFactor x ^ 2 - 8 * shapeFactor x ^ 3 + 3 * shapeFactor x ^ 4) h ?_
    unfold cde2
    norm_num
    ring
  have hi : IntervalIntegrable (fun x => cde2 (shapeFactor x) * deriv shapeFactor x) MeasureTheory.volume a b := by
    refine intervalIntegral.intervalIntegrable_deriv_of_nonneg (g := fun x => cde2Cumulative (shapeFactor x)) ?_ ?_ ?_
    · rw [Set.uIcc_of_le hab]
      exact fun x hx => (hd x hx).continuousAt.continuousWithinAt
    · intro x hx
      rw [min_eq_left hab, max_eq_right hab] at hx
      exact hd x ⟨hx.1.le, hx.2.le⟩
    · intro x hx
      rw [min_eq_left hab, max_eq_right hab] at hx
      exact mul_nonneg (cde2_nonneg (shapeFactor_nonneg (by linarith [hx.1]))) (hder x ⟨hx.1.le, hx.2.le⟩).2.1
  rw [← intervalIntegral.integral_eq_sub_of_hasDerivAt (fun x hx => hd x (by rwa [Set.uIcc_of_le hab] at hx)) hi]
  have hclose : ∀ x ∈ Set.Icc a b, |density dmin dmax x - cde2 (shapeFactor x) * deriv shapeFactor x| ≤ 1 / 10 ^ 13 := by
    intro x hx
    have hx0 : 0 < x := by linarith [hx.1]
    have l0 := shapeFactor_nonneg hx0
    have l1 := shapeFactor_le_one hx0
    unfold density
    rw [if_pos ⟨by linarith [hx.1], by linarith [hx.2]⟩, ← mul_sub, abs_mul, abs_sub_comm, abs_of_nonneg (cde2_nonneg l0)]
    have hc : cde2 (shapeFactor x) ≤ 10 := by
      unfold cde2
      generalize shapeFactor x = L at *
      have h1 : (1 - L) * (1 - L) ≤ 1 - L := by nlinarith
      have h2 : L * ((1 - L) * (1 - L)) ≤ L * (1 - L) := mul_le_mul_of_nonneg_left h1 l0
      nlinarith [mul_self_nonneg (2 * L - 1)]
    calc cde2 (shapeFactor x) * |deriv shapeFactor x - jacobian x| ≤ 10 * (1 / 10 ^ 14) :=
          mul_le_mul hc (hder x hx).2.2 (abs_nonneg _) (by norm_num)
      _ = 1 / 10 ^ 13 := by norm_num
  have hi2 : IntervalIntegrable (density dmin dmax) MeasureTheory.volume a b := by
    have hdiff : IntervalIntegrable (fun x => density dmin dmax x - cde2 (shapeFactor x) * deriv shapeFactor x) MeasureTheory.volume a b := by
      have hc : IntervalIntegrable (fun _ : ℝ => (1 : ℝ) / 10 ^ 13) MeasureTheory.volume a b := intervalIntegrable_const
      refine hc.mono_fun ?_ ?_
      · refine Measurable.aestronglyMeasurable ?_
        have := measurable_density dmin dmax
        have := measurable_shapeFactor
        have := measurable_deriv shapeFactor
        unfold cde2
        fun_prop
      · rw [Set.uIoc_of_le hab]
        refine (MeasureTheory.ae_restrict_iff' measurableSet_Ioc).mpr (Filter.Eventually.of_forall fun x hx => ?_)
        show ‖density dmin dmax x - cde2 (shapeFactor x) * deriv shapeFactor x‖ ≤ |(1 : ℝ) / 10 ^ 13|
        rw [norm_eq_abs, abs_of_nonneg (show (0 : ℝ) ≤ 1 / 10 ^ 13 by norm_num)]
        exact hclose x ⟨hx.1.le, hx.2⟩
    have := hdiff.add hi
    simpa using this
  rw [← intervalIntegral.integral_sub hi2 hi, ← norm_eq_abs]
  refine intervalIntegral.norm_integral_le_of_norm_le_const ?_
  intro x hx
  rw [Set.uIoc_of_le hab] at hx
  exact hclose x ⟨hx.1.le, hx.2⟩

/-- for instance between the axis ratios 1/2 and 2 -/
example : |(∫ x in (1 / 2 : ℝ)..2, density (1 / 4) 3 x) - (cde2Cumulative (shapeFactor 2) - cde2Cumulative (shapeFactor (1 / 2)))| ≤
    1 / 10 ^ 13 * |2 - 1 / 2| :=
  c68_probability_all (1 / 4) 3 (1 / 2) 2 (by norm_num) (by norm_num) (by norm_num) (by norm_num)

/-! ### the limits -/

/-- the density before it is cut -/
noncomputable def uncut (d : ℝ) : ℝ := cde2 (shapeFactor d) * jacobian d

theorem density_inside {dmin dmax d : ℝ} (h1 : dmin ≤ d) (h2 : d ≤ dmax) : density dmin dmax d = uncut d := by
  unfold density uncut
  rw [if_pos ⟨h1, h2⟩]

theorem descend_spec {cutoff : ℝ} : ∀ fuel m r, 0 < m → m ≤ 1 → descend density cutoff fuel m = some r →
    0 < r ∧ r ≤ m ∧ uncut r ≤ cutoff
  | 0, _, _, _, _, h => by simp [descend] at h
  | fuel + 1, m, r, h0, h1, h => by
    unfold descend at h
    rw [density_inside le_rfl h1] at h
    split_ifs at h with hc
    · obtain ⟨a, b, c⟩ := descend_spec fuel _ r (by linarith) (by linarith) h
      exact ⟨a, by linarith, c⟩
    · rw [← Option.some.inj h]
      exact ⟨h0, le_rfl, by linarith⟩

theorem bisectMin_spec {cutoff : ℝ} : ∀ fuel m u r, 0 < m → m ≤ u → u ≤ 1 → uncut m ≤ cutoff → (u = 1 ∨ cutoff ≤ uncut u) →
    bisectMin density cutoff fuel m u = some r →
    m ≤ r.1 ∧ r.1 ≤ r.2 ∧ r.2 ≤ 1 ∧ uncut r.1 ≤ cutoff ∧ (r.2 = 1 ∨ cutoff ≤ uncut r.2) ∧ r.2 - r.1 ≤ 5 / 1000 * (r.1 + r.2)
  | 0, _, _, _, _, _, _, _, _, h => by simp [bisectMin] at h
  | fuel + 1, m, u, r, h0, hmu, hu, hm, hup, h => by
    unfold bisectMin at h
    dsimp only at h
    split_ifs at h with hw hc
    · rw [density_inside (by linarith) (by linarith)] at hc
      obtain ⟨a, b⟩ := bisectMin_spec fuel _ u r (by linarith) (by linarith) hu (by linarith) hup h
      exact ⟨by linarith, b⟩
    · rw [density_inside (by linarith) (by linarith)] at hc
      exact bisectMin_spec fuel m _ r h0 (by linarith) (by linarith) hm (Or.inr (by linarith)) h
    · rw [← Option.some.inj h]
      refine ⟨le_rfl, hmu, hu, hm, hup, ?_⟩
      rw [abs_sub_comm, abs_of_nonneg (by linarith), abs_of_nonneg (by linarith)] at hw
      linarith

theorem ascend_spec {cutoff dmin : ℝ} : ∀ fuel m r, dmin ≤ m → 1 ≤ m → ascend density cutoff dmin fuel m = some r →
    m ≤ r ∧ uncut r ≤ cutoff
  | 0, _, _, _, _, h => by simp [ascend] at h
  | fuel + 1, m, r, h0, h1, h => by
    unfold ascend at h
    rw [density_inside h0 le_rfl] at h
    split_ifs at h with hc
    · obtain ⟨b, c⟩ := ascend_spec fuel _ r (by linarith) (by linarith) h
      exact ⟨by linarith, c⟩
    · rw [← Option.some.inj h]
      exact ⟨le_rfl, by linarith⟩

theorem bisectMax_spec {cutoff dmin : ℝ} : ∀ fuel l m r, dmin ≤ l → 1 ≤ l → l ≤ m → uncut m ≤ cutoff → (l = 1 ∨ cutoff < uncut l) →
    bisectMax density cutoff dmin fuel l m = some r →
    1 ≤ r.1 ∧ r.1 ≤ r.2 ∧ uncut r.2 ≤ cutoff ∧ (r.1 = 1 ∨ cutoff < uncut r.1) ∧ r.2 - r.1 ≤ 5 / 1000 * (r.1 + r.2)
  | 0, _, _, _, _, _, _, _, _, h => by simp [bisectMax] at h
  | fuel + 1, l, m, r, h0, h1, hlm, hm, hlo, h => by
    unfold bisectMax at h
    dsimp only at h
    split_ifs at h with hw hc
    · rw [density_inside (by linarith) (by linarith)] at hc
      exact bisectMax_spec fuel _ m r (by linarith) (by linarith) (by linarith) hm (Or.inr (by linarith)) h
    · rw [density_inside (by linarith) (by linarith)] at hc
      exact bisectMax_spec fuel l _ r h0 h1 (by linarith) (by linarith) hlo h
    · rw [← Option.some.inj h]
      refine ⟨h1, hlm, hm, hlo, ?_⟩
      rw [abs_of_nonneg (by linarith), abs_of_nonneg (by linarith)] at hw
      linarith

/-- **C68**: the limits found for a cut-off: on both sides of the sphere the uncut density at the limit is at most the
cut-off, and within half a percent of the limit towards the sphere there is a point at which it is at least the cut-off
(or that point is the sphere itself) -/
theorem c68_limits {cutoff : ℝ} {fuel : Nat} {dmin dmax : ℝ} (h : limits density cutoff fuel = some (dmin, dmax)) :
    0 < dmin ∧ dmin ≤ 1 ∧ 1 ≤ dmax ∧ uncut dmin ≤ cutoff ∧ uncut dmax ≤ cutoff ∧
    (∃ u, dmin ≤ u ∧ u ≤ 1 ∧ u - dmin ≤ 5 / 1000 * (dmin + u) ∧ (u = 1 ∨ cutoff ≤ uncut u)) ∧
    (∃ l, 1 ≤ l ∧ l ≤ dmax ∧ dmax - l ≤ 5 / 1000 * (l + dmax) ∧ (l = 1 ∨ cutoff < uncut l)) := by
  unfold limits at h
  simp only [Option.bind_eq_bind, Option.bind_eq_some_iff, Option.pure_def, Option.some.injEq] at h
  obtain ⟨m, h1, r, h2, x, h3, s, h4, h5⟩ := h
  obtain ⟨m0, m1, m2⟩ := descend_spec fuel 1 m one_pos le_rfl h1
  obtain ⟨r1, r2, r3, r4, r5, r6⟩ := bisectMin_spec fuel m 1 r m0 m1 le_rfl m2 (Or.inl rfl) h2
  obtain ⟨x1, x2⟩ := ascend_spec fuel 1 x (by linarith) le_rfl h3
  obtain ⟨s1, s2, s3, s4, s5⟩ := bisectMax_spec fuel 1 x s (by linarith) le_rfl x1 x2 (Or.inl rfl) h4
  obtain ⟨e1, e2⟩ := Prod.mk.inj h5
  subst e1; subst e2
  exact ⟨by linarith, by linarith, by linarith, r4, s3, ⟨r.2, r2, r3, r6, r5⟩, ⟨s.1, s1, s2, s5, s4⟩⟩

/-! #### the search ends -/

theorem descend_ends {cutoff b : ℝ} (hb : 0 < b) (hsmall : ∀ d, 0 < d → d ≤ b → uncut d ≤ cutoff) :
    ∀ n m, 0 < m → m ≤ 1 → m ≤ 2 ^ n * b → (descend density cutoff (n + 1) m).isSome
  | 0, m, h0, h1, h => by
    unfold descend
    rw [density_inside le_rfl h1, if_neg (by have := hsmall m h0 (by linarith); linarith)]
    rfl
  | n + 1, m, h0, h1, h => by
    unfold descend
    split_ifs with hc
    · exact descend_ends hb hsmall n _ (by linarith) (by linarith) (by rw [pow_succ] at h; linarith)
    · rfl

theorem ascend_ends {cutoff dmin b : ℝ} (hlarge : ∀ d, b ≤ d → uncut d ≤ cutoff) :
    ∀ (n : Nat) (m : ℝ), dmin ≤ m → b ≤ m + n → (ascend density cutoff dmin (n + 1) m).isSome
  | 0, m, h1, h => by
    unfold ascend
    rw [density_inside h1 le_rfl, if_neg (by have := hlarge m (by simpa using h); linarith)]
    rfl
  | n + 1, m, h1, h => by
    unfold ascend
    split_ifs with hc
    · exact ascend_ends hlarge n _ (by linarith) (by push_cast at h; linarith)
    · rfl

theorem bisectMin_ends {cutoff m0 : ℝ} (h0 : 0 < m0) :
    ∀ n m u, m0 ≤ m → m ≤ u → u - m ≤ 2 ^ n * (m0 / 100) → (bisectMin density cutoff (n + 1) m u).isSome
  | 0, m, u, h1, h2, h => by
    unfold bisectMin
    rw [if_neg]
    · rfl
    · rw [abs_sub_comm, abs_of_nonneg (by linarith), abs_of_nonneg (by linarith)]
      linarith
  | n + 1, m, u, h1, h2, h => by
    unfold bisectMin
    rw [pow_succ] at h
    dsimp only
    split_ifs with hw hc
    · exact bisectMin_ends h0 n _ _ (by linarith) (by linarith) (by linarith)
    · exact bisectMin_ends h0 n _ _ (by linarith) (by linarith) (by linarith)
    · rfl

theorem bisectMax_ends {cutoff dmin : ℝ} :
    ∀ n l m, 1 ≤ l → l ≤ m → m - l ≤ 2 ^ n * (1 / 100) → (bisectMax density cutoff dmin (n + 1) l m).isSome
  | 0, l, m, h1, h2, h => by
    unfold bisectMax
    rw [if_neg]
    · rfl
    · rw [abs_of_nonneg (by linarith), abs_of_nonneg (by linarith)]
      linarith
  | n + 1, l, m, h1, h2, h => by
    unfold bisectMax
    rw [pow_succ] at h
    dsimp only
    split_ifs with hw hc
    · exact bisectMax_ends n _ _ (by linarith) (by linarith) (by linarith)
    · exact bisectMax_ends n _ _ (by linarith) (by linarith) (by linarith)
    · rfl

/-- more fuel does not change a result -/
theorem descend_more {p : ℝ → ℝ → ℝ → ℝ} {cutoff : ℝ} : ∀ fuel m r k, descend p cutoff fuel m = some r → descend p cutoff (fuel + k) m = some r
  | 0, _, _, _, h => by simp [descend] at h
  | fuel + 1, m, r, k, h => by
    rw [Nat.add_right_comm]
    unfold descend at h ⊢
    split_ifs at h ⊢ with hc
    · exact descend_more fuel _ r k h
    · exact h

theorem ascend_more {p : ℝ → ℝ → ℝ → ℝ} {cutoff dmin : ℝ} : ∀ fuel m r k, ascend p cutoff dmin fuel m = some r → ascend p cutoff dmin (fuel + k) m = some r
  | 0, _, _, _, h => by simp [ascend] at h
  | fuel + 1, m, r, k, h => by
    rw [Nat.add_right_comm]
    unfold ascend at h ⊢
    split_ifs at h ⊢ with hc
    · exact ascend_more fuel _ r k h
    · exact h

theorem bisectMin_more {p : ℝ → ℝ → ℝ → ℝ} {cutoff : ℝ} : ∀ fuel m u r k, bisectMin p cutoff fuel m u = some r → bisectMin p cutoff (fuel + k) m u = some r
  | 0, _, _, _, _, h => by simp [bisectMin] at h
  | fuel + 1, m, u, r, k, h => by
    rw [Nat.add_right_comm]
    unfold bisectMin at h ⊢
    dsimp only at h ⊢
    split_ifs at h ⊢ with hw hc
    · exact bisectMin_more fuel _ _ r k h
    · exact bisectMin_more fuel _ _ r k h
    · exact h

theorem bisectMax_more {p : ℝ → ℝ → ℝ → ℝ} {cutoff dmin : ℝ} : ∀ fuel m u r k, bisectMax p cutoff dmin fuel m u = some r → bisectMax p cutoff dmin (fuel + k) m u = some r
  | 0, _, _, _, _, h => by simp [bisectMax] at h
  | fuel + 1, m, u, r, k, h => by
    rw [Nat.add_right_comm]
    unfold bisectMax at h ⊢
    dsimp only at h ⊢
    split_ifs at h ⊢ with hw hc
    · exact bisectMax_more fuel _ _ r k h
    · exact bisectMax_more fuel _ _ r k h
    · exact h

theorem uncut_le {d : ℝ} (h0 : 0 < d) : uncut d ≤ 10 * jacobian d := by
  unfold uncut
  have l0 := shapeFactor_nonneg h0
  have l1 := shapeFactor_le_one h0
  refine mul_le_mul_of_nonneg_right ?_ (jacobian_nonneg h0)
  unfold cde2
  generalize shapeFactor d = L at *
  have h1 : (1 - L) * (1 - L) ≤ 1 - L := by nlinarith
  have h2 : L * ((1 - L) * (1 - L)) ≤ L * (1 - L) := mul_le_mul_of_nonneg_left h1 l0
  nlinarith [mul_self_nonneg (2 * L - 1)]

/-- for flat needles the density vanishes -/
theorem jacobian_small {d : ℝ} (h0 : 0 < d) (h1 : d ≤ 1 / 2) : jacobian d ≤ 40 * sqrt d := by
  unfold jacobian
  rw [if_pos (by linarith)]
  have hdd : d * d ≤ 1 / 4 := by nlinarith
  dsimp only
  rw [if_neg (by norm_num; linarith)]
  have he2 : 0 < 1 - d * d := by nlinarith
  have hepos := sqrt_pos.mpr he2
  have hee := mul_self_sqrt he2.le
  rw [sub_sub_cancel, sqrt_mul_self h0.le]
  set e := sqrt (1 - d * d) with he
  have hd2 : 0 < d * d := by positivity
  have he1 : e < 1 := by nlinarith
  have hehalf : 4 / 5 ≤ e := by nlinarith
  -- the logarithm
  have hlog : log ((1 + e) / (1 - e)) ≤ 4 * log 2 + 4 * (1 / sqrt d) := by
    have hq : (1 + e) / (1 - e) ≤ 4 / (d * d) := by
      rw [div_le_div_iff₀ (by linarith) hd2]
      nlinarith
    have hp : 0 < (1 + e) / (1 - e) := div_pos (by linarith) (by linarith)
    have h3 := log_le_log hp hq
    rw [log_div (x := 4) (by norm_num) (by positivity), show (4 : ℝ) = 2 ^ 2 by norm_num, log_pow] at h3
    have hsd : 0 < sqrt d := sqrt_pos.mpr h0
    have h4 : log (1 / sqrt d) ≤ 1 / sqrt d - 1 := log_le_sub_one_of_pos (by positivity)
    have h5 : log (d * d) = 4 * log (sqrt d) := by
      have : d * d = sqrt d ^ 4 := by
        rw [show sqrt d ^ 4 = (sqrt d * sqrt d) * (sqrt d * sqrt d) by ring, mul_self_sqrt h0.le]
      rw [this, log_pow]
      norm_num
    rw [one_div, log_inv] at h4
    rw [one_div]
    have hl2 : 0 < log 2 := log_pos (by norm_num)
    push_cast at h3
    linarith
  have hl2 : log 2 < 7 / 10 := by have := log_two_lt_d9; linarith
  have hsd : 0 < sqrt d := sqrt_pos.mpr h0
  have hss : sqrt d * sqrt d = d := mul_self_sqrt h0.le
  have hs1 : sqrt d ≤ 3 / 4 := by nlinarith
  have hdl : d * log ((1 + e) / (1 - e)) ≤ 6 * sqrt d := by
    have h6 : d * log ((1 + e) / (1 - e)) ≤ d * (4 * log 2 + 4 * (1 / sqrt d)) := mul_le_mul_of_nonneg_left hlog h0.le
    have h7 : d * (1 / sqrt d) = sqrt d := by
      nth_rw 1 [← hss]
      field_simp
    have h8 : d ≤ 3 / 4 * sqrt d := by nlinarith
    nlinarith
  have hl0 : 0 ≤ log ((1 + e) / (1 - e)) := by
    refine log_nonneg ?_
    rw [le_div_iff₀ (by linarith)]
    linarith
  have ht : 3 / 4 ≤ 1 - d * d := by linarith
  have hden : 45 / 100 ≤ (1 - d * d) * (1 - d * d) * e := by
    have : 9 / 16 ≤ (1 - d * d) * (1 - d * d) := by nlinarith
    nlinarith
  rw [div_le_iff₀ (by linarith)]
  have hnum : 1 / 2 * d * ((3 - (1 - d * d)) * log ((1 + e) / (1 - e)) - 6 * e) ≤ 3 / 2 * (6 * sqrt d) := by
    have h9 : (3 - (1 - d * d)) * log ((1 + e) / (1 - e)) ≤ 3 * log ((1 + e) / (1 - e)) := mul_le_mul_of_nonneg_right (by linarith) hl0
    have h10 : 1 / 2 * d * ((3 - (1 - d * d)) * log ((1 + e) / (1 - e)) - 6 * e) ≤ 1 / 2 * d * (3 * log ((1 + e) / (1 - e))) :=
      mul_le_mul_of_nonneg_left (by linarith) (by linarith)
    linarith
  nlinarith

/-- for flat disks the density vanishes -/
theorem jacobian_large {d : ℝ} (h1 : 2 ≤ d) : jacobian d ≤ 20 / d := by
  unfold jacobian
  have hdd : 4 ≤ d * d := by nlinarith
  have hi : 1 / (d * d) ≤ 1 / 4 := by
    rw [div_le_div_iff₀ (by linarith) (by norm_num)]; linarith
  rw [if_neg (by linarith), if_pos (by linarith)]
  dsimp only
  rw [if_neg (by norm_num at hi ⊢; linarith)]
  obtain ⟨p, hp0, hp1, hs, ha, hee, hc, hsp, hcp⟩ := oblate_angle (show 1 < d by linarith)
  rw [hc, ha, hs]
  have hsin : 4 / 5 ≤ sin p := by nlinarith
  obtain ⟨t, ht⟩ : ∃ t, t = 1 - 1 / (d * d) := ⟨_, rfl⟩
  have ht1 : 1 - (1 - 1 / (d * d)) = 1 / (d * d) := by ring
  rw [ht1, ← ht]
  have ht34 : 3 / 4 ≤ t := by rw [ht]; linarith
  have hden : 45 / 100 ≤ t * t * sin p := by
    have : 9 / 16 ≤ t * t := by nlinarith
    nlinarith
  rw [div_le_iff₀ (by linarith)]
  have hpi : p ≤ 2 := by linarith [pi_lt_d2]
  have hnum : (3 - 2 * t) * p - 3 * sin p * cos p ≤ 6 := by
    have : 0 ≤ 3 * sin p * cos p := by positivity
    nlinarith
  have h2 : 1 / (d * d) * ((3 - 2 * t) * p - 3 * sin p * cos p) ≤ 1 / (d * d) * 6 := mul_le_mul_of_nonneg_left hnum (by positivity)
  have h3 : 1 / (d * d) ≤ 1 / 2 * (1 / d) := by
    rw [div_le_iff₀ (by linarith)]
    have : 1 / 2 * (1 / d) * (d * d) = 1 / 2 * d := by field_simp
    rw [this]; linarith
  have h4 : 0 < 1 / d := by positivity
  have h5 : 20 / d = 20 * (1 / d) := by ring
  rw [h5]
  nlinarith

/-- **C68**: for every positive cut-off the search for the limits ends -/
theorem c68_limits_exist {cutoff : ℝ} (hc : 0 < cutoff) : ∃ fuel r, limits density cutoff fuel = some r := by
  -- the tails
  obtain ⟨b, hb, hsmall⟩ : ∃ b, 0 < b ∧ ∀ d, 0 < d → d ≤ b → uncut d ≤ cutoff := by
    refine ⟨min (1 / 2) ((cutoff / 400) * (cutoff / 400)), by positivity, ?_⟩
    intro d h0 hd
    have h1 := hd.trans (min_le_left _ _)
    have h2 := hd.trans (min_le_right _ _)
    have h3 := uncut_le h0
    have h4 := jacobian_small h0 h1
    have h5 : sqrt d ≤ cutoff / 400 := by
      rw [sqrt_le_left (by positivity), pow_two]; exact h2
    linarith
  obtain ⟨B, hlarge⟩ : ∃ B, ∀ d, B ≤ d → uncut d ≤ cutoff := by
    refine ⟨max 2 (200 / cutoff), ?_⟩
    intro d hd
    have h1 := (le_max_left _ _).trans hd
    have h2 := (le_max_right _ _).trans hd
    have h3 := uncut_le (show 0 < d by linarith)
    have h4 := jacobian_large h1
    have h5 : 20 / d ≤ cutoff / 10 := by
      rw [div_le_iff₀ hc] at h2
      rw [div_le_div_iff₀ (by linarith) (by norm_num)]
      linarith
    linarith
  have pw : ∀ x c : ℝ, 0 < c → ∃ n : Nat, x ≤ 2 ^ n * c := fun x c hc => by
    obtain ⟨n, hn⟩ := pow_unbounded_of_one_lt (x / c) (show (1 : ℝ) < 2 by norm_num)
    exact ⟨n, by rw [div_lt_iff₀ hc] at hn; linarith⟩
  obtain ⟨n1, hn1⟩ := pw 1 b hb
  obtain ⟨m, hm⟩ := Option.isSome_iff_exists.mp (descend_ends hb hsmall n1 1 one_pos le_rfl hn1)
  obtain ⟨m0, m1, m2⟩ := descend_spec _ 1 m one_pos le_rfl hm
  obtain ⟨n2, hn2⟩ := pw (1 - m) (m / 100) (by linarith)
  obtain ⟨r, hr⟩ := Option.isSome_iff_exists.mp (bisectMin_ends (cutoff := cutoff) m0 n2 m 1 le_rfl m1 hn2)
  obtain ⟨r1, r2, r3, -⟩ := bisectMin_spec _ m 1 r m0 m1 le_rfl m2 (Or.inl rfl) hr
  obtain ⟨n3, hn3⟩ := exists_nat_ge B
  obtain ⟨x, hx⟩ := Option.isSome_iff_exists.mp (ascend_ends (dmin := r.1) hlarge n3 1 (by linarith) (by linarith))
  obtain ⟨x1, x2⟩ := ascend_spec _ 1 x (by linarith) le_rfl hx
  obtain ⟨n4, hn4⟩ := pw (x - 1) (1 / 100) (by norm_num)
  obtain ⟨s, hs⟩ := Option.isSome_iff_exists.mp (bisectMax_ends (cutoff := cutoff) (dmin := r.1) n4 1 x le_rfl x1 hn4)
  refine ⟨(n1 + 1) + ((n2 + 1) + ((n3 + 1) + (n4 + 1))), (r.1, s.2), ?_⟩
  unfold limits
  rw [descend_more _ _ _ _ hm]
  simp only [Option.bind_eq_bind, Option.bind_some]
  rw [show (n1 + 1) + ((n2 + 1) + ((n3 + 1) + (n4 + 1))) = (n2 + 1) + ((n1 + 1) + ((n3 + 1) + (n4 + 1))) by omega,
    bisectMin_more _ _ _ _ _ hr]
  simp only [Option.bind_some]
  rw [show (n2 + 1) + ((n1 + 1) + ((n3 + 1) + (n4 + 1))) = (n3 + 1) + ((n1 + 1) + ((n2 + 1) + (n4 + 1))) by omega,
    ascend_more _ _ _ _ hx]
  simp only [Option.bind_some]
  rw [show (n3 + 1) + ((n1 + 1) + ((n2 + 1) + (n4 + 1))) = (n4 + 1) + ((n1 + 1) + ((n2 + 1) + (n3 + 1))) by omega,
    bisectMax_more _ _ _ _ _ hs]
  rfl

/-- the limits at work: a real cut-off, and limits that are not trivial -/
example : ∃ fuel dmin dmax, limits density (15 / 100) fuel = some (dmin, dmax) ∧ dmin < 1 := by
  obtain ⟨fuel, ⟨dmin, dmax⟩, h⟩ := c68_limits_exist (show (0 : ℝ) < 15 / 100 by norm_num)
  refine ⟨fuel, dmin, dmax, h, ?_⟩
  obtain ⟨h0, h1, -, h3, -⟩ := c68_limits h
  refine lt_of_le_of_ne h1 fun he => ?_
  rw [he] at h3
  unfold uncut cde2 shapeFactor jacobian at h3
  norm_num at h3

/-! ### the limits for a fraction -/

theorem fracMin_spec {I : ℝ → ℝ → ℝ} {target : ℝ} : ∀ fuel lower upper m, lower ≤ upper → fracMin I target fuel lower upper = some m →
    lower ≤ m ∧ m ≤ upper ∧ |I m 1 - target| ≤ 5 / 1000 * |I m 1 + target|
  | 0, _, _, _, _, h => by simp [fracMin] at h
  | fuel + 1, lower, upper, m, hlu, h => by
    unfold fracMin at h
    dsimp only at h
    split_ifs at h with hw hc
    · obtain ⟨a, b, c⟩ := fracMin_spec fuel _ _ m (by linarith) h
      exact ⟨by linarith, b, c⟩
    · obtain ⟨a, b, c⟩ := fracMin_spec fuel _ _ m (by linarith) h
      exact ⟨a, by linarith, c⟩
    · rw [← Option.some.inj h]
      exact ⟨by linarith, by linarith, by linarith⟩

theorem fracBracket_spec {I : ℝ → ℝ → ℝ} {target : ℝ} : ∀ fuel upper u, 0 ≤ upper → fracBracket I target fuel upper = some u →
    upper ≤ u ∧ target ≤ I 1 u
  | 0, _, _, _, h => by simp [fracBracket] at h
  | fuel + 1, upper, u, h0, h => by
    unfold fracBracket at h
    split_ifs at h with hc
    · obtain ⟨a, b⟩ := fracBracket_spec fuel _ u (by linarith) h
      exact ⟨by linarith, b⟩
    · rw [← Option.some.inj h]
      exact ⟨le_rfl, by linarith⟩

theorem fracMax_spec {I : ℝ → ℝ → ℝ} {target : ℝ} : ∀ fuel lower upper m, lower ≤ upper → fracMax I target fuel lower upper = some m →
    lower ≤ m ∧ m ≤ upper ∧ |I 1 m - target| ≤ 1 / 10 ^ 5 * |I 1 m + target|
  | 0, _, _, _, _, h => by simp [fracMax] at h
  | fuel + 1, lower, upper, m, hlu, h => by
    unfold fracMax at h
    dsimp only at h
    split_ifs at h with hw hc
    · obtain ⟨a, b, c⟩ := fracMax_spec fuel _ _ m (by linarith) h
      exact ⟨a, by linarith, c⟩
    · obtain ⟨a, b, c⟩ := fracMax_spec fuel _ _ m (by linarith) h
      exact ⟨by linarith, b, c⟩
    · rw [← Option.some.inj h]
      exact ⟨by linarith, by linarith, by linarith⟩

/-- **C68**: the limits found for a fraction enclose, on each side of the sphere, that fraction of the (numerically
integrated) probability: to half a percent on the prolate side, to `10^-5` on the oblate side -/
theorem c68_fraction {I : ℝ → ℝ → ℝ} {fraction : ℝ} {fuel : Nat} {dmin dmax : ℝ} (h : fracLimits I fraction fuel = some (dmin, dmax)) :
    0 ≤ dmin ∧ dmin ≤ 1 ∧ 1 ≤ dmax ∧
    |I dmin 1 - fraction * I 0 1| ≤ 5 / 1000 * |I dmin 1 + fraction * I 0 1| ∧
    |I 1 dmax - fraction * (1 - I 0 1)| ≤ 1 / 10 ^ 5 * |I 1 dmax + fraction * (1 - I 0 1)| := by
  unfold fracLimits at h
  simp only [Option.bind_eq_bind, Option.bind_eq_some_iff, Option.pure_def, Option.some.injEq] at h
  obtain ⟨m, h1, u, h2, x, h3, h4⟩ := h
  obtain ⟨e1, e2⟩ := Prod.mk.inj h4
  subst e1; subst e2
  obtain ⟨m1, m2, m3⟩ := fracMin_spec fuel 0 1 m (by norm_num) h1
  obtain ⟨u1, u2⟩ := fracBracket_spec fuel 2 u (by norm_num) h2
  obtain ⟨x1, x2, x3⟩ := fracMax_spec fuel 1 u x (by linarith) h3
  exact ⟨m1, m2, x1, m3, x3⟩

example : fracLimits (fun a b => (b - a) / 2) (1 / 2) 1 = some (1 / 2, 3 / 2) := by
  unfold fracLimits fracMin fracBracket fracMax
  norm_num

/-! ### the quadrature points of the distribution -/

/-- **C68**: the points are those of the Gauss-Legendre rule between the limits, every weight is that of the rule times
the density at the point -/
theorem c68_points (o : Special.Ops ℝ) (fuel npoints : Nat) (p : ℝ → ℝ) (dmin dmax : ℝ) {x w : Nat → ℝ}
    (h : evaluate o fuel npoints p dmin dmax = some (x, w)) :
    ∃ v, Special.gaussLegendreAB o fuel npoints dmin dmax (fun _ => 0, fun _ => 0) = some (x, v) ∧
      ∀ i < npoints, w i = v i * p (x i) := by
  unfold evaluate at h
  rw [Option.map_eq_some_iff] at h
  obtain ⟨⟨x', v⟩, h1, h2⟩ := h
  obtain ⟨e1, e2⟩ := Prod.mk.inj h2
  dsimp only at e1 e2
  subst e1
  refine ⟨v, h1, ?_⟩
  have := Verif.Matrix.loop_inv (fun k (s : Nat → ℝ) => ∀ i, s i = if i < k then v i * p (x' i) else v i) (Nat.zero_le npoints)
    (fun i w => Function.update w i (w i * p (x' i))) v (fun i => by rw [if_neg (by omega)]) (fun k s _ _ hs i => by
      by_cases hik : i = k
      · subst hik
        rw [Function.update_self, hs, if_neg (by omega), if_pos (by omega)]
      · rw [Function.update_of_ne hik, hs]
        exact if_congr (by omega) rfl rfl)
  intro i hi
  rw [← e2, this i, if_pos hi]

end Verif.Shape
