import Verif.Model.Python
import Verif.Spec.PythonInit
import Verif.Properties.Orientation
import Verif.Properties.Calculator
import Verif.Properties.Spheroid
import Mathlib.MeasureTheory.Integral.Bochner.ContinuousLinearMap
import Mathlib.MeasureTheory.Measure.Dirac
import Mathlib.MeasureTheory.Integral.DominatedConvergence

/-!
# C88: creating a `TMatrix` object
-/
namespace Verif.Python

open MeasureTheory Real
open Verif.Legendre (P)
open Verif.TMatrix (TRes Valid)
open Verif.Alignment (Stores averaged Axisymmetric)
open Verif.Orientation (mishchenkoP getCoefficient davisGreenstein mishchenko maximumOrder)

/-! ### distributions -/

theorem P_two (x : ℝ) : (P 2).eval x = 3 / 2 * x ^ 2 - 1 / 2 := by
  have hb := congrArg (Polynomial.eval x) (Legendre.bonnet 0)
  simp only [Nat.cast_zero, zero_add, mul_zero, Polynomial.eval_mul, Polynomial.eval_sub, Polynomial.eval_C, Polynomial.eval_X, Legendre.P_zero,
    Legendre.P_one, Polynomial.eval_one] at hb
  linarith

theorem integrable_of_bound {μ : Measure ℝ} (h : AngleDist μ) {f : ℝ → ℝ} (hc : Continuous f) (C : ℝ) (hb : ∀ x, |f x| ≤ C) : Integrable f μ := by
  have := h.prob
  exact Integrable.of_bound hc.aestronglyMeasurable C (Filter.Eventually.of_forall hb)

theorem int_cos2 {μ : Measure ℝ} (h : AngleDist μ) : Integrable (fun β => cos β ^ 2) μ :=
  integrable_of_bound h (by fun_prop) 1 fun x => by
    rw [abs_of_nonneg (sq_nonneg _)]
    exact cos_sq_le_one x

theorem integral_P_two {μ : Measure ℝ} (h : AngleDist μ) : ∫ β, (P 2).eval (cos β) ∂μ = 3 / 2 * meanCos2 μ - 1 / 2 := by
  have := h.prob
  simp only [P_two]
  rw [integral_sub ((int_cos2 h).const_mul _) (integrable_const _), integral_const_mul]
  simp [meanCos2]

theorem integral_comb {μ : Measure ℝ} [IsProbabilityMeasure μ] {f g : ℝ → ℝ} (hf : Integrable f μ) (hg : Integrable g μ) (a b k : ℝ) :
    ∫ β, (a * f β + b * g β + k) ∂μ = a * (∫ β, f β ∂μ) + b * (∫ β, g β ∂μ) + k := by
  have h1 := integral_add (μ := μ) (f := fun β => a * f β + b * g β) (g := fun _ => k) ((hf.const_mul a).add (hg.const_mul b)) (integrable_const k)
  have h2 := integral_add (μ := μ) (f := fun β => a * f β) (g := fun β => b * g β) (hf.const_mul a) (hg.const_mul b)
  rw [h1, h2, integral_const_mul, integral_const_mul]
  simp

/-- `δ`: all grains have the same angle -/
theorem dirac_dist {β : ℝ} (h0 : 0 ≤ β) (h1 : β ≤ π) : AngleDist (Measure.dirac β) :=
  ⟨Measure.dirac.isProbabilityMeasure, by
    rw [Measure.dirac_apply' _ measurableSet_Icc.compl]
    simp [h0, h1]⟩

/-- the distribution with a given density with respect to the angle -/
noncomputable def withDensity (f : ℝ → ℝ) : Measure ℝ := (volume.restrict (Set.Ioc 0 π)).withDensity fun β => ENNReal.ofReal (f β * sin β)

theorem integral_density {f : ℝ → ℝ} (hf : Continuous f) (hp : ∀ β ∈ Set.Icc 0 π, 0 ≤ f β) (g : ℝ → ℝ) :
    ∫ β, g β ∂withDensity f = ∫ β in (0 : ℝ)..π, f β * g β * sin β := by
  unfold withDensity
  rw [integral_withDensity_eq_integral_toReal_smul (by fun_prop) (Filter.Eventually.of_forall fun _ => ENNReal.ofReal_lt_top),
    intervalIntegral.integral_of_le pi_pos.le]
  refine setIntegral_congr_fun measurableSet_Ioc fun β hβ => ?_
  change (ENNReal.ofReal (f β * sin β)).toReal • g β = f β * g β * sin β
  rw [ENNReal.toReal_ofReal (mul_nonneg (hp β ⟨hβ.1.le, hβ.2⟩) (sin_nonneg_of_nonneg_of_le_pi hβ.1.le hβ.2)), smul_eq_mul]
  ring

theorem density_dist {f : ℝ → ℝ} (hf : Continuous f) (hp : ∀ β ∈ Set.Icc 0 π, 0 ≤ f β) (h1 : ∫ β in (0 : ℝ)..π, f β * sin β = 1) :
    AngleDist (withDensity f) := by
  constructor
  · constructor
    unfold withDensity
    rw [withDensity_apply _ MeasurableSet.univ, Measure.restrict_univ, ← ofReal_integral_eq_lintegral_ofReal]
    · rw [← intervalIntegral.integral_of_le pi_pos.le, h1, ENNReal.ofReal_one]
    · exact ((hf.mul continuous_sin).integrableOn_Icc (a := 0) (b := π)).mono_set Set.Ioc_subset_Icc_self
    · refine (ae_restrict_iff' measurableSet_Ioc).mpr (Filter.Eventually.of_forall fun β hβ => ?_)
      exact mul_nonneg (hp β ⟨hβ.1.le, hβ.2⟩) (sin_nonneg_of_nonneg_of_le_pi hβ.1.le hβ.2)
  · unfold withDensity
    rw [withDensity_apply _ measurableSet_Icc.compl, Measure.restrict_restrict measurableSet_Icc.compl]
    have : (Set.Icc 0 π)ᶜ ∩ Set.Ioc 0 π = ∅ := by
      ext x
      simp only [Set.mem_inter_iff, Set.mem_compl_iff, Set.mem_Icc, Set.mem_Ioc, Set.mem_empty_iff_false, iff_false]
      exact fun h => h.1 ⟨h.2.1.le, h.2.2⟩
    rw [this, Measure.restrict_empty, lintegral_zero_measure]

theorem coef_of {d : Orientation.Dist ℝ} {n : Nat} {v : ℝ} (h : getCoefficient d n = .ok v) : d.coef n = v := by
  unfold getCoefficient at h
  split at h
  · exact Except.ok.inj h
  · cases h

theorem size_of {d : Orientation.Dist ℝ} {n N : Nat} {v : ℝ} (h : getCoefficient d n = .ok v) (hm : maximumOrder d = N) : d.size = N + 1 := by
  unfold getCoefficient at h
  unfold maximumOrder at hm
  split at h
  · omega
  · cases h

/-- **C88** (part that holds) the orientation distribution for a value of `cos2beta`: an average over a probability distribution of angles with
this mean `cos²`, for flattened grains (`1 ≤ axis_ratio`) with `cos2beta = 1`, elongated ones with `cos2beta = 0`, and all with
`1/5 ≤ cos2beta ≤ 3/5`.  Missing: all other values from 0 to 1 (see below), and `1/3`, for which the coefficients are those of the adaptive quadrature
(C39, C70). -/
theorem c88_choice_partial (fuel : Nat) {c axisRatio : ℝ} {nmax : Nat} (hn : 1 ≤ nmax)
    (h : (c = 0 ∧ axisRatio < 1) ∨ (c = 1 ∧ 1 ≤ axisRatio) ∨ (1 / 5 ≤ c ∧ c ≤ 3 / 5 ∧ c ≠ 1 / 3)) :
    ∃ d μ, orientation fuel c axisRatio nmax = .ok (some d) ∧ d.size = 2 * nmax + 1 ∧ AngleDist μ ∧ meanCos2 μ = c ∧ Expands μ d.coef (2 * nmax) := by
  obtain ⟨_, g1, g2, g3⟩ := Orientation.c39_davis_greenstein (2 * nmax) axisRatio
  rcases h with ⟨rfl, ha⟩ | ⟨rfl, ha⟩ | ⟨h1, h2, h3⟩
  · refine ⟨davisGreenstein (2 * nmax) axisRatio, Measure.dirac (π / 2), ?_, size_of (g2 ha 0 (by omega)) g1,
      dirac_dist (by positivity) (by linarith [pi_pos]), ?_, fun n hn => ?_⟩
    · unfold orientation
      rw [if_pos le_rfl, if_pos (.inl rfl)]
    · unfold meanCos2
      rw [integral_dirac, cos_pi_div_two]
      norm_num
    · rw [coef_of (g2 ha n hn), integral_dirac, cos_pi_div_two]
  · refine ⟨davisGreenstein (2 * nmax) axisRatio, Measure.dirac 0, ?_, size_of (g3 ha 0 (by omega)) g1, dirac_dist le_rfl pi_pos.le, ?_, fun n hn => ?_⟩
    · unfold orientation
      rw [if_pos (by norm_num), if_pos (.inr rfl)]
    · unfold meanCos2
      rw [integral_dirac, cos_zero]
      norm_num
    · rw [coef_of (g3 ha n hn), integral_dirac, cos_zero]
  · obtain ⟨k1, k2, k3⟩ := Orientation.c39_mishchenko c
    obtain ⟨d, d1, _, d3, d4⟩ := (Orientation.c39_mishchenko_coefficients (2 * nmax) c).1 (by omega)
    have hp := k1.mpr ⟨h1, h2⟩
    have hcont : Continuous fun β => mishchenkoP c β (cos β) (sin β) := by
      unfold mishchenkoP
      fun_prop
    refine ⟨d, withDensity fun β => mishchenkoP c β (cos β) (sin β), ?_, size_of (d4 0 (by omega)) d3, density_dist hcont hp k2, ?_, fun n hn => ?_⟩
    · unfold orientation
      rw [if_pos (by linarith : c ≥ 0), if_neg (by rintro (h | h) <;> linarith), if_neg h3, d1]
      rfl
    · unfold meanCos2
      rw [integral_density hcont hp, k3]
    · rw [coef_of (d4 n hn), integral_density hcont hp]
      rfl

/-- **C88** (negation 1) a flattened grain (or a sphere) with `cos2beta = 0`: the averages are those for `cos² β = 1` -/
theorem c88_violated_oblate (fuel : Nat) {axisRatio : ℝ} (ha : 1 ≤ axisRatio) {nmax : Nat} (hn : 1 ≤ nmax) :
    ∃ d, orientation fuel 0 axisRatio nmax = .ok (some d) ∧ Expands (Measure.dirac 0) d.coef (2 * nmax)
      ∧ ∀ μ, AngleDist μ → Expands μ d.coef (2 * nmax) → meanCos2 μ = 1 := by
  obtain ⟨_, g1, g2, g3⟩ := Orientation.c39_davis_greenstein (2 * nmax) axisRatio
  refine ⟨davisGreenstein (2 * nmax) axisRatio, ?_, fun n hn => ?_, fun μ hμ he => ?_⟩
  · unfold orientation
    rw [if_pos le_rfl, if_pos (.inl rfl)]
  · rw [coef_of (g3 ha n hn), integral_dirac, cos_zero]
  · have := he 2 (by omega)
    rw [coef_of (g3 ha 2 (by omega)), integral_P_two hμ, P_two] at this
    linarith

/-- **C88** (negation 2) an elongated grain with `cos2beta = 1`: the averages are those for `cos² β = 0` -/
theorem c88_violated_prolate (fuel : Nat) {axisRatio : ℝ} (ha : axisRatio < 1) {nmax : Nat} (hn : 1 ≤ nmax) :
    ∃ d, orientation fuel 1 axisRatio nmax = .ok (some d) ∧ Expands (Measure.dirac (π / 2)) d.coef (2 * nmax)
      ∧ ∀ μ, AngleDist μ → Expands μ d.coef (2 * nmax) → meanCos2 μ = 0 := by
  obtain ⟨_, g1, g2, g3⟩ := Orientation.c39_davis_greenstein (2 * nmax) axisRatio
  refine ⟨davisGreenstein (2 * nmax) axisRatio, ?_, fun n hn => ?_, fun μ hμ he => ?_⟩
  · unfold orientation
    rw [if_pos (by norm_num), if_pos (.inr rfl)]
  · rw [coef_of (g2 ha n hn), integral_dirac, cos_pi_div_two]
  · have := he 2 (by omega)
    rw [coef_of (g2 ha 2 (by omega)), integral_P_two hμ, P_two] at this
    linarith

theorem P_four (x : ℝ) : (P 4).eval x = 35 / 8 * x ^ 4 - 15 / 4 * x ^ 2 + 3 / 8 := by
  have h1 := congrArg (Polynomial.eval x) (Legendre.bonnet 1)
  have h2 := congrArg (Polynomial.eval x) (Legendre.bonnet 2)
  simp only [Nat.cast_one, Nat.cast_ofNat, Polynomial.eval_mul, Polynomial.eval_sub, Polynomial.eval_C, Polynomial.eval_X, Legendre.P_one] at h1 h2
  norm_num at h1 h2
  rw [P_two] at h1 h2
  have h3 : (P 3).eval x = 5 / 2 * x ^ 3 - 3 / 2 * x := by linarith
  rw [h3] at h2
  linarith

/-- **C88** (negation 3) most other values: the coefficients do not belong to any distribution of angles -/
theorem c88_violated_range (fuel : Nat) {c : ℝ} (axisRatio : ℝ) (h0 : 0 < c) (h1 : c ≠ 1) (h3 : c ≠ 1 / 3) (h : 0 < 35 * c ^ 2 - 30 * c + 3) {nmax : Nat}
    (hn : 2 ≤ nmax) :
    ∃ d, orientation fuel c axisRatio nmax = .ok (some d) ∧ ¬ ∃ μ, AngleDist μ ∧ Expands μ d.coef (2 * nmax) := by
  obtain ⟨d, d1, _, d3, d4⟩ := (Orientation.c39_mishchenko_coefficients (2 * nmax) c).1 (by omega)
  refine ⟨d, ?_, ?_⟩
  · unfold orientation
    rw [if_pos (le_of_lt h0 : c ≥ 0), if_neg (by rintro (rfl | rfl); exacts [lt_irrefl _ h0, h1 rfl]), if_neg h3, d1]
    rfl
  · rintro ⟨μ, hμ, he⟩
    have := hμ.prob
    have e2 := he 2 (by omega)
    have e4 := he 4 (by omega)
    rw [coef_of (d4 2 (by omega)), Orientation.expansion_mishchenko, integral_P_two hμ] at e2
    rw [coef_of (d4 4 (by omega)), Orientation.expansion_mishchenko] at e4
    norm_num [Orientation.p2] at e2 e4
    have hm : meanCos2 μ = c := by linarith
    have i4 : Integrable (fun β => cos β ^ 4) μ := integrable_of_bound hμ (by fun_prop) 1 fun x => by
      rw [abs_of_nonneg (by positivity), show cos x ^ 4 = (cos x ^ 2) ^ 2 by ring]
      exact pow_le_one₀ (sq_nonneg _) (cos_sq_le_one x)
    simp only [P_four] at e4
    have hc4 := integral_comb (μ := μ) i4 (int_cos2 hμ) (35 / 8) (-(15 / 4)) (3 / 8)
    change _ = 35 / 8 * _ + -(15 / 4) * meanCos2 μ + _ at hc4
    rw [hm] at hc4
    have e4' : (0 : ℝ) = ∫ β, (35 / 8 * cos β ^ 4 + -(15 / 4) * cos β ^ 2 + 3 / 8) ∂μ := by
      rw [e4]
      congr 1
      funext β
      ring
    rw [hc4] at e4'
    have hv : 0 ≤ ∫ β, (cos β ^ 2 - c) ^ 2 ∂μ := integral_nonneg fun β => sq_nonneg _
    have hx : (fun β => (cos β ^ 2 - c) ^ 2) = fun β => 1 * cos β ^ 4 + (-(2 * c)) * cos β ^ 2 + c ^ 2 := by
      funext β
      ring
    have hcv := integral_comb (μ := μ) i4 (int_cos2 hμ) 1 (-(2 * c)) (c ^ 2)
    change _ = 1 * _ + -(2 * c) * meanCos2 μ + _ at hcv
    rw [hm] at hcv
    rw [hx, hcv] at hv
    nlinarith

/-- such values: nearly aligned grains, and values above 1 -/
example : (0 : ℝ) < 35 * (1 / 10) ^ 2 - 30 * (1 / 10) + 3 ∧ (0 : ℝ) < 35 * (3 / 4) ^ 2 - 30 * (3 / 4) + 3 ∧ (0 : ℝ) < 35 * 2 ^ 2 - 30 * 2 + 3 := by norm_num

/-- **C88** the radius: if the radius that is given is that of the sphere with the same surface, the T-matrix is computed with that of the
sphere with the same volume -/
theorem c88_radius (A : Args) : (A.isEqualVolumeRadius = true → radiusV A = A.radius)
    ∧ ∀ a b RV, 0 < a → 0 < b → A.axisRatio = a / b → Spheroid.EqualSurface a b A.radius → Spheroid.EqualVolume a b RV → A.isEqualVolumeRadius = false →
        radiusV A = RV := by
  constructor
  · intro h
    unfold radiusV ratioOfRadii
    simp [h]
  · intro a b RV ha hb hd hS hV h
    unfold radiusV ratioOfRadii
    rw [h]
    simp only [Bool.false_eq_true, if_false]
    rw [if_pos (by norm_num [abs_of_neg]), hd, Spheroid.c85_ratio ha hb hV hS, div_mul_cancel₀ _ hS.1.ne']

/-- **C88** the object: the T-matrix found by the convergence loops (C38) for that radius, averaged over the chosen distribution; not averaged for
negative `cos2beta` -/
theorem c88_init_partial (make : ℝ → Nat → Nat → TRes ℂ ℝ) (complete : TRes ℂ ℝ → TRes ℂ ℝ) (fuel : Nat) (A : Args) {T : TRes ℂ ℝ}
    (hT : Calculator.calculate (make (radiusV A)) complete
      (Calculator.startOrder Spheroid.sphereRatio (ratioOfRadii A) A.axisRatio A.radius A.wavelength) A.maximumOrder A.gaussLegendreFactor
      A.maximumNgauss A.tolerance = .ok T) (hn : 1 ≤ T.nmax) {maxOrder : Nat} (hs : T.Shape maxOrder) (ho : T.nmax ≤ maxOrder)
    (Tm : Nat → Nat → Int → Nat → Nat → ℂ) (hA : Axisymmetric Tm) (hS : Stores T Tm) :
    (A.cos2beta < 0 → init make complete fuel A = .ok T)
    ∧ ((A.cos2beta = 0 ∧ A.axisRatio < 1) ∨ (A.cos2beta = 1 ∧ 1 ≤ A.axisRatio) ∨ (1 / 5 ≤ A.cos2beta ∧ A.cos2beta ≤ 3 / 5 ∧ A.cos2beta ≠ 1 / 3) →
      ∃ r μ, init make complete fuel A = .ok r ∧ r.nmax = T.nmax ∧ AngleDist μ ∧ meanCos2 μ = A.cos2beta
        ∧ ∀ {i n1 m j n2 : Nat}, Valid T.nmax i n1 m → Valid T.nmax j n2 m →
          r.get i n1 m j n2 = averaged (fun x : ℝ => (x : ℂ)) (fun N => ∫ β, (P N.toNat).eval (cos β) ∂μ) Tm i n1 m j n2) := by
  constructor
  · intro h
    unfold init
    rw [hT]
    dsimp only
    have : orientation fuel A.cos2beta A.axisRatio T.nmax = .ok none := by
      unfold orientation
      rw [if_neg (not_le.mpr h)]
    rw [this]
  · intro h
    obtain ⟨d, μ, h1, h2, h3, h4, h5⟩ := c88_choice_partial fuel hn h
    obtain ⟨k1, k2, k3, k4⟩ := Calculator.c57_standalone Complex.ofRealHom T hs ho ⟨d.size, fun i => d.coef i.toNat, true⟩ Tm hA hS
    refine ⟨(Calculator.applyOrientation Real.sqrt (fun x : ℝ => (x : ℂ)) T ⟨d.size, fun i => d.coef i.toNat, true⟩).out, μ, ?_, k2, h3, h4, ?_⟩
    · unfold init
      rw [hT]
      dsimp only
      rw [h1]
      dsimp only
      refine if_pos ?_
      have k4' := k4 hn
      have : decide (2 * (T.nmax : Int) < (d.size : Int)) = true := by
        rw [decide_eq_true_eq, h2]
        push_cast
        omega
      rw [Bool.and_eq_true]
      refine ⟨k3, k4'.trans ?_⟩
      rw [this]
      rfl
    · intro i n1 m j n2 hv hv'
      refine (k1 hv hv').trans ?_
      unfold averaged
      refine Finset.sum_congr rfl fun N hN => Finset.sum_congr rfl fun m1 _ => ?_
      rw [Finset.mem_Icc] at hN
      have b1 := hv.n
      have b2 := hv'.n
      have e := h5 N.toNat (by omega)
      dsimp only
      rw [e]
      rfl

/-! ### a concrete case -/

/-- a full T-matrix of order 5 -/
def exT : TRes ℂ ℝ :=
  ⟨5, 11, fun m => ⟨2 * (6 - m), 2 * (6 - m), fun k => if k / (2 * (6 - m)) = k % (2 * (6 - m)) then 1 else 0⟩, 0, 0, 0, 0⟩

def exTm (i n1 : Nat) (_ : Int) (j n2 : Nat) : ℂ := if i = j ∧ n1 = n2 then 1 else 0

theorem exT_stores : Stores exT exTm := by
  intro i n1 m j n2 h h'
  have l1 := TMatrix.index_lt h.i h.max h.n
  have l2 := TMatrix.index_lt h'.i h'.max h'.n
  have e1 := TMatrix.index_eq (i := i) h.max h.n
  have e2 := TMatrix.index_eq (i := j) h'.max h'.n
  have a1 := h.i; have a2 := h.max; have a3 : n1 ≤ 5 := h.n
  have b1 := h'.i; have b2 := h'.max; have b3 : n2 ≤ 5 := h'.n
  rw [show exT.nmax = 5 from rfl] at l1 l2 e1 e2
  unfold TRes.get exTm
  rw [show exT.nmax = 5 from rfl]
  generalize TRes.index 5 m i n1 = x at *
  generalize TRes.index 5 m j n2 = y at *
  change (if (x * (2 * (6 - m)) + y) / (2 * (6 - m)) = (x * (2 * (6 - m)) + y) % (2 * (6 - m)) then (1 : ℂ) else 0) = _
  have hy : y < 2 * (6 - m) := by omega
  rw [Nat.mul_comm x, Nat.mul_add_mod, Nat.mod_eq_of_lt hy, Nat.mul_add_div (by omega), Nat.div_eq_of_lt hy, Nat.add_zero]
  have hc : x = y ↔ i = j ∧ n1 = n2 := by
    obtain rfl | rfl : i = 0 ∨ i = 1 := by omega
    all_goals obtain rfl | rfl : j = 0 ∨ j = 1 := by omega
    all_goals omega
  rw [if_congr hc rfl rfl]

theorem exT_axisymmetric : Axisymmetric exTm := by
  intro i n1 m j n2
  unfold exTm
  split
  · rename_i h
    rw [h.1, ← two_mul, pow_mul]
    norm_num
  · simp

/-- a small, slightly flattened grain with imperfect alignment -/
noncomputable def exArgs : Args :=
  { radius := 1 / 100, axisRatio := 2, wavelength := 1, mr := ⟨3 / 2, 1 / 10⟩, cos2beta := 3 / 5, tolerance := 1 / 10, maximumOrder := 100 }

theorem exArgs_start : Calculator.startOrder Spheroid.sphereRatio (ratioOfRadii exArgs) 2 (1 / 100) 1 = 4 := by
  unfold Calculator.startOrder ratioOfRadii exArgs
  simp only [if_true]
  rw [if_neg (by norm_num)]
  have hx : 2 * π * (1 * (1 / 100 : ℝ)) / 1 ≤ 1 / 10 := by linarith [pi_lt_four]
  have hx0 : 0 ≤ 2 * π * (1 * (1 / 100 : ℝ)) / 1 := by positivity
  generalize 2 * π * (1 * (1 / 100 : ℝ)) / 1 = x at hx hx0
  have hp : x ^ ((1 : ℝ) / 3) ≤ 1 := rpow_le_one hx0 (by linarith) (by norm_num)
  rw [Nat.floor_eq_iff (by positivity)]
  constructor
  · exact le_max_left _ _
  · rw [max_lt_iff]
    constructor <;> norm_num
    linarith

theorem exArgs_calculate : Calculator.calculate Calculator.constant (fun _ => exT) 4 100 2 500 (1 / 10) = .ok exT :=
  (Calculator.c38_success Calculator.constant (fun _ => exT) 4 100 2 500 (1 / 10) (by norm_num) (by omega) (by omega) _).mpr
    ⟨5, 11, Calculator.constant_first, by omega, ⟨by omega, Calculator.constant_points (by omega), by omega⟩, by omega, rfl⟩

example : ∃ r μ, init (fun _ => Calculator.constant) (fun _ => exT) 0 exArgs = .ok r ∧ AngleDist μ ∧ meanCos2 μ = 3 / 5
    ∧ r.get 0 1 1 0 1 = averaged (fun x : ℝ => (x : ℂ)) (fun N => ∫ β, (P N.toNat).eval (cos β) ∂μ) exTm 0 1 1 0 1 := by
  obtain ⟨r, μ, h1, _, h3, h4, h5⟩ := (c88_init_partial (fun _ => Calculator.constant) (fun _ => exT) 0 exArgs (T := exT) (by
    change Calculator.calculate Calculator.constant _ (Calculator.startOrder Spheroid.sphereRatio (ratioOfRadii exArgs) 2 (1 / 100) 1) 100 2 500 (1 / 10) = _
    rw [exArgs_start, exArgs_calculate]) (by decide) (maxOrder := 5) (fun m _ => ⟨rfl, rfl⟩) (by decide) exTm exT_axisymmetric exT_stores).2
    (.inr (.inr ⟨by norm_num [exArgs], by norm_num [exArgs], by norm_num [exArgs]⟩))
  exact ⟨r, μ, h1, h3, h4, h5 ⟨by decide, by decide, by decide, by decide⟩ ⟨by decide, by decide, by decide, by decide⟩⟩

end Verif.Python
