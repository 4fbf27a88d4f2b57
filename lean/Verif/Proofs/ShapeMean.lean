import Verif.Properties.Shape
import Verif.Proofs.Refine
import Mathlib.MeasureTheory.Integral.DominatedConvergence
import Mathlib.MeasureTheory.Integral.IntervalIntegral.Basic
import Mathlib.Analysis.Calculus.LocalExtr.Basic

/-!
# Proofs: the density of the shape distribution is positive and piecewise continuous; quadrature rules for piecewise continuous functions
-/
namespace Verif.Shape

open Real Filter Topology

set_option autoImplicit false

theorem cusa_pos {p : ℝ} (h0 : 0 < p) (h1 : p < π / 2) : 0 < (3 - 2 * (sin p * sin p)) * p - 3 * (sin p * cos p) := by
  have hd : ∀ x : ℝ, HasDerivAt (fun x : ℝ => (3 - 2 * (sin x * sin x)) * x - 3 * (sin x * cos x)) (4 * sin x * (sin x - x * cos x)) x := by
    intro x
    have h := ((((hasDerivAt_sin x).mul (hasDerivAt_sin x)).const_mul 2).const_sub 3 |>.mul (hasDerivAt_id' x)).sub
      (((hasDerivAt_sin x).mul (hasDerivAt_cos x)).const_mul 3)
    refine HasDerivAt.congr_deriv (f := fun x : ℝ => (3 - 2 * (sin x * sin x)) * x - 3 * (sin x * cos x)) h ?_
    simp only [Pi.mul_apply]
    linear_combination (-3) * sin_sq_add_cos_sq x
  have hm : StrictMonoOn (fun x : ℝ => (3 - 2 * (sin x * sin x)) * x - 3 * (sin x * cos x)) (Set.Icc 0 (π / 2)) := by
    refine strictMonoOn_of_deriv_pos (convex_Icc _ _) (fun x _ => (hd x).continuousAt.continuousWithinAt) ?_
    intro x hx
    rw [interior_Icc] at hx
    rw [(hd x).deriv]
    have hs : 0 < sin x := sin_pos_of_pos_of_lt_pi hx.1 (by linarith [hx.2, pi_pos])
    have hc : 0 < cos x := cos_pos_of_mem_Ioo ⟨by linarith [hx.1, pi_pos], hx.2⟩
    have ht := lt_tan hx.1 hx.2
    rw [tan_eq_sin_div_cos, lt_div_iff₀ hc] at ht
    have h3 : 0 < sin x - x * cos x := by linarith
    positivity
  have := hm (Set.left_mem_Icc.mpr (by positivity)) ⟨h0.le, h1.le⟩ h0
  simpa using this

theorem jacobian_pos {d : ℝ} (h0 : 0 < d) : 0 < jacobian d := by
  by_cases hst : Strip d
  · exact lt_of_lt_of_le (by norm_num) (strip_jacobian_pos h0 hst)
  unfold Strip at hst
  push Not at hst
  rcases lt_trichotomy d 1 with h | h | h
  · unfold jacobian
    rw [if_pos h]
    dsimp only
    rw [if_neg (not_lt.mpr (hst.1 h))]
    have he2 : 0 < 1 - d * d := by nlinarith
    have hepos := sqrt_pos.mpr he2
    have hee := mul_self_sqrt he2.le
    have hd2 : 0 < sqrt (1 - (1 - d * d)) := sqrt_pos.mpr (by nlinarith)
    set e := sqrt (1 - d * d) with he
    have he1 : e < 1 := by nlinarith
    have hl := log_ge hepos he1
    rw [← hee] at hd2 ⊢
    refine div_pos (mul_pos (by linarith) ?_) (by positivity)
    have h3 : (3 - e * e) * (2 * (e + e ^ 3 / 3 + e ^ 5 / 5)) ≤ (3 - e * e) * log ((1 + e) / (1 - e)) :=
      mul_le_mul_of_nonneg_left hl (by nlinarith)
    have h4 : (3 - e * e) * (2 * (e + e ^ 3 / 3 + e ^ 5 / 5)) - 6 * e = 2 * e ^ 5 * (4 / 15 - e ^ 2 / 5) := by ring
    have h5 : 0 < 2 * e ^ 5 * (4 / 15 - e ^ 2 / 5) := mul_pos (by positivity) (by nlinarith)
    linarith
  · exact absurd h hst.2.2
  · unfold jacobian
    rw [if_neg (by linarith), if_pos h]
    dsimp only
    rw [if_neg (not_lt.mpr (hst.2.1 h))]
    obtain ⟨p, hp0, hp1, hs, ha, hee, hc, hsp, hcp⟩ := oblate_angle h
    rw [hc, ha, hs, hee]
    refine div_pos (mul_pos (by nlinarith [sin_sq_add_cos_sq p]) ?_) (by positivity)
    have := cusa_pos hp0 hp1
    linarith

theorem derivative_pos {d : ℝ} (h0 : 0 < d) : ∃ D, HasDerivAt shapeFactor D d ∧ D ≠ 0 := by
  by_cases hst : Strip d
  · obtain ⟨D, h1, -, h3⟩ := c68_everywhere h0
    refine ⟨D, h1, ?_⟩
    rintro rfl
    have := strip_jacobian_pos h0 hst
    rw [zero_sub, abs_neg, abs_of_nonneg (by linarith)] at h3
    norm_num at h3
    linarith
  · exact ⟨_, c68_jacobian h0 hst, (jacobian_pos h0).ne'⟩

theorem shapeFactor_continuousAt {d : ℝ} (h0 : 0 < d) : ContinuousAt shapeFactor d := by
  obtain ⟨D, h1, -⟩ := derivative_pos h0
  exact h1.continuousAt

theorem shapeFactor_pos {d : ℝ} (h0 : 0 < d) : 0 < shapeFactor d := by
  refine lt_of_le_of_ne (shapeFactor_nonneg h0) fun he => ?_
  obtain ⟨D, h1, h2⟩ := derivative_pos h0
  refine h2 (IsLocalMin.hasDerivAt_eq_zero ?_ h1)
  filter_upwards [lt_mem_nhds h0] with x hx
  rw [← he]
  exact shapeFactor_nonneg hx

theorem shapeFactor_lt_one {d : ℝ} (h0 : 0 < d) : shapeFactor d < 1 := by
  refine lt_of_le_of_ne (shapeFactor_le_one h0) fun he => ?_
  obtain ⟨D, h1, h2⟩ := derivative_pos h0
  refine h2 (IsLocalMax.hasDerivAt_eq_zero ?_ h1)
  filter_upwards [lt_mem_nhds h0] with x hx
  rw [he]
  exact shapeFactor_le_one hx

/-- all shapes have a positive density -/
theorem uncut_pos {d : ℝ} (h0 : 0 < d) : 0 < uncut d := by
  unfold uncut cde2
  have h1 := shapeFactor_pos h0
  have h2 := shapeFactor_lt_one h0
  have h3 := jacobian_pos h0
  have h4 : 0 < (shapeFactor d - 1) * (shapeFactor d - 1) := mul_pos_of_neg_of_neg (by linarith) (by linarith)
  have : 12 * shapeFactor d * (shapeFactor d - 1) * (shapeFactor d - 1) = 12 * shapeFactor d * ((shapeFactor d - 1) * (shapeFactor d - 1)) := by ring
  dsimp only
  rw [this]
  positivity

theorem uncut_one : uncut 1 = 64 / 135 := by
  have h1 : shapeFactor 1 = 1 / 3 := by
    unfold shapeFactor
    rw [if_neg (lt_irrefl _), if_neg (lt_irrefl _)]
  have h2 : jacobian 1 = 4 / 15 := by
    unfold jacobian
    rw [if_neg (lt_irrefl _), if_neg (lt_irrefl _)]
  unfold uncut cde2
  rw [h1, h2]
  norm_num

/-- the edges of the strip in which the series is used -/
noncomputable def edges : Finset ℝ := {sqrt (1 - 1 / 10 ^ 5), (sqrt (1 - 1 / 10 ^ 5))⁻¹}

theorem edge_low {d : ℝ} (h0 : 0 < d) (he : d ∉ edges) : 1 - d * d ≠ 1 / 10 ^ 5 := by
  intro h
  refine he ?_
  have : d = sqrt (1 - 1 / 10 ^ 5) := by
    rw [← h, show 1 - (1 - d * d) = d * d by ring, sqrt_mul_self h0.le]
  unfold edges
  rw [this]
  exact Finset.mem_insert_self _ _

theorem edge_high {d : ℝ} (h0 : 0 < d) (he : d ∉ edges) : 1 - 1 / (d * d) ≠ 1 / 10 ^ 5 := by
  intro h
  refine he ?_
  have : d = (sqrt (1 - 1 / 10 ^ 5))⁻¹ := by
    rw [← h, show 1 - (1 - 1 / (d * d)) = (d⁻¹) * d⁻¹ by field_simp; ring, sqrt_mul_self (by positivity), inv_inv]
  unfold edges
  rw [this]
  exact Finset.mem_insert_of_mem (Finset.mem_singleton_self _)

theorem jacobian_continuousAt {d : ℝ} (h0 : 0 < d) (he : d ∉ edges) : ContinuousAt jacobian d := by
  have hlow := edge_low h0 he
  have hhigh := edge_high h0 he
  rcases lt_trichotomy d 1 with h | h | h
  · have he2 : 0 < 1 - d * d := by nlinarith
    rcases lt_or_gt_of_ne hlow with hs | hs
    · have hev : ∀ᶠ x in 𝓝 d, jacobian x = 4 / 15 + 2 * (1 - x * x) / 21 + 3 * (1 - x * x) * (1 - x * x) / 70 := by
        have c : ContinuousAt (fun x : ℝ => 1 - x * x) d := by fun_prop
        filter_upwards [gt_mem_nhds h, c.eventually (gt_mem_nhds hs)] with x hx hx2
        unfold jacobian
        rw [if_pos hx]
        dsimp only
        rw [if_pos hx2]
      exact ContinuousAt.congr (by fun_prop) (hev.mono fun x hx => hx.symm)
    · have hev : ∀ᶠ x in 𝓝 d, jacobian x = 1 / 2 * sqrt (1 - (1 - x * x)) * ((3 - (1 - x * x)) * log ((1 + sqrt (1 - x * x)) / (1 - sqrt (1 - x * x)))
          - 6 * sqrt (1 - x * x)) / ((1 - x * x) * (1 - x * x) * sqrt (1 - x * x)) := by
        have c : ContinuousAt (fun x : ℝ => 1 - x * x) d := by fun_prop
        filter_upwards [gt_mem_nhds h, c.eventually (lt_mem_nhds hs)] with x hx hx2
        unfold jacobian
        rw [if_pos hx]
        dsimp only
        rw [if_neg (not_lt.2 (le_of_lt hx2))]
      have hepos := sqrt_pos.mpr he2
      have hee := mul_self_sqrt he2.le
      have hne : sqrt (1 - d * d) < 1 := by nlinarith
      have hc : ContinuousAt (fun x : ℝ => sqrt (1 - x * x)) d := by fun_prop
      refine ContinuousAt.congr ?_ (hev.mono fun x hx => hx.symm)
      have hl : ContinuousAt (fun x : ℝ => log ((1 + sqrt (1 - x * x)) / (1 - sqrt (1 - x * x)))) d := by
        refine ContinuousAt.log (ContinuousAt.div (by fun_prop) (by fun_prop) (by linarith)) ?_
        exact (div_pos (by linarith) (by linarith)).ne'
      refine ContinuousAt.div (ContinuousAt.mul (by fun_prop) (ContinuousAt.sub (ContinuousAt.mul (by fun_prop) hl) (by fun_prop))) (by fun_prop) (by positivity)
  · subst h
    have hev : ∀ᶠ x in 𝓝 (1 : ℝ), |jacobian x - jacobian 1| ≤ 20 * (|1 - x * x| + |1 - 1 / (x * x)|) := by
      have h1 : jacobian 1 = 4 / 15 := by
        unfold jacobian
        rw [if_neg (lt_irrefl _), if_neg (lt_irrefl _)]
      filter_upwards [strip_nhds] with x hx
      rw [h1]
      obtain ⟨hx0, hx1 | hx1 | hx1⟩ := hx
      · have : jacobian x = 4 / 15 + 2 * (1 - x * x) / 21 + 3 * (1 - x * x) * (1 - x * x) / 70 := by
          unfold jacobian
          rw [if_pos hx1.1]
          dsimp only
          rw [if_pos hx1.2]
        rw [this]
        have ha : 0 < 1 - x * x := by nlinarith [hx1.1]
        have hb : 1 - x * x < 1 := by nlinarith
        rw [show 4 / 15 + 2 * (1 - x * x) / 21 + 3 * (1 - x * x) * (1 - x * x) / 70 - 4 / 15 = (1 - x * x) * (2 / 21 + 3 * (1 - x * x) / 70) by ring,
          abs_mul, abs_of_nonneg (show 0 ≤ 2 / 21 + 3 * (1 - x * x) / 70 by positivity)]
        have := abs_nonneg (1 - 1 / (x * x))
        have := abs_nonneg (1 - x * x)
        nlinarith
      · have : jacobian x = 4 / 15 - 2 * (1 - 1 / (x * x)) / 21 - 11 * (1 - 1 / (x * x)) * (1 - 1 / (x * x)) / 210 := by
          unfold jacobian
          rw [if_neg (by linarith [hx1.1]), if_pos hx1.1]
          dsimp only
          rw [if_pos hx1.2]
        rw [this]
        have hxx : 1 / (x * x) < 1 := by
          rw [div_lt_one (by positivity)]
          nlinarith [hx1.1]
        have hxp : 0 < 1 / (x * x) := by positivity
        generalize 1 / (x * x) = u at *
        have ha : 0 < 1 - u := by linarith
        have hb : 1 - u < 1 := by linarith
        rw [show 4 / 15 - 2 * (1 - u) / 21 - 11 * (1 - u) * (1 - u) / 210 - 4 / 15 = -((1 - u) * (2 / 21 + 11 * (1 - u) / 210)) by ring, abs_neg,
          abs_mul, abs_of_nonneg (show 0 ≤ 2 / 21 + 11 * (1 - u) / 210 by positivity)]
        have := abs_nonneg (1 - u)
        have := abs_nonneg (1 - x * x)
        nlinarith
      · rw [hx1, h1]
        norm_num
    rw [ContinuousAt, tendsto_iff_dist_tendsto_zero]
    refine squeeze_zero' (Eventually.of_forall fun x => dist_nonneg) (hev.mono fun x hx => ?_) (dev_tendsto 20)
    rw [Real.dist_eq]
    exact hx
  · have hdd : 1 < d * d := by nlinarith
    have hd0 : d * d ≠ 0 := by positivity
    have he2 : 0 < 1 - 1 / (d * d) := by
      have : 1 / (d * d) < 1 := by rw [div_lt_one (by linarith)]; exact hdd
      linarith
    have c : ContinuousAt (fun x : ℝ => 1 - 1 / (x * x)) d := by
      refine ContinuousAt.sub continuousAt_const (ContinuousAt.div continuousAt_const (by fun_prop) hd0)
    rcases lt_or_gt_of_ne hhigh with hs | hs
    · have hev : ∀ᶠ x in 𝓝 d, jacobian x = 4 / 15 - 2 * (1 - 1 / (x * x)) / 21 - 11 * (1 - 1 / (x * x)) * (1 - 1 / (x * x)) / 210 := by
        filter_upwards [lt_mem_nhds h, c.eventually (gt_mem_nhds hs)] with x hx hx2
        unfold jacobian
        rw [if_neg (by linarith), if_pos hx]
        dsimp only
        rw [if_pos hx2]
      refine ContinuousAt.congr ?_ (hev.mono fun x hx => hx.symm)
      exact ((continuousAt_const.sub ((continuousAt_const.mul c).div_const _)).sub (((continuousAt_const.mul c).mul c).div_const _))
    · have hev : ∀ᶠ x in 𝓝 d, jacobian x = (1 - (1 - 1 / (x * x))) * ((3 - 2 * (1 - 1 / (x * x))) * arcsin (sqrt (1 - 1 / (x * x)))
          - 3 * sqrt (1 - 1 / (x * x)) * sqrt (1 - (1 - 1 / (x * x)))) / ((1 - 1 / (x * x)) * (1 - 1 / (x * x)) * sqrt (1 - 1 / (x * x))) := by
        filter_upwards [lt_mem_nhds h, c.eventually (lt_mem_nhds hs)] with x hx hx2
        unfold jacobian
        rw [if_neg (by linarith), if_pos hx]
        dsimp only
        rw [if_neg (not_lt.2 (le_of_lt hx2))]
      have hepos := sqrt_pos.mpr he2
      have hc : ContinuousAt (fun x : ℝ => sqrt (1 - 1 / (x * x))) d := c.sqrt
      have ha : ContinuousAt (fun x : ℝ => arcsin (sqrt (1 - 1 / (x * x)))) d := continuous_arcsin.continuousAt.comp hc
      have hb : ContinuousAt (fun x : ℝ => sqrt (1 - (1 - 1 / (x * x)))) d := (continuousAt_const.sub c).sqrt
      refine ContinuousAt.congr ?_ (hev.mono fun x hx => hx.symm)
      exact ((continuousAt_const.sub c).mul (((continuousAt_const.sub (continuousAt_const.mul c)).mul ha).sub ((continuousAt_const.mul hc).mul hb))).div
        ((c.mul c).mul hc) (by positivity)

theorem uncut_continuousAt {d : ℝ} (h0 : 0 < d) (he : d ∉ edges) : ContinuousAt uncut d := by
  have h1 := shapeFactor_continuousAt h0
  have h2 := jacobian_continuousAt h0 he
  have : uncut = fun x => 12 * shapeFactor x * (shapeFactor x - 1) * (shapeFactor x - 1) * jacobian x := rfl
  rw [this]
  exact (((continuousAt_const.mul h1).mul (h1.sub continuousAt_const)).mul (h1.sub continuousAt_const)).mul h2

/-- a function that is one near the points of `S` and vanishes pointwise elsewhere for large `k` -/
noncomputable def bump (S : Finset ℝ) (k : Nat) (x : ℝ) : ℝ := min 1 (∑ s ∈ S, max 0 (2 - |x - s| * ((k : ℝ) + 1)))

theorem bump_continuous (S : Finset ℝ) (k : Nat) : Continuous (bump S k) := by
  unfold bump
  fun_prop

theorem bump_nonneg (S : Finset ℝ) (k : Nat) (x : ℝ) : 0 ≤ bump S k x := le_min zero_le_one (Finset.sum_nonneg fun _ _ => le_max_left _ _)

theorem bump_le (S : Finset ℝ) (k : Nat) (x : ℝ) : bump S k x ≤ 1 := min_le_left _ _

theorem bump_near {S : Finset ℝ} (k : Nat) {s : ℝ} (hs : s ∈ S) : ∀ᶠ x in 𝓝 s, bump S k x = 1 := by
  have h : ∀ᶠ x in 𝓝 s, |x - s| * ((k : ℝ) + 1) < 1 := by
    have c : ContinuousAt (fun x : ℝ => |x - s| * ((k : ℝ) + 1)) s := by fun_prop
    refine c.eventually (gt_mem_nhds ?_)
    simp
  filter_upwards [h] with x hx
  unfold bump
  rw [min_eq_left]
  have h1 : (1 : ℝ) ≤ max 0 (2 - |x - s| * ((k : ℝ) + 1)) := le_max_of_le_right (by linarith)
  exact h1.trans (Finset.single_le_sum (f := fun s => max 0 (2 - |x - s| * ((k : ℝ) + 1))) (fun _ _ => le_max_left _ _) hs)

theorem bump_away {S : Finset ℝ} {x : ℝ} (hx : x ∉ S) : Tendsto (fun k => bump S k x) atTop (𝓝 0) := by
  have h : Tendsto (fun k : Nat => ∑ s ∈ S, max 0 (2 - |x - s| * ((k : ℝ) + 1))) atTop (𝓝 (∑ s ∈ S, 0)) := by
    refine tendsto_finsetSum _ fun s hs => ?_
    have hne : 0 < |x - s| := abs_pos.2 (sub_ne_zero.2 fun h => hx (h ▸ hs))
    obtain ⟨N, hN⟩ := exists_nat_gt (2 / |x - s|)
    refine tendsto_const_nhds.congr' ?_
    filter_upwards [eventually_ge_atTop N] with k hk
    rw [max_eq_left]
    have : (N : ℝ) ≤ k := Nat.cast_le.2 hk
    rw [div_lt_iff₀ hne] at hN
    nlinarith
  rw [Finset.sum_const_zero] at h
  refine squeeze_zero (bump_nonneg S · x) (fun k => min_le_right _ _) h

theorem bump_integral (S : Finset ℝ) (a b : ℝ) : Tendsto (fun k => ∫ x in a..b, bump S k x) atTop (𝓝 0) := by
  have h : Tendsto (fun k => ∫ x in a..b, bump S k x) atTop (𝓝 (∫ _ in a..b, (0 : ℝ))) := by
    refine intervalIntegral.tendsto_integral_filter_of_dominated_convergence (fun _ => 1) (Eventually.of_forall fun k => (bump_continuous S k).aestronglyMeasurable)
      (Eventually.of_forall fun k => Eventually.of_forall fun x _ => ?_) intervalIntegrable_const ?_
    · rw [Real.norm_eq_abs, abs_of_nonneg (bump_nonneg S k x)]
      exact bump_le S k x
    · have : ∀ᵐ x ∂(MeasureTheory.volume : MeasureTheory.Measure ℝ), x ∉ (S : Set ℝ) := by
        rw [MeasureTheory.ae_iff]
        simp only [not_not]
        exact (Finset.finite_toSet S).measure_zero _
      filter_upwards [this] with x hx _
      exact bump_away hx
  simpa using h

/-- The quadrature rules converge for every bounded function that is continuous up to finitely many points. -/
theorem converge_piecewise {gl : Nat → (Nat → ℝ) × (Nat → ℝ)} (h : ∀ n, 0 < n → Refine.Gauss n (gl n)) {f : ℝ → ℝ} {S : Finset ℝ}
    (hf : ∀ x ∈ Set.Icc (-1 : ℝ) 1, x ∉ S → ContinuousWithinAt f (Set.Icc (-1) 1) x) {M : ℝ} (hM : ∀ x ∈ Set.Icc (-1 : ℝ) 1, |f x| ≤ M)
    (hi : IntervalIntegrable f MeasureTheory.volume (-1) 1) :
    Tendsto (fun n => ∑ i ∈ Finset.range n, (gl n).2 i * f ((gl n).1 i)) atTop (𝓝 (∫ x in (-1 : ℝ)..1, f x)) := by
  have hM0 : 0 ≤ M := (abs_nonneg _).trans (hM 0 ⟨by norm_num, by norm_num⟩)
  rw [Metric.tendsto_atTop]
  intro ε hε
  obtain ⟨k, hk⟩ : ∃ k, ∫ x in (-1 : ℝ)..1, bump S k x < ε / (4 * (M + 1)) :=
    ((bump_integral S (-1) 1).eventually (gt_mem_nhds (show (0 : ℝ) < ε / (4 * (M + 1)) by positivity))).exists
  rw [lt_div_iff₀ (by positivity)] at hk
  have hbi : IntervalIntegrable (bump S k) MeasureTheory.volume (-1) 1 := (bump_continuous S k).intervalIntegrable _ _
  have hb0 : 0 ≤ ∫ x in (-1 : ℝ)..1, bump S k x := intervalIntegral.integral_nonneg (by norm_num) fun x _ => bump_nonneg S k x
  have hg : ContinuousOn (fun x => f x * (1 - bump S k x)) (Set.Icc (-1) 1) := by
    intro x hx
    by_cases hs : x ∈ S
    · have : (fun _ : ℝ => (0 : ℝ)) =ᶠ[𝓝[Set.Icc (-1) 1] x] fun x => f x * (1 - bump S k x) := by
        filter_upwards [nhdsWithin_le_nhds (bump_near k hs)] with y hy
        rw [hy]
        ring
      refine ContinuousWithinAt.congr_of_eventuallyEq continuousWithinAt_const this.symm ?_
      rw [(bump_near k hs).self_of_nhds]
      ring
    · exact (hf x hx hs).mul (continuous_const.sub (bump_continuous S k)).continuousWithinAt
  have t1 := Refine.converge_real h hg
  have t2 := Refine.converge_real h (bump_continuous S k).continuousOn
  have hgi : IntervalIntegrable (fun x => f x * (1 - bump S k x)) MeasureTheory.volume (-1) 1 := hg.intervalIntegrable_of_Icc (by norm_num)
  have hd : |(∫ x in (-1 : ℝ)..1, f x) - ∫ x in (-1 : ℝ)..1, f x * (1 - bump S k x)| ≤ M * ∫ x in (-1 : ℝ)..1, bump S k x := by
    rw [← intervalIntegral.integral_sub hi hgi, ← intervalIntegral.integral_const_mul]
    refine intervalIntegral.norm_integral_le_of_norm_le (μ := MeasureTheory.volume) (a := (-1 : ℝ)) (b := 1) (f := fun x => f x - f x * (1 - bump S k x)) (by norm_num)
      (g := fun x => M * bump S k x) (Eventually.of_forall fun x hx => ?_) (hbi.const_mul M)
    rw [show f x - f x * (1 - bump S k x) = f x * bump S k x by ring, Real.norm_eq_abs, abs_mul, abs_of_nonneg (bump_nonneg S k x)]
    exact mul_le_mul_of_nonneg_right (hM x ⟨hx.1.le, hx.2⟩) (bump_nonneg S k x)
  rw [Metric.tendsto_atTop] at t1 t2
  obtain ⟨N1, hN1⟩ := t1 (ε / 4) (by positivity)
  obtain ⟨N2, hN2⟩ := t2 (ε / (4 * (M + 1))) (by positivity)
  refine ⟨max (max N1 N2) 1, fun n hn => ?_⟩
  have hn1 := hN1 n (le_trans (le_max_left _ _) (le_trans (le_max_left _ _) hn))
  have hn2 := hN2 n (le_trans (le_max_right _ _) (le_trans (le_max_left _ _) hn))
  have hG := h n (lt_of_lt_of_le one_pos (le_trans (le_max_right _ _) hn))
  rw [Real.dist_eq] at hn1 hn2 ⊢
  have hs : |(∑ i ∈ Finset.range n, (gl n).2 i * f ((gl n).1 i)) - ∑ i ∈ Finset.range n, (gl n).2 i * (f ((gl n).1 i) * (1 - bump S k ((gl n).1 i)))|
      ≤ M * ∑ i ∈ Finset.range n, (gl n).2 i * bump S k ((gl n).1 i) := by
    rw [← Finset.sum_sub_distrib, Finset.mul_sum]
    refine (Finset.abs_sum_le_sum_abs _ _).trans (Finset.sum_le_sum fun i hi' => ?_)
    rw [Finset.mem_range] at hi'
    obtain ⟨h1, h2⟩ := hG.interior hi'
    rw [show (gl n).2 i * f ((gl n).1 i) - (gl n).2 i * (f ((gl n).1 i) * (1 - bump S k ((gl n).1 i))) = f ((gl n).1 i) * ((gl n).2 i * bump S k ((gl n).1 i)) by ring, abs_mul,
      abs_of_nonneg (mul_nonneg (hG.nonneg hi') (bump_nonneg S k _))]
    exact mul_le_mul_of_nonneg_right (hM _ ⟨h1.le, h2.le⟩) (mul_nonneg (hG.nonneg hi') (bump_nonneg S k _))
  rw [lt_div_iff₀ (by positivity)] at hn2
  set A := ∑ i ∈ Finset.range n, (gl n).2 i * f ((gl n).1 i)
  set B := ∑ i ∈ Finset.range n, (gl n).2 i * (f ((gl n).1 i) * (1 - bump S k ((gl n).1 i)))
  set C := ∑ i ∈ Finset.range n, (gl n).2 i * bump S k ((gl n).1 i)
  set If := ∫ x in (-1 : ℝ)..1, f x
  set Ig := ∫ x in (-1 : ℝ)..1, f x * (1 - bump S k x)
  set Ib := ∫ x in (-1 : ℝ)..1, bump S k x
  have hC : C * (4 * (M + 1)) < 2 * ε := by
    have := le_abs_self (C - Ib)
    nlinarith
  have h1 : M * C ≤ ε / 2 := by
    by_cases hc : 0 ≤ C
    · nlinarith
    · push Not at hc
      nlinarith
  have h2 : M * Ib < ε / 4 := by nlinarith
  have e1 := abs_le.1 hs
  have e2 := abs_le.1 hd
  have e3 := abs_lt.1 hn1
  rw [abs_lt]
  constructor <;> linarith [e1.1, e1.2, e2.1, e2.2, e3.1, e3.2]

end Verif.Shape
