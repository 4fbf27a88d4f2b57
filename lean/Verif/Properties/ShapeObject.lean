import Verif.Spec.ShapeObject
import Verif.Proofs.ShapeMean
import Verif.Spec.Content
import Verif.Properties.Refine

/-!
# C103: averages over the shapes of a distribution
-/
namespace Verif.ShapeObject

open Verif.GetTable (Shapes unsigned32)
open Verif.Shape
open Real Filter Topology

set_option autoImplicit false

/-- the shapes of the object are those of `evaluate` (C68) with the rule that the code computes -/
theorem evaluated_code (o : Special.Ops ℝ) (fuel n : Nat) (p : ℝ → ℝ) (a b : ℝ) {r : (Nat → ℝ) × (Nat → ℝ)} {x w : Nat → ℝ}
    (hr : Special.gaussLegendre o fuel n (fun _ => 0, fun _ => 0) = some r) (h : evaluate o fuel n p a b = some (x, w)) :
    ∀ i < n, (evaluated r n p a b).ratio i = x i ∧ (evaluated r n p a b).weight i = w i := by
  obtain ⟨v, h1, h2⟩ := c68_points o fuel n p a b h
  unfold Special.gaussLegendreAB at h1
  rw [hr] at h1
  have h1 := Option.some.inj h1
  have := Verif.Matrix.loop_inv (fun k (s : (Nat → ℝ) × (Nat → ℝ)) => ∀ i, s.1 i = (if i < k then 1 / 2 * (b - a) * r.1 i + 1 / 2 * (a + b) else r.1 i)
      ∧ s.2 i = if i < k then r.2 i * (1 / 2 * (b - a)) else r.2 i) (Nat.zero_le n)
    (fun i s => (Function.update s.1 i (1 / 2 * (b - a) * s.1 i + 1 / 2 * (a + b)), Function.update s.2 i (s.2 i * (1 / 2 * (b - a))))) r
    (fun i => by rw [if_neg (by omega), if_neg (by omega)]; exact ⟨rfl, rfl⟩) (fun k s _ _ hs i => by
      dsimp only
      by_cases hik : i = k
      · subst hik
        rw [Function.update_self, Function.update_self, (hs i).1, (hs i).2, if_neg (by omega), if_pos (by omega), if_neg (by omega), if_pos (by omega)]
        exact ⟨rfl, rfl⟩
      · rw [Function.update_of_ne hik, Function.update_of_ne hik, (hs i).1, (hs i).2]
        exact ⟨if_congr (by omega) rfl rfl, if_congr (by omega) rfl rfl⟩)
  intro i hi
  obtain ⟨e1, e2⟩ := this i
  have h1a : _ = (x, v) := h1
  dsimp only at h1a
  rw [h1a] at e1 e2
  rw [if_pos hi] at e1 e2
  dsimp only at e1 e2
  refine ⟨e1.symm, ?_⟩
  rw [h2 i hi, e2, e1]
  rfl

theorem cde2Density_eq (d : ℝ) : cde2Density d = uncut d := by
  unfold cde2Density uncut cde2
  ring

/-! ### the density is bounded and piecewise continuous -/

theorem jacobian_bounded {a d : ℝ} (ha : 0 < a) (hd : a ≤ d) : jacobian d ≤ (6 / (a * a) + 7) * 10 ^ 15 := by
  have h0 : 0 < d := lt_of_lt_of_le ha hd
  have hA : 0 < 6 / (a * a) := by positivity
  unfold jacobian
  split_ifs with h h
  · dsimp only
    have he2 : 0 < 1 - d * d := by nlinarith
    have he3 : 1 - d * d < 1 := by nlinarith
    split_ifs with hst
    · nlinarith
    push Not at hst
    have hepos := sqrt_pos.mpr he2
    have hee := mul_self_sqrt he2.le
    have hsq : sqrt (1 - (1 - d * d)) ≤ 1 := by
      rw [sqrt_le_one]
      linarith
    have hsq0 := sqrt_nonneg (1 - (1 - d * d))
    set e := sqrt (1 - d * d) with he
    have he1 : e < 1 := by nlinarith
    have hlog : log ((1 + e) / (1 - e)) ≤ 4 / (a * a) := by
      have h1 : log ((1 + e) / (1 - e)) ≤ (1 + e) / (1 - e) - 1 := log_le_sub_one_of_pos (div_pos (by linarith) (by linarith))
      have h2 : (1 + e) / (1 - e) ≤ 4 / (a * a) := by
        rw [div_le_div_iff₀ (by linarith) (by positivity)]
        nlinarith
      linarith
    have hlog0 : 0 ≤ log ((1 + e) / (1 - e)) := log_nonneg (by rw [le_div_iff₀ (by linarith)]; linarith)
    have hden : 1 / 10 ^ 15 ≤ (1 - d * d) * (1 - d * d) * e := by
      have h1 : 1 - d * d ≤ e := by nlinarith
      have h2 : (1 / 10 ^ 5 : ℝ) * (1 / 10 ^ 5) ≤ (1 - d * d) * (1 - d * d) := mul_le_mul hst hst (by norm_num) he2.le
      have h3 : (1 / 10 ^ 5 : ℝ) * (1 / 10 ^ 5) * (1 / 10 ^ 5) ≤ (1 - d * d) * (1 - d * d) * e := mul_le_mul h2 (hst.trans h1) (by norm_num) (by positivity)
      refine le_trans (le_of_eq (by norm_num)) h3
    rw [div_le_iff₀ (by positivity)]
    have hnum : 1 / 2 * sqrt (1 - (1 - d * d)) * ((3 - (1 - d * d)) * log ((1 + e) / (1 - e)) - 6 * e) ≤ 6 / (a * a) := by
      have h1 : (3 - (1 - d * d)) * log ((1 + e) / (1 - e)) - 6 * e ≤ 3 * (4 / (a * a)) := by nlinarith
      have h2 : 0 ≤ 4 / (a * a) := by positivity
      have h3 : 1 / 2 * sqrt (1 - (1 - d * d)) * ((3 - (1 - d * d)) * log ((1 + e) / (1 - e)) - 6 * e) ≤ 1 / 2 * sqrt (1 - (1 - d * d)) * (3 * (4 / (a * a))) :=
        mul_le_mul_of_nonneg_left h1 (by positivity)
      have h4 : 6 / (a * a) = 1 / 2 * (3 * (4 / (a * a))) := by ring
      rw [h4]
      nlinarith
    refine hnum.trans ?_
    have h5 : (6 / (a * a) + 7) * 10 ^ 15 * (1 / 10 ^ 15) ≤ (6 / (a * a) + 7) * 10 ^ 15 * ((1 - d * d) * (1 - d * d) * e) :=
      mul_le_mul_of_nonneg_left hden (by positivity)
    have h6 : (6 / (a * a) + 7) * 10 ^ 15 * (1 / 10 ^ 15) = 6 / (a * a) + 7 := by field_simp
    linarith
  · dsimp only
    have hdd : 1 < d * d := by nlinarith
    have hi : 0 < 1 / (d * d) := by positivity
    have he2 : 0 < 1 - 1 / (d * d) := by
      have : 1 / (d * d) < 1 := by rw [div_lt_one (by linarith)]; exact hdd
      linarith
    split_ifs with hst
    · nlinarith
    push Not at hst
    have hepos := sqrt_pos.mpr he2
    have hee := mul_self_sqrt he2.le
    have hsq0 := sqrt_nonneg (1 - (1 - 1 / (d * d)))
    have hasin : arcsin (sqrt (1 - 1 / (d * d))) ≤ 2 := (arcsin_le_pi_div_two _).trans (by linarith [pi_le_four])
    have hasin0 : 0 ≤ arcsin (sqrt (1 - 1 / (d * d))) := arcsin_nonneg.2 hepos.le
    set e := sqrt (1 - 1 / (d * d)) with he
    have he1 : e < 1 := by nlinarith
    have hden : 1 / 10 ^ 15 ≤ (1 - 1 / (d * d)) * (1 - 1 / (d * d)) * e := by
      have h1 : 1 - 1 / (d * d) ≤ e := by nlinarith
      have h2 : (1 / 10 ^ 5 : ℝ) * (1 / 10 ^ 5) ≤ (1 - 1 / (d * d)) * (1 - 1 / (d * d)) := mul_le_mul hst hst (by norm_num) he2.le
      have h3 : (1 / 10 ^ 5 : ℝ) * (1 / 10 ^ 5) * (1 / 10 ^ 5) ≤ (1 - 1 / (d * d)) * (1 - 1 / (d * d)) * e := mul_le_mul h2 (hst.trans h1) (by norm_num) (by positivity)
      refine le_trans (le_of_eq (by norm_num)) h3
    rw [div_le_iff₀ (by positivity)]
    have hnum : (1 - (1 - 1 / (d * d))) * ((3 - 2 * (1 - 1 / (d * d))) * arcsin e - 3 * e * sqrt (1 - (1 - 1 / (d * d)))) ≤ 6 := by
      have h1 : (3 - 2 * (1 - 1 / (d * d))) * arcsin e - 3 * e * sqrt (1 - (1 - 1 / (d * d))) ≤ 6 := by
        have : 0 ≤ 3 * e * sqrt (1 - (1 - 1 / (d * d))) := by positivity
        nlinarith
      have h2 : (1 - (1 - 1 / (d * d))) * ((3 - 2 * (1 - 1 / (d * d))) * arcsin e - 3 * e * sqrt (1 - (1 - 1 / (d * d)))) ≤ (1 - (1 - 1 / (d * d))) * 6 :=
        mul_le_mul_of_nonneg_left h1 (by linarith)
      nlinarith
    refine hnum.trans ?_
    have h5 : (6 / (a * a) + 7) * 10 ^ 15 * (1 / 10 ^ 15) ≤ (6 / (a * a) + 7) * 10 ^ 15 * ((1 - 1 / (d * d)) * (1 - 1 / (d * d)) * e) :=
      mul_le_mul_of_nonneg_left hden (by positivity)
    have h6 : (6 / (a * a) + 7) * 10 ^ 15 * (1 / 10 ^ 15) = 6 / (a * a) + 7 := by field_simp
    linarith
  · nlinarith

theorem piecewise_density {a b : ℝ} (ha : 0 < a) : Piecewise a b cde2Density := by
  refine ⟨⟨10 * ((6 / (a * a) + 7) * 10 ^ 15), fun d hd => ?_⟩, edges, fun d hd he => ?_⟩
  · have h0 : 0 < d := lt_of_lt_of_le ha hd.1
    rw [cde2Density_eq, abs_of_nonneg (uncut_pos h0).le]
    exact (uncut_le h0).trans (by linarith [jacobian_bounded ha hd.1])
  · have : cde2Density = uncut := funext cde2Density_eq
    rw [this]
    exact (uncut_continuousAt (lt_of_lt_of_le ha hd.1) he).continuousWithinAt

theorem Piecewise.mul {a b : ℝ} {f g : ℝ → ℝ} (hf : Piecewise a b f) (hg : Piecewise a b g) : Piecewise a b fun d => f d * g d := by
  obtain ⟨⟨M, hM⟩, S, hS⟩ := hf
  obtain ⟨⟨N, hN⟩, T, hT⟩ := hg
  refine ⟨⟨M * N, fun d hd => ?_⟩, S ∪ T, fun d hd h => ?_⟩
  · rw [abs_mul]
    exact mul_le_mul (hM d hd) (hN d hd) (abs_nonneg _) ((abs_nonneg _).trans (hM d hd))
  · rw [Finset.mem_union, not_or] at h
    exact (hS d hd h.1).mul (hT d hd h.2)

theorem Piecewise.integrable {a b : ℝ} (hab : a ≤ b) {f : ℝ → ℝ} (hf : Piecewise a b f) : IntervalIntegrable f MeasureTheory.volume a b := by
  obtain ⟨⟨M, hM⟩, S, hS⟩ := hf
  rw [intervalIntegrable_iff_integrableOn_Icc_of_le hab]
  have hnull : MeasureTheory.volume (S : Set ℝ) = 0 := (Finset.finite_toSet S).measure_zero _
  have hc : ContinuousOn f (Set.Icc a b \ (S : Set ℝ)) := fun d hd => (hS d hd.1 hd.2).mono Set.diff_subset
  have hm : MeasureTheory.AEStronglyMeasurable f (MeasureTheory.volume.restrict (Set.Icc a b \ (S : Set ℝ))) :=
    hc.aestronglyMeasurable (measurableSet_Icc.diff (Finset.finite_toSet S).measurableSet)
  have heq : (Set.Icc a b \ (S : Set ℝ) : Set ℝ) =ᵐ[MeasureTheory.volume] Set.Icc a b := MeasureTheory.sdiff_null_ae_eq_self hnull
  rw [MeasureTheory.Measure.restrict_congr_set heq] at hm
  refine ⟨hm, MeasureTheory.HasFiniteIntegral.restrict_of_bounded (C := M) ?_ ?_⟩
  · rw [Real.volume_Icc]
    exact ENNReal.ofReal_lt_top
  · filter_upwards [MeasureTheory.ae_restrict_mem measurableSet_Icc] with d hd
    exact hM d hd

/-- the rules between two limits -/
theorem converge_between {gl : Nat → (Nat → ℝ) × (Nat → ℝ)} (h : ∀ n, 0 < n → Refine.Gauss n (gl n)) {a b : ℝ} (hab : a < b) {f : ℝ → ℝ} (hf : Piecewise a b f) :
    Tendsto (fun n => ∑ i ∈ Finset.range n, (gl n).2 i * (1 / 2 * (b - a)) * f (1 / 2 * (b - a) * (gl n).1 i + 1 / 2 * (a + b))) atTop (𝓝 (∫ d in a..b, f d)) := by
  set c := 1 / 2 * (b - a) with hc
  set m := 1 / 2 * (a + b) with hm
  have hc0 : 0 < c := by rw [hc]; linarith
  have hmap : ∀ x ∈ Set.Icc (-1 : ℝ) 1, c * x + m ∈ Set.Icc a b := by
    intro x hx
    constructor
    · have : c * (-1) ≤ c * x := mul_le_mul_of_nonneg_left hx.1 hc0.le
      have : c * (-1) + m = a := by rw [hc, hm]; ring
      linarith
    · have : c * x ≤ c * 1 := mul_le_mul_of_nonneg_left hx.2 hc0.le
      have : c * 1 + m = b := by rw [hc, hm]; ring
      linarith
  have hi := hf.integrable hab.le
  obtain ⟨⟨M, hM⟩, S, hS⟩ := hf
  have hcm : Continuous fun x : ℝ => c * x + m := by fun_prop
  have hi' : IntervalIntegrable (fun x => f (c * x + m)) MeasureTheory.volume (-1) 1 := by
    have hh : Piecewise (-1) 1 fun x => f (c * x + m) := by
      refine ⟨⟨M, fun x hx => hM _ (hmap x hx)⟩, S.image fun s => (s - m) / c, fun x hx hs => ?_⟩
      refine ContinuousWithinAt.comp (t := Set.Icc a b) (hS _ (hmap x hx) fun hmem => hs ?_) hcm.continuousWithinAt hmap
      refine Finset.mem_image.2 ⟨_, hmem, ?_⟩
      field_simp
      ring
    exact hh.integrable (by norm_num)
  have t := converge_piecewise h (f := fun x => f (c * x + m)) (S := S.image fun s => (s - m) / c) (M := M) (fun x hx hs => by
    refine ContinuousWithinAt.comp (t := Set.Icc a b) (hS _ (hmap x hx) fun hmem => hs ?_) hcm.continuousWithinAt hmap
    refine Finset.mem_image.2 ⟨_, hmem, ?_⟩
    field_simp
    ring) (fun x hx => hM _ (hmap x hx)) hi'
  have e : c * (∫ x in (-1 : ℝ)..1, f (c * x + m)) = ∫ d in a..b, f d := by
    have := intervalIntegral.smul_integral_comp_mul_add (a := (-1 : ℝ)) (b := 1) f c m
    rw [smul_eq_mul] at this
    rw [this]
    congr 1
    · rw [hc, hm]; ring
    · rw [hc, hm]; ring
  rw [← e]
  refine (t.const_mul c).congr fun n => ?_
  rw [Finset.mul_sum]
  exact Finset.sum_congr rfl fun i _ => by ring

theorem density_between {a b d : ℝ} (h : d ∈ Set.Icc a b) : density a b d = cde2Density d := by
  rw [density_inside h.1 h.2, cde2Density_eq]

theorem node_between {n : Nat} {r : (Nat → ℝ) × (Nat → ℝ)} (h : Refine.Gauss n r) {a b : ℝ} (hab : a < b) {i : Nat} (hi : i < n) :
    a < 1 / 2 * (b - a) * r.1 i + 1 / 2 * (a + b) ∧ 1 / 2 * (b - a) * r.1 i + 1 / 2 * (a + b) < b := by
  obtain ⟨h1, h2⟩ := h.interior hi
  have hc : 0 < 1 / 2 * (b - a) := by linarith
  constructor
  · have : 1 / 2 * (b - a) * (-1) < 1 / 2 * (b - a) * r.1 i := mul_lt_mul_of_pos_left h1 hc
    linarith
  · have : 1 / 2 * (b - a) * r.1 i < 1 / 2 * (b - a) * 1 := mul_lt_mul_of_pos_left h2 hc
    linarith

/-- weights of a rule are positive -/
theorem gauss_pos {n : Nat} {r : (Nat → ℝ) × (Nat → ℝ)} (h : Refine.Gauss n r) {i : Nat} (hi : i < n) : 0 < r.2 i := by
  obtain ⟨h1, h2⟩ := h.interior hi
  rw [h.weights i hi]
  have : 0 < 1 - r.1 i ^ 2 := by nlinarith
  have h3 := Legendre.simple_root (by omega) (h.zeros i hi)
  positivity

/-- **A single shape**: the limits are its axis ratio, and averages are the values for this shape. -/
theorem c103_single (d : ℝ) (q : ℝ → ℝ) : getLimits (single d) = (d, d) ∧ (single d).shapes.number = 1 ∧ mean (single d).shapes q = q d := by
  refine ⟨rfl, rfl, ?_⟩
  unfold mean single
  simp

/-- The averages in the tables (C84) are these averages. -/
theorem c103_table (H : Content.Problem) (S : Shapes) (hn : H.P.nshape = S.number) (hw : H.weight = S.weight) (f : Nat → ℝ) (q : ℝ → ℝ)
    (hf : ∀ s < S.number, f s = q (S.ratio s)) : Content.shapeMean H f = mean S q := by
  unfold Content.shapeMean mean
  rw [hn, hw]
  congr 1
  exact Finset.sum_congr rfl fun s hs => by rw [hf s (Finset.mem_range.1 hs)]

theorem limits_more {cutoff : ℝ} {steps : Nat} {l : ℝ × ℝ} (h : limits density cutoff steps = some l) (k : Nat) : limits density cutoff (steps + k) = some l := by
  unfold limits at h ⊢
  cases h1 : descend density cutoff steps 1 with
  | none => rw [h1] at h; cases h
  | some m =>
    rw [h1] at h
    rw [descend_more _ _ _ k h1]
    change (bisectMin density cutoff steps m 1).bind _ = _ at h
    change (bisectMin density cutoff (steps + k) m 1).bind _ = _
    cases h2 : bisectMin density cutoff steps m 1 with
    | none => rw [h2] at h; cases h
    | some r =>
      rw [h2] at h
      rw [bisectMin_more _ _ _ _ k h2]
      change (ascend density cutoff r.1 steps 1).bind _ = _ at h
      change (ascend density cutoff r.1 (steps + k) 1).bind _ = _
      cases h3 : ascend density cutoff r.1 steps 1 with
      | none => rw [h3] at h; cases h
      | some x =>
        rw [h3] at h
        rw [ascend_more _ _ _ k h3]
        change (bisectMax density cutoff r.1 steps 1 x).bind _ = _ at h
        change (bisectMax density cutoff r.1 (steps + k) 1 x).bind _ = _
        cases h4 : bisectMax density cutoff r.1 steps 1 x with
        | none => rw [h4] at h; cases h
        | some y =>
          rw [h4] at h
          rw [bisectMax_more _ _ _ _ k h4]
          exact h

/-- **What the class gives**: with a cut-off between 0 and 64/135 (the density for spheres; 0.15 if none is given), no fraction, and a number of points from 1 to 2³² - 1 (20 if none is
given), the call returns, whatever the number of points, with limits on both sides of 1 at which the density is at most the cut-off; all shapes are between the limits and have positive
weights. -/
theorem c103_object {gl : Nat → (Nat → ℝ) × (Nat → ℝ)} (hgl : ∀ n, 0 < n → Refine.Gauss n (gl n)) (I : ℝ → ℝ → ℝ) {npoints : Option Int} {n : Nat} (hn : (n : Int) = npoints.getD 20)
    (hn0 : 0 < n) (hn1 : n < 2 ^ 32) {cutoff fraction : Option ℝ} {c : ℝ} (hc : c = cutoff.getD (15 / 100)) (hc0 : 0 < c) (hc1 : c < 64 / 135) (hf : ∀ x, fraction = some x → x ≤ 0) :
    ∃ o steps, (∀ k, pyDraineHensley gl I npoints cutoff fraction (steps + k) = some o) ∧ o.shapes.number = n ∧ 0 < o.minimum ∧ o.minimum < 1 ∧ 1 < o.maximum
      ∧ getLimits o = (o.minimum, o.maximum) ∧ cde2Density o.minimum ≤ c ∧ cde2Density o.maximum ≤ c
      ∧ ∀ i < n, o.minimum < o.shapes.ratio i ∧ o.shapes.ratio i < o.maximum ∧ 0 < o.shapes.weight i := by
  obtain ⟨steps, ⟨a, b⟩, hl⟩ := c68_limits_exist hc0
  obtain ⟨h1, h2, h3, h4, h5, -, -⟩ := c68_limits hl
  have ha : a < 1 := by
    refine lt_of_le_of_ne h2 fun h => ?_
    rw [h, uncut_one] at h4
    linarith
  have hb : 1 < b := by
    refine lt_of_le_of_ne h3 fun h => ?_
    rw [← h, uncut_one] at h5
    linarith
  have hu : unsigned32 20 npoints = n := by
    cases npoints with
    | none =>
      change (n : Int) = 20 at hn
      change 20 = n
      omega
    | some x =>
      change (n : Int) = x at hn
      change (x % 2 ^ 32).toNat = n
      rw [← hn]
      omega
  have hfr : ¬ fraction.getD (-1) > 0 := by
    cases fraction with
    | none => norm_num
    | some x => exact not_lt.2 (hf x rfl)
  refine ⟨⟨a, b, evaluated (gl n) n (density a b) a b⟩, steps, fun k => ?_, rfl, h1, ha, hb, rfl, by rw [cde2Density_eq]; exact h4, by rw [cde2Density_eq]; exact h5, fun i hi => ?_⟩
  · unfold pyDraineHensley draineHensley
    rw [hu, if_neg hfr, ← hc, limits_more hl k]
    rfl
  · obtain ⟨e1, e2⟩ := node_between (hgl n hn0) (show a < b by linarith) hi
    refine ⟨e1, e2, ?_⟩
    change 0 < (gl n).2 i * (1 / 2 * (b - a)) * density a b _
    rw [density_between ⟨e1.le, e2.le⟩, cde2Density_eq]
    exact mul_pos (mul_pos (gauss_pos (hgl n hn0) hi) (by linarith)) (uncut_pos (by linarith))

/-- **Averages are between the smallest and the largest value** -/
theorem c103_between {S : Shapes} (hn : 0 < S.number) (hw : ∀ i < S.number, 0 < S.weight i) {q : ℝ → ℝ} {lo hi : ℝ} (hq : ∀ i < S.number, lo ≤ q (S.ratio i) ∧ q (S.ratio i) ≤ hi) :
    lo ≤ mean S q ∧ mean S q ≤ hi := by
  have hpos : 0 < ∑ i ∈ Finset.range S.number, S.weight i :=
    Finset.sum_pos (fun i hi => hw i (Finset.mem_range.1 hi)) ⟨0, Finset.mem_range.2 hn⟩
  unfold mean
  rw [le_div_iff₀ hpos, div_le_iff₀ hpos, Finset.mul_sum, Finset.mul_sum]
  constructor
  · refine Finset.sum_le_sum fun i hi' => ?_
    have h1 := hw i (Finset.mem_range.1 hi')
    have h2 := (hq i (Finset.mem_range.1 hi')).1
    nlinarith
  · refine Finset.sum_le_sum fun i hi' => ?_
    have h1 := hw i (Finset.mem_range.1 hi')
    have h2 := (hq i (Finset.mem_range.1 hi')).2
    nlinarith

theorem density_integral_pos {a b : ℝ} (ha : 0 < a) (hab : a < b) : 0 < ∫ d in a..b, cde2Density d :=
  intervalIntegral.intervalIntegral_pos_of_pos_on ((piecewise_density ha).integrable hab.le)
    (fun x hx => by rw [cde2Density_eq]; exact uncut_pos (ha.trans hx.1)) hab

/-- **With more points the averages tend to the mean over the CDE2 distribution between the limits**, for every value that is bounded and continuous in the axis ratio up to finitely many
jumps (the order of the calculation can change from shape to shape). -/
theorem c103_converges {gl : Nat → (Nat → ℝ) × (Nat → ℝ)} (hgl : ∀ n, 0 < n → Refine.Gauss n (gl n)) {a b : ℝ} (ha : 0 < a) (hab : a < b) {q : ℝ → ℝ} (hq : Piecewise a b q) :
    Tendsto (fun n => mean (evaluated (gl n) n (density a b) a b) q) atTop (𝓝 (cde2Mean a b q)) := by
  have t1 := converge_between hgl hab ((piecewise_density (b := b) ha).mul hq)
  have t2 := converge_between hgl hab (piecewise_density (b := b) ha)
  refine ((t1.div t2 (density_integral_pos ha hab).ne').congr' ?_)
  filter_upwards [eventually_gt_atTop 0] with n hn
  have hd : ∀ i < n, density a b (1 / 2 * (b - a) * (gl n).1 i + 1 / 2 * (a + b)) = cde2Density (1 / 2 * (b - a) * (gl n).1 i + 1 / 2 * (a + b)) := fun i hi => by
    obtain ⟨e1, e2⟩ := node_between (hgl n hn) hab hi
    exact density_between ⟨e1.le, e2.le⟩
  unfold mean evaluated
  dsimp only
  refine congrArg₂ (fun u v : ℝ => u / v) (Finset.sum_congr rfl fun i hi => ?_) (Finset.sum_congr rfl fun i hi => ?_)
  · rw [hd i (Finset.mem_range.1 hi)]
    ring
  · rw [hd i (Finset.mem_range.1 hi)]

/-- the same for the objects of the Python module: a cut-off, more and more points -/
theorem c103_refined {gl : Nat → (Nat → ℝ) × (Nat → ℝ)} (hgl : ∀ n, 0 < n → Refine.Gauss n (gl n)) (I : ℝ → ℝ → ℝ) {c fraction : ℝ} (hc0 : 0 < c) (hc1 : c < 64 / 135) (hf : fraction ≤ 0) :
    ∃ a b steps, 0 < a ∧ a < 1 ∧ 1 < b ∧ ∃ o : Nat → Object, (∀ n, draineHensley gl I n c fraction steps = some (o n) ∧ getLimits (o n) = (a, b))
      ∧ ∀ q, Piecewise a b q → Tendsto (fun n => mean (o n).shapes q) atTop (𝓝 (cde2Mean a b q)) := by
  obtain ⟨steps, ⟨a, b⟩, hl⟩ := c68_limits_exist hc0
  obtain ⟨h1, h2, h3, h4, h5, -, -⟩ := c68_limits hl
  have ha : a < 1 := by
    refine lt_of_le_of_ne h2 fun h => ?_
    rw [h, uncut_one] at h4
    linarith
  have hb : 1 < b := by
    refine lt_of_le_of_ne h3 fun h => ?_
    rw [← h, uncut_one] at h5
    linarith
  refine ⟨a, b, steps, h1, ha, hb, fun n => ⟨a, b, evaluated (gl n) n (density a b) a b⟩, fun n => ⟨?_, rfl⟩, fun q hq => c103_converges hgl h1 (by linarith) hq⟩
  unfold draineHensley
  rw [if_neg (not_lt.2 hf), hl]
  rfl

/-! ### arguments that are not refused -/

/-- **Violation**: with a cut-off of 64/135 = 0.474… or more, all shapes are spheres with weight zero, so that averages are divisions by zero. -/
theorem c103_violated_high (gl : Nat → (Nat → ℝ) × (Nat → ℝ)) (I : ℝ → ℝ → ℝ) (n steps : Nat) {c fraction : ℝ} (hc : 64 / 135 ≤ c) (hf : fraction ≤ 0) :
    ∃ o, draineHensley gl I n c fraction (steps + 1) = some o ∧ getLimits o = (1, 1) ∧ (∀ i, o.shapes.ratio i = 1 ∧ o.shapes.weight i = 0)
      ∧ ∑ i ∈ Finset.range o.shapes.number, o.shapes.weight i = 0 := by
  have hd : ¬ density 1 1 1 - c > 0 := by
    rw [density_inside le_rfl le_rfl, uncut_one]
    linarith
  have hl : limits density c (steps + 1) = some (1, 1) := by
    have h1 : descend density c (steps + 1) 1 = some 1 := by
      unfold descend
      rw [if_neg hd]
    have h2 : bisectMin density c (steps + 1) 1 1 = some (1, 1) := by
      unfold bisectMin
      rw [if_neg]
      norm_num
    have h3 : ascend density c 1 (steps + 1) 1 = some 1 := by
      unfold ascend
      rw [if_neg hd]
    have h4 : bisectMax density c 1 (steps + 1) 1 1 = some (1, 1) := by
      unfold bisectMax
      rw [if_neg]
      norm_num
    unfold limits
    rw [h1]
    change (bisectMin density c (steps + 1) 1 1).bind _ = _
    rw [h2]
    change (ascend density c 1 (steps + 1) 1).bind _ = _
    rw [h3]
    change (bisectMax density c 1 (steps + 1) 1 1).bind _ = _
    rw [h4]
    rfl
  have hw : ∀ i, (evaluated (gl n) n (density 1 1) 1 1).ratio i = 1 ∧ (evaluated (gl n) n (density 1 1) 1 1).weight i = 0 := by
    intro i
    unfold evaluated
    constructor
    · dsimp only
      norm_num
    · dsimp only
      norm_num
  refine ⟨⟨1, 1, evaluated (gl n) n (density 1 1) 1 1⟩, ?_, rfl, hw, Finset.sum_eq_zero fun i _ => (hw i).2⟩
  unfold draineHensley
  rw [if_neg (not_lt.2 hf), hl]
  rfl

/-- **Violation**: with a cut-off that is not positive (and no fraction), the search for the limits does not end (in exact arithmetic). -/
theorem c103_violated_low (gl : Nat → (Nat → ℝ) × (Nat → ℝ)) (I : ℝ → ℝ → ℝ) (n steps : Nat) {c fraction : ℝ} (hc : c ≤ 0) (hf : fraction ≤ 0) :
    draineHensley gl I n c fraction steps = none := by
  have hdesc : ∀ steps m, 0 < m → m ≤ 1 → descend density c steps m = none := by
    intro steps
    induction steps with
    | zero => intro m _ _; rfl
    | succ steps ih =>
      intro m h0 h1
      unfold descend
      rw [if_pos]
      · exact ih _ (by linarith) (by linarith)
      · rw [density_inside le_rfl h1]
        have := uncut_pos h0
        linarith
  unfold draineHensley
  rw [if_neg (not_lt.2 hf)]
  unfold limits
  rw [hdesc steps 1 one_pos le_rfl]
  rfl

/-- **Violation**: with a fraction of 1.02 or more the search does not end either, if the quadrature of the density gives at most its value for all prolate spheroids. -/
theorem c103_violated_fraction (gl : Nat → (Nat → ℝ) × (Nat → ℝ)) {I : ℝ → ℝ → ℝ} (hI : 0 < I 0 1) (hI1 : ∀ h, 0 ≤ h → h ≤ 1 → 0 ≤ I h 1 ∧ I h 1 ≤ I 0 1) (n steps : Nat) {c fraction : ℝ}
    (hf : 102 / 100 ≤ fraction) : draineHensley gl I n c fraction steps = none := by
  have hmin : ∀ steps lower upper, 0 ≤ lower → lower ≤ upper → upper ≤ 1 → fracMin I (fraction * I 0 1) steps lower upper = none := by
    intro steps
    induction steps with
    | zero => intro _ _ _ _ _; rfl
    | succ steps ih =>
      intro lower upper h0 h1 h2
      obtain ⟨i0, i1⟩ := hI1 (1 / 2 * (lower + upper)) (by linarith) (by linarith)
      have ht : 102 / 100 * I 0 1 ≤ fraction * I 0 1 := mul_le_mul_of_nonneg_right hf hI.le
      unfold fracMin
      dsimp only
      rw [if_pos]
      · split_ifs
        · exact ih _ _ (by linarith) (by linarith) h2
        · exact ih _ _ h0 (by linarith) (by linarith)
      · rw [abs_of_nonpos (by linarith), abs_of_nonneg (by linarith)]
        linarith
  unfold draineHensley
  rw [if_pos (by linarith)]
  unfold fracLimits
  dsimp only
  rw [hmin steps 0 1 le_rfl zero_le_one le_rfl]
  rfl

/-- **Violation**: a multiple of 2³² points, such as 0, is no point: the sum of the weights is zero. -/
theorem c103_violated_points (gl : Nat → (Nat → ℝ) × (Nat → ℝ)) (I : ℝ → ℝ → ℝ) (k : Int) (cutoff fraction : Option ℝ) (steps : Nat) {o : Object}
    (h : pyDraineHensley gl I (some (k * 2 ^ 32)) cutoff fraction steps = some o) : o.shapes.number = 0 ∧ ∑ i ∈ Finset.range o.shapes.number, o.shapes.weight i = 0 := by
  have hu : unsigned32 20 (some (k * 2 ^ 32)) = 0 := by
    change (k * 2 ^ 32 % 2 ^ 32).toNat = 0
    rw [Int.mul_emod_left]
    rfl
  unfold pyDraineHensley draineHensley at h
  rw [hu] at h
  have hn : o.shapes.number = 0 := by
    split_ifs at h with hf
    · cases hl : fracLimits I (fraction.getD (-1)) steps with
      | none => rw [hl] at h; cases h
      | some l => rw [hl] at h; cases h; rfl
    · cases hl : limits density (cutoff.getD (15 / 100)) steps with
      | none => rw [hl] at h; cases h
      | some l => rw [hl] at h; cases h; rfl
  rw [hn]
  exact ⟨rfl, rfl⟩

/-! ### the hypotheses can be met -/

/-- the default object, with exact rules -/
example : ∃ (gl : Nat → (Nat → ℝ) × (Nat → ℝ)) (o : Object) (steps : Nat), pyDraineHensley gl (fun _ _ => 0) none none none steps = some o ∧ o.shapes.number = 20
    ∧ ∀ i < 20, 0 < o.shapes.weight i := by
  obtain ⟨gl, hgl⟩ := Refine.rules_exist
  obtain ⟨o, steps, h, h1, -, -, -, -, -, -, h2⟩ := c103_object hgl (fun _ _ => 0) (npoints := none) (n := 20) rfl (by norm_num) (by norm_num) (cutoff := none) (fraction := none)
    (c := 15 / 100) rfl (by norm_num) (by norm_num) (by simp)
  exact ⟨gl, o, steps, h 0, h1, fun i hi => (h2 i hi).2.2⟩

/-- a value with a jump at the sphere -/
example {a b : ℝ} (hb : |b| ≤ 2) (ha : |a| ≤ 2) : Piecewise a b fun d => if d < 1 then d else 2 := by
  refine ⟨⟨2, fun d hd => ?_⟩, {1}, fun d hd h => ?_⟩
  · split_ifs
    · exact (abs_le_max_abs_abs hd.1 hd.2).trans (max_le ha hb)
    · norm_num
  · refine ContinuousAt.continuousWithinAt ?_
    rcases lt_or_gt_of_ne (fun e => h (by rw [e]; simp) : d ≠ 1) with hlt | hgt
    · exact continuousAt_id.congr ((gt_mem_nhds hlt).mono fun x hx => by dsimp only; rw [if_pos hx]; rfl)
    · exact continuousAt_const.congr ((lt_mem_nhds hgt).mono fun x hx => by dsimp only; rw [if_neg (not_lt.2 (le_of_lt hx))])

end Verif.ShapeObject
