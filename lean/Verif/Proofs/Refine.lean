import Verif.Spec.Refine
import Verif.Spec.Sphere
import Verif.Proofs.LegendreOrth
import Mathlib.Topology.ContinuousMap.Weierstrass
import Mathlib.MeasureTheory.Integral.IntervalIntegral.IntegrationByParts

/-!
# Convergence of Gauss-Legendre rules for continuous functions
-/
namespace Verif.Refine

open Polynomial Filter Topology MeasureTheory
open Verif.Legendre (P)
open Verif.Rotation (sphere)

section
variable {n : Nat} {r : (Nat → ℝ) × (Nat → ℝ)} (h : Gauss n r)
include h

theorem Gauss.exact (f : ℝ[X]) (hf : f.natDegree < 2 * n) : ∑ i ∈ Finset.range n, r.2 i * f.eval (r.1 i) = Legendre.integral f := by
  rw [Finset.sum_range, ← Legendre.gauss_exact (n := n) (fun i : Fin n => r.1 i) (fun i j hij => Fin.ext (h.different i i.2 j j.2 hij)) (fun i => h.zeros i i.2) f hf]
  exact Finset.sum_congr rfl fun i _ => by rw [h.weights i i.2]

theorem Gauss.interior {i : Nat} (hi : i < n) : -1 < r.1 i ∧ r.1 i < 1 :=
  Legendre.roots_interior (n := n) (fun i : Fin n => r.1 i) (fun i j hij => Fin.ext (h.different i i.2 j j.2 hij)) (fun i => h.zeros i i.2) ⟨i, hi⟩

theorem Gauss.nonneg {i : Nat} (hi : i < n) : 0 ≤ r.2 i := by
  obtain ⟨h1, h2⟩ := h.interior hi
  rw [h.weights i hi]
  have : 0 ≤ 1 - r.1 i ^ 2 := by nlinarith
  positivity

theorem Gauss.total (hn : 0 < n) : ∑ i ∈ Finset.range n, r.2 i = 2 := by
  have := h.exact 1 (by simp; omega)
  simp [Legendre.integral] at this
  rw [this]; norm_num

end

/-- the rules converge for every continuous function -/
theorem converge_real {gl : Nat → (Nat → ℝ) × (Nat → ℝ)} (h : ∀ n, 0 < n → Gauss n (gl n)) {f : ℝ → ℝ} (hf : ContinuousOn f (Set.Icc (-1) 1)) :
    Tendsto (fun n => ∑ i ∈ Finset.range n, (gl n).2 i * f ((gl n).1 i)) atTop (𝓝 (∫ x in (-1 : ℝ)..1, f x)) := by
  rw [Metric.tendsto_atTop]
  intro ε hε
  obtain ⟨p, hp⟩ := exists_polynomial_near_of_continuousOn (-1) 1 f hf (ε / 5) (by positivity)
  refine ⟨p.natDegree + 1, fun n hn => ?_⟩
  have hg := h n (by omega)
  have e1 : |∑ i ∈ Finset.range n, (gl n).2 i * f ((gl n).1 i) - ∑ i ∈ Finset.range n, (gl n).2 i * p.eval ((gl n).1 i)| ≤ 2 * (ε / 5) := by
    rw [← Finset.sum_sub_distrib]
    refine (Finset.abs_sum_le_sum_abs _ _).trans ?_
    rw [← hg.total (by omega), Finset.sum_mul]
    refine Finset.sum_le_sum fun i hi => ?_
    rw [Finset.mem_range] at hi
    obtain ⟨h1, h2⟩ := hg.interior hi
    rw [← mul_sub, abs_mul, abs_of_nonneg (hg.nonneg hi)]
    refine mul_le_mul_of_nonneg_left ?_ (hg.nonneg hi)
    rw [abs_sub_comm]
    exact (hp _ ⟨h1.le, h2.le⟩).le
  have e2 : |Legendre.integral p - ∫ x in (-1 : ℝ)..1, f x| ≤ 2 * (ε / 5) := by
    unfold Legendre.integral
    rw [← intervalIntegral.integral_sub (Legendre.integrable p _ _) (hf.intervalIntegrable_of_Icc (by norm_num))]
    have := intervalIntegral.norm_integral_le_of_norm_le_const (a := (-1 : ℝ)) (b := 1) (C := ε / 5) (f := fun x => p.eval x - f x) (fun x hx => by
      rw [Set.uIoc_of_le (by norm_num)] at hx
      exact (hp x ⟨hx.1.le, hx.2⟩).le)
    rw [Real.norm_eq_abs] at this
    refine this.trans (le_of_eq ?_)
    norm_num; ring
  rw [hg.exact p (by omega)] at e1
  rw [Real.dist_eq]
  calc _ ≤ _ := abs_sub_le _ (Legendre.integral p) _
    _ ≤ 2 * (ε / 5) + 2 * (ε / 5) := add_le_add e1 e2
    _ < ε := by linarith

theorem converge_complex {gl : Nat → (Nat → ℝ) × (Nat → ℝ)} (h : ∀ n, 0 < n → Gauss n (gl n)) {f : ℝ → ℂ} (hf : ContinuousOn f (Set.Icc (-1) 1)) :
    Tendsto (fun n => ∑ i ∈ Finset.range n, ((gl n).2 i : ℂ) * f ((gl n).1 i)) atTop (𝓝 (∫ x in (-1 : ℝ)..1, f x)) := by
  have hint : IntervalIntegrable f volume (-1) 1 := hf.intervalIntegrable_of_Icc (by norm_num)
  have hre := converge_real h (f := fun x => (f x).re) (Complex.continuous_re.comp_continuousOn hf)
  have him := converge_real h (f := fun x => (f x).im) (Complex.continuous_im.comp_continuousOn hf)
  have e1 : (∫ x in (-1 : ℝ)..1, (f x).re) = (∫ x in (-1 : ℝ)..1, f x).re := Complex.reCLM.intervalIntegral_comp_comm hint
  have e2 : (∫ x in (-1 : ℝ)..1, (f x).im) = (∫ x in (-1 : ℝ)..1, f x).im := Complex.imCLM.intervalIntegral_comp_comm hint
  rw [e1] at hre
  rw [e2] at him
  have := ((Complex.continuous_ofReal.tendsto _).comp hre).add (((Complex.continuous_ofReal.tendsto _).comp him).mul_const Complex.I)
  rw [Complex.re_add_im] at this
  refine this.congr fun n => ?_
  simp only [Function.comp_apply, Complex.ofReal_sum, Finset.sum_mul, ← Finset.sum_add_distrib]
  refine Finset.sum_congr rfl fun i _ => ?_
  push_cast
  linear_combination ((gl n).2 i : ℂ) * Complex.re_add_im (f ((gl n).1 i))

/-- polar angles -/
theorem converge_polar {gl : Nat → (Nat → ℝ) × (Nat → ℝ)} (h : ∀ n, 0 < n → Gauss n (gl n)) {u : ℝ → ℂ} (hu : Continuous u) :
    Tendsto (fun n => ∑ i ∈ Finset.range n, ((gl n).2 i : ℂ) * u (Real.arccos ((gl n).1 i))) atTop (𝓝 (∫ θ in (0 : ℝ)..Real.pi, Real.sin θ • u θ)) := by
  have e : ∫ θ in (0 : ℝ)..Real.pi, Real.sin θ • u θ = ∫ x in (-1 : ℝ)..1, u (Real.arccos x) := by
    have := intervalIntegral.integral_deriv_smul_comp (a := 0) (b := Real.pi) (f := fun θ => Real.cos θ) (f' := fun θ => -Real.sin θ) (g := fun x => u (Real.arccos x))
      (fun x _ => Real.hasDerivAt_cos x) (Real.continuous_sin.neg.continuousOn) (by fun_prop)
    rw [Real.cos_pi, Real.cos_zero, intervalIntegral.integral_symm (-1) 1] at this
    have h2 : ∫ θ in (0 : ℝ)..Real.pi, (-Real.sin θ) • ((fun x => u (Real.arccos x)) ∘ fun θ => Real.cos θ) θ = -∫ θ in (0 : ℝ)..Real.pi, Real.sin θ • u θ := by
      rw [← intervalIntegral.integral_neg]
      refine intervalIntegral.integral_congr fun θ hθ => ?_
      rw [Set.uIcc_of_le Real.pi_pos.le] at hθ
      simp [Real.arccos_cos hθ.1 hθ.2]
    rw [h2] at this
    exact neg_injective this
  rw [e]
  exact converge_complex h (f := fun x => u (Real.arccos x)) (hu.comp Real.continuous_arccos).continuousOn

/-- azimuths -/
theorem converge_azimuth {gl : Nat → (Nat → ℝ) × (Nat → ℝ)} (h : ∀ n, 0 < n → Gauss n (gl n)) {v : ℝ → ℂ} (hv : Continuous v) :
    Tendsto (fun n => ∑ i ∈ Finset.range n, (((gl n).2 i * Real.pi : ℝ) : ℂ) * v (Real.pi * (gl n).1 i + Real.pi)) atTop (𝓝 (∫ φ in (0 : ℝ)..2 * Real.pi, v φ)) := by
  have e : ∫ φ in (0 : ℝ)..2 * Real.pi, v φ = ∫ x in (-1 : ℝ)..1, Real.pi * v (Real.pi * x + Real.pi) := by
    rw [intervalIntegral.integral_const_mul]
    have := intervalIntegral.smul_integral_comp_mul_add (a := -1) (b := 1) v Real.pi Real.pi
    rw [show Real.pi * -1 + Real.pi = 0 by ring, show Real.pi * 1 + Real.pi = 2 * Real.pi by ring] at this
    rw [← this]
    simp
  rw [e]
  refine (converge_complex h (f := fun x => Real.pi * v (Real.pi * x + Real.pi)) (Continuous.continuousOn (by fun_prop))).congr fun n => ?_
  refine Finset.sum_congr rfl fun i _ => ?_
  push_cast
  ring

/-- sums of products of functions of the two angles -/
inductive Sep : (ℝ → ℝ → ℂ) → Prop
  | prod {u v : ℝ → ℂ} (hu : Continuous u) (hv : Continuous v) : Sep fun θ φ => u θ * v φ
  | add {f g : ℝ → ℝ → ℂ} (hf : Sep f) (hg : Sep g) : Sep fun θ φ => f θ φ + g θ φ

theorem Sep.const (c : ℂ) : Sep fun _ _ => c := by simpa using Sep.prod (u := fun _ => c) (v := fun _ => 1) continuous_const continuous_const

theorem Sep.sum {ι : Type} (s : Finset ι) {f : ι → ℝ → ℝ → ℂ} (h : ∀ x ∈ s, Sep (f x)) : Sep fun θ φ => ∑ x ∈ s, f x θ φ := by
  classical
  induction s using Finset.induction_on with
  | empty => simpa using Sep.const 0
  | insert a s ha ih =>
    simp only [Finset.sum_insert ha]
    exact (h a (by simp)).add (ih fun x hx => h x (by simp [hx]))

theorem Sep.mul {f g : ℝ → ℝ → ℂ} (hf : Sep f) (hg : Sep g) : Sep fun θ φ => f θ φ * g θ φ := by
  induction hf with
  | prod hu hv =>
    rename_i u v
    induction hg with
    | prod hu' hv' =>
      rename_i u' v'
      have := Sep.prod (hu.mul hu') (hv.mul hv')
      convert this using 3
      simp only [Pi.mul_apply]
      ring
    | add _ _ h1 h2 => simpa [mul_add] using h1.add h2
  | add _ _ h1 h2 => simpa [add_mul] using h1.add h2

theorem Sep.conj {f : ℝ → ℝ → ℂ} (hf : Sep f) : Sep fun θ φ => (starRingEnd ℂ) (f θ φ) := by
  induction hf with
  | prod hu hv => simpa using Sep.prod (Complex.continuous_conj.comp hu) (Complex.continuous_conj.comp hv)
  | add _ _ h1 h2 => simpa using h1.add h2

theorem Sep.continuous {f : ℝ → ℝ → ℂ} (hf : Sep f) : Continuous fun x : ℝ × ℝ => f x.1 x.2 := by
  induction hf with
  | prod hu hv => fun_prop
  | add _ _ h1 h2 => exact h1.add h2

theorem inner_cont {f : ℝ → ℝ → ℂ} (hf : Continuous fun x : ℝ × ℝ => f x.1 x.2) : Continuous fun θ => ∫ φ in (0 : ℝ)..2 * Real.pi, f θ φ :=
  intervalIntegral.continuous_parametric_intervalIntegral_of_continuous' (f := f) hf _ _

theorem Sep.converge {gl : Nat → (Nat → ℝ) × (Nat → ℝ)} (h : ∀ n, 0 < n → Gauss n (gl n)) {f : ℝ → ℝ → ℂ} (hf : Sep f) :
    Tendsto (fun n => ∑ j ∈ Finset.range n, ∑ l ∈ Finset.range n, ((gl n).2 j : ℂ) * (((gl n).2 l * Real.pi : ℝ) : ℂ)
      * f (Real.arccos ((gl n).1 j)) (Real.pi * (gl n).1 l + Real.pi)) atTop (𝓝 (sphere f)) := by
  induction hf with
  | prod hu hv =>
    rename_i u v
    have e : sphere (fun θ φ => u θ * v φ) = (∫ θ in (0 : ℝ)..Real.pi, Real.sin θ • u θ) * ∫ φ in (0 : ℝ)..2 * Real.pi, v φ := by
      unfold sphere
      rw [← intervalIntegral.integral_mul_const]
      congr 1
      funext θ
      rw [intervalIntegral.integral_const_mul, smul_mul_assoc]
    rw [e]
    refine ((converge_polar h hu).mul (converge_azimuth h hv)).congr fun n => ?_
    rw [Finset.sum_mul_sum]
    exact Finset.sum_congr rfl fun j _ => Finset.sum_congr rfl fun l _ => by ring
  | add hf hg h1 h2 =>
    rename_i f g
    have e : sphere (fun θ φ => f θ φ + g θ φ) = sphere f + sphere g := by
      unfold sphere
      rw [← intervalIntegral.integral_add]
      · congr 1
        funext θ
        have c1 := hf.continuous
        have c2 := hg.continuous
        rw [intervalIntegral.integral_add (Continuous.intervalIntegrable (by fun_prop) _ _) (Continuous.intervalIntegrable (by fun_prop) _ _), smul_add]
      · have := inner_cont hf.continuous
        exact Continuous.intervalIntegrable (by fun_prop) _ _
      · have := inner_cont hg.continuous
        exact Continuous.intervalIntegrable (by fun_prop) _ _
    rw [e]
    refine (h1.add h2).congr fun n => ?_
    rw [← Finset.sum_add_distrib]
    refine Finset.sum_congr rfl fun j _ => ?_
    rw [← Finset.sum_add_distrib]
    exact Finset.sum_congr rfl fun l _ => by ring

end Verif.Refine
