import Verif.Proofs.WignerD
import Verif.Properties.PythonAlign
import Mathlib.MeasureTheory.Integral.IntegrableOn
import Mathlib.Analysis.SpecialFunctions.Integrals.Basic

/-!
# C92: the averaged T-matrix is the average of the T-matrices of the rotated particle
-/
namespace Verif.Rotation

open Polynomial Finset MeasureTheory
open Verif.Clebsch Verif.Legendre Verif.Alignment Verif.TMatrix Verif.Python

/-- the functions `d` form a representation of the rotations around one axis -/
theorem c92_compose (n m m' : Int) (hm : |m| ≤ n) (β γ : ℝ) : d n m m' (β + γ) = ∑ k ∈ Icc (-n) n, d n m k β * d n k m' γ := by
  have := d_unique n (fun m t => d n m m' (t + γ)) (fun m t => ∑ k ∈ Icc (-n) n, d n m k t * d n k m' γ)
    (fun m t _ => by
      refine ((d_deriv_all n m m' (t + γ)).comp t ((hasDerivAt_id t).add_const γ)).congr_deriv ?_
      ring)
    (fun m t _ => by
      refine (HasDerivAt.fun_sum fun k _ => (d_deriv_all n m k t).mul_const (d n k m' γ)).congr_deriv ?_
      simp only [Finset.mul_sum, ← Finset.sum_sub_distrib]
      apply Finset.sum_congr rfl
      intro k _
      ring)
    (fun m hm => by
      rw [zero_add, Finset.sum_eq_single m]
      · rw [d_zero n m m hm, if_pos rfl, one_mul]
      · intro k _ hk
        rw [d_zero n m k hm, if_neg (Ne.symm hk), zero_mul]
      · intro h
        exact absurd (Finset.mem_Icc.2 (abs_le.1 hm)) h) m hm β
  exact this

/-- no rotation -/
theorem c92_identity (n m m' : Int) (hm : |m| ≤ n) : d n m m' 0 = if m = m' then 1 else 0 := d_zero n m m' hm

theorem d_continuous (n m m' : Int) : Continuous (d n m m') :=
  continuous_iff_continuousAt.mpr fun β => (d_deriv_all n m m' β).continuousAt

/-- a continuous function has a mean over a distribution of angles -/
theorem integrable_of {E : Type} [NormedAddCommGroup E] {μ : Measure ℝ} (h : AngleDist μ) {f : ℝ → E} (hf : Continuous f) : Integrable f μ := by
  have := h.prob
  have h1 : IntegrableOn f (Set.Icc 0 Real.pi) μ := hf.continuousOn.integrableOn_compact isCompact_Icc
  have h2 : IntegrableOn f (Set.Icc 0 Real.pi)ᶜ μ := by
    rw [IntegrableOn, Measure.restrict_eq_zero.mpr h.range]
    exact integrable_zero_measure
  rw [← integrableOn_univ, ← Set.union_compl_self (Set.Icc 0 Real.pi)]
  exact h1.union h2

theorem circle_mean (k : Int) : ∫ α in (0 : ℝ)..2 * Real.pi, Complex.exp (-(Complex.I * (k * α))) = if k = 0 then 2 * Real.pi else 0 := by
  by_cases hk : k = 0
  · subst hk
    simp
  · rw [if_neg hk]
    have hc : (-(Complex.I * k) : ℂ) ≠ 0 := by
      simp [hk, Complex.I_ne_zero]
    have e : (fun α : ℝ => Complex.exp (-(Complex.I * (k * α)))) = fun α : ℝ => Complex.exp ((-(Complex.I * k)) * α) := by
      funext α
      congr 1
      ring
    rw [e, integral_exp_mul_complex hc]
    have : Complex.exp (-(Complex.I * k) * ((2 * Real.pi : ℝ) : ℂ)) = 1 := by
      rw [Complex.exp_eq_one_iff]
      refine ⟨-k, ?_⟩
      push_cast
      ring
    rw [this]
    simp

/-- the product that occurs in the rotated T-matrix, for equal projections -/
theorem product_same {n1 n2 : Nat} {m k : Int} (hm : |m| ≤ min n1 n2) (hk : |k| ≤ min n1 n2) (β : ℝ) :
    d n1 m k β * d n2 m k β
      = ∑ N ∈ Icc |(n1 : Int) - n2| (n1 + n2), (-1) ^ (m + k).natAbs * (P N.toNat).eval (Real.cos β) * cg n1 n2 N 0 m * cg n1 n2 N 0 k := by
  have h1 : |m| ≤ (n1 : Int) := hm.trans (by simp)
  have h2 : |m| ≤ (n2 : Int) := hm.trans (by simp)
  have hp := product n1 n2 k m (-m) (by omega) (by omega) (by simpa using hk) h1 (by rwa [abs_neg]) β
  rw [d_neg n2 m k h2] at hp
  have hsq : (-1 : ℝ) ^ (m + k).natAbs * (-1) ^ (m + k).natAbs = 1 := by
    rw [← mul_pow]
    simp
  have : d n1 m k β * d n2 m k β = (-1) ^ (m + k).natAbs * coupled n1 n2 k m (-m) β := by
    rw [← hp]
    linear_combination -(d n1 m k β * d n2 m k β) * hsq
  rw [this]
  unfold coupled
  rw [Finset.mul_sum]
  apply Finset.sum_congr rfl
  intro N hN
  rw [Finset.mem_Icc] at hN
  have hN0 : 0 ≤ N := (abs_nonneg _).trans hN.1
  rw [add_neg_cancel]
  have := d_legendre N.toNat β
  rw [Int.toNat_of_nonneg hN0] at this
  rw [this]
  ring

/-- **C92** The average over the azimuth and the polar angle of the axis of the T-matrix of the rotated particle is the matrix `averaged` of the mean
values of the Legendre polynomials (which is what the code computes, C57); there are no elements with different projections. -/
theorem c92_average {μ : Measure ℝ} (hμ : AngleDist μ) (T : Nat → Nat → Int → Nat → Nat → ℂ) (i n1 j n2 : Nat) {m m' : Int}
    (hm : |m| ≤ n1) (hm' : |m'| ≤ n2) :
    average μ (fun α β => rotated T α β i n1 m j n2 m')
      = if m = m' then averaged (fun x : ℝ => (x : ℂ)) (fun N => ∫ β, (P N.toNat).eval (Real.cos β) ∂μ) T i n1 m j n2 else 0 := by
  have inner : ∀ β, (1 / (2 * Real.pi) * ∫ α in (0 : ℝ)..2 * Real.pi, rotated T α β i n1 m j n2 m' : ℂ)
      = if m = m' then ∑ m1 ∈ Icc (-(min n1 n2 : Int)) (min n1 n2), ((d n1 m m1 β * d n2 m' m1 β : ℝ) : ℂ) * T i n1 m1 j n2 else 0 := by
    intro β
    have e : (fun α : ℝ => rotated T α β i n1 m j n2 m') = fun α : ℝ => Complex.exp (-(Complex.I * ((m - m' : Int) * α)))
        * ∑ m1 ∈ Icc (-(min n1 n2 : Int)) (min n1 n2), ((d n1 m m1 β * d n2 m' m1 β : ℝ) : ℂ) * T i n1 m1 j n2 := by
      funext α
      unfold rotated D
      rw [Finset.mul_sum]
      apply Finset.sum_congr rfl
      intro m1 _
      rw [map_mul, ← Complex.exp_conj, Complex.conj_ofReal]
      simp only [map_neg, map_mul, Complex.conj_I, Complex.conj_ofReal, map_intCast]
      have : Complex.exp (-(Complex.I * ((m - m' : Int) * α))) = Complex.exp (-(Complex.I * (m * α))) * Complex.exp (-(-Complex.I * (m' * α))) := by
        rw [← Complex.exp_add]
        congr 1
        push_cast
        ring
      rw [this]
      push_cast
      ring
    rw [e, intervalIntegral.integral_mul_const, circle_mean]
    have hpi : (Real.pi : ℂ) ≠ 0 := by exact_mod_cast Real.pi_ne_zero
    by_cases h : m = m'
    · rw [if_pos (by omega), if_pos h]
      push_cast
      field_simp
    · rw [if_neg (by omega), if_neg h, Complex.ofReal_zero, zero_mul, mul_zero]
  unfold average
  refine (integral_congr_ae (μ := μ) (Filter.Eventually.of_forall fun β => inner β)).trans ?_
  by_cases h : m = m'
  · subst h
    simp only [if_true]
    rw [integral_finset_sum _ fun m1 _ => (integrable_of hμ (by
      exact (Complex.continuous_ofReal.comp ((d_continuous _ _ _).mul (d_continuous _ _ _))).mul continuous_const))]
    unfold averaged
    rw [Finset.sum_comm]
    apply Finset.sum_congr rfl
    intro m1 h1
    rw [Finset.mem_Icc] at h1
    have hk : |m1| ≤ min (n1 : Int) n2 := by rw [abs_le]; exact_mod_cast h1
    rw [integral_mul_const, ← Finset.sum_mul]
    congr 1
    rw [show (∫ a, ((d n1 m m1 a * d n2 m m1 a : ℝ) : ℂ) ∂μ) = ((∫ a, d n1 m m1 a * d n2 m m1 a ∂μ : ℝ) : ℂ) from integral_ofReal,
      ← Complex.ofReal_sum]
    congr 1
    rw [integral_congr_ae (Filter.Eventually.of_forall fun β => product_same (by rw [Nat.cast_min]; exact le_min hm hm') (by rw [Nat.cast_min]; exact hk) β)]
    rw [integral_finset_sum _ fun N _ => (integrable_of hμ (by
      exact (((continuous_const.mul ((Polynomial.continuous (P N.toNat)).comp Real.continuous_cos)).mul continuous_const).mul continuous_const)))]
    apply Finset.sum_congr rfl
    intro N _
    rw [integral_mul_const, integral_mul_const, integral_const_mul]
  · simp [h]

theorem averaged_congr {p q : Int → ℝ} (T : Nat → Nat → Int → Nat → Nat → ℂ) (i n1 : Nat) (m : Int) (j n2 : Nat)
    (h : ∀ N : Nat, N ≤ n1 + n2 → p N = q N) :
    averaged (fun x : ℝ => (x : ℂ)) p T i n1 m j n2 = averaged (fun x : ℝ => (x : ℂ)) q T i n1 m j n2 := by
  unfold averaged
  apply Finset.sum_congr rfl
  intro N hN
  rw [Finset.mem_Icc] at hN
  have hN0 : 0 ≤ N := (abs_nonneg _).trans hN.1
  have := h N.toNat (by omega)
  rw [Int.toNat_of_nonneg hN0] at this
  rw [this]

/-- **C92** The average over orientations that the code computes (C57), with expansion coefficients of the distribution `μ` of the angle between the axis and the
vertical: every element of the result is the average over all orientations of the element of the T-matrix of the rotated particle, and the elements the code
does not store, with different projections, have the average zero. -/
theorem c92_task (inp : TRes ℂ ℝ) (s : State ℂ ℝ) {maxOrder : Nat} (hs : s.out.Shape maxOrder) (ho : inp.nmax ≤ maxOrder)
    (T : Nat → Nat → Int → Nat → Nat → ℂ) (hA : Axisymmetric T) (hS : Stores inp T)
    {μ : Measure ℝ} (hμ : AngleDist μ) (hp : Expands μ (fun n => s.p.v n) (2 * inp.nmax))
    {i n1 m j n2 m' : Nat} (hv : Valid inp.nmax i n1 m) (hv' : Valid inp.nmax j n2 m') :
    (execute Real.sqrt (⇑(algebraMap ℝ ℂ)) true inp s).out.nmax = inp.nmax
    ∧ average μ (fun α β => rotated T α β i n1 m j n2 m')
      = if m = m' then (execute Real.sqrt (⇑(algebraMap ℝ ℂ)) true inp s).out.get i n1 m j n2 else 0 := by
  have hn := hv.n
  have hn' := hv'.n
  have e := c92_average hμ T i n1 j n2 (m := m) (m' := m') (by rw [abs_of_nonneg (by omega)]; have := hv.m; omega)
    (by rw [abs_of_nonneg (by omega)]; have := hv'.m; omega)
  by_cases h : m = m'
  · subst h
    obtain ⟨h1, h2⟩ := c57_average (algebraMap ℝ ℂ) inp s hs ho T hA hS hv hv'
    refine ⟨h1, ?_⟩
    rw [if_pos rfl, h2, e, if_pos rfl]
    apply averaged_congr
    intro N hN
    exact (hp N (by omega)).symm
  · obtain ⟨h1, -⟩ := c57_average (algebraMap ℝ ℂ) inp s hs ho T hA hS hv hv
    refine ⟨h1, ?_⟩
    rw [if_neg h, e, if_neg (by exact_mod_cast h)]

/-- **C92** The T-matrix of a grain of a table (C91) is the average over orientations of the T-matrix of the rotated grain, for a distribution of the angle between
the axis and the vertical that has the mean squared cosine that was asked for. -/
theorem c92_table (o : Special.Ops ℝ) (fuel : Nat) (A : AlignArgs) {s : Orientation.SizeBased ℝ} (hs : alignInit o fuel A = .ok s) (ht : A.type = 0 ∨ A.type = 1) {radius : ℝ}
    (hr : A.minimumSize < radius) (axisRatio : ℝ) (inp out : TRes ℂ ℝ) (C : Vec ℝ) {maxOrder : Nat} (hn : 1 ≤ inp.nmax) (hA : inp.nmax ≤ A.maximumOrder)
    (hS : out.Shape maxOrder) (ho : inp.nmax ≤ maxOrder) (Tm : Nat → Nat → Int → Nat → Nat → ℂ) (hT : Axisymmetric Tm) (hSt : Stores inp Tm) :
    ∃ μ, AngleDist μ ∧ meanCos2 μ = wanted A.type axisRatio
      ∧ ∀ {i n1 m j n2 : Nat}, Valid inp.nmax i n1 m → Valid inp.nmax j n2 m →
        (alignTask s radius axisRatio inp C out).out.get i n1 m j n2 = average μ (fun α β => rotated Tm α β i n1 m j n2 m) := by
  obtain ⟨-, -, μ, h1, h2, h3⟩ := c91_aligned_partial o fuel A hs ht hr axisRatio inp out C hn hA hS ho Tm hT hSt
  refine ⟨μ, h1, h2, fun {i n1 m j n2} hv hv' => ?_⟩
  rw [h3 hv hv', c92_average h1 Tm i n1 j n2 (m := m) (m' := m) (by rw [abs_of_nonneg (by omega)]; have := hv.m; omega)
    (by rw [abs_of_nonneg (by omega)]; have := hv'.m; omega), if_pos rfl]

/-! ### concrete cases -/

/-- `d^1_{01} = sin β / √2` -/
example (β : ℝ) : d 1 0 1 β = Real.sqrt (1 / 2) * Real.sin β := by
  have := d_wigner 1 1 β
  rw [show ((1 : Nat) : Int) = 1 from rfl] at this
  rw [this]
  unfold wigner G
  rw [if_pos le_rfl]
  simp [P_one, Nat.factorial]

/-- a particle with its axis along the vertical, and another one with the axis in the horizontal plane -/
example (C : Vec ℝ) {i n1 m j n2 : Nat} (hv : Valid 5 i n1 m) (hv' : Valid 5 j n2 m) :
    average (Measure.dirac 0) (fun α β => rotated exTm α β i n1 m j n2 m)
      = (execute Real.sqrt (⇑(algebraMap ℝ ℂ)) true exT ⟨C, ⟨11, fun _ => 1, true⟩, exT⟩).out.get i n1 m j n2 := by
  have := (c92_task exT ⟨C, ⟨11, fun _ => 1, true⟩, exT⟩ (maxOrder := 5) exT_shape le_rfl exTm exT_axisymmetric exT_stores
    (dirac_dist le_rfl Real.pi_pos.le) (fun n _ => by simp [P_eval_one]) hv hv').2
  rwa [if_pos rfl] at this

example (C : Vec ℝ) {i n1 m j n2 : Nat} (hv : Valid 5 i n1 m) (hv' : Valid 5 j n2 m) :
    average (Measure.dirac (Real.pi / 2)) (fun α β => rotated exTm α β i n1 m j n2 m)
      = (execute Real.sqrt (⇑(algebraMap ℝ ℂ)) true exT ⟨C, ⟨11, fun N => (P N.toNat).eval 0, true⟩, exT⟩).out.get i n1 m j n2 := by
  have := (c92_task exT ⟨C, ⟨11, fun N => (P N.toNat).eval 0, true⟩, exT⟩ (maxOrder := 5) exT_shape le_rfl exTm exT_axisymmetric exT_stores
    (dirac_dist (β := Real.pi / 2) (by linarith [Real.pi_pos]) (by linarith [Real.pi_pos])) (fun n _ => by simp) hv hv').2
  rwa [if_pos rfl] at this

end Verif.Rotation
