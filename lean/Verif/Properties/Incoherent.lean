import Verif.Properties.Oriented

/-!
# C94: what is quadratic in the fields, for an ensemble
-/
namespace Verif.Rotation

open Finset MeasureTheory Verif.Scatter Verif.Frame
open Verif.Direct (theory alphaF)
open Verif.Alignment (Axisymmetric Stores averaged)
open Verif.Python (AngleDist)
open Verif.Clebsch (lad lad_top lad_bot shift_sum)

/-! ### means -/

theorem circle_continuous {f : ℝ → ℝ → ℝ} (hf : Continuous fun x : ℝ × ℝ => f x.1 x.2) :
    Continuous fun β => 1 / (2 * Real.pi) * ∫ α in (0 : ℝ)..2 * Real.pi, f α β := by
  refine continuous_const.mul (intervalIntegral.continuous_parametric_intervalIntegral_of_continuous' ?_ 0 (2 * Real.pi))
  exact hf.comp continuous_swap

theorem mean_mono {μ : Measure ℝ} (hμ : AngleDist μ) {f g : ℝ → ℝ → ℝ} (hf : Continuous fun x : ℝ × ℝ => f x.1 x.2) (hg : Continuous fun x : ℝ × ℝ => g x.1 x.2)
    (h : ∀ α β, f α β ≤ g α β) : mean μ f ≤ mean μ g := by
  unfold mean
  refine integral_mono (integrable_of hμ (circle_continuous hf)) (integrable_of hμ (circle_continuous hg)) fun β => ?_
  have hp : (0 : ℝ) ≤ 2 * Real.pi := by positivity
  refine mul_le_mul_of_nonneg_left ?_ (by positivity)
  exact intervalIntegral.integral_mono hp ((hf.comp (by fun_prop : Continuous fun α : ℝ => (α, β))).intervalIntegrable _ _)
    ((hg.comp (by fun_prop : Continuous fun α : ℝ => (α, β))).intervalIntegrable _ _) fun α => h α β

theorem mean_const {μ : Measure ℝ} (hμ : AngleDist μ) (c : ℝ) : mean μ (fun _ _ => c) = c := by
  have := hμ.prob
  unfold mean
  have hp : Real.pi ≠ 0 := Real.pi_ne_zero
  simp
  field_simp

theorem mean_sum {μ : Measure ℝ} (hμ : AngleDist μ) {ι : Type} (s : Finset ι) {f : ι → ℝ → ℝ → ℝ} (hf : ∀ x ∈ s, Continuous fun y : ℝ × ℝ => f x y.1 y.2) :
    mean μ (fun α β => ∑ x ∈ s, f x α β) = ∑ x ∈ s, mean μ (f x) := by
  unfold mean
  rw [← integral_finsetSum _ fun x hx => integrable_of hμ (circle_continuous (hf x hx))]
  refine integral_congr_ae (Filter.Eventually.of_forall fun β => ?_)
  dsimp only
  rw [intervalIntegral.integral_finsetSum, Finset.mul_sum]
  intro x hx
  exact ((hf x hx).comp (by fun_prop : Continuous fun α : ℝ => (α, β))).intervalIntegrable _ _

theorem mean_mul {μ : Measure ℝ} (c : ℝ) (f : ℝ → ℝ → ℝ) : mean μ (fun α β => c * f α β) = c * mean μ f := by
  unfold mean
  rw [← integral_const_mul]
  refine integral_congr_ae (Filter.Eventually.of_forall fun β => ?_)
  dsimp only
  rw [intervalIntegral.integral_const_mul]
  ring

theorem mean_add {μ : Measure ℝ} (hμ : AngleDist μ) {f g : ℝ → ℝ → ℝ} (hf : Continuous fun x : ℝ × ℝ => f x.1 x.2) (hg : Continuous fun x : ℝ × ℝ => g x.1 x.2) :
    mean μ (fun α β => f α β + g α β) = mean μ f + mean μ g := by
  have := mean_sum hμ (Finset.univ : Finset (Fin 2)) (f := fun j α β => if j = 0 then f α β else g α β) (by
    intro j _
    fin_cases j
    · simpa using hf
    · simpa using hg)
  simp only [Fin.sum_univ_two, if_true, one_ne_zero, if_false] at this
  exact this

/-- the square of the mean is not above the mean of the square -/
theorem jensen {μ : Measure ℝ} (hμ : AngleDist μ) {f : ℝ → ℝ → ℂ} (hf : Continuous fun x : ℝ × ℝ => f x.1 x.2) :
    Complex.normSq (average μ f) ≤ mean μ (fun α β => Complex.normSq (f α β)) := by
  set a := average μ f with ha
  have hn : Continuous fun x : ℝ × ℝ => Complex.normSq (f x.1 x.2) := Complex.continuous_normSq.comp hf
  have hl : Continuous fun x : ℝ × ℝ => (f x.1 x.2 * (starRingEnd ℂ) a).re := Complex.continuous_re.comp (hf.mul continuous_const)
  have hm : mean μ (fun α β => (f α β * (starRingEnd ℂ) a).re) = Complex.normSq a := by
    obtain ⟨L, hL⟩ : ∃ L : ℂ →L[ℝ] ℂ, ∀ z, L z = ((z * (starRingEnd ℂ) a).re : ℂ) :=
      ⟨(Complex.reCLM.comp (ContinuousLinearMap.mul ℝ ℂ ((starRingEnd ℂ) a))).smulRight (1 : ℂ), fun z => by simp; ring⟩
    have := average_map hμ L hf
    simp only [hL] at this
    rw [mean_average, ← ha, Complex.mul_conj] at this
    exact_mod_cast this
  have h0 : 0 ≤ mean μ (fun α β => Complex.normSq (f α β) + ((-2) * (f α β * (starRingEnd ℂ) a).re + Complex.normSq a)) := by
    rw [← mean_const hμ 0]
    refine mean_mono hμ continuous_const (hn.add ((continuous_const.mul hl).add continuous_const)) fun α β => ?_
    have := Complex.normSq_nonneg (f α β - a)
    rw [Complex.normSq_sub] at this
    linarith
  rw [mean_add hμ hn ((continuous_const.mul hl).add continuous_const), mean_add hμ (continuous_const.mul hl) continuous_const, mean_mul, hm, mean_const hμ] at h0
  linarith

/-! ### unitarity -/

/-- the columns of Wigner's matrix are orthonormal -/
theorem d_orth (n : Nat) {l l' : Int} (hl : |l| ≤ n) (β : ℝ) :
    ∑ m ∈ Icc (-(n : Int)) n, d n m l β * d n m l' β = if l = l' then 1 else 0 := by
  have hd : ∀ t, HasDerivAt (fun t => ∑ m ∈ Icc (-(n : Int)) n, d n m l t * d n m l' t) 0 t := by
    intro t
    refine (HasDerivAt.fun_sum fun m _ => (d_deriv_all n m l t).mul (d_deriv_all n m l' t)).congr_deriv ?_
    have s1 := shift_sum (fun m => lad n m * (d n m l t * d n (m + 1) l' t)) (a := -(n : Int)) (b := n) (by omega) (by rw [lad_bot, zero_mul])
      (by rw [lad_top, zero_mul])
    have s2 := shift_sum (fun m => lad n m * (d n (m + 1) l t * d n m l' t)) (a := -(n : Int)) (b := n) (by omega) (by rw [lad_bot, zero_mul])
      (by rw [lad_top, zero_mul])
    have e : ∀ m, 1 / 2 * (lad n m * d n (m + 1) l t - lad n (m - 1) * d n (m - 1) l t) * d n m l' t
        + d n m l t * (1 / 2 * (lad n m * d n (m + 1) l' t - lad n (m - 1) * d n (m - 1) l' t))
        = 1 / 2 * (lad n m * (d n (m + 1) l t * d n m l' t)) - 1 / 2 * (lad n (m - 1) * (d n (m - 1) l t * d n m l' t))
          + (1 / 2 * (lad n m * (d n m l t * d n (m + 1) l' t)) - 1 / 2 * (lad n (m - 1) * (d n m l t * d n (m - 1) l' t))) := fun m => by ring
    simp only [e, Finset.sum_add_distrib, Finset.sum_sub_distrib, ← Finset.mul_sum]
    simp only [sub_add_cancel] at s1 s2
    linarith
  have hc := is_const_of_deriv_eq_zero (fun t => (hd t).differentiableAt) (fun t => (hd t).deriv) β 0
  rw [hc]
  have hm : ∀ m ∈ Icc (-(n : Int)) n, d n m l 0 * d n m l' 0 = if l = m then (if l = l' then 1 else 0) else 0 := by
    intro m hm
    rw [Finset.mem_Icc] at hm
    rw [d_zero _ _ _ (abs_le.2 hm), d_zero _ _ _ (abs_le.2 hm)]
    by_cases h : m = l
    · subst h; simp
    · rw [if_neg h, if_neg (Ne.symm h), zero_mul]
  rw [Finset.sum_congr rfl hm, Finset.sum_ite_eq, if_pos (Finset.mem_Icc.2 (abs_le.1 hl))]

theorem D_orth (n : Nat) {l l' : Int} (hl : |l| ≤ n) (α β : ℝ) :
    ∑ m ∈ Icc (-(n : Int)) n, D n m l α β * (starRingEnd ℂ) (D n m l' α β) = if l = l' then 1 else 0 := by
  have h := d_orth n (l' := l') hl β
  have e : ∀ m : Int, D n m l α β * (starRingEnd ℂ) (D n m l' α β) = ((d n m l β * d n m l' β : ℝ) : ℂ) := by
    intro m
    unfold D
    have h1 : Complex.exp (-(Complex.I * (m * α))) * (starRingEnd ℂ) (Complex.exp (-(Complex.I * (m * α)))) = 1 := by
      rw [← Complex.exp_conj, ← Complex.exp_add]
      simp
    rw [map_mul, Complex.conj_ofReal]
    push_cast
    linear_combination (d n m l β : ℂ) * d n m l' β * h1
  simp only [e]
  rw [← Complex.ofReal_sum, h]
  split <;> simp

theorem power_rotated (T : Nat → Nat → Int → Nat → Nat → ℂ) (α β : ℝ) (i n j n' : Nat) :
    ∑ m ∈ Icc (-(n : Int)) n, ∑ m' ∈ Icc (-(n' : Int)) n', Complex.normSq (rotated T α β i n m j n' m')
      = ∑ l ∈ Icc (-(min n n' : Int)) (min n n'), Complex.normSq (T i n l j n') := by
  apply Complex.ofReal_injective
  push_cast
  simp only [Complex.normSq_eq_conj_mul_self]
  set K := Icc (-(min n n' : Int)) (min n n') with hK
  have e : ∀ m m', (starRingEnd ℂ) (rotated T α β i n m j n' m') * rotated T α β i n m j n' m'
      = ∑ l ∈ K, ∑ l' ∈ K, ((starRingEnd ℂ) (T i n l j n') * T i n l' j n') * ((D n m l' α β * (starRingEnd ℂ) (D n m l α β)) * (D n' m' l α β * (starRingEnd ℂ) (D n' m' l' α β))) := by
    intro m m'
    unfold rotated
    rw [map_sum, Finset.sum_mul_sum]
    refine Finset.sum_congr rfl fun l _ => Finset.sum_congr rfl fun l' _ => ?_
    simp only [map_mul, Complex.conj_conj]
    ring
  simp only [e]
  have r : ∑ m ∈ Icc (-(n : Int)) n, ∑ m' ∈ Icc (-(n' : Int)) n', ∑ l ∈ K, ∑ l' ∈ K,
      ((starRingEnd ℂ) (T i n l j n') * T i n l' j n') * ((D n m l' α β * (starRingEnd ℂ) (D n m l α β)) * (D n' m' l α β * (starRingEnd ℂ) (D n' m' l' α β)))
      = ∑ l ∈ K, ∑ l' ∈ K, ∑ m ∈ Icc (-(n : Int)) n, ∑ m' ∈ Icc (-(n' : Int)) n',
      ((starRingEnd ℂ) (T i n l j n') * T i n l' j n') * ((D n m l' α β * (starRingEnd ℂ) (D n m l α β)) * (D n' m' l α β * (starRingEnd ℂ) (D n' m' l' α β))) := by
    have : ∀ m, ∑ m' ∈ Icc (-(n' : Int)) n', ∑ l ∈ K, ∑ l' ∈ K,
      ((starRingEnd ℂ) (T i n l j n') * T i n l' j n') * ((D n m l' α β * (starRingEnd ℂ) (D n m l α β)) * (D n' m' l α β * (starRingEnd ℂ) (D n' m' l' α β)))
      = ∑ l ∈ K, ∑ l' ∈ K, ∑ m' ∈ Icc (-(n' : Int)) n',
      ((starRingEnd ℂ) (T i n l j n') * T i n l' j n') * ((D n m l' α β * (starRingEnd ℂ) (D n m l α β)) * (D n' m' l α β * (starRingEnd ℂ) (D n' m' l' α β))) := by
      intro m
      rw [Finset.sum_comm]
      refine Finset.sum_congr rfl fun l _ => ?_
      rw [Finset.sum_comm]
    simp only [this]
    rw [Finset.sum_comm]
    refine Finset.sum_congr rfl fun l _ => ?_
    rw [Finset.sum_comm]
  rw [r]
  refine Finset.sum_congr rfl fun l hl => ?_
  rw [hK, Finset.mem_Icc] at hl
  have hl1 : |l| ≤ (n : Int) := abs_le.2 ⟨by omega, by omega⟩
  have hl2 : |l| ≤ (n' : Int) := abs_le.2 ⟨by omega, by omega⟩
  have e2 : ∀ l' ∈ K, ∑ m ∈ Icc (-(n : Int)) n, ∑ m' ∈ Icc (-(n' : Int)) n',
      ((starRingEnd ℂ) (T i n l j n') * T i n l' j n') * ((D n m l' α β * (starRingEnd ℂ) (D n m l α β)) * (D n' m' l α β * (starRingEnd ℂ) (D n' m' l' α β)))
      = if l = l' then (starRingEnd ℂ) (T i n l j n') * T i n l j n' else 0 := by
    intro l' hl'
    rw [hK, Finset.mem_Icc] at hl'
    simp only [← Finset.mul_sum, ← Finset.sum_mul]
    rw [D_orth n (abs_le.2 ⟨by omega, by omega⟩ : |l'| ≤ (n : Int)), D_orth n' hl2]
    by_cases h : l = l'
    · subst h
      simp
    · simp [h]
  rw [Finset.sum_congr rfl e2, Finset.sum_ite_eq, if_pos (by rw [hK]; exact Finset.mem_Icc.2 hl)]

theorem trace_rotated (T : Nat → Nat → Int → Nat → Nat → ℂ) (α β : ℝ) (i n j : Nat) :
    ∑ m ∈ Icc (-(n : Int)) n, rotated T α β i n m j n m = ∑ l ∈ Icc (-(n : Int)) n, T i n l j n := by
  unfold rotated
  rw [Finset.sum_comm]
  simp only [min_self]
  refine Finset.sum_congr rfl fun l hl => ?_
  rw [Finset.mem_Icc] at hl
  have e : ∀ m : Int, D n m l α β * T i n l j n * (starRingEnd ℂ) (D n m l α β) = T i n l j n * (D n m l α β * (starRingEnd ℂ) (D n m l α β)) := fun m => by ring
  simp only [e]
  rw [← Finset.mul_sum, D_orth n (abs_le.2 hl), if_pos rfl, mul_one]

theorem average_const {μ : Measure ℝ} (hμ : AngleDist μ) (c : ℂ) : average μ (fun _ _ => c) = c := by
  have := hμ.prob
  unfold average
  have hp : (Real.pi : ℂ) ≠ 0 := by exact_mod_cast Real.pi_ne_zero
  simp
  field_simp

/-- the trace of the averaged matrix -/
theorem trace_averaged {μ : Measure ℝ} (hμ : AngleDist μ) (T : Nat → Nat → Int → Nat → Nat → ℂ) (i n j : Nat) :
    ∑ m ∈ Icc (-(n : Int)) n, averaged (fun x : ℝ => (x : ℂ)) (coefficients μ) T i n m j n = ∑ m ∈ Icc (-(n : Int)) n, T i n m j n := by
  have h := average_sum hμ (Icc (-(n : Int)) n) (f := fun m α β => rotated T α β i n m j n m) fun m _ => rotated_continuous T i n m j n m
  simp only [trace_rotated, average_const hμ] at h
  rw [h]
  refine Finset.sum_congr rfl fun m hm => ?_
  rw [Finset.mem_Icc] at hm
  have := c92_average hμ T i n j n (abs_le.2 hm) (abs_le.2 hm)
  rw [if_pos rfl] at this
  rw [this]
  rfl

/-- the sum of the squares of the averaged matrix -/
theorem power_averaged {μ : Measure ℝ} (hμ : AngleDist μ) (T : Nat → Nat → Int → Nat → Nat → ℂ) (i n j n' : Nat) :
    ∑ m ∈ Icc (-(min n n' : Int)) (min n n'), Complex.normSq (averaged (fun x : ℝ => (x : ℂ)) (coefficients μ) T i n m j n')
      ≤ ∑ m ∈ Icc (-(min n n' : Int)) (min n n'), Complex.normSq (T i n m j n') := by
  have hc : ∀ m m', Continuous fun x : ℝ × ℝ => Complex.normSq (rotated T x.1 x.2 i n m j n' m') := fun m m' =>
    Complex.continuous_normSq.comp (rotated_continuous T i n m j n' m')
  have h1 : ∑ m ∈ Icc (-(n : Int)) n, ∑ m' ∈ Icc (-(n' : Int)) n', mean μ (fun α β => Complex.normSq (rotated T α β i n m j n' m'))
      = ∑ m ∈ Icc (-(min n n' : Int)) (min n n'), Complex.normSq (T i n m j n') := by
    have := mean_sum hμ (Icc (-(n : Int)) n) (f := fun m α β => ∑ m' ∈ Icc (-(n' : Int)) n', Complex.normSq (rotated T α β i n m j n' m'))
      fun m _ => continuous_finsetSum _ fun m' _ => hc m m'
    simp only [power_rotated, mean_const hμ] at this
    rw [this]
    refine Finset.sum_congr rfl fun m _ => ?_
    rw [mean_sum hμ _ fun m' _ => hc m m']
  rw [← h1]
  have h2 : ∀ m ∈ Icc (-(n : Int)) n, ∀ m' ∈ Icc (-(n' : Int)) n', (if m = m' then Complex.normSq (averaged (fun x : ℝ => (x : ℂ)) (coefficients μ) T i n m j n') else 0)
      ≤ mean μ (fun α β => Complex.normSq (rotated T α β i n m j n' m')) := by
    intro m hm m' hm'
    rw [Finset.mem_Icc] at hm hm'
    refine le_trans (le_of_eq ?_) (jensen hμ (rotated_continuous T i n m j n' m'))
    rw [c92_average hμ T i n j n' (abs_le.2 hm) (abs_le.2 hm')]
    by_cases h : m = m'
    · rw [if_pos h, if_pos h]
      rfl
    · rw [if_neg h, if_neg h, map_zero]
  refine le_trans (le_of_eq ?_) (Finset.sum_le_sum fun m hm => Finset.sum_le_sum fun m' hm' => h2 m hm m' hm')
  simp only [Finset.sum_ite_eq]
  rw [← Finset.sum_filter]
  refine Finset.sum_congr (Finset.ext fun m => ?_) fun _ _ => rfl
  simp only [Finset.mem_filter, Finset.mem_Icc]
  omega

/-! ### the code -/

theorem mueller_zero (S : Amp) : mueller S 0 0 = 1 / 2 * ∑ p : Fin 2, ∑ q : Fin 2, Complex.normSq (entry S p q) := by
  simp [mueller, entry, Fin.sum_univ_two, Complex.normSq_apply]
  ring

/-- **C94** (in part): the scattered intensity computed for an ensemble is not above the average over the orientations -/
theorem c94_intensity_partial {μ : Measure ℝ} (hμ : AngleDist μ) (o : Direct.Obj ℝ ℂ) {Tm : Nat → Nat → Int → Nat → Nat → ℂ} (hA : Axisymmetric Tm)
    (hS : Stores o.res (averaged (fun x : ℝ => (x : ℂ)) (coefficients μ) Tm)) {θi φi θo φo : ℝ} (hri : Regular θi) (hro : Regular θo) {S : ℝ → ℝ → Amp}
    (h : ∀ α β, Oriented Tm o.k o.nmax α β θi φi θo φo (S α β)) :
    mueller (Direct.forwardAngles o θi φi θo φo) 0 0 ≤ mean μ (fun α β => mueller (S α β) 0 0) := by
  obtain ⟨i, hi⟩ := angular_all θi
  obtain ⟨s, hs⟩ := angular_all θo
  have hc : ∀ p q, Continuous fun x : ℝ × ℝ => entry (S x.1 x.2) p q := by
    intro p q
    have := general_continuous Tm o.k o.nmax i s φo φi p q
    exact this.congr fun x => (c93_oriented (h x.1 x.2) hi hs p q).symm
  have hn : ∀ p q, Continuous fun x : ℝ × ℝ => Complex.normSq (entry (S x.1 x.2) p q) := fun p q => Complex.continuous_normSq.comp (hc p q)
  simp only [mueller_zero]
  rw [mean_mul, mean_sum hμ _ fun p _ => continuous_finsetSum _ fun q _ => hn p q]
  refine mul_le_mul_of_nonneg_left (Finset.sum_le_sum fun p _ => ?_) (by norm_num)
  rw [mean_sum hμ _ fun q _ => hn p q]
  refine Finset.sum_le_sum fun q _ => ?_
  rw [c93_ensemble hμ o hA hS hri hro h]
  exact jensen hμ (hc p q)

/-- **C94** (in part): for the T-matrix of an ensemble the method for the scattering cross section never returns more than for the T-matrix of the particle itself,
and the one for the extinction cross section returns the same -/
theorem c94_coefficients_partial {μ : Measure ℝ} (hμ : AngleDist μ) (o o' : Direct.Obj ℝ ℂ) (hn : o'.nmax = o.nmax) {Tm : Nat → Nat → Int → Nat → Nat → ℂ} (hA : Axisymmetric Tm)
    (hS : Stores o.res Tm) (hS' : Stores o'.res (averaged (fun x : ℝ => (x : ℂ)) (coefficients μ) Tm)) :
    Direct.scatteringCoefficient o' ≤ Direct.scatteringCoefficient o
    ∧ ((∀ i n m i' n', TMatrix.Valid o.nmax i n m → TMatrix.Valid o.nmax i' n' m → (i + n + i' + n') % 2 = 1 → o.res.get i n m i' n' = 0) →
      Direct.extinctionCoefficient o' = Direct.extinctionCoefficient o) := by
  have hA' : Axisymmetric (averaged (fun x : ℝ => (x : ℂ)) (coefficients μ) Tm) := Content.averaged_axisymmetric (algebraMap ℝ ℂ) (coefficients μ) hA
  constructor
  · rw [Direct.c77_scattering o hA hS, Direct.c77_scattering o' hA' hS', hn]
    refine Finset.sum_le_sum fun n _ => Finset.sum_le_sum fun n' _ => ?_
    have e : ∀ f : Int → Nat → Nat → ℝ, ∑ m ∈ Icc (-((min n n' : Nat) : Int)) (min n n' : Nat), ∑ i ∈ range 2, ∑ i' ∈ range 2, f m i i'
        = ∑ i ∈ range 2, ∑ i' ∈ range 2, ∑ m ∈ Icc (-(min n n' : Int)) (min n n'), f m i i' := by
      intro f
      rw [Finset.sum_comm]
      refine Finset.sum_congr rfl fun i _ => ?_
      rw [Finset.sum_comm]
      push_cast
      rfl
    rw [e, e]
    exact Finset.sum_le_sum fun i _ => Finset.sum_le_sum fun i' _ => power_averaged hμ Tm i n i' n'
  · intro h1
    have h2 : ∀ i n m i' n', TMatrix.Valid o.nmax i n m → TMatrix.Valid o.nmax i' n' m → (i + n + i' + n') % 2 = 1 → o'.res.get i n m i' n' = 0 := by
      intro i n m i' n' v v' hodd
      rw [hS' i n m i' n' (by change TMatrix.Valid o'.nmax _ _ _; rw [hn]; exact v) (by change TMatrix.Valid o'.nmax _ _ _; rw [hn]; exact v')]
      unfold averaged
      refine Finset.sum_eq_zero fun N _ => Finset.sum_eq_zero fun l hl => ?_
      rw [Finset.mem_Icc] at hl
      have key : ∀ k : Nat, k ≤ min n n' → Tm i n k i' n' = 0 := by
        intro k hk
        have w : TMatrix.Valid o.nmax i n k := ⟨v.i, v.one, by omega, v.n⟩
        have w' : TMatrix.Valid o.nmax i' n' k := ⟨v'.i, v'.one, by omega, v'.n⟩
        rw [← hS i n k i' n' w w']
        exact h1 i n k i' n' w w' hodd
      have : Tm i n l i' n' = 0 := by
        rcases Int.natAbs_eq l with h | h
        · rw [h]
          exact key _ (by omega)
        · rw [h, hA, key _ (by omega), mul_zero]
      rw [this, mul_zero]
    rw [Direct.c77_extinction o hA hS h1, Direct.c77_extinction o' hA' hS' (by rw [hn]; exact h2), hn]
    refine Finset.sum_congr rfl fun n _ => ?_
    rw [Finset.sum_comm, Finset.sum_comm (s := Icc (-(n : Int)) n)]
    refine Finset.sum_congr rfl fun i _ => ?_
    have := congrArg Complex.re (trace_averaged hμ Tm i n i)
    rw [Complex.re_sum, Complex.re_sum] at this
    exact this

/-- **C94** (in part): the absorption coefficient in a table of aligned grains (C84), if what is scattered is accounted for, is not below the mean over the orientations
of extinction minus scattering of the single grains (with the same quadrature over the directions) -/
theorem c94_absorption_partial (H : Content.Problem) (c : Graph.Cell) (g : Nat) {T : Nat → Nat → Int → Nat → Nat → ℂ} (ha : H.aligned c = true)
    {μ : Measure ℝ} (hμ : AngleDist μ) (hp : ∀ n : Nat, n ≤ 2 * Content.orderAt H g → (H.coeff c).v n = coefficients μ n) {θ : ℝ} {o : Angular} (ho : o.IsOf θ)
    {i : Nat → Angular} (hi : ∀ j < H.ngrid, (i j).IsOf (Content.gridθ H H.ngrid j)) (hw : ∀ j < H.ngrid, 0 ≤ (H.gl H.ngrid).2 j)
    {F : ℝ → ℝ → Amp} (hF : ∀ α β, Oriented T (Content.waveK H c.par) (Content.orderAt H g) α β θ 0 θ 0 (F α β))
    {S : Nat → Nat → ℝ → ℝ → Amp} (hS : ∀ j < H.ngrid, ∀ l < H.ngrid, ∀ α β,
      Oriented T (Content.waveK H c.par) (Content.orderAt H g) α β (Content.gridθ H H.ngrid j) (Content.gridφ H H.ngrid l) θ 0 (S j l α β)) :
    mean μ (fun α β => 2 * Real.pi / Content.waveK H c.par * ((F α β).s0 + (F α β).s3).im / Content.disc H c.par
        - (∑ j ∈ range H.ngrid, ∑ l ∈ range H.ngrid, (H.gl H.ngrid).2 j * Content.gridW H H.ngrid l * mueller (S j l α β) 0 0) / Content.disc H c.par)
      ≤ Content.extI H c g T o - Content.lost H c g T o i 0 / Content.disc H c.par := by
  set k := Content.waveK H c.par with hk
  set N := Content.orderAt H g with hN
  have hens : ∀ a n1 m b n2, n1 ≤ N → n2 ≤ N → Content.ensemble H c T a n1 m b n2 = averaged (fun x : ℝ => (x : ℂ)) (coefficients μ) T a n1 m b n2 := by
    intro a n1 m b n2 h1 h2
    unfold Content.ensemble
    rw [if_pos ha]
    exact averaged_congr T a n1 m b n2 fun N hN => hp N (by omega)
  have hsc : ∀ j l, Content.scattered H c g T o (i j) (-Content.gridφ H H.ngrid l) 0
      = mueller (theory (averaged (fun x : ℝ => (x : ℂ)) (coefficients μ) T) k N (i j) o (0 - Content.gridφ H H.ngrid l)) 0 0 := by
    intro j l
    rw [← theory_congr k (i j) o _ hens, zero_sub, mueller_zero]
    have e11 : Content.amp11 H c g T o (i j) (-Content.gridφ H H.ngrid l) = entry (theory (Content.ensemble H c T) k N (i j) o (-Content.gridφ H H.ngrid l)) 0 0 := rfl
    have e12 : Content.amp12 H c g T o (i j) (-Content.gridφ H H.ngrid l) = entry (theory (Content.ensemble H c T) k N (i j) o (-Content.gridφ H H.ngrid l)) 0 1 := rfl
    have e21 : Content.amp21 H c g T o (i j) (-Content.gridφ H H.ngrid l) = entry (theory (Content.ensemble H c T) k N (i j) o (-Content.gridφ H H.ngrid l)) 1 0 := rfl
    have e22 : Content.amp22 H c g T o (i j) (-Content.gridφ H H.ngrid l) = entry (theory (Content.ensemble H c T) k N (i j) o (-Content.gridφ H H.ngrid l)) 1 1 := rfl
    unfold Content.scattered
    rw [e11, e12, e21, e22, Fin.sum_univ_two, Fin.sum_univ_two, Fin.sum_univ_two]
    simp only [stokes, Matrix.cons_val_zero]
    ring
  have cS : ∀ j < H.ngrid, ∀ l < H.ngrid, ∀ p q, Continuous fun x : ℝ × ℝ => entry (S j l x.1 x.2) p q := by
    intro j hj l hl p q
    have := general_continuous T k N (i j) o 0 (Content.gridφ H H.ngrid l) p q
    exact this.congr fun x => (c93_oriented (hS j hj l hl x.1 x.2) (hi j hj) ho p q).symm
  have cN : ∀ j < H.ngrid, ∀ l < H.ngrid, Continuous fun x : ℝ × ℝ => mueller (S j l x.1 x.2) 0 0 := by
    intro j hj l hl
    simp only [mueller_zero]
    exact continuous_const.mul (continuous_finsetSum _ fun p _ => continuous_finsetSum _ fun q _ => Complex.continuous_normSq.comp (cS j hj l hl p q))
  have cF : ∀ p q, Continuous fun x : ℝ × ℝ => entry (F x.1 x.2) p q := by
    intro p q
    have := general_continuous T k N o o 0 0 p q
    exact this.congr fun x => (c93_oriented (hF x.1 x.2) ho ho p q).symm
  have term : ∀ j < H.ngrid, ∀ l < H.ngrid, Content.scattered H c g T o (i j) (-Content.gridφ H H.ngrid l) 0 ≤ mean μ (fun α β => mueller (S j l α β) 0 0) := by
    intro j hj l hl
    rw [hsc]
    simp only [mueller_zero]
    have hn : ∀ p q, Continuous fun x : ℝ × ℝ => Complex.normSq (entry (S j l x.1 x.2) p q) := fun p q => Complex.continuous_normSq.comp (cS j hj l hl p q)
    rw [mean_mul, mean_sum hμ _ fun p _ => continuous_finsetSum _ fun q _ => hn p q]
    refine mul_le_mul_of_nonneg_left (Finset.sum_le_sum fun p _ => ?_) (by norm_num)
    rw [mean_sum hμ _ fun q _ => hn p q]
    refine Finset.sum_le_sum fun q _ => ?_
    rw [← c93_average hμ (hS j hj l hl) (hi j hj) ho]
    exact jensen hμ (cS j hj l hl p q)
  have c1 : Continuous fun x : ℝ × ℝ => 2 * Real.pi / k * ((F x.1 x.2).s0 + (F x.1 x.2).s3).im / Content.disc H c.par := by
    have := (cF 0 0).add (cF 1 1)
    exact (continuous_const.mul (Complex.continuous_im.comp this)).div_const _
  have c2 : ∀ j ∈ range H.ngrid, ∀ l ∈ range H.ngrid, Continuous fun x : ℝ × ℝ => (H.gl H.ngrid).2 j * Content.gridW H H.ngrid l * mueller (S j l x.1 x.2) 0 0 :=
    fun j hj l hl => continuous_const.mul (cN j (Finset.mem_range.1 hj) l (Finset.mem_range.1 hl))
  have c3 : Continuous fun x : ℝ × ℝ => ∑ j ∈ range H.ngrid, ∑ l ∈ range H.ngrid, (H.gl H.ngrid).2 j * Content.gridW H H.ngrid l * mueller (S j l x.1 x.2) 0 0 :=
    continuous_finsetSum _ fun j hj => continuous_finsetSum _ fun l hl => c2 j hj l hl
  have e1 : (fun α β => 2 * Real.pi / k * ((F α β).s0 + (F α β).s3).im / Content.disc H c.par
        - (∑ j ∈ range H.ngrid, ∑ l ∈ range H.ngrid, (H.gl H.ngrid).2 j * Content.gridW H H.ngrid l * mueller (S j l α β) 0 0) / Content.disc H c.par)
      = fun α β => 2 * Real.pi / k * ((F α β).s0 + (F α β).s3).im / Content.disc H c.par
        + (-(1 / Content.disc H c.par)) * ∑ j ∈ range H.ngrid, ∑ l ∈ range H.ngrid, (H.gl H.ngrid).2 j * Content.gridW H H.ngrid l * mueller (S j l α β) 0 0 := by
    funext α β
    ring
  rw [e1, mean_add hμ c1 (continuous_const.mul c3), mean_mul, mean_sum hμ _ fun j hj => continuous_finsetSum _ fun l hl => c2 j hj l hl,
    (c93_table H c g ha hμ hp ho hF).1]
  have hd : 0 ≤ 1 / Content.disc H c.par := by
    unfold Content.disc
    positivity
  have : Content.lost H c g T o i 0 ≤ ∑ j ∈ range H.ngrid, mean μ (fun α β => ∑ l ∈ range H.ngrid, (H.gl H.ngrid).2 j * Content.gridW H H.ngrid l * mueller (S j l α β) 0 0) := by
    unfold Content.lost
    refine Finset.sum_le_sum fun j hj => ?_
    rw [mean_sum hμ _ fun l hl => c2 j hj l hl]
    refine Finset.sum_le_sum fun l hl => ?_
    rw [mean_mul]
    refine mul_le_mul_of_nonneg_left (term j (Finset.mem_range.1 hj) l (Finset.mem_range.1 hl)) ?_
    refine mul_nonneg (hw j (Finset.mem_range.1 hj)) ?_
    unfold Content.gridW
    exact mul_nonneg (hw l (Finset.mem_range.1 hl)) Real.pi_pos.le
  have h3 := mul_le_mul_of_nonneg_left this hd
  rw [div_eq_mul_one_div (Content.lost H c g T o i 0), mul_comm (Content.lost H c g T o i 0)]
  linarith

/-! ### a particle that does not absorb -/

/-- a dipole along the axis, of order 1, that scatters all it extinguishes -/
def Tn (i _n : Nat) (m : Int) (j _n' : Nat) : ℂ := if i = 1 ∧ j = 1 ∧ m = 0 then -1 else 0

theorem Tn_axisymmetric : Axisymmetric Tn := by
  intro i n m j n'
  unfold Tn
  by_cases h : i = 1 ∧ j = 1 ∧ m = 0
  · obtain ⟨rfl, rfl, rfl⟩ := h
    norm_num
  · rw [if_neg (by simpa using h), if_neg h, mul_zero]

/-- an object of order 1, for wavenumber 1, with the given T-matrix -/
def object (T : Nat → Nat → Int → Nat → Nat → ℂ) : Direct.Obj ℝ ℂ where
  nmax := 1
  ngauss := 1
  dd _ := 0
  ann := ⟨1, 1, fun _ => 0⟩
  costheta _ := 0
  sinv _ := 0
  s2inv _ := 0
  weights _ := 0
  r2 _ := 0
  drr _ := 0
  kr _ := 0
  krinv _ := 0
  krmr _ := 0
  krmrinv _ := 0
  k := 1
  k2 := 1
  k2mr := 1
  j _ _ := 0
  y _ _ := 0
  dj _ _ := 0
  dy _ _ := 0
  jm _ _ := 0
  djm _ _ := 0
  T m := ⟨2, 2, fun q => T (q / 2) 1 m (q % 2) 1⟩

theorem object_stores (T : Nat → Nat → Int → Nat → Nat → ℂ) : Stores (object T).res T := by
  intro i n1 m j n2 h h'
  have a1 := h.one; have a2 : n1 ≤ 1 := h.n
  have b1 := h'.one; have b2 : n2 ≤ 1 := h'.n
  have c1 := h.i; have c2 := h'.i; have c3 := h.m
  obtain rfl : n1 = 1 := by omega
  obtain rfl : n2 = 1 := by omega
  have key : ∀ i < 2, TMatrix.TRes.index 1 m i 1 = i := by
    intro i hi
    interval_cases i <;> interval_cases m <;> rfl
  have e : (object T).res.get i 1 m j 1 = T ((TMatrix.TRes.index 1 m i 1 * 2 + TMatrix.TRes.index 1 m j 1) / 2) 1 m
      ((TMatrix.TRes.index 1 m i 1 * 2 + TMatrix.TRes.index 1 m j 1) % 2) 1 := rfl
  rw [e, key i c1, key j c2, show (i * 2 + j) / 2 = i by omega, show (i * 2 + j) % 2 = j by omega]

theorem quad_coeff (a b c : ℝ) : (Polynomial.C a * Polynomial.X ^ 2 + Polynomial.C b * Polynomial.X + Polynomial.C c).coeff 1 = b := by
  rw [Polynomial.coeff_add, Polynomial.coeff_add, Polynomial.coeff_C_mul, Polynomial.coeff_C_mul, Polynomial.coeff_X_pow, Polynomial.coeff_X, Polynomial.coeff_C]
  norm_num

theorem d_one (β : ℝ) : d 1 0 0 β = Real.cos β ∧ d 1 1 0 β = -(Real.sin β / Real.sqrt 2) ∧ d 1 (-1) 0 β = Real.sin β / Real.sqrt 2 := by
  have hs : Real.sin β = 2 * Real.sin (β / 2) * Real.cos (β / 2) := by rw [← Real.sin_two_mul]; congr 1; ring
  have hc : Real.cos β = Real.cos (β / 2) ^ 2 - Real.sin (β / 2) ^ 2 := by rw [← Real.cos_two_mul']; congr 1; ring
  have h1 : d 1 1 0 β = -(Real.sin β / Real.sqrt 2) := by
    have hp : (turned 1 1 β) = Polynomial.C (Real.cos (β / 2) ^ 2) * Polynomial.X ^ 2 + Polynomial.C (-(2 * Real.sin (β / 2) * Real.cos (β / 2))) * Polynomial.X
        + Polynomial.C (Real.sin (β / 2) ^ 2) := by
      unfold turned
      simp only [show ((1 : Int) + 1).toNat = 2 from rfl, show ((1 : Int) - 1).toNat = 0 from rfl, pow_zero, mul_one, map_pow, map_neg, map_mul, map_ofNat]
      ring
    rw [d_eq (by norm_num) (by norm_num), hp, hs]
    have : ((1 : Int) + 0).toNat = 1 := rfl
    rw [this, quad_coeff]
    simp [nrm, Clebsch.fac]
    ring
  have h2 : d 1 (-1) 0 β = Real.sin β / Real.sqrt 2 := by
    have := d_neg 1 1 0 (by norm_num) β
    simp at this
    rw [this, h1, neg_neg]
  have h0 : d 1 0 0 β = Real.cos β := by
    have hp : (turned 1 0 β) = Polynomial.C (Real.cos (β / 2) * Real.sin (β / 2)) * Polynomial.X ^ 2
        + Polynomial.C (Real.cos (β / 2) ^ 2 - Real.sin (β / 2) ^ 2) * Polynomial.X + Polynomial.C (-(Real.sin (β / 2) * Real.cos (β / 2))) := by
      unfold turned
      simp only [show ((1 : Int) + 0).toNat = 1 from rfl, show ((1 : Int) - 0).toNat = 1 from rfl, pow_one, map_pow, map_neg, map_mul, map_sub]
      ring
    rw [d_eq (by norm_num) (by norm_num), hp, hc]
    have : ((1 : Int) + 0).toNat = 1 := rfl
    rw [this, quad_coeff]
    simp [nrm, Clebsch.fac]
  exact ⟨h0, h1, h2⟩

/-- the angular functions of order 1 at the equator -/
theorem equator {a : Angular} (ha : a.IsOf (Real.pi / 2)) :
    a.pi 0 1 = 0 ∧ a.tau 0 1 = -1 ∧ a.pi 1 1 = 1 / Real.sqrt 2 ∧ a.tau 1 1 = 0 ∧ a.pi (-1) 1 = 1 / Real.sqrt 2 ∧ a.tau (-1) 1 = 0 := by
  have hw : ∀ t, Legendre.wigner 1 1 t = Real.sin t / Real.sqrt 2 := by
    intro t
    simp [Legendre.wigner, Legendre.G, Legendre.P]
    ring
  have t0 : a.tau 0 1 = -1 := by
    have h := (ha 0 1 le_rfl (by omega)).2
    have h' : HasDerivAt (Legendre.wigner 0 1) (-1) (Real.pi / 2) := by
      have := Real.hasDerivAt_cos (Real.pi / 2)
      rw [Real.sin_pi_div_two] at this
      rwa [show Legendre.wigner 0 1 = Real.cos from funext MatRes.wigner01]
    exact h.unique h'
  have t1 : a.tau 1 1 = 0 := by
    have h := (ha 1 1 le_rfl le_rfl).2
    have h' : HasDerivAt (Legendre.wigner 1 1) 0 (Real.pi / 2) := by
      have := (Real.hasDerivAt_sin (Real.pi / 2)).div_const (Real.sqrt 2)
      rw [Real.cos_pi_div_two, zero_div] at this
      rwa [show Legendre.wigner 1 1 = fun t => Real.sin t / Real.sqrt 2 from funext hw]
    exact h.unique h'
  have p0 : a.pi 0 1 = 0 := by
    have := a.pi_neg 0 1
    simp at this
    linarith
  have p1 : a.pi 1 1 = 1 / Real.sqrt 2 := by
    have h := (ha 1 1 le_rfl le_rfl).1 le_rfl
    have hz : ∀ᶠ t in nhdsWithin (Real.pi / 2) {Real.pi / 2}ᶜ, Real.sin t ≠ 0 := by
      refine Filter.Eventually.filter_mono nhdsWithin_le_nhds ?_
      refine Real.continuous_sin.continuousAt.eventually_ne ?_
      rw [Real.sin_pi_div_two]
      exact one_ne_zero
    have h' : Filter.Tendsto (fun t => ((1 : Nat) : ℝ) * (Legendre.wigner 1 1 t / Real.sin t)) (nhdsWithin (Real.pi / 2) {Real.pi / 2}ᶜ) (nhds (1 / Real.sqrt 2)) := by
      refine Filter.Tendsto.congr' ?_ tendsto_const_nhds
      filter_upwards [hz] with t ht
      rw [hw]
      field_simp
      simp
    exact tendsto_nhds_unique h h'
  have pm := a.pi_neg 1 1
  have tm := a.tau_neg 1 1
  simp only [Int.natAbs_one, pow_one] at pm tm
  exact ⟨p0, t0, p1, t1, by rw [pm, p1]; ring, by rw [tm, t1]; ring⟩

theorem rotated_Tn (α β : ℝ) (i : Nat) (m : Int) (j : Nat) (m' : Int) :
    rotated Tn α β i 1 m j 1 m' = if i = 1 ∧ j = 1 then -(D 1 m 0 α β * (starRingEnd ℂ) (D 1 m' 0 α β)) else 0 := by
  unfold rotated
  have : Icc (-(min ((1 : Nat) : Int) ((1 : Nat) : Int))) (min ((1 : Nat) : Int) ((1 : Nat) : Int)) = {-1, 0, 1} := by decide
  rw [this]
  by_cases h : i = 1 ∧ j = 1
  · obtain ⟨rfl, rfl⟩ := h
    simp [Tn]
  · have : ∀ m, Tn i 1 m j 1 = 0 := fun m => if_neg fun x => h ⟨x.1, x.2.1⟩
    simp [this, h]

theorem general_Tn {a : Angular} (ha : a.IsOf (Real.pi / 2)) (α : ℝ) (p q : Fin 2) :
    general (rotated Tn α (Real.pi / 2)) 1 1 a 0 a 0 p q = if p = 1 ∧ q = 1 then -(alphaF 1 1 * ((Real.sin α ^ 2 : ℝ) : ℂ)) else 0 := by
  obtain ⟨p0, t0, p1, t1, pm, tm⟩ := equator ha
  obtain ⟨d0, d1, dm⟩ := d_one (Real.pi / 2)
  rw [Real.cos_pi_div_two] at d0
  rw [Real.sin_pi_div_two] at d1 dm
  have h2 : ((Real.sqrt 2 : ℝ) : ℂ) * ((Real.sqrt 2 : ℝ) : ℂ) = 2 := by
    rw [← Complex.ofReal_mul, Real.mul_self_sqrt (by norm_num)]
    norm_num
  have h2' : ((Real.sqrt 2 : ℝ) : ℂ) ≠ 0 := by
    have : Real.sqrt 2 ≠ 0 := by positivity
    exact_mod_cast this
  have hI : Icc (-((1 : Nat) : Int)) ((1 : Nat) : Int) = {-1, 0, 1} := by decide
  unfold general
  simp only [Finset.Icc_self, Finset.sum_singleton, hI, Finset.sum_range_succ, Finset.sum_range_zero, rotated_Tn]
  have hs : ∀ f : Int → ℂ, ∑ m ∈ ({-1, 0, 1} : Finset Int), f m = f (-1) + (f 0 + f 1) := by
    intro f
    rw [Finset.sum_insert (by decide), Finset.sum_insert (by decide), Finset.sum_singleton]
  simp only [hs]
  have hD0 : D 1 0 0 α (Real.pi / 2) = 0 := by simp [D, d0]
  have hD1 : D 1 1 0 α (Real.pi / 2) = -(Complex.exp (-(Complex.I * α)) / (Real.sqrt 2 : ℝ)) := by
    simp only [D, d1]
    push_cast
    ring_nf
  have hDm : D 1 (-1) 0 α (Real.pi / 2) = Complex.exp (Complex.I * α) / (Real.sqrt 2 : ℝ) := by
    simp only [D, dm]
    push_cast
    ring_nf
  have hsin : ((Real.sin α : ℝ) : ℂ) = (Complex.exp (-(Complex.I * α)) - Complex.exp (Complex.I * α)) * Complex.I / 2 := by
    rw [Complex.ofReal_sin, Complex.sin]
    ring_nf
  fin_cases p <;> fin_cases q
  · simp [wave, hD0, hD1, hDm, t1, tm]
  · simp [wave, hD0, hD1, hDm, t1, tm]
  · simp [wave, hD0, hD1, hDm, t1, tm]
  · simp [wave, hD0, hD1, hDm, p0, p1, pm]
    have c1 : (starRingEnd ℂ) (Complex.exp (Complex.I * α)) = Complex.exp (-(Complex.I * α)) := by
      rw [← Complex.exp_conj]
      simp
    have c2 : (starRingEnd ℂ) (Complex.exp (-(Complex.I * α))) = Complex.exp (Complex.I * α) := by
      rw [← Complex.exp_conj]
      simp
    have hi : ((Real.sqrt 2 : ℝ) : ℂ)⁻¹ * ((Real.sqrt 2 : ℝ) : ℂ)⁻¹ = 1 / 2 := by
      rw [← mul_inv, h2]
      norm_num
    rw [Complex.ofReal_sin] at hsin
    rw [c1, c2, hsin]
    simp only [div_eq_mul_inv]
    generalize Complex.exp (Complex.I * α) = e at *
    generalize Complex.exp (-(Complex.I * α)) = w at *
    generalize ((Real.sqrt 2 : ℝ) : ℂ)⁻¹ = r at *
    generalize alphaF 1 1 = A at *
    have hII := Complex.I_sq
    have h4 : r ^ 4 = 1 / 4 := by
      rw [show r ^ 4 = (r * r) * (r * r) by ring, hi]
      norm_num
    linear_combination A * Complex.I ^ 2 * (2 * e * w - e ^ 2 - w ^ 2) * h4

/-- the amplitude matrices of the dipole lying in the plane of the first two axes, forward along the first axis -/
theorem oriented_Tn {S : Amp} {α : ℝ} (h : Oriented Tn 1 1 α (Real.pi / 2) (Real.pi / 2) 0 (Real.pi / 2) 0 S) (p q : Fin 2) :
    entry S p q = if p = 1 ∧ q = 1 then -(alphaF 1 1 * ((Real.sin α ^ 2 : ℝ) : ℂ)) else 0 := by
  obtain ⟨a, ha⟩ := angular_all (Real.pi / 2)
  rw [c93_oriented h ha ha, general_Tn ha]

theorem alphaF_pos : 0 < Complex.normSq (alphaF 1 1) := by
  refine Complex.normSq_pos.2 (mul_ne_zero (zpow_ne_zero _ Complex.I_ne_zero) ?_)
  have : 0 < TMatrix.prefactor 1 1 := by
    unfold TMatrix.prefactor
    positivity
  exact_mod_cast this.ne'

theorem sin_means : (1 / (2 * Real.pi) * ∫ x in (0 : ℝ)..2 * Real.pi, Real.sin x ^ 2) = 1 / 2 ∧ (1 / (2 * Real.pi) * ∫ x in (0 : ℝ)..2 * Real.pi, Real.sin x ^ 4) = 3 / 8 := by
  have hp := Real.pi_ne_zero
  have h2 : ∫ x in (0 : ℝ)..2 * Real.pi, Real.sin x ^ 2 = Real.pi := by
    rw [integral_sin_sq]
    simp
  have h4 : ∫ x in (0 : ℝ)..2 * Real.pi, Real.sin x ^ 4 = 3 / 4 * Real.pi := by
    have := integral_sin_pow (a := 0) (b := 2 * Real.pi) 2
    rw [show 2 + 2 = 4 from rfl, h2] at this
    rw [this]
    simp
    ring
  rw [h2, h4]
  constructor
  · field_simp
  · field_simp
    norm_num

/-- **C94 does not hold**: for dipoles lying in a plane the scattered intensity that is computed, forward in that plane, is two thirds of the mean intensity -/
theorem c94_violated_intensity : ∃ (μ : Measure ℝ) (o : Direct.Obj ℝ ℂ) (S : ℝ → ℝ → Amp), AngleDist μ ∧ Axisymmetric Tn
    ∧ Stores o.res (averaged (fun x : ℝ => (x : ℂ)) (coefficients μ) Tn) ∧ Regular (Real.pi / 2)
    ∧ (∀ α β, Oriented Tn o.k o.nmax α β (Real.pi / 2) 0 (Real.pi / 2) 0 (S α β))
    ∧ 0 < mean μ (fun α β => mueller (S α β) 0 0)
    ∧ mueller (Direct.forwardAngles o (Real.pi / 2) 0 (Real.pi / 2) 0) 0 0 = 2 / 3 * mean μ (fun α β => mueller (S α β) 0 0) := by
  have hp := Real.pi_pos
  set μ := Measure.dirac (Real.pi / 2) with hμd
  have hμ : AngleDist μ := Python.dirac_dist (β := Real.pi / 2) (by linarith) (by linarith)
  choose S hS _ using fun α β => c93_exists_unique Tn 1 1 α β (Real.pi / 2) 0 (Real.pi / 2) 0
  have hst := object_stores (averaged (fun x : ℝ => (x : ℂ)) (coefficients μ) Tn)
  have hmu : ∀ α, mueller (S α (Real.pi / 2)) 0 0 = 1 / 2 * Complex.normSq (alphaF 1 1) * Real.sin α ^ 4 := by
    intro α
    rw [mueller_zero]
    simp only [Fin.sum_univ_two, oriented_Tn (hS α (Real.pi / 2))]
    simp
    rw [← Complex.ofReal_sin, Complex.normSq_ofReal]
    ring
  have hm : mean μ (fun α β => mueller (S α β) 0 0) = 3 / 16 * Complex.normSq (alphaF 1 1) := by
    unfold mean
    rw [hμd, integral_dirac]
    simp only [hmu]
    rw [intervalIntegral.integral_const_mul]
    linear_combination 1 / 2 * Complex.normSq (alphaF 1 1) * sin_means.2
  refine ⟨μ, object _, S, hμ, Tn_axisymmetric, hst, regular_examples.2.2, hS, ?_, ?_⟩
  · rw [hm]
    have := alphaF_pos
    positivity
  · have he : ∀ p q, entry (Direct.forwardAngles (object (averaged (fun x : ℝ => (x : ℂ)) (coefficients μ) Tn)) (Real.pi / 2) 0 (Real.pi / 2) 0) p q
        = if p = 1 ∧ q = 1 then -(alphaF 1 1 * (1 / 2)) else 0 := by
      intro p q
      rw [c93_ensemble hμ _ Tn_axisymmetric hst regular_examples.2.2 regular_examples.2.2 (S := S) hS]
      unfold average
      rw [hμd, integral_dirac]
      simp only [oriented_Tn (hS _ (Real.pi / 2))]
      by_cases h : p = 1 ∧ q = 1
      · simp only [if_pos h]
        have := congrArg Complex.ofReal sin_means.1
        rw [Complex.ofReal_mul, ← intervalIntegral.integral_ofReal] at this
        rw [intervalIntegral.integral_neg, intervalIntegral.integral_const_mul]
        push_cast at this ⊢
        linear_combination -alphaF 1 1 * this
      · simp [if_neg h]
    rw [mueller_zero, hm]
    simp only [Fin.sum_univ_two, he]
    simp [Complex.normSq_apply]
    ring

/-- **C94 does not hold**: the dipole does not absorb, but for an ensemble of such dipoles half of what is extinguished is said to be absorbed -/
theorem c94_violated_absorption : ∃ (μ : Measure ℝ) (o o' : Direct.Obj ℝ ℂ), AngleDist μ ∧ Axisymmetric Tn ∧ o'.nmax = o.nmax ∧ Stores o.res Tn
    ∧ Stores o'.res (averaged (fun x : ℝ => (x : ℂ)) (coefficients μ) Tn)
    ∧ Direct.extinctionCoefficient o = -1 ∧ Direct.scatteringCoefficient o = 1
    ∧ Direct.extinctionCoefficient o' = -1 ∧ Direct.scatteringCoefficient o' = 1 / 2 := by
  have hp := Real.pi_pos
  set μ := Measure.dirac (Real.pi / 2) with hμd
  have hμ : AngleDist μ := Python.dirac_dist (β := Real.pi / 2) (by linarith) (by linarith)
  set o := object Tn with ho
  set o' := object (averaged (fun x : ℝ => (x : ℂ)) (coefficients μ) Tn) with ho'
  have hst : Stores o.res Tn := object_stores Tn
  have hst' : Stores o'.res (averaged (fun x : ℝ => (x : ℂ)) (coefficients μ) Tn) := object_stores _
  have hodd : ∀ i n m i' n', TMatrix.Valid o.nmax i n m → TMatrix.Valid o.nmax i' n' m → (i + n + i' + n') % 2 = 1 → o.res.get i n m i' n' = 0 := by
    intro i n m i' n' v v' h
    rw [hst i n m i' n' v v']
    have a1 := v.one; have a2 : n ≤ 1 := v.n
    have b1 := v'.one; have b2 : n' ≤ 1 := v'.n
    exact if_neg fun x => by omega
  have hI : Icc (-((1 : Nat) : Int)) ((1 : Nat) : Int) = {-1, 0, 1} := by decide
  have hI' : Icc (-((min 1 1 : Nat) : Int)) ((min 1 1 : Nat) : Int) = {-1, 0, 1} := by decide
  have hn : o.nmax = 1 := rfl
  have hn' : o'.nmax = 1 := rfl
  have hs : ∀ f : Int → ℝ, ∑ m ∈ ({-1, 0, 1} : Finset Int), f m = f (-1) + (f 0 + f 1) := by
    intro f
    rw [Finset.sum_insert (by decide), Finset.sum_insert (by decide), Finset.sum_singleton]
  have e1 : Direct.extinctionCoefficient o = -1 := by
    rw [Direct.c77_extinction o Tn_axisymmetric hst hodd, hn]
    simp only [Finset.Icc_self, Finset.sum_singleton, hI, Finset.sum_range_succ, Finset.sum_range_zero, hs]
    simp [Tn]
  have e2 : Direct.scatteringCoefficient o = 1 := by
    rw [Direct.c77_scattering o Tn_axisymmetric hst, hn]
    simp only [Finset.Icc_self, Finset.sum_singleton, hI', Finset.sum_range_succ, Finset.sum_range_zero, hs]
    simp [Tn]
  have hT : ∀ i m j, |m| ≤ 1 → averaged (fun x : ℝ => (x : ℂ)) (coefficients μ) Tn i 1 m j 1 = if i = 1 ∧ j = 1 then -((d 1 m 0 (Real.pi / 2) ^ 2 : ℝ) : ℂ) else 0 := by
    intro i m j hm
    have h := c92_average hμ Tn i 1 j 1 (m := m) (m' := m) (by exact_mod_cast hm) (by exact_mod_cast hm)
    rw [if_pos rfl] at h
    refine Eq.trans h.symm ?_
    unfold average
    rw [hμd, integral_dirac]
    have e : ∀ α : ℝ, rotated Tn α (Real.pi / 2) i 1 m j 1 m = if i = 1 ∧ j = 1 then -((d 1 m 0 (Real.pi / 2) ^ 2 : ℝ) : ℂ) else 0 := by
      intro α
      rw [rotated_Tn]
      congr 2
      unfold D
      have h1 : Complex.exp (-(Complex.I * (m * α))) * (starRingEnd ℂ) (Complex.exp (-(Complex.I * (m * α)))) = 1 := by
        rw [← Complex.exp_conj, ← Complex.exp_add]
        simp
      rw [map_mul, Complex.conj_ofReal]
      push_cast
      linear_combination (d 1 m 0 (Real.pi / 2) : ℂ) ^ 2 * h1
    simp only [e]
    have hpc : (Real.pi : ℂ) ≠ 0 := by exact_mod_cast Real.pi_ne_zero
    rw [intervalIntegral.integral_const]
    rw [Complex.real_smul]
    push_cast
    field_simp
    ring
  refine ⟨μ, o, o', hμ, Tn_axisymmetric, rfl, hst, hst', e1, e2, ?_, ?_⟩
  · rw [(c94_coefficients_partial hμ o o' rfl Tn_axisymmetric hst hst').2 hodd, e1]
  · have hA' : Axisymmetric (averaged (fun x : ℝ => (x : ℂ)) (coefficients μ) Tn) := Content.averaged_axisymmetric (algebraMap ℝ ℂ) (coefficients μ) Tn_axisymmetric
    obtain ⟨d0, d1, dm⟩ := d_one (Real.pi / 2)
    rw [Real.cos_pi_div_two] at d0
    rw [Real.sin_pi_div_two] at d1 dm
    rw [Direct.c77_scattering o' hA' hst', hn']
    simp only [Finset.Icc_self, Finset.sum_singleton, hI', Finset.sum_range_succ, Finset.sum_range_zero, hs]
    rw [hT _ (-1) _ (by norm_num), hT _ (-1) _ (by norm_num), hT _ (-1) _ (by norm_num), hT _ (-1) _ (by norm_num), hT _ 0 _ (by norm_num), hT _ 0 _ (by norm_num),
      hT _ 0 _ (by norm_num), hT _ 0 _ (by norm_num), hT _ 1 _ (by norm_num), hT _ 1 _ (by norm_num), hT _ 1 _ (by norm_num), hT _ 1 _ (by norm_num), d0, d1, dm]
    simp [Complex.normSq_apply]
    norm_num

end Verif.Rotation
