import Verif.Properties.BesselError
import Verif.Spec.Mie
import Mathlib.Analysis.Calculus.Deriv.MeanValue
import Mathlib.Analysis.Calculus.Deriv.Star
import Mathlib.Analysis.Complex.RealDeriv

/-!
# Riccati-Bessel functions
-/
namespace Verif.Mie

open Verif.Bessel Filter Topology

theorem startJ : Start (fun z : ℂ => Complex.cos z / z) (fun z => Complex.sin z / z) := isTrig_complex.startJ
theorem startY : Start (fun z : ℂ => Complex.sin z / z) (fun z => -Complex.cos z / z) := isTrig_complex.startY

theorem ψ_deriv (n : Nat) {z : ℂ} (hz : z ≠ 0) : HasDerivAt (ψ (n + 1)) (ψ n z - ((n : ℂ) + 1) / z * ψ (n + 1) z) z := by
  refine (startJ.deriv_mul n z hz).congr_deriv ?_
  unfold ψ sphJ
  ring

theorem χ_deriv (n : Nat) {z : ℂ} (hz : z ≠ 0) : HasDerivAt (χ (n + 1)) (χ n z - ((n : ℂ) + 1) / z * χ (n + 1) z) z := by
  refine (startY.deriv_mul n z hz).congr_deriv ?_
  unfold χ sphY
  ring

/-- the other recurrence -/
theorem ψ_deriv_up (n : Nat) {z : ℂ} (hz : z ≠ 0) : HasDerivAt (ψ n) (((n : ℂ) + 1) / z * ψ n z - ψ (n + 1) z) z := by
  have := (hasDerivAt_id z).mul (rayleigh_deriv (fun z : ℂ => Complex.sin z / z) startJ.smooth n z hz)
  refine this.congr_deriv ?_
  unfold ψ sphJ
  simp only [id]
  field_simp
  ring

theorem ψ_deriv2 (n : Nat) {z : ℂ} (hz : z ≠ 0) : HasDerivAt (deriv (ψ (n + 1))) ((((n : ℂ) + 1) * (n + 2) / z ^ 2 - 1) * ψ (n + 1) z) z := by
  have e : deriv (ψ (n + 1)) =ᶠ[𝓝 z] fun z => ψ n z - ((n : ℂ) + 1) * (z⁻¹ * ψ (n + 1) z) := by
    filter_upwards [isOpen_ne.mem_nhds hz] with w hw
    rw [(ψ_deriv n hw).deriv]
    ring
  refine HasDerivAt.congr_of_eventuallyEq ?_ e
  refine ((ψ_deriv_up n hz).sub (((hasDerivAt_inv hz).mul (ψ_deriv n hz)).const_mul ((n : ℂ) + 1))).congr_deriv ?_
  field_simp
  ring

theorem ψ_differentiable (n : Nat) {z : ℂ} (hz : z ≠ 0) : HasDerivAt (ψ (n + 1)) (deriv (ψ (n + 1)) z) z := (ψ_deriv n hz).differentiableAt.hasDerivAt

theorem ξ_deriv (n : Nat) {z : ℂ} (hz : z ≠ 0) : deriv (ξ (n + 1)) z = deriv (ψ (n + 1)) z + Complex.I * deriv (χ (n + 1)) z := by
  rw [(ψ_deriv n hz).deriv, (χ_deriv n hz).deriv]
  exact ((ψ_deriv n hz).add ((χ_deriv n hz).const_mul Complex.I)).deriv

theorem j_zero (z : ℂ) : sphJ Complex.sin 0 z = Complex.sin z / z := rayleigh_zero _ _
theorem y_zero (z : ℂ) : sphY Complex.cos 0 z = -Complex.cos z / z := rayleigh_zero _ _
theorem j_one {z : ℂ} (hz : z ≠ 0) : sphJ Complex.sin 1 z = Complex.sin z / z / z - Complex.cos z / z := startJ.one z hz
theorem y_one {z : ℂ} (hz : z ≠ 0) : sphY Complex.cos 1 z = -Complex.cos z / z / z - Complex.sin z / z := startY.one z hz

/-- the Wronskian -/
theorem wronskian (n : Nat) {z : ℂ} (hz : z ≠ 0) : ψ (n + 1) z * deriv (χ (n + 1)) z - deriv (ψ (n + 1)) z * χ (n + 1) z = 1 := by
  rw [(ψ_deriv n hz).deriv, (χ_deriv n hz).deriv]
  have h := casorati (c := fun n => (2 * (n : ℂ) + 3) / z) (u := fun n => sphJ Complex.sin n z) (v := fun n => sphY Complex.cos n z) (N := n)
    (fun n _ => startJ.three_term n z hz) (fun n _ => startY.three_term n z hz) n le_rfl
  simp only [j_zero, y_zero, j_one hz, y_one hz] at h
  unfold ψ χ
  have hp := Complex.sin_sq_add_cos_sq z
  have h' : sphJ Complex.sin n z * sphY Complex.cos (n + 1) z - sphJ Complex.sin (n + 1) z * sphY Complex.cos n z = -1 / z ^ 2 := by
    rw [h]
    field_simp
    linear_combination -z * hp
  have h2 : z ^ 2 * (sphJ Complex.sin n z * sphY Complex.cos (n + 1) z - sphJ Complex.sin (n + 1) z * sphY Complex.cos n z) = -1 := by
    rw [h']
    field_simp
  linear_combination -h2

/-- real arguments -/
theorem j_real {x : ℝ} (hx : x ≠ 0) (n : Nat) : (∃ r : ℝ, sphJ Complex.sin n x = r) ∧ ∃ r : ℝ, sphJ Complex.sin (n + 1) x = r := by
  have hz : (x : ℂ) ≠ 0 := Complex.ofReal_ne_zero.2 hx
  induction n with
  | zero =>
    refine ⟨⟨Real.sin x / x, by rw [j_zero]; push_cast; rfl⟩, ⟨Real.sin x / x / x - Real.cos x / x, ?_⟩⟩
    rw [zero_add, j_one hz]
    push_cast
    rfl
  | succ n ih =>
    obtain ⟨⟨r, hr⟩, r', hr'⟩ := ih
    refine ⟨⟨r', hr'⟩, (2 * (n : ℝ) + 3) / x * r' - r, ?_⟩
    have := startJ.three_term n x hz
    change sphJ Complex.sin (n + 2) x = _ at this
    rw [show n + 1 + 1 = n + 2 from rfl, this]
    change _ * sphJ Complex.sin (n + 1) x - sphJ Complex.sin n x = _
    rw [hr, hr']
    push_cast
    rfl

theorem y_real {x : ℝ} (hx : x ≠ 0) (n : Nat) : (∃ r : ℝ, sphY Complex.cos n x = r) ∧ ∃ r : ℝ, sphY Complex.cos (n + 1) x = r := by
  have hz : (x : ℂ) ≠ 0 := Complex.ofReal_ne_zero.2 hx
  induction n with
  | zero =>
    refine ⟨⟨-Real.cos x / x, by rw [y_zero]; push_cast; rfl⟩, ⟨-Real.cos x / x / x - Real.sin x / x, ?_⟩⟩
    rw [zero_add, y_one hz]
    push_cast
    rfl
  | succ n ih =>
    obtain ⟨⟨r, hr⟩, r', hr'⟩ := ih
    refine ⟨⟨r', hr'⟩, (2 * (n : ℝ) + 3) / x * r' - r, ?_⟩
    have := startY.three_term n x hz
    change sphY Complex.cos (n + 2) x = _ at this
    rw [show n + 1 + 1 = n + 2 from rfl, this]
    change _ * sphY Complex.cos (n + 1) x - sphY Complex.cos n x = _
    rw [hr, hr']
    push_cast
    rfl

theorem ψ_real {x : ℝ} (hx : x ≠ 0) (n : Nat) : ∃ r : ℝ, ψ n x = r := by
  obtain ⟨r, h⟩ := (j_real hx n).1
  exact ⟨x * r, by unfold ψ; rw [h]; push_cast; rfl⟩

theorem χ_real {x : ℝ} (hx : x ≠ 0) (n : Nat) : ∃ r : ℝ, χ n x = r := by
  obtain ⟨r, h⟩ := (y_real hx n).1
  exact ⟨x * r, by unfold χ; rw [h]; push_cast; rfl⟩

theorem dψ_real {x : ℝ} (hx : x ≠ 0) (n : Nat) : ∃ r : ℝ, deriv (ψ (n + 1)) x = r := by
  obtain ⟨r, h⟩ := ψ_real hx n
  obtain ⟨r', h'⟩ := ψ_real hx (n + 1)
  refine ⟨r - ((n : ℝ) + 1) / x * r', ?_⟩
  rw [(ψ_deriv n (Complex.ofReal_ne_zero.2 hx)).deriv, h, h']
  push_cast
  rfl

theorem dχ_real {x : ℝ} (hx : x ≠ 0) (n : Nat) : ∃ r : ℝ, deriv (χ (n + 1)) x = r := by
  obtain ⟨r, h⟩ := χ_real hx n
  obtain ⟨r', h'⟩ := χ_real hx (n + 1)
  refine ⟨r - ((n : ℝ) + 1) / x * r', ?_⟩
  rw [(χ_deriv n (Complex.ofReal_ne_zero.2 hx)).deriv, h, h']
  push_cast
  rfl

/-- close to the origin -/
theorem small : ∃ C R : ℝ, 0 < R ∧ 0 ≤ C ∧ ∀ n (z : ℂ), z ≠ 0 → ‖z‖ ≤ R → ‖ψ n z‖ ≤ C * ‖z‖ ^ (n + 1) := by
  obtain ⟨C, hC⟩ := (Complex.hasDerivAt_sin 0).isBigO_sub.bound
  obtain ⟨R, hR, hb⟩ := Metric.eventually_nhds_iff.1 hC
  have hC0 : 0 ≤ C := by
    have h := hb (y := ((R / 2 : ℝ) : ℂ)) (by rw [dist_zero_right, Complex.norm_real, Real.norm_of_nonneg (by positivity)]; linarith)
    by_contra hn
    have : C * ‖((R / 2 : ℝ) : ℂ) - 0‖ < 0 := mul_neg_of_neg_of_pos (not_le.1 hn) (by rw [sub_zero, Complex.norm_real, Real.norm_of_nonneg (by positivity)]; positivity)
    linarith [norm_nonneg (Complex.sin ((R / 2 : ℝ) : ℂ) - Complex.sin 0)]
  refine ⟨C, R / 2, by positivity, hC0, fun n z hz hzR => ?_⟩
  have h0 : ∀ z : ℂ, ‖z‖ ≤ R / 2 → ‖Complex.sin z - 0 * z‖ ≤ C * ‖z‖ := by
    intro z hz
    have := hb (y := z) (by rw [dist_zero_right]; linarith)
    simpa using this
  have h := num_bound isTrig_complex Complex.sin_zero 0 C (R / 2) h0 n z hzR
  rw [zero_mul, zero_div, sub_zero, (num_eq isTrig_complex z hz n).1, show z ^ (n + 1) * sphJ Complex.sin n z = z ^ n * ψ n z by unfold ψ; ring, norm_mul, norm_pow] at h
  have hp : 0 < ‖z‖ := norm_pos_iff.2 hz
  have h1 : (1 : ℝ) ≤ ((2 * n + 1).doubleFactorial : ℕ) := by exact_mod_cast Nat.one_le_iff_ne_zero.2 (Nat.doubleFactorial_pos _).ne'
  have h2 : C * ‖z‖ ^ (2 * n + 1) / ((2 * n + 1).doubleFactorial : ℕ) ≤ C * ‖z‖ ^ (2 * n + 1) := div_le_self (by positivity) h1
  have h3 : ‖z‖ ^ n * ‖ψ n z‖ ≤ ‖z‖ ^ n * (C * ‖z‖ ^ (n + 1)) := by
    refine (h.trans h2).trans (le_of_eq ?_)
    ring
  exact le_of_mul_le_mul_left h3 (by positivity)

theorem origin (n : Nat) {m : ℂ} (hm : m ≠ 0) (c : ℂ) : Tendsto (fun t : ℝ => c * (ψ (n + 1) (m * t) * (starRingEnd ℂ) (deriv (ψ (n + 1)) (m * t)))) (𝓝[>] 0) (𝓝 0) := by
  obtain ⟨C, R, hR, hC, h⟩ := small
  have hd : ∀ z : ℂ, z ≠ 0 → ‖z‖ ≤ R → ‖deriv (ψ (n + 1)) z‖ ≤ C * (n + 2) * ‖z‖ ^ (n + 1) := by
    intro z hz hzR
    rw [(ψ_deriv n hz).deriv]
    have hp : 0 < ‖z‖ := norm_pos_iff.2 hz
    refine (norm_sub_le _ _).trans ?_
    have e : ‖((n : ℂ) + 1) / z * ψ (n + 1) z‖ ≤ ((n : ℝ) + 1) / ‖z‖ * (C * ‖z‖ ^ (n + 1 + 1)) := by
      rw [norm_mul, norm_div]
      have : ‖(n : ℂ) + 1‖ = (n : ℝ) + 1 := by
        rw [show (n : ℂ) + 1 = ((n + 1 : ℕ) : ℂ) by push_cast; rfl, Complex.norm_natCast]
        push_cast
        rfl
      rw [this]
      exact mul_le_mul_of_nonneg_left (h _ z hz hzR) (by positivity)
    refine (add_le_add (h n z hz hzR) e).trans (le_of_eq ?_)
    rw [pow_succ ‖z‖ (n + 1)]
    field_simp
    ring
  have hb : ∀ᶠ t : ℝ in 𝓝[>] 0, ‖c * (ψ (n + 1) (m * t) * (starRingEnd ℂ) (deriv (ψ (n + 1)) (m * t)))‖
      ≤ ‖c‖ * (C * ‖m * (t : ℂ)‖ ^ (n + 2) * (C * (n + 2) * ‖m * (t : ℂ)‖ ^ (n + 1))) := by
    have hmem : Set.Ioo (0 : ℝ) (R / ‖m‖) ∈ 𝓝[>] (0 : ℝ) := Ioo_mem_nhdsGT (div_pos hR (norm_pos_iff.2 hm))
    filter_upwards [hmem] with t ht
    have hz : m * (t : ℂ) ≠ 0 := mul_ne_zero hm (Complex.ofReal_ne_zero.2 ht.1.ne')
    have hzR : ‖m * (t : ℂ)‖ ≤ R := by
      rw [norm_mul, Complex.norm_real, Real.norm_of_nonneg ht.1.le, mul_comm]
      exact ((lt_div_iff₀ (norm_pos_iff.2 hm)).1 ht.2).le
    rw [norm_mul, norm_mul, RCLike.norm_conj]
    refine mul_le_mul_of_nonneg_left ?_ (norm_nonneg _)
    exact mul_le_mul (h _ _ hz hzR) (hd _ hz hzR) (norm_nonneg _) (by positivity)
  refine squeeze_zero_norm' hb ?_
  have hc : Continuous fun t : ℝ => ‖c‖ * (C * ‖m * (t : ℂ)‖ ^ (n + 2) * (C * (n + 2) * ‖m * (t : ℂ)‖ ^ (n + 1))) := by fun_prop
  have := (hc.tendsto 0).mono_left (nhdsWithin_le_nhds (s := Set.Ioi 0))
  simpa using this

/-- a function that does not decrease, and starts at 0 -/
theorem from_zero {F F' : ℝ → ℝ} (hd : ∀ t, 0 < t → HasDerivAt F (F' t) t) (h0 : ∀ t, 0 < t → 0 ≤ F' t) (hl : Tendsto F (𝓝[>] 0) (𝓝 0)) {x : ℝ} (hx : 0 < x) : 0 ≤ F x := by
  have hm : MonotoneOn F (Set.Ioi 0) := by
    refine monotoneOn_of_deriv_nonneg (convex_Ioi 0) (fun t ht => (hd t ht).continuousAt.continuousWithinAt) ?_ ?_
    · rw [interior_Ioi]
      exact fun t ht => (hd t ht).differentiableAt.differentiableWithinAt
    · rw [interior_Ioi]
      intro t ht
      rw [(hd t ht).deriv]
      exact h0 t ht
  refine le_of_tendsto hl ?_
  filter_upwards [Ioo_mem_nhdsGT hx] with t ht
  exact hm ht.1 hx ht.2.le

/-- energy flows into the sphere: both kinds of waves -/
theorem inwards (n : Nat) {m : ℂ} (hm : m ≠ 0) (him : 0 ≤ (m ^ 2).im) {x : ℝ} (hx : 0 < x) :
    0 ≤ (m * ψ (n + 1) (m * x) * (starRingEnd ℂ) (deriv (ψ (n + 1)) (m * x))).im
    ∧ 0 ≤ (ψ (n + 1) (m * x) * (starRingEnd ℂ) (m * deriv (ψ (n + 1)) (m * x))).im := by
  have hz : ∀ t : ℝ, 0 < t → m * (t : ℂ) ≠ 0 := fun t ht => mul_ne_zero hm (Complex.ofReal_ne_zero.2 ht.ne')
  have lin : ∀ t : ℝ, HasDerivAt (fun t : ℝ => m * (t : ℂ)) m t := fun t => by
    simpa using (Complex.ofRealCLM.hasDerivAt (x := t)).const_mul m
  have d1 : ∀ t : ℝ, 0 < t → HasDerivAt (fun t : ℝ => ψ (n + 1) (m * t)) (deriv (ψ (n + 1)) (m * t) * m) t := fun t ht =>
    HasDerivAt.comp (h₂ := ψ (n + 1)) (h := fun t : ℝ => m * (t : ℂ)) t (ψ_differentiable n (hz t ht)) (lin t)
  have d2 : ∀ t : ℝ, 0 < t → HasDerivAt (fun t : ℝ => deriv (ψ (n + 1)) (m * t)) ((((n : ℂ) + 1) * (n + 2) / (m * t) ^ 2 - 1) * ψ (n + 1) (m * t) * m) t := fun t ht =>
    HasDerivAt.comp (h₂ := deriv (ψ (n + 1))) (h := fun t : ℝ => m * (t : ℂ)) t (ψ_deriv2 n (hz t ht)) (lin t)
  have d3 : ∀ t : ℝ, 0 < t → HasDerivAt (fun t : ℝ => ψ (n + 1) (m * t) * (starRingEnd ℂ) (deriv (ψ (n + 1)) (m * t)))
      (m * (deriv (ψ (n + 1)) (m * t) * (starRingEnd ℂ) (deriv (ψ (n + 1)) (m * t)))
        + (starRingEnd ℂ) ((((n : ℂ) + 1) * (n + 2) / (m * t) ^ 2 - 1) * m) * (ψ (n + 1) (m * t) * (starRingEnd ℂ) (ψ (n + 1) (m * t)))) t := by
    intro t ht
    refine ((d1 t ht).mul (d2 t ht).star).congr_deriv ?_
    simp only [show ∀ z : ℂ, star z = (starRingEnd ℂ) z from fun _ => rfl, map_mul]
    ring
  have him' : ∀ (c : ℂ) (f : ℝ → ℂ) (f' : ℂ) (t : ℝ), HasDerivAt f f' t → HasDerivAt (fun t => (c * f t).im) (c * f').im t := by
    intro c f f' t h
    exact Complex.imCLM.hasFDerivAt.comp_hasDerivAt t (h.const_mul c)
  have hsq : m.re * m.im + m.im * m.re = (m ^ 2).im := by rw [pow_two, Complex.mul_im]
  have hlim : ∀ c : ℂ, Tendsto (fun t : ℝ => (c * (ψ (n + 1) (m * t) * (starRingEnd ℂ) (deriv (ψ (n + 1)) (m * t)))).im) (𝓝[>] 0) (𝓝 0) := by
    intro c
    have := (Complex.continuous_im.tendsto 0).comp (origin n hm c)
    rwa [Complex.zero_im] at this
  have hN : 0 < Complex.normSq m := Complex.normSq_pos.2 hm
  constructor
  · refine (from_zero (fun t ht => him' m _ _ t (d3 t ht)) ?_ (hlim m) hx).trans (le_of_eq ?_)
    · intro t ht
      have key : m * (m * (deriv (ψ (n + 1)) (m * t) * (starRingEnd ℂ) (deriv (ψ (n + 1)) (m * t)))
          + (starRingEnd ℂ) ((((n : ℂ) + 1) * (n + 2) / (m * t) ^ 2 - 1) * m) * (ψ (n + 1) (m * t) * (starRingEnd ℂ) (ψ (n + 1) (m * t))))
          = m ^ 2 * ((Complex.normSq (deriv (ψ (n + 1)) (m * t)) + ((n : ℝ) + 1) * (n + 2) / t ^ 2 / Complex.normSq m * Complex.normSq (ψ (n + 1) (m * t)) : ℝ) : ℂ)
            - ((Complex.normSq m * Complex.normSq (ψ (n + 1) (m * t)) : ℝ) : ℂ) := by
        have hmc : (starRingEnd ℂ) m ≠ 0 := (map_ne_zero _).2 hm
        have htc : (t : ℂ) ≠ 0 := Complex.ofReal_ne_zero.2 ht.ne'
        push_cast
        rw [← Complex.mul_conj, ← Complex.mul_conj, ← Complex.mul_conj]
        simp only [map_mul, map_sub, map_div₀, map_pow, map_add, map_one, map_natCast, map_ofNat, Complex.conj_ofReal]
        field_simp
        ring
      rw [key, Complex.sub_im, Complex.ofReal_im, sub_zero, Complex.im_mul_ofReal]
      exact mul_nonneg him (by have := Complex.normSq_nonneg (deriv (ψ (n + 1)) (m * t)); have := Complex.normSq_nonneg (ψ (n + 1) (m * t)); positivity)
    · rw [mul_assoc]
  · refine (from_zero (fun t ht => him' ((starRingEnd ℂ) m) _ _ t (d3 t ht)) ?_ (hlim _) hx).trans (le_of_eq ?_)
    · intro t ht
      have key : (starRingEnd ℂ) m * (m * (deriv (ψ (n + 1)) (m * t) * (starRingEnd ℂ) (deriv (ψ (n + 1)) (m * t)))
          + (starRingEnd ℂ) ((((n : ℂ) + 1) * (n + 2) / (m * t) ^ 2 - 1) * m) * (ψ (n + 1) (m * t) * (starRingEnd ℂ) (ψ (n + 1) (m * t))))
          = ((Complex.normSq m * Complex.normSq (deriv (ψ (n + 1)) (m * t)) + ((n : ℝ) + 1) * (n + 2) / t ^ 2 * Complex.normSq (ψ (n + 1) (m * t)) : ℝ) : ℂ)
            - (starRingEnd ℂ) (m ^ 2) * ((Complex.normSq (ψ (n + 1) (m * t)) : ℝ) : ℂ) := by
        have hmc : (starRingEnd ℂ) m ≠ 0 := (map_ne_zero _).2 hm
        have htc : (t : ℂ) ≠ 0 := Complex.ofReal_ne_zero.2 ht.ne'
        push_cast
        rw [← Complex.mul_conj, ← Complex.mul_conj, ← Complex.mul_conj]
        simp only [map_mul, map_sub, map_div₀, map_pow, map_add, map_one, map_natCast, map_ofNat, Complex.conj_ofReal]
        field_simp
        ring
      rw [key, Complex.sub_im, Complex.ofReal_im, zero_sub, Complex.im_mul_ofReal, Complex.conj_im, neg_mul, neg_neg]
      exact mul_nonneg him (Complex.normSq_nonneg _)
    · rw [map_mul]
      ring_nf

end Verif.Mie
