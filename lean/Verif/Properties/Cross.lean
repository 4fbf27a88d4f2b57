import Verif.Spec.Sphere
import Verif.Proofs.WaveOrth
import Verif.Properties.Incoherent

/-!
# C95: coefficients and cross sections
-/
namespace Verif.Rotation

open Finset MeasureTheory Verif.Scatter Verif.Frame
open Verif.Direct (theory alphaF)
open Verif.Alignment (Axisymmetric Stores averaged)
open Verif.Python (AngleDist)
open Verif.Legendre (G N)

/-! ### integrals over the sphere -/

theorem inner_continuous {E : Type} [NormedAddCommGroup E] [NormedSpace ℝ E] {f : ℝ → ℝ → E} (hf : Continuous fun x : ℝ × ℝ => f x.1 x.2) : Continuous fun θ => ∫ φ in (0 : ℝ)..2 * Real.pi, f θ φ :=
  intervalIntegral.continuous_parametric_intervalIntegral_of_continuous' (f := f) hf _ _

theorem sphere_sum {E : Type} [NormedAddCommGroup E] [NormedSpace ℝ E] {ι : Type} (s : Finset ι) {f : ι → ℝ → ℝ → E} (hf : ∀ x ∈ s, Continuous fun y : ℝ × ℝ => f x y.1 y.2) :
    sphere (fun θ φ => ∑ x ∈ s, f x θ φ) = ∑ x ∈ s, sphere (f x) := by
  unfold sphere
  rw [← intervalIntegral.integral_finsetSum]
  · congr 1
    funext θ
    rw [intervalIntegral.integral_finsetSum, Finset.smul_sum]
    intro x hx
    have := hf x hx
    exact Continuous.intervalIntegrable (by fun_prop) _ _
  · intro x hx
    have := inner_continuous (hf x hx)
    exact Continuous.intervalIntegrable (by fun_prop) _ _

theorem sphere_mul (c : ℂ) (f : ℝ → ℝ → ℂ) : sphere (fun θ φ => c * f θ φ) = c * sphere f := by
  unfold sphere
  rw [← intervalIntegral.integral_const_mul]
  congr 1
  funext θ
  rw [intervalIntegral.integral_const_mul, mul_smul_comm]

theorem sphere_ofReal (f : ℝ → ℝ → ℝ) : ((sphere f : ℝ) : ℂ) = sphere (fun θ φ => (f θ φ : ℂ)) := by
  unfold sphere
  rw [← intervalIntegral.integral_ofReal]
  congr 1
  funext θ
  rw [intervalIntegral.integral_ofReal]
  simp

theorem sphere_mul_real (c : ℝ) (f : ℝ → ℝ → ℝ) : sphere (fun θ φ => c * f θ φ) = c * sphere f := by
  unfold sphere
  rw [← intervalIntegral.integral_const_mul]
  congr 1
  funext θ
  rw [intervalIntegral.integral_const_mul, mul_smul_comm]

theorem sphere_map (L : ℂ →L[ℝ] ℝ) {f : ℝ → ℝ → ℂ} (hf : Continuous fun x : ℝ × ℝ => f x.1 x.2) : sphere (fun θ φ => L (f θ φ)) = L (sphere f) := by
  unfold sphere
  rw [← ContinuousLinearMap.intervalIntegral_comp_comm]
  · congr 1
    funext θ
    rw [map_smul, ← ContinuousLinearMap.intervalIntegral_comp_comm]
    exact Continuous.intervalIntegrable (by fun_prop) _ _
  · have := inner_continuous hf
    exact Continuous.intervalIntegrable (by fun_prop) _ _

theorem sphere_congr {E : Type} [NormedAddCommGroup E] [NormedSpace ℝ E] {f g : ℝ → ℝ → E} (h : ∀ θ φ, f θ φ = g θ φ) : sphere f = sphere g := by
  rw [show f = g from funext fun θ => funext fun φ => h θ φ]

/-! ### waves -/

theorem pi_continuous {A : ℝ → Angular} (hA : ∀ θ, (A θ).IsOf θ) {n : Nat} (hn : 1 ≤ n) {m : Int} (hm : |m| ≤ n) : Continuous fun θ => (A θ).pi m n := by
  have hnat : ∀ m : Nat, m ≤ n → Continuous fun θ => (A θ).pi m n := by
    intro m hm
    rw [show (fun θ => (A θ).pi m n) = fun θ => _ from funext fun θ => pi_eq (hA θ) hn hm]
    have h1 := (G m n).continuous
    fun_prop
  rcases Int.eq_nat_or_neg m with ⟨j, rfl | rfl⟩
  · exact hnat j (by simpa using hm)
  · simp only [Angular.pi_neg]
    exact (continuous_const.mul (hnat j (by simpa using hm))).neg

theorem tau_continuous {A : ℝ → Angular} (hA : ∀ θ, (A θ).IsOf θ) {n : Nat} (hn : 1 ≤ n) {m : Int} (hm : |m| ≤ n) : Continuous fun θ => (A θ).tau m n := by
  have hnat : ∀ m : Nat, m ≤ n → Continuous fun θ => (A θ).tau m n := by
    intro m hm
    rw [show (fun θ => (A θ).tau m n) = fun θ => _ from funext fun θ => tau_eq (hA θ) hn hm]
    have h1 := (G m n).continuous
    have h2 := (G (m + 1) n).continuous
    fun_prop
  rcases Int.eq_nat_or_neg m with ⟨j, rfl | rfl⟩
  · exact hnat j (by simpa using hm)
  · simp only [Angular.tau_neg]
    exact continuous_const.mul (hnat j (by simpa using hm))

theorem wave_continuous {A : ℝ → Angular} (hA : ∀ θ, (A θ).IsOf θ) {n : Nat} (hn : 1 ≤ n) {m : Int} (hm : |m| ≤ n) (a : Nat) (c : Fin 2) :
    Continuous fun x : ℝ × ℝ => wave (A x.1) x.2 a n m c := by
  have h1 := (pi_continuous hA hn hm).comp (continuous_fst (Y := ℝ))
  have h2 := (tau_continuous hA hn hm).comp (continuous_fst (Y := ℝ))
  simp only [Function.comp_def] at h1 h2
  unfold wave
  by_cases ha : a = 0
  · simp only [ha, if_true]
    fin_cases c
    · simp
      fun_prop
    · simp
      fun_prop
  · simp only [ha, if_false]
    fin_cases c
    · simp
      fun_prop
    · simp
      fun_prop

theorem parallel {A : ℝ → Angular} (hA : ∀ θ, (A θ).IsOf θ) {n k : Nat} (hn : 1 ≤ n) (hk : 1 ≤ k) {m : Int} (hmn : |m| ≤ n) (hmk : |m| ≤ k) :
    ∫ θ in (0 : ℝ)..Real.pi, Real.sin θ * ((A θ).pi m n * (A θ).pi m k + (A θ).tau m n * (A θ).tau m k) = if n = k then 2 * (n : ℝ) * (n + 1) / (2 * n + 1) else 0 := by
  rcases Int.eq_nat_or_neg m with ⟨j, rfl | rfl⟩
  · exact parallel_nat hA hn hk (by simpa using hmn) (by simpa using hmk)
  · rw [← parallel_nat hA hn hk (m := j) (by simpa using hmn) (by simpa using hmk)]
    congr 1
    funext θ
    have h : ((-1 : ℝ) ^ (j : Int).natAbs) ^ 2 = 1 := by rw [← pow_mul, mul_comm, pow_mul]; simp
    rw [Angular.pi_neg, Angular.pi_neg, Angular.tau_neg, Angular.tau_neg]
    linear_combination Real.sin θ * ((A θ).pi j n * (A θ).pi j k + (A θ).tau j n * (A θ).tau j k) * h

theorem crossed {A : ℝ → Angular} (hA : ∀ θ, (A θ).IsOf θ) {n k : Nat} (hn : 1 ≤ n) (hk : 1 ≤ k) {m : Int} (hmn : |m| ≤ n) (hmk : |m| ≤ k) :
    ∫ θ in (0 : ℝ)..Real.pi, Real.sin θ * ((A θ).pi m n * (A θ).tau m k + (A θ).tau m n * (A θ).pi m k) = 0 := by
  rcases Int.eq_nat_or_neg m with ⟨j, rfl | rfl⟩
  · exact crossed_nat hA hn hk (by simpa using hmn) (by simpa using hmk)
  · have h0 := crossed_nat hA hn hk (m := j) (by simpa using hmn) (by simpa using hmk)
    rw [← neg_eq_zero, ← intervalIntegral.integral_neg, ← h0]
    congr 1
    funext θ
    have h : ((-1 : ℝ) ^ (j : Int).natAbs) ^ 2 = 1 := by rw [← pow_mul, mul_comm, pow_mul]; simp
    rw [Angular.pi_neg, Angular.pi_neg, Angular.tau_neg, Angular.tau_neg]
    linear_combination Real.sin θ * ((A θ).pi j n * (A θ).tau j k + (A θ).tau j n * (A θ).pi j k) * h

/-- the vector functions are orthogonal -/
theorem wave_orth {A : ℝ → Angular} (hA : ∀ θ, (A θ).IsOf θ) {a b n k : Nat} {m l : Int} (ha : a < 2) (hb : b < 2) (hn : 1 ≤ n) (hk : 1 ≤ k) (hm : |m| ≤ n) (hl : |l| ≤ k) :
    sphere (fun θ φ => ∑ c : Fin 2, wave (A θ) φ a n m c * (starRingEnd ℂ) (wave (A θ) φ b k l c))
      = if a = b ∧ n = k ∧ m = l then ((4 * Real.pi * (n * (n + 1)) / (2 * n + 1) : ℝ) : ℂ) else 0 := by
  have hexp : ∀ φ : ℝ, Complex.exp (Complex.I * (m * φ)) * (starRingEnd ℂ) (Complex.exp (Complex.I * (l * φ))) = Complex.exp (-(Complex.I * ((l - m : Int) * φ))) := by
    intro φ
    rw [← Complex.exp_conj, ← Complex.exp_add]
    congr 1
    simp
    ring
  obtain ⟨g, hg⟩ : ∃ g : ℝ → ℝ, g = fun θ => if a = b then (A θ).pi m n * (A θ).pi l k + (A θ).tau m n * (A θ).tau l k
      else (A θ).pi m n * (A θ).tau l k + (A θ).tau m n * (A θ).pi l k := ⟨_, rfl⟩
  have e : ∀ θ φ, ∑ c : Fin 2, wave (A θ) φ a n m c * (starRingEnd ℂ) (wave (A θ) φ b k l c) = (g θ : ℂ) * Complex.exp (-(Complex.I * ((l - m : Int) * φ))) := by
    intro θ φ
    rw [← hexp, hg]
    have hI := Complex.I_mul_I
    interval_cases a <;> interval_cases b <;> simp [wave, Fin.sum_univ_two]
    · linear_combination (-(A θ).tau m n * (A θ).tau l k * Complex.exp (Complex.I * (m * φ)) * (starRingEnd ℂ) (Complex.exp (Complex.I * (l * φ)))) * hI
    · linear_combination (-(A θ).tau m n * (A θ).pi l k * Complex.exp (Complex.I * (m * φ)) * (starRingEnd ℂ) (Complex.exp (Complex.I * (l * φ)))) * hI
    · linear_combination (-(A θ).pi m n * (A θ).tau l k * Complex.exp (Complex.I * (m * φ)) * (starRingEnd ℂ) (Complex.exp (Complex.I * (l * φ)))) * hI
    · linear_combination (-(A θ).pi m n * (A θ).pi l k * Complex.exp (Complex.I * (m * φ)) * (starRingEnd ℂ) (Complex.exp (Complex.I * (l * φ)))) * hI
  rw [sphere_congr e]
  unfold sphere
  simp only [intervalIntegral.integral_const_mul, circle_mean]
  by_cases hml : m = l
  · subst hml
    simp only [sub_self, if_true]
    have : ∀ θ, Real.sin θ • ((g θ : ℂ) * ((2 * Real.pi : ℝ) : ℂ)) = ((2 * Real.pi * (Real.sin θ * g θ) : ℝ) : ℂ) := by
      intro θ
      rw [Complex.real_smul]
      push_cast
      ring
    simp only [this]
    rw [intervalIntegral.integral_ofReal, intervalIntegral.integral_const_mul, hg]
    by_cases hab : a = b
    · simp only [hab, if_true]
      rw [parallel hA hn hk hm hl]
      by_cases hnk : n = k
      · simp only [hnk, if_true, true_and]
        congr 1
        ring
      · simp [hnk]
    · simp only [hab, if_false]
      rw [crossed hA hn hk hm hl]
      simp
  · have : l - m ≠ 0 := fun h => hml (by omega)
    simp [this, hml]

/-! ### Parseval -/

/-- all waves up to an order: kind, order, projection -/
noncomputable def idx (nmax : Nat) : Finset (Nat × Nat × Int) := (range 2 ×ˢ Icc 1 nmax ×ˢ Icc (-(nmax : Int)) nmax).filter fun x => |x.2.2| ≤ x.2.1

theorem mem_idx {nmax : Nat} {x : Nat × Nat × Int} : x ∈ idx nmax ↔ x.1 < 2 ∧ 1 ≤ x.2.1 ∧ x.2.1 ≤ nmax ∧ |x.2.2| ≤ x.2.1 := by
  unfold idx
  simp only [Finset.mem_filter, Finset.mem_product, Finset.mem_range, Finset.mem_Icc, abs_le]
  omega

theorem sum_idx {M : Type} [AddCommMonoid M] (nmax : Nat) (f : Nat → Nat → Int → M) :
    ∑ x ∈ idx nmax, f x.1 x.2.1 x.2.2 = ∑ n ∈ Icc 1 nmax, ∑ m ∈ Icc (-(n : Int)) n, ∑ a ∈ range 2, f a n m := by
  unfold idx
  rw [Finset.sum_filter, Finset.sum_product]
  simp only [Finset.sum_product]
  rw [Finset.sum_comm]
  refine Finset.sum_congr rfl fun n hn => ?_
  rw [Finset.sum_comm, ← Finset.sum_filter_of_ne (s := Icc (-(nmax : Int)) nmax) (p := fun m => |m| ≤ n)]
  · rw [Finset.mem_Icc] at hn
    have : (Icc (-(nmax : Int)) nmax).filter (fun m : Int => |m| ≤ (n : Int)) = Icc (-(n : Int)) n := by
      ext m
      simp only [Finset.mem_filter, Finset.mem_Icc, abs_le]
      omega
    rw [this]
    refine Finset.sum_congr rfl fun m hm => Finset.sum_congr rfl fun a _ => ?_
    rw [if_pos (abs_le.2 (Finset.mem_Icc.1 hm))]
  · intro m _ h
    by_contra hm
    exact h (Finset.sum_eq_zero fun a _ => if_neg hm)

/-- the same, by projection -/
theorem sum_idx' {M : Type} [AddCommMonoid M] (nmax : Nat) (f : Nat → Nat → Int → M) :
    ∑ x ∈ idx nmax, f x.1 x.2.1 x.2.2 = ∑ m ∈ Icc (-(nmax : Int)) nmax, ∑ a ∈ range 2, ∑ n ∈ Icc (max m.natAbs 1) nmax, f a n m := by
  unfold idx
  rw [Finset.sum_filter, Finset.sum_product]
  simp only [Finset.sum_product]
  have : ∀ a ∈ range 2, ∑ n ∈ Icc 1 nmax, ∑ m ∈ Icc (-(nmax : Int)) nmax, (if |m| ≤ n then f a n m else 0)
      = ∑ m ∈ Icc (-(nmax : Int)) nmax, ∑ n ∈ Icc (max m.natAbs 1) nmax, f a n m := by
    intro a _
    rw [Finset.sum_comm]
    refine Finset.sum_congr rfl fun m _ => ?_
    rw [← Finset.sum_filter]
    refine Finset.sum_congr (Finset.ext fun n => ?_) fun _ _ => rfl
    simp only [Finset.mem_filter, Finset.mem_Icc, abs_le]
    omega
  rw [Finset.sum_congr rfl this, Finset.sum_comm]

/-- norm of a wave -/
noncomputable def wnorm (n : Nat) : ℝ := 4 * Real.pi * (n * (n + 1)) / (2 * n + 1)

noncomputable def Wv (A : Angular) (φ : ℝ) (x : Nat × Nat × Int) (p : Fin 2) : ℂ := wave A φ x.1 x.2.1 x.2.2 p

theorem Wv_continuous {A : ℝ → Angular} (hA : ∀ θ, (A θ).IsOf θ) {nmax : Nat} {x : Nat × Nat × Int} (hx : x ∈ idx nmax) (p : Fin 2) :
    Continuous fun y : ℝ × ℝ => Wv (A y.1) y.2 x p := by
  obtain ⟨_, h1, _, h2⟩ := mem_idx.1 hx
  exact wave_continuous hA h1 h2 _ _

theorem Wv_orth {A : ℝ → Angular} (hA : ∀ θ, (A θ).IsOf θ) {nmax : Nat} {x y : Nat × Nat × Int} (hx : x ∈ idx nmax) (hy : y ∈ idx nmax) :
    sphere (fun θ φ => ∑ c : Fin 2, Wv (A θ) φ x c * (starRingEnd ℂ) (Wv (A θ) φ y c)) = if x = y then (wnorm x.2.1 : ℂ) else 0 := by
  obtain ⟨h0, h1, _, h2⟩ := mem_idx.1 hx
  obtain ⟨h0', h1', _, h2'⟩ := mem_idx.1 hy
  unfold Wv
  rw [wave_orth hA h0 h0' h1 h1' h2 h2']
  obtain ⟨a, n, m⟩ := x
  obtain ⟨b, k, l⟩ := y
  simp only [Prod.mk.injEq]
  rfl

theorem parseval {A : ℝ → Angular} (hA : ∀ θ, (A θ).IsOf θ) (nmax : Nat) (c : Nat × Nat × Int → ℂ) :
    sphere (fun θ φ => ∑ p : Fin 2, Complex.normSq (∑ x ∈ idx nmax, c x * Wv (A θ) φ x p)) = ∑ x ∈ idx nmax, Complex.normSq (c x) * wnorm x.2.1 := by
  apply Complex.ofReal_injective
  rw [sphere_ofReal]
  have e : ∀ θ φ, ((∑ p : Fin 2, Complex.normSq (∑ x ∈ idx nmax, c x * Wv (A θ) φ x p) : ℝ) : ℂ)
      = ∑ x ∈ idx nmax, ∑ y ∈ idx nmax, (c x * (starRingEnd ℂ) (c y)) * ∑ p : Fin 2, Wv (A θ) φ x p * (starRingEnd ℂ) (Wv (A θ) φ y p) := by
    intro θ φ
    push_cast
    simp only [← Complex.mul_conj, map_sum, map_mul, Finset.sum_mul_sum]
    rw [Finset.sum_comm]
    refine Finset.sum_congr rfl fun x _ => ?_
    rw [Finset.sum_comm]
    refine Finset.sum_congr rfl fun y _ => ?_
    rw [Finset.mul_sum]
    refine Finset.sum_congr rfl fun p _ => ?_
    ring
  have hc : ∀ x ∈ idx nmax, ∀ y ∈ idx nmax, Continuous fun z : ℝ × ℝ =>
      (c x * (starRingEnd ℂ) (c y)) * ∑ p : Fin 2, Wv (A z.1) z.2 x p * (starRingEnd ℂ) (Wv (A z.1) z.2 y p) := by
    intro x hx y hy
    refine continuous_const.mul (continuous_finsetSum _ fun p _ => (Wv_continuous hA hx p).mul ?_)
    exact Complex.continuous_conj.comp (Wv_continuous hA hy p)
  rw [sphere_congr e, sphere_sum _ fun x hx => continuous_finsetSum _ fun y hy => hc x hx y hy]
  push_cast
  refine Finset.sum_congr rfl fun x hx => ?_
  rw [sphere_sum _ fun y hy => hc x hx y hy]
  have e2 : ∀ y ∈ idx nmax, sphere (fun θ φ => (c x * (starRingEnd ℂ) (c y)) * ∑ p : Fin 2, Wv (A θ) φ x p * (starRingEnd ℂ) (Wv (A θ) φ y p))
      = if x = y then (Complex.normSq (c x) : ℂ) * (wnorm x.2.1 : ℂ) else 0 := by
    intro y hy
    rw [sphere_mul, Wv_orth hA hx hy]
    by_cases h : x = y
    · subst h
      simp [← Complex.mul_conj]
    · simp [h]
  rw [Finset.sum_congr rfl e2, Finset.sum_ite_eq, if_pos hx]

/-- matrix of the scattered waves -/
noncomputable def Bm (T : Nat → Nat → Int → Nat → Nat → Int → ℂ) (x y : Nat × Nat × Int) : ℂ :=
  alphaF x.2.1 y.2.1 * ((-1) ^ (x.2.2 + y.2.2).natAbs * T x.1 x.2.1 x.2.2 y.1 y.2.1 y.2.2)

theorem general_eq (T : Nat → Nat → Int → Nat → Nat → Int → ℂ) (k : ℝ) (nmax : Nat) (s : Angular) (φo : ℝ) (i : Angular) (φi : ℝ) (p q : Fin 2) :
    general T k nmax s φo i φi p q = 1 / k * ∑ x ∈ idx nmax, (∑ y ∈ idx nmax, Bm T x y * (starRingEnd ℂ) (Wv i φi y q)) * Wv s φo x p := by
  unfold general
  congr 1
  simp only [Finset.sum_mul]
  have h1 : ∀ x : Nat × Nat × Int, ∑ y ∈ idx nmax, Bm T x y * (starRingEnd ℂ) (Wv i φi y q) * Wv s φo x p
      = ∑ n' ∈ Icc 1 nmax, ∑ m' ∈ Icc (-(n' : Int)) n', ∑ b ∈ range 2,
        alphaF x.2.1 n' * ((-1) ^ (x.2.2 + m').natAbs * T x.1 x.2.1 x.2.2 b n' m') * (wave s φo x.1 x.2.1 x.2.2 p * (starRingEnd ℂ) (wave i φi b n' m' q)) := by
    intro x
    rw [← sum_idx nmax fun b n' m' => alphaF x.2.1 n' * ((-1) ^ (x.2.2 + m').natAbs * T x.1 x.2.1 x.2.2 b n' m')
      * (wave s φo x.1 x.2.1 x.2.2 p * (starRingEnd ℂ) (wave i φi b n' m' q))]
    refine Finset.sum_congr rfl fun y _ => ?_
    unfold Bm Wv
    ring
  simp only [h1]
  rw [sum_idx nmax fun a n m => ∑ n' ∈ Icc 1 nmax, ∑ m' ∈ Icc (-(n' : Int)) n', ∑ b ∈ range 2,
        alphaF n n' * ((-1) ^ (m + m').natAbs * T a n m b n' m') * (wave s φo a n m p * (starRingEnd ℂ) (wave i φi b n' m' q))]
  refine Finset.sum_congr rfl fun n _ => ?_
  rw [Finset.sum_comm]
  refine Finset.sum_congr rfl fun m _ => ?_
  rw [Finset.sum_comm]
  refine Finset.sum_congr rfl fun n' _ => ?_
  exact Finset.sum_comm

/-- power scattered into all directions -/
theorem scattered_general {A : ℝ → Angular} (hA : ∀ θ, (A θ).IsOf θ) (T : Nat → Nat → Int → Nat → Nat → Int → ℂ) (k : ℝ) (nmax : Nat) (i : Angular) (φi : ℝ) :
    sphere (fun θ φ => ∑ p : Fin 2, ∑ q : Fin 2, Complex.normSq (general T k nmax (A θ) φ i φi p q))
      = 1 / k ^ 2 * ∑ x ∈ idx nmax, wnorm x.2.1 * ∑ q : Fin 2, Complex.normSq (∑ y ∈ idx nmax, Bm T x y * (starRingEnd ℂ) (Wv i φi y q)) := by
  have e : ∀ θ φ, ∑ p : Fin 2, ∑ q : Fin 2, Complex.normSq (general T k nmax (A θ) φ i φi p q)
      = 1 / k ^ 2 * ∑ q : Fin 2, ∑ p : Fin 2, Complex.normSq (∑ x ∈ idx nmax, (∑ y ∈ idx nmax, Bm T x y * (starRingEnd ℂ) (Wv i φi y q)) * Wv (A θ) φ x p) := by
    intro θ φ
    rw [Finset.sum_comm, Finset.mul_sum]
    refine Finset.sum_congr rfl fun q _ => ?_
    rw [Finset.mul_sum]
    refine Finset.sum_congr rfl fun p _ => ?_
    rw [general_eq, Complex.normSq_mul]
    simp [sq]
  rw [sphere_congr e, sphere_mul_real, sphere_sum]
  · congr 1
    rw [Finset.sum_congr rfl fun q _ => parseval hA nmax _]
    rw [Finset.sum_comm]
    refine Finset.sum_congr rfl fun x _ => ?_
    rw [Finset.mul_sum]
    refine Finset.sum_congr rfl fun q _ => ?_
    ring
  · intro q _
    refine continuous_finsetSum _ fun p _ => Complex.continuous_normSq.comp ?_
    refine continuous_finsetSum _ fun x hx => continuous_const.mul (Wv_continuous hA hx p)

theorem prefactor_mul (n n' : Nat) : TMatrix.prefactor n n' = Real.sqrt ((2 * n + 1) / (n * (n + 1))) * Real.sqrt ((2 * n' + 1) / (n' * (n' + 1))) := by
  unfold TMatrix.prefactor
  rw [← Real.sqrt_mul (by positivity)]
  congr 1
  rw [div_mul_div_comm]

theorem g_wnorm {n : Nat} (hn : 1 ≤ n) : Real.sqrt ((2 * n + 1) / (n * (n + 1))) ^ 2 * wnorm n = 4 * Real.pi := by
  rw [Real.sq_sqrt (by positivity)]
  unfold wnorm
  have : (n : ℝ) ≠ 0 := by positivity
  field_simp

theorem alpha_norm {n n' : Nat} : Complex.normSq (alphaF n n') = Real.sqrt ((2 * n + 1) / (n * (n + 1))) ^ 2 * Real.sqrt ((2 * n' + 1) / (n' * (n' + 1))) ^ 2 := by
  unfold alphaF
  rw [Complex.normSq_mul, Complex.normSq_ofReal, prefactor_mul, map_zpow₀, Complex.normSq_I, one_zpow]
  ring

theorem B_norm (T : Nat → Nat → Int → Nat → Nat → Int → ℂ) {nmax : Nat} {x y : Nat × Nat × Int} (hx : x ∈ idx nmax) (hy : y ∈ idx nmax) :
    wnorm x.2.1 * (Complex.normSq (Bm T x y) * wnorm y.2.1) = (4 * Real.pi) ^ 2 * Complex.normSq (T x.1 x.2.1 x.2.2 y.1 y.2.1 y.2.2) := by
  obtain ⟨_, h1, _, h2⟩ := mem_idx.1 hx
  obtain ⟨_, h1', _, h2'⟩ := mem_idx.1 hy
  unfold Bm
  rw [Complex.normSq_mul, Complex.normSq_mul, alpha_norm, map_pow, Complex.normSq_neg, Complex.normSq_one, one_pow, one_mul]
  have e1 := g_wnorm h1
  have e2 := g_wnorm h1'
  calc _ = (Real.sqrt ((2 * x.2.1 + 1) / (x.2.1 * (x.2.1 + 1))) ^ 2 * wnorm x.2.1) * (Real.sqrt ((2 * y.2.1 + 1) / (y.2.1 * (y.2.1 + 1))) ^ 2 * wnorm y.2.1)
        * Complex.normSq (T x.1 x.2.1 x.2.2 y.1 y.2.1 y.2.2) := by ring
    _ = _ := by rw [e1, e2]; ring

/-- power scattered into all directions, from all directions -/
theorem scattered_all {A : ℝ → Angular} (hA : ∀ θ, (A θ).IsOf θ) (T : Nat → Nat → Int → Nat → Nat → Int → ℂ) (k : ℝ) (nmax : Nat) :
    sphere (fun θi φi => sphere (fun θ φ => ∑ p : Fin 2, ∑ q : Fin 2, Complex.normSq (general T k nmax (A θ) φ (A θi) φi p q)))
      = (4 * Real.pi) ^ 2 / k ^ 2 * ∑ x ∈ idx nmax, ∑ y ∈ idx nmax, Complex.normSq (T x.1 x.2.1 x.2.2 y.1 y.2.1 y.2.2) := by
  have hconj : ∀ (x : Nat × Nat × Int) (θ φ : ℝ) (q : Fin 2), Complex.normSq (∑ y ∈ idx nmax, Bm T x y * (starRingEnd ℂ) (Wv (A θ) φ y q))
      = Complex.normSq (∑ y ∈ idx nmax, (starRingEnd ℂ) (Bm T x y) * Wv (A θ) φ y q) := by
    intro x θ φ q
    rw [← Complex.normSq_conj, map_sum]
    simp
  rw [sphere_congr fun θ φ => scattered_general hA T k nmax (A θ) φ, sphere_mul_real, sphere_sum]
  · rw [show (4 * Real.pi) ^ 2 / k ^ 2 = 1 / k ^ 2 * (4 * Real.pi) ^ 2 by ring, mul_assoc, Finset.mul_sum (a := (4 * Real.pi) ^ 2)]
    congr 1
    refine Finset.sum_congr rfl fun x hx => ?_
    rw [sphere_mul_real, Finset.mul_sum]
    simp only [hconj]
    rw [parseval hA, Finset.mul_sum]
    refine Finset.sum_congr rfl fun y hy => ?_
    rw [Complex.normSq_conj, B_norm T hx hy]
  · intro x hx
    refine continuous_const.mul (continuous_finsetSum _ fun q _ => Complex.continuous_normSq.comp ?_)
    exact continuous_finsetSum _ fun y hy => continuous_const.mul (Complex.continuous_conj.comp (Wv_continuous hA hy q))

/-- forward amplitude, from all directions -/
theorem forward_all {A : ℝ → Angular} (hA : ∀ θ, (A θ).IsOf θ) (T : Nat → Nat → Int → Nat → Nat → Int → ℂ) (k : ℝ) (nmax : Nat) :
    sphere (fun θ φ => ∑ p : Fin 2, general T k nmax (A θ) φ (A θ) φ p p)
      = -(4 * Real.pi * Complex.I) / k * ∑ x ∈ idx nmax, T x.1 x.2.1 x.2.2 x.1 x.2.1 x.2.2 := by
  have e : ∀ θ φ, ∑ p : Fin 2, general T k nmax (A θ) φ (A θ) φ p p
      = 1 / k * ∑ x ∈ idx nmax, ∑ y ∈ idx nmax, Bm T x y * ∑ p : Fin 2, Wv (A θ) φ x p * (starRingEnd ℂ) (Wv (A θ) φ y p) := by
    intro θ φ
    simp only [general_eq]
    rw [← Finset.mul_sum]
    congr 1
    rw [Finset.sum_comm]
    refine Finset.sum_congr rfl fun x _ => ?_
    simp only [Finset.sum_mul, Finset.mul_sum]
    rw [Finset.sum_comm]
    refine Finset.sum_congr rfl fun y _ => Finset.sum_congr rfl fun p _ => ?_
    ring
  have hc : ∀ x ∈ idx nmax, ∀ y ∈ idx nmax, Continuous fun z : ℝ × ℝ => Bm T x y * ∑ p : Fin 2, Wv (A z.1) z.2 x p * (starRingEnd ℂ) (Wv (A z.1) z.2 y p) := by
    intro x hx y hy
    refine continuous_const.mul (continuous_finsetSum _ fun p _ => (Wv_continuous hA hx p).mul ?_)
    exact Complex.continuous_conj.comp (Wv_continuous hA hy p)
  rw [sphere_congr e, sphere_mul, sphere_sum _ fun x hx => continuous_finsetSum _ fun y hy => hc x hx y hy]
  rw [show -(4 * (Real.pi : ℂ) * Complex.I) / k = 1 / k * -(4 * (Real.pi : ℂ) * Complex.I) by ring, mul_assoc, Finset.mul_sum (a := -(4 * (Real.pi : ℂ) * Complex.I))]
  congr 1
  refine Finset.sum_congr rfl fun x hx => ?_
  rw [sphere_sum _ fun y hy => hc x hx y hy]
  have e2 : ∀ y ∈ idx nmax, sphere (fun θ φ => Bm T x y * ∑ p : Fin 2, Wv (A θ) φ x p * (starRingEnd ℂ) (Wv (A θ) φ y p))
      = if x = y then Bm T x x * (wnorm x.2.1 : ℂ) else 0 := by
    intro y hy
    rw [sphere_mul, Wv_orth hA hx hy]
    by_cases h : x = y
    · subst h
      simp
    · simp [h]
  rw [Finset.sum_congr rfl e2, Finset.sum_ite_eq, if_pos hx]
  obtain ⟨_, h1, _, h2⟩ := mem_idx.1 hx
  have hg := g_wnorm h1
  have hs : (-1 : ℂ) ^ (x.2.2 + x.2.2).natAbs = 1 := Even.neg_one_pow (by rw [Int.natAbs_even]; exact ⟨x.2.2, rfl⟩)
  have hI : Complex.I ^ ((x.2.1 : Int) - (x.2.1 : Int) - 1) = -Complex.I := by
    rw [sub_self, zero_sub, zpow_neg_one, Complex.inv_I]
  unfold Bm alphaF
  rw [hs, hI, prefactor_mul]
  have hg' : ((Real.sqrt ((2 * x.2.1 + 1) / (x.2.1 * (x.2.1 + 1))) : ℝ) : ℂ) ^ 2 * (wnorm x.2.1 : ℂ) = 4 * Real.pi := by
    exact_mod_cast congrArg (fun r : ℝ => (r : ℂ)) hg
  push_cast at hg' ⊢
  linear_combination -Complex.I * T x.1 x.2.1 x.2.2 x.1 x.2.1 x.2.2 * hg'

/-! ### the coefficients -/

/-- **C95** `get_scattering_coefficient`, times `2π / k²`, is the mean, over all directions of the incoming light, of the scattering cross section: the integral of
the intensity, for unpolarised light, over all directions of the scattered light; for every orientation of the particle. -/
theorem c95_scattering (o : Direct.Obj ℝ ℂ) {Tm : Nat → Nat → Int → Nat → Nat → ℂ} (hA : Axisymmetric Tm) (hS : Stores o.res Tm) (α β : ℝ)
    {S : ℝ → ℝ → ℝ → ℝ → Amp} (h : ∀ θi φi θo φo, Oriented Tm o.k o.nmax α β θi φi θo φo (S θi φi θo φo)) :
    1 / (4 * Real.pi) * sphere (fun θi φi => sphere (fun θo φo => mueller (S θi φi θo φo) 0 0)) = 2 * Real.pi / o.k ^ 2 * Direct.scatteringCoefficient o := by
  choose A hAng using angular_all
  have e : ∀ θi φi θo φo, mueller (S θi φi θo φo) 0 0
      = 1 / 2 * ∑ p : Fin 2, ∑ q : Fin 2, Complex.normSq (general (rotated Tm α β) o.k o.nmax (A θo) φo (A θi) φi p q) := by
    intro θi φi θo φo
    rw [mueller_zero]
    simp only [c93_oriented (h θi φi θo φo) (hAng θi) (hAng θo)]
  simp only [e, sphere_mul_real]
  rw [scattered_all hAng, Direct.c77_scattering o hA hS]
  have hp : ∑ x ∈ idx o.nmax, ∑ y ∈ idx o.nmax, Complex.normSq (rotated Tm α β x.1 x.2.1 x.2.2 y.1 y.2.1 y.2.2)
      = ∑ n ∈ Icc 1 o.nmax, ∑ n' ∈ Icc 1 o.nmax, ∑ m ∈ Icc (-((min n n' : Nat) : Int)) (min n n' : Nat),
      ∑ i ∈ range 2, ∑ i' ∈ range 2, Complex.normSq (Tm i n m i' n') := by
    have h1 : ∀ a n m, ∑ y ∈ idx o.nmax, Complex.normSq (rotated Tm α β a n m y.1 y.2.1 y.2.2)
        = ∑ n' ∈ Icc 1 o.nmax, ∑ m' ∈ Icc (-(n' : Int)) n', ∑ b ∈ range 2, Complex.normSq (rotated Tm α β a n m b n' m') :=
      fun a n m => sum_idx o.nmax fun b n' m' => Complex.normSq (rotated Tm α β a n m b n' m')
    simp only [h1]
    rw [sum_idx o.nmax fun a n m => ∑ n' ∈ Icc 1 o.nmax, ∑ m' ∈ Icc (-(n' : Int)) n', ∑ b ∈ range 2, Complex.normSq (rotated Tm α β a n m b n' m')]
    refine Finset.sum_congr rfl fun n _ => ?_
    rw [Finset.sum_congr rfl fun m _ => Finset.sum_comm, Finset.sum_comm]
    refine Finset.sum_congr rfl fun n' _ => ?_
    have h2 : ∀ i j, ∑ m ∈ Icc (-(n : Int)) n, ∑ m' ∈ Icc (-(n' : Int)) n', Complex.normSq (rotated Tm α β i n m j n' m')
        = ∑ l ∈ Icc (-((min n n' : Nat) : Int)) (min n n' : Nat), Complex.normSq (Tm i n l j n') := by
      intro i j
      rw [power_rotated]
      push_cast
      rfl
    rw [Finset.sum_comm]
    rw [Finset.sum_comm (s := Icc (-((min n n' : Nat) : Int)) (min n n' : Nat))]
    refine Finset.sum_congr rfl fun i _ => ?_
    rw [Finset.sum_comm (s := Icc (-((min n n' : Nat) : Int)) (min n n' : Nat))]
    rw [Finset.sum_congr rfl fun m _ => Finset.sum_comm, Finset.sum_comm]
    exact Finset.sum_congr rfl fun j _ => h2 i j
  rw [hp]
  have := Real.pi_ne_zero
  field_simp
  ring

/-- **C95** `get_extinction_coefficient`, times `-2π / k²`, is the mean, over all directions of the incoming light, of the extinction cross section (the T-matrix
of a particle with a plane of symmetry, see C74); for every orientation of the particle. -/
theorem c95_extinction (o : Direct.Obj ℝ ℂ) {Tm : Nat → Nat → Int → Nat → Nat → ℂ} (hA : Axisymmetric Tm) (hS : Stores o.res Tm)
    (hodd : ∀ i n m i' n', TMatrix.Valid o.nmax i n m → TMatrix.Valid o.nmax i' n' m → (i + n + i' + n') % 2 = 1 → o.res.get i n m i' n' = 0) (α β : ℝ)
    {S : ℝ → ℝ → Amp} (h : ∀ θ φ, Oriented Tm o.k o.nmax α β θ φ θ φ (S θ φ)) :
    1 / (4 * Real.pi) * sphere (fun θ φ => 2 * Real.pi / o.k * ((S θ φ).s0 + (S θ φ).s3).im) = -(2 * Real.pi / o.k ^ 2 * Direct.extinctionCoefficient o) := by
  choose A hAng using angular_all
  have e : ∀ θ φ, (S θ φ).s0 + (S θ φ).s3 = ∑ p : Fin 2, general (rotated Tm α β) o.k o.nmax (A θ) φ (A θ) φ p p := by
    intro θ φ
    simp only [← c93_oriented (h θ φ) (hAng θ) (hAng θ)]
    simp [entry, Fin.sum_univ_two]
  rw [sphere_mul_real, Direct.c77_extinction o hA hS hodd]
  have him : sphere (fun θ φ => ((S θ φ).s0 + (S θ φ).s3).im) = (sphere (fun θ φ => (S θ φ).s0 + (S θ φ).s3)).im := by
    simp only [e]
    refine sphere_map Complex.imCLM (f := fun θ φ => ∑ p : Fin 2, general (rotated Tm α β) o.k o.nmax (A θ) φ (A θ) φ p p) ?_
    simp only [general_eq]
    refine continuous_finsetSum _ fun p _ => continuous_const.mul (continuous_finsetSum _ fun x hx => Continuous.mul ?_ (Wv_continuous hAng hx p))
    exact continuous_finsetSum _ fun y hy => continuous_const.mul (Complex.continuous_conj.comp (Wv_continuous hAng hy p))
  rw [him, sphere_congr e, forward_all hAng]
  have ht : ∑ x ∈ idx o.nmax, rotated Tm α β x.1 x.2.1 x.2.2 x.1 x.2.1 x.2.2 = ∑ n ∈ Icc 1 o.nmax, ∑ m ∈ Icc (-(n : Int)) n, ∑ i ∈ range 2, Tm i n m i n := by
    rw [sum_idx o.nmax fun a n m => rotated Tm α β a n m a n m]
    refine Finset.sum_congr rfl fun n _ => ?_
    rw [Finset.sum_comm, Finset.sum_comm (s := Icc (-(n : Int)) n)]
    exact Finset.sum_congr rfl fun i _ => trace_rotated Tm α β i n i
  rw [ht]
  have hre : (∑ n ∈ Icc 1 o.nmax, ∑ m ∈ Icc (-(n : Int)) n, ∑ i ∈ range 2, (Tm i n m i n).re) = (∑ n ∈ Icc 1 o.nmax, ∑ m ∈ Icc (-(n : Int)) n, ∑ i ∈ range 2, Tm i n m i n).re := by
    simp only [Complex.re_sum]
  rw [hre]
  generalize (∑ n ∈ Icc 1 o.nmax, ∑ m ∈ Icc (-(n : Int)) n, ∑ i ∈ range 2, Tm i n m i n) = Z
  have : (-(4 * (Real.pi : ℂ) * Complex.I) / o.k * Z).im = -(4 * Real.pi) / o.k * Z.re := by
    rw [show -(4 * (Real.pi : ℂ) * Complex.I) / o.k * Z = ((-(4 * Real.pi) / o.k : ℝ) : ℂ) * (Complex.I * Z) by push_cast; ring, Complex.im_ofReal_mul]
    simp
  rw [this]
  have := Real.pi_ne_zero
  field_simp

/-! ### energy -/

/-- coefficients of the incoming wave -/
noncomputable def incoming (i : Angular) (φ : ℝ) (q : Fin 2) (b n : Nat) (m : Int) : ℂ :=
  (-1) ^ m.natAbs * Complex.I ^ n * Real.sqrt ((2 * n + 1) / (n * (n + 1))) * (starRingEnd ℂ) (wave i φ b n m q)

theorem sgn_add (m m' : Int) : (-1 : ℂ) ^ (m + m').natAbs = (-1) ^ m.natAbs * (-1) ^ m'.natAbs := by
  have : (m + m').natAbs % 2 = (m.natAbs + m'.natAbs) % 2 := by omega
  rw [← pow_add, neg_one_pow_eq_pow_mod_two, this, ← neg_one_pow_eq_pow_mod_two]

/-- scattered waves -/
theorem scattered_wave (T : Nat → Nat → Int → Nat → Nat → Int → ℂ) (nmax : Nat) (i : Angular) (φ : ℝ) (q : Fin 2) (x : Nat × Nat × Int) :
    ∑ y ∈ idx nmax, Bm T x y * (starRingEnd ℂ) (Wv i φ y q)
      = (-1) ^ x.2.2.natAbs * Complex.I ^ (-(x.2.1 : Int) - 1) * Real.sqrt ((2 * x.2.1 + 1) / (x.2.1 * (x.2.1 + 1)))
        * ∑ y ∈ idx nmax, T x.1 x.2.1 x.2.2 y.1 y.2.1 y.2.2 * incoming i φ q y.1 y.2.1 y.2.2 := by
  rw [Finset.mul_sum]
  refine Finset.sum_congr rfl fun y _ => ?_
  have hI : Complex.I ^ ((y.2.1 : Int) - x.2.1 - 1) = Complex.I ^ (-(x.2.1 : Int) - 1) * Complex.I ^ y.2.1 := by
    rw [← zpow_natCast, ← zpow_add₀ Complex.I_ne_zero]
    congr 1
    ring
  unfold Bm alphaF incoming Wv
  rw [hI, prefactor_mul, sgn_add]
  push_cast
  ring

/-- scattering cross section for a direction -/
theorem scattered_energy {A : ℝ → Angular} (hA : ∀ θ, (A θ).IsOf θ) (T : Nat → Nat → Int → Nat → Nat → Int → ℂ) (k : ℝ) (nmax : Nat) (i : Angular) (φi : ℝ) :
    sphere (fun θ φ => ∑ p : Fin 2, ∑ q : Fin 2, Complex.normSq (general T k nmax (A θ) φ i φi p q))
      = 4 * Real.pi / k ^ 2 * ∑ q : Fin 2, ∑ x ∈ idx nmax,
        Complex.normSq (∑ y ∈ idx nmax, T x.1 x.2.1 x.2.2 y.1 y.2.1 y.2.2 * incoming i φi q y.1 y.2.1 y.2.2) := by
  rw [scattered_general hA]
  rw [show 4 * Real.pi / k ^ 2 = 1 / k ^ 2 * (4 * Real.pi) by ring, mul_assoc]
  congr 1
  rw [Finset.sum_comm, Finset.mul_sum]
  refine Finset.sum_congr rfl fun x hx => ?_
  rw [Finset.mul_sum, Finset.mul_sum]
  refine Finset.sum_congr rfl fun q _ => ?_
  rw [scattered_wave, Complex.normSq_mul, Complex.normSq_mul, Complex.normSq_mul, map_pow, Complex.normSq_neg, Complex.normSq_one, one_pow, map_zpow₀, Complex.normSq_I, one_zpow,
    Complex.normSq_ofReal, one_mul, one_mul, ← g_wnorm (mem_idx.1 hx).2.1]
  ring

/-- extinction cross section for a direction -/
theorem forward_energy (T : Nat → Nat → Int → Nat → Nat → Int → ℂ) (k : ℝ) (nmax : Nat) (i : Angular) (φi : ℝ) :
    (∑ q : Fin 2, general T k nmax i φi i φi q q).im
      = -(1 / k * ∑ q : Fin 2, (∑ x ∈ idx nmax, (starRingEnd ℂ) (incoming i φi q x.1 x.2.1 x.2.2)
        * ∑ y ∈ idx nmax, T x.1 x.2.1 x.2.2 y.1 y.2.1 y.2.2 * incoming i φi q y.1 y.2.1 y.2.2).re) := by
  simp only [general_eq]
  have e : ∀ q, ∑ x ∈ idx nmax, (∑ y ∈ idx nmax, Bm T x y * (starRingEnd ℂ) (Wv i φi y q)) * Wv i φi x q
      = -Complex.I * ∑ x ∈ idx nmax, (starRingEnd ℂ) (incoming i φi q x.1 x.2.1 x.2.2)
        * ∑ y ∈ idx nmax, T x.1 x.2.1 x.2.2 y.1 y.2.1 y.2.2 * incoming i φi q y.1 y.2.1 y.2.2 := by
    intro q
    rw [Finset.mul_sum]
    refine Finset.sum_congr rfl fun x hx => ?_
    rw [scattered_wave]
    have hI : Complex.I ^ (-(x.2.1 : Int) - 1) = -Complex.I * (starRingEnd ℂ) (Complex.I ^ x.2.1) := by
      rw [zpow_sub₀ Complex.I_ne_zero, zpow_neg, zpow_natCast, map_pow, Complex.conj_I, zpow_one, ← inv_pow, Complex.inv_I, div_eq_mul_inv, Complex.inv_I]
      ring
    rw [hI]
    generalize (∑ y ∈ idx nmax, T x.1 x.2.1 x.2.2 y.1 y.2.1 y.2.2 * incoming i φi q y.1 y.2.1 y.2.2) = Z
    unfold incoming Wv
    simp only [map_mul, Complex.conj_conj, Complex.conj_ofReal, map_pow, map_neg, map_one]
    ring
  simp only [e]
  rw [← Finset.mul_sum, ← Finset.mul_sum]
  simp only [← Complex.re_sum]
  generalize (∑ q : Fin 2, ∑ x ∈ idx nmax, (starRingEnd ℂ) (incoming i φi q x.1 x.2.1 x.2.2)
        * ∑ y ∈ idx nmax, T x.1 x.2.1 x.2.2 y.1 y.2.1 y.2.2 * incoming i φi q y.1 y.2.1 y.2.2) = Z
  rw [show 1 / (k : ℂ) * (-Complex.I * Z) = ((1 / k : ℝ) : ℂ) * (-Complex.I * Z) by push_cast; ring, Complex.im_ofReal_mul]
  simp

section

variable (T : Nat → Nat → Int → Nat → Nat → ℂ) (nmax : Nat) (α β : ℝ) (v : Nat → Nat → Int → ℂ)

/-- the wave in the frame of the particle -/
noncomputable def inFrame (l : Int) (b n : Nat) : ℂ := ∑ m ∈ Icc (-(n : Int)) n, (starRingEnd ℂ) (D n m l α β) * v b n m

/-- the scattered wave in the frame of the particle -/
noncomputable def response (l : Int) (a n : Nat) : ℂ := ∑ b ∈ range 2, ∑ n' ∈ Icc (max l.natAbs 1) nmax, T a n l b n' * inFrame α β v l b n'

theorem rotated_apply (a n : Nat) (m : Int) :
    ∑ y ∈ idx nmax, rotated T α β a n m y.1 y.2.1 y.2.2 * v y.1 y.2.1 y.2.2 = ∑ l ∈ Icc (-(n : Int)) n, D n m l α β * response T nmax α β v l a n := by
  rw [sum_idx nmax fun b n' m' => rotated T α β a n m b n' m' * v b n' m']
  have e : ∀ l ∈ Icc (-(n : Int)) n, D n m l α β * response T nmax α β v l a n
      = ∑ n' ∈ Icc 1 nmax, if |l| ≤ n' then ∑ b ∈ range 2, ∑ m' ∈ Icc (-(n' : Int)) n', D n m l α β * T a n l b n' * (starRingEnd ℂ) (D n' m' l α β) * v b n' m' else 0 := by
    intro l _
    unfold response
    rw [Finset.sum_comm, ← Finset.sum_filter, Finset.mul_sum]
    refine Finset.sum_congr (Finset.ext fun n' => ?_) fun n' _ => ?_
    · simp only [Finset.mem_filter, Finset.mem_Icc, abs_le]
      omega
    · rw [Finset.mul_sum]
      refine Finset.sum_congr rfl fun b _ => ?_
      unfold inFrame
      rw [Finset.mul_sum, Finset.mul_sum]
      refine Finset.sum_congr rfl fun m' _ => ?_
      ring
  rw [Finset.sum_congr rfl e, Finset.sum_comm]
  refine Finset.sum_congr rfl fun n' _ => ?_
  rw [← Finset.sum_filter]
  have hK : (Icc (-(n : Int)) n).filter (fun l : Int => |l| ≤ (n' : Int)) = Icc (-(min n n' : Int)) (min n n') := by
    ext l
    simp only [Finset.mem_filter, Finset.mem_Icc, abs_le]
    omega
  rw [hK]
  unfold rotated
  simp only [Finset.sum_mul]
  rw [Finset.sum_comm, Finset.sum_comm (s := Icc (-(min n n' : Int)) (min n n'))]
  refine Finset.sum_congr rfl fun b _ => ?_
  rw [Finset.sum_comm]

theorem D_power {n : Nat} (z : Int → ℂ) :
    ∑ m ∈ Icc (-(n : Int)) n, Complex.normSq (∑ l ∈ Icc (-(n : Int)) n, D n m l α β * z l) = ∑ l ∈ Icc (-(n : Int)) n, Complex.normSq (z l) := by
  apply Complex.ofReal_injective
  push_cast
  simp only [← Complex.mul_conj, map_sum, map_mul, Finset.sum_mul_sum]
  rw [Finset.sum_comm]
  refine Finset.sum_congr rfl fun l hl => ?_
  rw [Finset.sum_comm]
  have e : ∀ l' ∈ Icc (-(n : Int)) n, ∑ m ∈ Icc (-(n : Int)) n, D n m l α β * z l * ((starRingEnd ℂ) (D n m l' α β) * (starRingEnd ℂ) (z l'))
      = if l = l' then z l * (starRingEnd ℂ) (z l) else 0 := by
    intro l' _
    have : ∀ m, D n m l α β * z l * ((starRingEnd ℂ) (D n m l' α β) * (starRingEnd ℂ) (z l')) = (z l * (starRingEnd ℂ) (z l')) * (D n m l α β * (starRingEnd ℂ) (D n m l' α β)) := by
      intro m
      ring
    simp only [this]
    rw [← Finset.mul_sum, D_orth n (abs_le.2 (Finset.mem_Icc.1 hl))]
    by_cases h : l = l'
    · subst h
      simp
    · simp [h]
  rw [Finset.sum_congr rfl e, Finset.sum_ite_eq, if_pos hl]

theorem rotated_power :
    ∑ x ∈ idx nmax, Complex.normSq (∑ y ∈ idx nmax, rotated T α β x.1 x.2.1 x.2.2 y.1 y.2.1 y.2.2 * v y.1 y.2.1 y.2.2)
      = ∑ l ∈ Icc (-(nmax : Int)) nmax, ∑ a ∈ range 2, ∑ n ∈ Icc (max l.natAbs 1) nmax, Complex.normSq (response T nmax α β v l a n) := by
  rw [← sum_idx' nmax fun a n l => Complex.normSq (response T nmax α β v l a n)]
  simp only [rotated_apply]
  rw [sum_idx nmax fun a n m => Complex.normSq (∑ l ∈ Icc (-(n : Int)) n, D n m l α β * response T nmax α β v l a n), sum_idx nmax fun a n l => Complex.normSq (response T nmax α β v l a n)]
  refine Finset.sum_congr rfl fun n _ => ?_
  rw [Finset.sum_comm, Finset.sum_comm (s := Icc (-(n : Int)) n)]
  exact Finset.sum_congr rfl fun a _ => D_power α β fun l => response T nmax α β v l a n

theorem rotated_form :
    ∑ x ∈ idx nmax, (starRingEnd ℂ) (v x.1 x.2.1 x.2.2) * ∑ y ∈ idx nmax, rotated T α β x.1 x.2.1 x.2.2 y.1 y.2.1 y.2.2 * v y.1 y.2.1 y.2.2
      = ∑ l ∈ Icc (-(nmax : Int)) nmax, ∑ a ∈ range 2, ∑ n ∈ Icc (max l.natAbs 1) nmax, (starRingEnd ℂ) (inFrame α β v l a n) * response T nmax α β v l a n := by
  rw [← sum_idx' nmax fun a n l => (starRingEnd ℂ) (inFrame α β v l a n) * response T nmax α β v l a n]
  simp only [rotated_apply]
  rw [sum_idx nmax fun a n m => (starRingEnd ℂ) (v a n m) * ∑ l ∈ Icc (-(n : Int)) n, D n m l α β * response T nmax α β v l a n,
    sum_idx nmax fun a n l => (starRingEnd ℂ) (inFrame α β v l a n) * response T nmax α β v l a n]
  refine Finset.sum_congr rfl fun n _ => ?_
  rw [Finset.sum_comm, Finset.sum_comm (s := Icc (-(n : Int)) n)]
  refine Finset.sum_congr rfl fun a _ => ?_
  unfold inFrame
  simp only [map_sum, Finset.sum_mul, Finset.mul_sum]
  rw [Finset.sum_comm]
  refine Finset.sum_congr rfl fun l _ => Finset.sum_congr rfl fun m _ => ?_
  simp only [map_mul, Complex.conj_conj]
  ring

end

theorem energy_forms {T : Nat → Nat → Int → Nat → Nat → ℂ} {k : ℝ} {nmax : Nat} {α β θi φi : ℝ}
    {S : ℝ → ℝ → Amp} (h : ∀ θo φo, Oriented T k nmax α β θi φi θo φo (S θo φo)) : ∃ v : Fin 2 → Nat → Nat → Int → ℂ,
    sphere (fun θo φo => mueller (S θo φo) 0 0) = 2 * Real.pi / k ^ 2 * ∑ q : Fin 2, ∑ l ∈ Icc (-(nmax : Int)) nmax, ∑ a ∈ range 2, ∑ n ∈ Icc (max l.natAbs 1) nmax,
      Complex.normSq (response T nmax α β (v q) l a n)
    ∧ 2 * Real.pi / k * ((S θi φi).s0 + (S θi φi).s3).im = 2 * Real.pi / k ^ 2 * ∑ q : Fin 2, ∑ l ∈ Icc (-(nmax : Int)) nmax,
      -(∑ a ∈ range 2, ∑ n ∈ Icc (max l.natAbs 1) nmax, (starRingEnd ℂ) (inFrame α β (v q) l a n) * response T nmax α β (v q) l a n).re := by
  choose A hAng using angular_all
  refine ⟨fun q => incoming (A θi) φi q, ?_, ?_⟩
  · have e : ∀ θo φo, mueller (S θo φo) 0 0
        = 1 / 2 * ∑ p : Fin 2, ∑ q : Fin 2, Complex.normSq (general (rotated T α β) k nmax (A θo) φo (A θi) φi p q) := by
      intro θo φo
      rw [mueller_zero]
      simp only [c93_oriented (h θo φo) (hAng θi) (hAng θo)]
    rw [sphere_congr e, sphere_mul_real, scattered_energy hAng]
    rw [Finset.sum_congr rfl fun q _ => rotated_power T nmax α β (incoming (A θi) φi q)]
    ring
  · have e : (S θi φi).s0 + (S θi φi).s3 = ∑ q : Fin 2, general (rotated T α β) k nmax (A θi) φi (A θi) φi q q := by
      simp only [← c93_oriented (h θi φi) (hAng θi) (hAng θi)]
      simp [entry, Fin.sum_univ_two]
    rw [e, forward_energy]
    rw [Finset.sum_congr rfl fun q _ => congrArg Complex.re (rotated_form T nmax α β (incoming (A θi) φi q))]
    simp only [Complex.re_sum, Finset.sum_neg_distrib]
    ring

/-- **C95** energy is conserved: for every direction of the incoming light and every orientation of a particle that does not amplify, the light scattered into all
directions is not more than the light that is lost from the incoming beam. -/
theorem c95_energy {T : Nat → Nat → Int → Nat → Nat → ℂ} {k : ℝ} {nmax : Nat} (hp : Passive T nmax) {α β θi φi : ℝ}
    {S : ℝ → ℝ → Amp} (h : ∀ θo φo, Oriented T k nmax α β θi φi θo φo (S θo φo)) :
    sphere (fun θo φo => mueller (S θo φo) 0 0) ≤ 2 * Real.pi / k * ((S θi φi).s0 + (S θi φi).s3).im := by
  obtain ⟨v, e1, e2⟩ := energy_forms h
  rw [e1, e2]
  have hk : 0 ≤ 2 * Real.pi / k ^ 2 := by
    have := Real.pi_pos
    positivity
  exact mul_le_mul_of_nonneg_left (Finset.sum_le_sum fun q _ => Finset.sum_le_sum fun l _ => hp l (inFrame α β (v q) l)) hk

/-- **C95** a particle that does not absorb: all the light that is lost from the incoming beam is scattered. -/
theorem c95_lossless {T : Nat → Nat → Int → Nat → Nat → ℂ} {k : ℝ} {nmax : Nat} (hp : Lossless T nmax) {α β θi φi : ℝ}
    {S : ℝ → ℝ → Amp} (h : ∀ θo φo, Oriented T k nmax α β θi φi θo φo (S θo φo)) :
    sphere (fun θo φo => mueller (S θo φo) 0 0) = 2 * Real.pi / k * ((S θi φi).s0 + (S θi φi).s3).im := by
  obtain ⟨v, e1, e2⟩ := energy_forms h
  rw [e1, e2]
  congr 1
  exact Finset.sum_congr rfl fun q _ => Finset.sum_congr rfl fun l _ => hp l (inFrame α β (v q) l)

/-- a dipole that does not absorb: it meets the conditions of the theorems, for all directions and orientations -/
theorem Tn_lossless : Lossless Tn 1 := by
  intro m x
  by_cases hm : m = 0
  · subst hm
    simp [Tn, Finset.sum_range_succ, Complex.normSq_apply]
  · simp [Tn, hm]

example (α β : ℝ) : ∃ S : ℝ → ℝ → ℝ → ℝ → Amp, (∀ θi φi θo φo, Oriented Tn (object Tn).k (object Tn).nmax α β θi φi θo φo (S θi φi θo φo))
    ∧ 1 / (4 * Real.pi) * sphere (fun θi φi => sphere (fun θo φo => mueller (S θi φi θo φo) 0 0)) = 2 * Real.pi / (object Tn).k ^ 2 * Direct.scatteringCoefficient (object Tn)
    ∧ ∀ θi φi, sphere (fun θo φo => mueller (S θi φi θo φo) 0 0) = 2 * Real.pi / (object Tn).k * ((S θi φi θi φi).s0 + (S θi φi θi φi).s3).im := by
  choose S hS _ using fun θi φi θo φo => c93_exists_unique Tn (object Tn).k (object Tn).nmax α β θi φi θo φo
  exact ⟨S, hS, c95_scattering (object Tn) Tn_axisymmetric (object_stores Tn) α β hS, fun θi φi => c95_lossless (k := (object Tn).k) Tn_lossless (hS θi φi)⟩

end Verif.Rotation
