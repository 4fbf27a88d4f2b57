import Verif.Spec.Rotation
import Verif.Proofs.ClebschOrth
import Verif.Proofs.Legendre
import Mathlib.Analysis.ODE.Gronwall
import Mathlib.Analysis.Calculus.Deriv.Mul
import Mathlib.Analysis.Calculus.Deriv.Prod
import Mathlib.Topology.Algebra.Polynomial
import Mathlib.Topology.Algebra.Module.Cardinality
import Mathlib.Analysis.Real.Cardinality
import Mathlib.Analysis.SpecialFunctions.Trigonometric.Deriv
import Mathlib.Algebra.Polynomial.Taylor
import Mathlib.Tactic.Ring
import Mathlib.Tactic.Linarith

/-!
# Wigner functions: differential equation, symmetry, products, Legendre polynomials
-/
namespace Verif.Rotation

open Polynomial Finset
open Verif.Clebsch

/-! ### polynomials with coefficients that depend on a parameter -/

section
variable {A : Type} [NormedField A] [NormedAlgebra ℝ A]

/-- all coefficients are differentiable -/
def Diff (p : ℝ → A[X]) (p' : A[X]) (β : ℝ) : Prop := ∀ k, HasDerivAt (fun b => (p b).coeff k) (p'.coeff k) β

theorem Diff.congr {p : ℝ → A[X]} {p' q : A[X]} {β : ℝ} (h : Diff p p' β) (e : p' = q) : Diff p q β := e ▸ h

theorem Diff.const (p : A[X]) (β : ℝ) : Diff (fun _ => p) 0 β := fun k => by
  simpa using hasDerivAt_const β (p.coeff k)

theorem Diff.C {f : ℝ → A} {f' : A} {β : ℝ} (h : HasDerivAt f f' β) : Diff (fun b => C (f b)) (C f') β := fun k => by
  simp only [coeff_C]
  split
  · exact h
  · exact hasDerivAt_const β _

theorem Diff.add {p q : ℝ → A[X]} {p' q' : A[X]} {β : ℝ} (hp : Diff p p' β) (hq : Diff q q' β) : Diff (fun b => p b + q b) (p' + q') β := fun k => by
  simp only [coeff_add]
  exact (hp k).fun_add (hq k)

theorem Diff.sub {p q : ℝ → A[X]} {p' q' : A[X]} {β : ℝ} (hp : Diff p p' β) (hq : Diff q q' β) : Diff (fun b => p b - q b) (p' - q') β := fun k => by
  simp only [coeff_sub]
  exact (hp k).fun_sub (hq k)

theorem Diff.mul {p q : ℝ → A[X]} {p' q' : A[X]} {β : ℝ} (hp : Diff p p' β) (hq : Diff q q' β) :
    Diff (fun b => p b * q b) (p' * q β + p β * q') β := fun k => by
  simp only [coeff_mul, coeff_add]
  rw [← Finset.sum_add_distrib]
  exact HasDerivAt.fun_sum fun x _ => (hp x.1).mul (hq x.2)

theorem Diff.pow {p : ℝ → A[X]} {p' : A[X]} {β : ℝ} (hp : Diff p p' β) (n : Nat) :
    Diff (fun b => p b ^ n) ((n : A[X]) * p β ^ (n - 1) * p') β := by
  induction n with
  | zero =>
    intro k
    simpa using hasDerivAt_const β ((1 : A[X]).coeff k)
  | succ n ih =>
    refine Diff.congr (p := fun b => p b ^ n * p b) (ih.mul hp) ?_ |> fun h => by simpa [pow_succ] using h
    cases n with
    | zero => simp
    | succ n =>
      simp only [Nat.add_sub_cancel]
      push_cast
      ring

end

/-! ### the differential equation -/

theorem turned_diff (n m : Int) (h : |m| ≤ n) (β : ℝ) :
    Diff (turned n m) (-(C (((n + m : Int) : ℝ) / 2) * turned n (m - 1) β) + C (((n - m : Int) : ℝ) / 2) * turned n (m + 1) β) β := by
  have hc : HasDerivAt (fun b : ℝ => Real.cos (b / 2)) (-(Real.sin (β / 2) / 2)) β := by
    refine ((Real.hasDerivAt_cos (β / 2)).comp β ((hasDerivAt_id β).div_const 2)).congr_deriv ?_
    ring
  have hs : HasDerivAt (fun b : ℝ => Real.sin (b / 2)) (Real.cos (β / 2) / 2) β := by
    refine ((Real.hasDerivAt_sin (β / 2)).comp β ((hasDerivAt_id β).div_const 2)).congr_deriv ?_
    ring
  rw [abs_le] at h
  have d1 := (((Diff.C hc).mul (Diff.const X β)).sub (Diff.C hs)).pow (n + m).toNat
  have d2 := (((Diff.C hs).mul (Diff.const X β)).add (Diff.C hc)).pow (n - m).toNat
  refine (d1.mul d2).congr ?_
  obtain ⟨a, ha⟩ : ∃ a : Nat, n + m = a := ⟨(n + m).toNat, by omega⟩
  obtain ⟨b, hb⟩ : ∃ b : Nat, n - m = b := ⟨(n - m).toNat, by omega⟩
  unfold turned
  rw [show n + (m - 1) = (a : Int) - 1 by omega, show n - (m - 1) = (b : Int) + 1 by omega, show n + (m + 1) = (a : Int) + 1 by omega,
    show n - (m + 1) = (b : Int) - 1 by omega, ha, hb]
  simp only [Int.toNat_natCast, show ((a : Int) - 1).toNat = a - 1 by omega, show ((b : Int) - 1).toNat = b - 1 by omega,
    show ((a : Int) + 1).toNat = a + 1 by omega, show ((b : Int) + 1).toNat = b + 1 by omega, Int.cast_natCast]
  set c := Real.cos (β / 2)
  set s := Real.sin (β / 2)
  have e2 : ∀ k : Nat, (C ((k : ℝ) / 2) : ℝ[X]) = (k : ℝ[X]) * C (1 / 2) := by
    intro k
    rw [← C_eq_natCast, ← C_mul]
    congr 1
    ring
  have e3 : (C (-(s / 2)) : ℝ[X]) = -(C (1 / 2) * C s) := by
    rw [← C_mul, ← C_neg]; congr 1; ring
  have e4 : (C (c / 2) : ℝ[X]) = C (1 / 2) * C c := by
    rw [← C_mul]; congr 1; ring
  rw [e2, e2, e3, e4]
  cases a <;> cases b <;> simp only [Nat.add_sub_cancel, Nat.cast_zero, pow_succ, Nat.zero_sub, pow_zero] <;> ring

/-- the norm of a basis element -/
noncomputable def nrm (n m : Int) : ℝ := Real.sqrt (fac (n + m) * fac (n - m))

theorem nrm_pos (n m : Int) : 0 < nrm n m := by
  unfold nrm
  apply Real.sqrt_pos.mpr
  exact mul_pos (by exact_mod_cast Nat.factorial_pos _) (by exact_mod_cast Nat.factorial_pos _)

theorem d_eq {n m m' : Int} (h : |m| ≤ n) (h' : |m'| ≤ n) (β : ℝ) : d n m m' β = nrm n m' / nrm n m * (turned n m β).coeff (n + m').toNat :=
  if_pos ⟨h, h'⟩

theorem d_out {n m m' : Int} (h : n < |m|) (β : ℝ) : d n m m' β = 0 := if_neg fun x => by omega

theorem d_out' {n m m' : Int} (h : n < |m'|) (β : ℝ) : d n m m' β = 0 := if_neg fun x => by omega

theorem lad_nrm {n m : Int} (h1 : -n ≤ m) (h2 : m < n) : lad n m * nrm n m = ((n - m : Int) : ℝ) * nrm n (m + 1) := by
  unfold lad nrm
  have e1 : (fac (n + (m + 1)) : ℝ) = ((n : ℝ) + m + 1) * fac (n + m) := by
    unfold fac
    rw [show (n + (m + 1)).toNat = (n + m).toNat + 1 by omega, Nat.factorial_succ]
    push_cast
    congr 1
    have : ((n + m).toNat : ℝ) = ((n + m : Int) : ℝ) := by
      rw [← Int.cast_natCast, Int.toNat_of_nonneg (by omega)]
    rw [this]
    push_cast
    ring
  have e2 : (fac (n - m) : ℝ) = ((n : ℝ) - m) * fac (n - (m + 1)) := by
    unfold fac
    rw [show (n - m).toNat = (n - (m + 1)).toNat + 1 by omega, Nat.factorial_succ]
    push_cast
    congr 1
    have : ((n - (m + 1)).toNat : ℝ) = ((n - (m + 1) : Int) : ℝ) := by
      rw [← Int.cast_natCast, Int.toNat_of_nonneg (by omega)]
    rw [this]
    push_cast
    ring
  have hnn : (0 : ℝ) ≤ (n : ℝ) - m := by
    have : ((m : Int) : ℝ) ≤ n := by exact_mod_cast h2.le
    linarith
  have hpp : (0 : ℝ) ≤ (n : ℝ) + m + 1 := by
    have : (0 : ℝ) ≤ ((n + m : Int) : ℝ) := by exact_mod_cast (by omega : 0 ≤ n + m)
    push_cast at this
    linarith
  rw [e1, e2, ← Real.sqrt_mul (mul_nonneg hpp hnn)]
  push_cast
  rw [show ((n : ℝ) - m) = Real.sqrt (((n : ℝ) - m) ^ 2) from (Real.sqrt_sq hnn).symm, ← Real.sqrt_mul (sq_nonneg _)]
  congr 1
  rw [Real.sqrt_sq hnn]
  ring

theorem lad_nrm' {n m : Int} (h1 : -n < m) (h2 : m ≤ n) : lad n (m - 1) * nrm n m = ((n + m : Int) : ℝ) * nrm n (m - 1) := by
  have := lad_nrm (n := n) (m := -m) (by omega) (by omega)
  rw [show -m = -(m - 1) - 1 by ring, lad_neg] at this
  have e : ∀ k, nrm n (-k) = nrm n k := by
    intro k
    unfold nrm
    rw [sub_neg_eq_add, mul_comm]
    rfl
  rw [show -(m - 1) - 1 = -m by ring, show -m + 1 = -(m - 1) by ring, e, e, sub_neg_eq_add] at this
  exact this

/-- `2 d/dβ d^n_{m m'} = lad n m d^n_{m+1 m'} - lad n (m-1) d^n_{m-1 m'}` -/
theorem d_deriv (n m m' : Int) (h : |m| ≤ n) (β : ℝ) :
    HasDerivAt (d n m m') (1 / 2 * (lad n m * d n (m + 1) m' β - lad n (m - 1) * d n (m - 1) m' β)) β := by
  by_cases h' : |m'| ≤ n
  swap
  · have e : d n m m' = fun _ => 0 := funext fun b => d_out' (by omega) b
    rw [e, d_out' (by omega), d_out' (by omega)]
    simpa using hasDerivAt_const β (0 : ℝ)
  have e : d n m m' = fun b => nrm n m' / nrm n m * (turned n m b).coeff (n + m').toNat := funext fun b => d_eq h h' b
  rw [e]
  refine ((turned_diff n m h β (n + m').toNat).const_mul _).congr_deriv ?_
  rw [abs_le] at h
  have hN := (nrm_pos n m).ne'
  have t1 : nrm n m' / nrm n m * (((n + m : Int) : ℝ) / 2 * (turned n (m - 1) β).coeff (n + m').toNat) = 1 / 2 * (lad n (m - 1) * d n (m - 1) m' β) := by
    by_cases hm : -n < m
    · rw [d_eq (by rw [abs_le]; omega) h']
      have := lad_nrm' hm h.2
      have hN' := (nrm_pos n (m - 1)).ne'
      have e5 : lad n (m - 1) = ((n + m : Int) : ℝ) * nrm n (m - 1) / nrm n m := by
        rw [← this]; field_simp
      rw [e5]
      field_simp
    · have : m = -n := by omega
      subst this
      rw [show -n - 1 = -n - 1 from rfl, lad_bot]
      simp
  have t2 : nrm n m' / nrm n m * (((n - m : Int) : ℝ) / 2 * (turned n (m + 1) β).coeff (n + m').toNat) = 1 / 2 * (lad n m * d n (m + 1) m' β) := by
    by_cases hm : m < n
    · rw [d_eq (by rw [abs_le]; omega) h']
      have := lad_nrm h.1 hm
      have hN' := (nrm_pos n (m + 1)).ne'
      have e5 : lad n m = ((n - m : Int) : ℝ) * nrm n (m + 1) / nrm n m := by
        rw [← this]; field_simp
      rw [e5]
      field_simp
    · have : m = n := by omega
      subst this
      rw [lad_top]
      simp
  simp only [coeff_add, coeff_neg, coeff_C_mul]
  rw [mul_add, mul_neg, t1, t2]
  ring

theorem d_zero (n m m' : Int) (h : |m| ≤ n) : d n m m' 0 = if m = m' then 1 else 0 := by
  by_cases h' : |m'| ≤ n
  swap
  · rw [d_out' (by omega), if_neg]
    rintro rfl
    omega
  rw [d_eq h h']
  have : turned n m 0 = X ^ (n + m).toNat := by
    unfold turned
    simp
  rw [this, coeff_X_pow]
  rw [abs_le] at h h'
  by_cases hm : m = m'
  · subst hm
    rw [if_pos rfl, if_pos rfl, div_self (nrm_pos n m).ne', one_mul]
  · rw [if_neg hm, if_neg (by omega), mul_zero]

/-! ### uniqueness of solutions -/

theorem ode_zero_right {ι : Type} (s : Finset ι) (K : ℝ) (f f' : ι → ℝ → ℝ) (hf : ∀ i ∈ s, ∀ t, HasDerivAt (f i) (f' i t) t)
    (hK : ∀ t M, (∀ j ∈ s, |f j t| ≤ M) → ∀ i ∈ s, |f' i t| ≤ K * M) (h0 : ∀ i ∈ s, f i 0 = 0) {t : ℝ} (ht : 0 ≤ t) :
    ∀ i ∈ s, f i t = 0 := by
  set y : ℝ → (s → ℝ) := fun t i => f i t with hy
  set y' : ℝ → (s → ℝ) := fun t i => f' i t with hy'
  have hd : ∀ t, HasDerivAt y (y' t) t := fun t => hasDerivAt_pi.2 fun i => hf i i.2 t
  have hb : ∀ x ∈ Set.Ico 0 t, ‖y' x‖ ≤ |K| * ‖y x‖ + 0 := by
    intro x _
    rw [add_zero]
    refine (pi_norm_le_iff_of_nonneg (mul_nonneg (abs_nonneg K) (norm_nonneg _))).mpr fun i => ?_
    refine (hK x ‖y x‖ (fun j hj => norm_le_pi_norm (y x) ⟨j, hj⟩) i i.2).trans ?_
    exact mul_le_mul_of_nonneg_right (le_abs_self K) (norm_nonneg _)
  have := norm_le_gronwallBound_of_norm_deriv_right_le (f := y) (f' := y') (δ := 0) (K := |K|) (ε := 0) (a := 0) (b := t)
    (fun x _ => (hd x).continuousAt.continuousWithinAt) (fun x _ => (hd x).hasDerivWithinAt)
    (by
      rw [show y 0 = 0 from funext fun i => h0 i i.2]
      simp) hb t ⟨ht, le_rfl⟩
  rw [gronwallBound_ε0, zero_mul] at this
  have hz := norm_le_zero_iff.mp this
  intro i hi
  exact congrFun hz ⟨i, hi⟩

/-- A linear system of differential equations (in fact: one with a bound on the right hand side) has only one solution. -/
theorem ode_zero {ι : Type} (s : Finset ι) (K : ℝ) (f f' : ι → ℝ → ℝ) (hf : ∀ i ∈ s, ∀ t, HasDerivAt (f i) (f' i t) t)
    (hK : ∀ t M, (∀ j ∈ s, |f j t| ≤ M) → ∀ i ∈ s, |f' i t| ≤ K * M) (h0 : ∀ i ∈ s, f i 0 = 0) (t : ℝ) :
    ∀ i ∈ s, f i t = 0 := by
  rcases le_total 0 t with h | h
  · exact ode_zero_right s K f f' hf hK h0 h
  · intro i hi
    have := ode_zero_right s K (fun i t => f i (-t)) (fun i t => -f' i (-t)) (fun i hi t => by
        refine ((hf i hi (-t)).comp t (hasDerivAt_neg t)).congr_deriv (by ring))
      (fun t M hM i hi => by
        rw [abs_neg]
        exact hK (-t) M hM i hi) (fun i hi => by simpa using h0 i hi) (t := -t) (by linarith) i hi
    simpa using this

theorem lad_nonneg (n m : Int) : 0 ≤ lad n m := Real.sqrt_nonneg _

theorem lad_le {n m : Int} (h1 : -n - 1 ≤ m) (h2 : m ≤ n) : |lad n m| ≤ 2 * n + 1 := by
  rw [abs_of_nonneg (lad_nonneg n m)]
  have a1 : ((m : Int) : ℝ) ≤ n := by exact_mod_cast h2
  have a2 : (-(n : ℝ) - 1) ≤ m := by exact_mod_cast h1
  unfold lad
  rw [show (2 * (n : ℝ) + 1) = Real.sqrt ((2 * (n : ℝ) + 1) ^ 2) from (Real.sqrt_sq (by linarith)).symm]
  apply Real.sqrt_le_sqrt
  nlinarith

theorem d_deriv_all (n m m' : Int) (β : ℝ) :
    HasDerivAt (d n m m') (1 / 2 * (lad n m * d n (m + 1) m' β - lad n (m - 1) * d n (m - 1) m' β)) β := by
  by_cases h : |m| ≤ n
  · exact d_deriv n m m' h β
  have e : d n m m' = fun _ => 0 := funext fun b => d_out (by omega) b
  rw [e]
  refine (hasDerivAt_const β (0 : ℝ)).congr_deriv ?_
  have e1 : lad n m * d n (m + 1) m' β = 0 := by
    by_cases h' : |m + 1| ≤ n
    · rw [abs_le] at h h'
      rw [show m = -n - 1 by omega, lad_bot, zero_mul]
    · rw [d_out (by omega), mul_zero]
  have e2 : lad n (m - 1) * d n (m - 1) m' β = 0 := by
    by_cases h' : |m - 1| ≤ n
    · rw [abs_le] at h h'
      rw [show m - 1 = n by omega, lad_top, zero_mul]
    · rw [d_out (by omega), mul_zero]
  rw [e1, e2]
  ring

/-- families that satisfy the differential equation of `d` and agree at 0 are equal -/
theorem d_unique (n : Int) (f g : Int → ℝ → ℝ)
    (hf : ∀ m t, |m| ≤ n → HasDerivAt (f m) (1 / 2 * (lad n m * f (m + 1) t - lad n (m - 1) * f (m - 1) t)) t)
    (hg : ∀ m t, |m| ≤ n → HasDerivAt (g m) (1 / 2 * (lad n m * g (m + 1) t - lad n (m - 1) * g (m - 1) t)) t)
    (h0 : ∀ m, |m| ≤ n → f m 0 = g m 0) (m : Int) (hm : |m| ≤ n) (t : ℝ) : f m t = g m t := by
  have hmem : ∀ {m}, m ∈ Icc (-n) n ↔ |m| ≤ n := by
    intro m
    rw [Finset.mem_Icc, abs_le]
  have := ode_zero (Icc (-n) n) (2 * n + 1) (fun m t => f m t - g m t)
    (fun m t => 1 / 2 * (lad n m * (f (m + 1) t - g (m + 1) t) - lad n (m - 1) * (f (m - 1) t - g (m - 1) t)))
    (fun m hm t => ((hf m t (hmem.1 hm)).sub (hg m t (hmem.1 hm))).congr_deriv (by ring))
    (fun t M hM m hm => by
      have hM0 : 0 ≤ M := (abs_nonneg _).trans (hM m hm)
      rw [Finset.mem_Icc] at hm
      have hn : (0 : ℝ) ≤ 2 * n + 1 := by
        have : (0 : Int) ≤ 2 * n + 1 := by omega
        exact_mod_cast this
      have b1 : |lad n m * (f (m + 1) t - g (m + 1) t)| ≤ (2 * n + 1) * M := by
        rcases eq_or_lt_of_le hm.2 with h | h
        · rw [h, lad_top, zero_mul, abs_zero]
          positivity
        · rw [abs_mul]
          exact mul_le_mul (lad_le (by omega) hm.2) (hM (m + 1) (Finset.mem_Icc.2 (by omega))) (abs_nonneg _) hn
      have b2 : |lad n (m - 1) * (f (m - 1) t - g (m - 1) t)| ≤ (2 * n + 1) * M := by
        rcases eq_or_lt_of_le hm.1 with h | h
        · rw [← h, lad_bot, zero_mul, abs_zero]
          positivity
        · rw [abs_mul]
          exact mul_le_mul (lad_le (by omega) (by omega)) (hM (m - 1) (Finset.mem_Icc.2 (by omega))) (abs_nonneg _) hn
      rw [abs_mul, abs_of_pos (by norm_num : (0 : ℝ) < 1 / 2)]
      have := abs_sub (lad n m * (f (m + 1) t - g (m + 1) t)) (lad n (m - 1) * (f (m - 1) t - g (m - 1) t))
      linarith)
    (fun m hm => by rw [h0 m (hmem.1 hm), sub_self]) t m (hmem.2 hm)
  exact sub_eq_zero.mp this

/-- `d^n_{-m -m'} = (-1)^(m+m') d^n_{m m'}` -/
theorem d_neg (n m m' : Int) (hm : |m| ≤ n) (β : ℝ) : d n (-m) (-m') β = (-1) ^ (m + m').natAbs * d n m m' β := by
  have hsgn : ∀ k : Int, (-1 : ℝ) ^ (k + 1).natAbs = -(-1) ^ k.natAbs ∧ (-1 : ℝ) ^ (k - 1).natAbs = -(-1) ^ k.natAbs := by
    intro k
    have : ∀ j : Int, (-1 : ℝ) ^ j.natAbs = if 2 ∣ j then 1 else -1 := by
      intro j
      split
      · next h => exact Even.neg_one_pow (by rw [Int.natAbs_even]; exact even_iff_two_dvd.mpr h)
      · next h => exact Odd.neg_one_pow (by rw [Int.natAbs_odd, ← Int.not_even_iff_odd]; exact fun hh => h (even_iff_two_dvd.mp hh))
    rw [this, this, this]
    constructor <;> · split <;> split <;> first | omega | norm_num
  have hsq : ∀ k : Int, (-1 : ℝ) ^ k.natAbs * (-1) ^ k.natAbs = 1 := by
    intro k
    rw [← mul_pow]
    simp
  have := d_unique n (fun m t => (-1) ^ (m + m').natAbs * d n (-m) (-m') t) (fun m t => d n m m' t)
    (fun m t _ => by
      refine ((d_deriv_all n (-m) (-m') t).const_mul _).congr_deriv ?_
      rw [show m + 1 + m' = m + m' + 1 by ring, show m - 1 + m' = m + m' - 1 by ring, (hsgn _).1, (hsgn _).2,
        show -m - 1 = -m - 1 from rfl, lad_neg, show lad n (-m) = lad n (m - 1) by rw [← lad_neg n (m - 1)]; congr 1; ring,
        show -(m + 1) = -m - 1 by ring, show -(m - 1) = -m + 1 by ring]
      ring)
    (fun m t _ => d_deriv_all n m m' t)
    (fun m hm => by
      rw [d_zero n (-m) (-m') (by rwa [abs_neg]), d_zero n m m' hm]
      by_cases h : m = m'
      · subst h
        rw [if_pos rfl, if_pos rfl, mul_one]
        exact Even.neg_one_pow (by rw [Int.natAbs_even]; exact ⟨m, rfl⟩)
      · rw [if_neg h, if_neg (by omega), mul_zero]) m hm β
  rw [← this, ← mul_assoc, hsq, one_mul]

/-! ### product of two functions -/

theorem lower_all' {n1 n2 N : Int} (T : Triangle n1 n2 N) {M : Int} (h1 : -N ≤ M + 1) (h2 : M + 1 ≤ N) (m : Int) :
    lad N M * cg n1 n2 N M m = lad n1 m * cg n1 n2 N (M + 1) (m + 1) + lad n2 (M - m) * cg n1 n2 N (M + 1) m := by
  have L := raise_all T (M := -(M + 1)) (by omega) (by omega) (-m)
  rw [show -(M + 1) + 1 = -M by ring, cg_reflect T, show -m - 1 = -(m + 1) by ring, cg_reflect T, cg_reflect T,
    show -(M + 1) = -M - 1 by ring, lad_neg, show -M - 1 - -m = -(M - m) - 1 by ring, lad_neg,
    show -(m + 1) = -m - 1 by ring, lad_neg] at L
  have hs : ((-1 : ℝ) ^ (n1 + n2 - N).toNat) * (-1) ^ (n1 + n2 - N).toNat = 1 := by
    rw [← mul_pow]; simp
  generalize (-1 : ℝ) ^ (n1 + n2 - N).toNat = s at L hs
  linear_combination s * L - (lad N M * cg n1 n2 N M m - lad n1 m * cg n1 n2 N (M + 1) (m + 1)
    - lad n2 (M - m) * cg n1 n2 N (M + 1) m) * hs

/-- the series -/
noncomputable def coupled (n1 n2 k m a : Int) (β : ℝ) : ℝ :=
  ∑ N ∈ Icc |n1 - n2| (n1 + n2), cg n1 n2 N 0 k * cg n1 n2 N (m + a) m * d N (m + a) 0 β

theorem triangle_of {n1 n2 N : Int} (h1 : 0 ≤ n1) (h2 : 0 ≤ n2) (h : N ∈ Icc |n1 - n2| (n1 + n2)) : Triangle n1 n2 N := by
  rw [Finset.mem_Icc, abs_le] at h
  exact ⟨h1, h2, by omega, by omega, h.2⟩

theorem coupled_out {n1 n2 : Int} (h1 : 0 ≤ n1) (h2 : 0 ≤ n2) (k : Int) {m a : Int} (h : ¬(|m| ≤ n1 ∧ |a| ≤ n2)) (β : ℝ) : coupled n1 n2 k m a β = 0 := by
  apply Finset.sum_eq_zero
  intro N hN
  rw [cg_zero (triangle_of h1 h2 hN) (M := m + a) (m1 := m) (by rw [abs_le, abs_le] at h; omega)]
  ring

theorem coupled_deriv {n1 n2 : Int} (h1 : 0 ≤ n1) (h2 : 0 ≤ n2) (k m a : Int) (β : ℝ) :
    HasDerivAt (coupled n1 n2 k m a) (1 / 2 * (lad n1 m * coupled n1 n2 k (m + 1) a β - lad n1 (m - 1) * coupled n1 n2 k (m - 1) a β
      + lad n2 a * coupled n1 n2 k m (a + 1) β - lad n2 (a - 1) * coupled n1 n2 k m (a - 1) β)) β := by
  refine (HasDerivAt.fun_sum fun N _ => (d_deriv_all N (m + a) 0 β).const_mul _).congr_deriv ?_
  unfold coupled
  simp only [Finset.mul_sum, ← Finset.sum_sub_distrib, ← Finset.sum_add_distrib]
  apply Finset.sum_congr rfl
  intro N hN
  have T := triangle_of h1 h2 hN
  rw [show m + 1 + a = m + a + 1 by ring, show m + (a + 1) = m + a + 1 by ring, show m - 1 + a = m + a - 1 by ring,
    show m + (a - 1) = m + a - 1 by ring]
  have up : lad N (m + a) * cg n1 n2 N (m + a) m * d N (m + a + 1) 0 β
      = (lad n1 m * cg n1 n2 N (m + a + 1) (m + 1) + lad n2 a * cg n1 n2 N (m + a + 1) m) * d N (m + a + 1) 0 β := by
    by_cases h : |m + a + 1| ≤ N
    · rw [abs_le] at h
      rw [lower_all' T h.1 h.2, show m + a - m = a by ring]
    · rw [d_out (by omega), mul_zero, mul_zero]
  have dn : lad N (m + a - 1) * cg n1 n2 N (m + a) m * d N (m + a - 1) 0 β
      = (lad n1 (m - 1) * cg n1 n2 N (m + a - 1) (m - 1) + lad n2 (a - 1) * cg n1 n2 N (m + a - 1) m) * d N (m + a - 1) 0 β := by
    by_cases h : |m + a - 1| ≤ N
    · rw [abs_le] at h
      have := raise_all T h.1 h.2 m
      rw [show m + a - 1 + 1 = m + a by ring, show m + a - 1 - m = a - 1 by ring] at this
      rw [this]
    · rw [d_out (by omega), mul_zero, mul_zero]
  linear_combination (1 / 2 * cg n1 n2 N 0 k) * up - (1 / 2 * cg n1 n2 N 0 k) * dn

theorem coupled_zero {n1 n2 : Int} (h1 : 0 ≤ n1) (h2 : 0 ≤ n2) {k : Int} (hk : |k| ≤ min n1 n2) {m a : Int} (hm : |m| ≤ n1) (ha : |a| ≤ n2) :
    coupled n1 n2 k m a 0 = if m = k ∧ a = -k then 1 else 0 := by
  unfold coupled
  by_cases hM : m + a = 0
  · have e : a = -m := by omega
    subst e
    rw [abs_neg] at ha
    have := complete h1 h2 (m := k) (m' := m) hk (le_min hm ha)
    rw [hM]
    rw [Finset.sum_congr rfl (g := fun N => cg n1 n2 N 0 k * cg n1 n2 N 0 m), this]
    · by_cases h : m = k
      · rw [if_pos h.symm, if_pos ⟨h, by omega⟩]
      · rw [if_neg (Ne.symm h), if_neg (fun x => h x.1)]
    · intro N hN
      rw [d_zero N 0 0 (by
        have T := triangle_of h1 h2 hN
        rw [abs_zero]
        have := T.lo
        have := T.lo'
        omega), if_pos rfl, mul_one]
  · rw [if_neg (by omega)]
    apply Finset.sum_eq_zero
    intro N hN
    by_cases h : |m + a| ≤ N
    · rw [d_zero N _ _ h, if_neg hM, mul_zero]
    · rw [d_out (by omega), mul_zero]

/-- the Clebsch-Gordan series for two functions with opposite second indices -/
theorem product (n1 n2 k m a : Int) (h1 : 0 ≤ n1) (h2 : 0 ≤ n2) (hk : |k| ≤ min n1 n2) (hm : |m| ≤ n1) (ha : |a| ≤ n2) (β : ℝ) :
    d n1 m k β * d n2 a (-k) β = coupled n1 n2 k m a β := by
  set y : Int × Int → ℝ → ℝ := fun p t => d n1 p.1 k t * d n2 p.2 (-k) t - coupled n1 n2 k p.1 p.2 t with hy
  set y' : Int × Int → ℝ → ℝ := fun p t => 1 / 2 * (lad n1 p.1 * y (p.1 + 1, p.2) t - lad n1 (p.1 - 1) * y (p.1 - 1, p.2) t
      + lad n2 p.2 * y (p.1, p.2 + 1) t - lad n2 (p.2 - 1) * y (p.1, p.2 - 1) t) with hy'
  have hmem : ∀ {p : Int × Int}, p ∈ Icc (-n1) n1 ×ˢ Icc (-n2) n2 ↔ |p.1| ≤ n1 ∧ |p.2| ≤ n2 := by
    intro p
    rw [Finset.mem_product, Finset.mem_Icc, Finset.mem_Icc, abs_le, abs_le]
  have hout : ∀ p t, p ∉ Icc (-n1) n1 ×ˢ Icc (-n2) n2 → y p t = 0 := by
    intro p t hp
    rw [hmem] at hp
    simp only [hy]
    rw [coupled_out h1 h2 k hp, sub_zero]
    by_cases h : |p.1| ≤ n1
    · rw [d_out (n := n2) (m := p.2) (by
        by_contra h'
        exact hp ⟨h, by omega⟩), mul_zero]
    · rw [d_out (n := n1) (m := p.1) (by omega), zero_mul]
  have := ode_zero (Icc (-n1) n1 ×ˢ Icc (-n2) n2) ((2 * n1 + 1) + (2 * n2 + 1)) y y'
    (fun p _ t => by
      refine (((d_deriv_all n1 p.1 k t).mul (d_deriv_all n2 p.2 (-k) t)).sub (coupled_deriv h1 h2 k p.1 p.2 t)).congr_deriv ?_
      simp only [hy', hy]
      ring)
    (fun t M hM p hp => by
      have hM0 : 0 ≤ M := (abs_nonneg _).trans (hM p hp)
      have hall : ∀ q, |y q t| ≤ M := by
        intro q
        by_cases hq : q ∈ Icc (-n1) n1 ×ˢ Icc (-n2) n2
        · exact hM q hq
        · rw [hout q t hq, abs_zero]
          exact hM0
      rw [hmem, abs_le, abs_le] at hp
      have n1' : (0 : ℝ) ≤ n1 := by exact_mod_cast h1
      have n2' : (0 : ℝ) ≤ n2 := by exact_mod_cast h2
      have b : ∀ (n j : Int) (q : Int × Int), -n - 1 ≤ j → j ≤ n → (0 : ℝ) ≤ n → |lad n j * y q t| ≤ (2 * n + 1) * M := by
        intro n j q ha hb hn
        rw [abs_mul]
        exact mul_le_mul (lad_le ha hb) (hall q) (abs_nonneg _) (by linarith)
      have b1 := abs_le.mp (b n1 p.1 (p.1 + 1, p.2) (by omega) (by omega) n1')
      have b2 := abs_le.mp (b n1 (p.1 - 1) (p.1 - 1, p.2) (by omega) (by omega) n1')
      have b3 := abs_le.mp (b n2 p.2 (p.1, p.2 + 1) (by omega) (by omega) n2')
      have b4 := abs_le.mp (b n2 (p.2 - 1) (p.1, p.2 - 1) (by omega) (by omega) n2')
      rw [abs_le]
      simp only [hy']
      constructor <;> linarith [b1.1, b1.2, b2.1, b2.2, b3.1, b3.2, b4.1, b4.2])
    (fun p hp => by
      rw [hmem] at hp
      simp only [hy]
      rw [coupled_zero h1 h2 hk hp.1 hp.2, d_zero _ _ _ hp.1, d_zero _ _ _ hp.2]
      by_cases ha : p.1 = k <;> by_cases hb : p.2 = -k <;> simp [ha, hb]) β (m, a) (hmem.2 ⟨hm, ha⟩)
  exact sub_eq_zero.mp this

/-! ### Legendre polynomials -/

open Verif.Legendre in
theorem coeff_legendre (n k : Nat) (x : ℝ) :
    ((X ^ 2 + C (2 * x) * X + C (x ^ 2 - 1)) ^ n : ℝ[X]).coeff (n + k) = 2 ^ n * n.factorial / (n + k).factorial * (G k n).eval x := by
  have e : (X ^ 2 + C (2 * x) * X + C (x ^ 2 - 1) : ℝ[X]) = taylor x (X ^ 2 - 1) := by
    rw [taylor_apply]
    simp only [sub_comp, pow_comp, X_comp, one_comp, C_mul, C_sub, C_pow, C_1]
    rw [show (C (2 : ℝ) : ℝ[X]) = 2 from rfl]
    ring
  rw [e, ← taylor_pow, taylor_coeff]
  have h := congrFun (factorial_smul_hasseDeriv (R := ℝ) (n + k)) ((X ^ 2 - 1) ^ n)
  have h2 : derivative^[n + k] ((X ^ 2 - 1 : ℝ[X]) ^ n) = C (2 ^ n * n.factorial : ℝ) * G k n := by
    unfold G P
    rw [der_iter_C_mul, ← mul_assoc, ← C_mul, mul_one_div_cancel (by positivity), C_1, one_mul, Nat.add_comm, Function.iterate_add_apply]
  rw [h2] at h
  have h3 := congrArg (fun p : ℝ[X] => p.eval x) h
  simp only [LinearMap.smul_apply, eval_smul, eval_mul, eval_C, smul_eq_mul] at h3
  rw [nsmul_eq_mul] at h3
  have hf : ((n + k).factorial : ℝ) ≠ 0 := by exact_mod_cast (Nat.factorial_pos _).ne'
  field_simp
  linarith

theorem turned_zero (n : Nat) (β : ℝ) :
    turned n 0 β = (C (Real.sin β / 2) * X ^ 2 + C (Real.cos β) * X - C (Real.sin β / 2)) ^ n := by
  unfold turned
  rw [show ((n : Int) + 0).toNat = n by omega, show ((n : Int) - 0).toNat = n by omega, ← mul_pow]
  congr 1
  have e : β = 2 * (β / 2) := by ring
  have hs : Real.sin β / 2 = Real.sin (β / 2) * Real.cos (β / 2) := by
    conv_lhs => rw [e, Real.sin_two_mul]
    ring
  have hc : Real.cos β = Real.cos (β / 2) * Real.cos (β / 2) - Real.sin (β / 2) * Real.sin (β / 2) := by
    conv_lhs => rw [e, Real.cos_two_mul]
    have := Real.sin_sq_add_cos_sq (β / 2)
    linarith
  rw [hs, hc, C_mul, C_sub, C_mul, C_mul]
  ring

open Verif.Legendre in
/-- coefficients of the central row -/
theorem turned_coeff (n k : Nat) (β : ℝ) :
    (turned n 0 β).coeff (n + k) = n.factorial / (n + k).factorial * Real.sin β ^ k * (G k n).eval (Real.cos β) := by
  have key : ∀ β, Real.sin β ≠ 0 → (turned n 0 β).coeff (n + k) = n.factorial / (n + k).factorial * Real.sin β ^ k * (G k n).eval (Real.cos β) := by
    intro β hβ
    have h := coeff_legendre n k (Real.cos β)
    have e : ((X ^ 2 + C (2 * Real.cos β) * X + C (Real.cos β ^ 2 - 1)) ^ n : ℝ[X]).comp (C (Real.sin β) * X)
        = C ((2 * Real.sin β) ^ n) * turned n 0 β := by
      rw [turned_zero, C_pow, ← mul_pow, pow_comp]
      congr 1
      have e2 : Real.cos β ^ 2 - 1 = -(Real.sin β * Real.sin β) := by
        have := Real.sin_sq_add_cos_sq β
        linarith
      rw [e2]
      simp only [add_comp, pow_comp, X_comp, mul_comp, C_comp]
      have e3 : (C (Real.sin β / 2) : ℝ[X]) = C (1 / 2) * C (Real.sin β) := by
        rw [← C_mul]; congr 1; ring
      have e4 : (C (2 : ℝ) * C (1 / 2) : ℝ[X]) = 1 := by
        rw [← C_mul]; norm_num
      rw [e3, C_neg, C_mul, C_mul, C_mul]
      linear_combination (-(C (Real.sin β) * C (Real.sin β) * X ^ 2) + C (Real.sin β) * C (Real.sin β)) * e4
    have h2 := congrArg (fun p : ℝ[X] => p.coeff (n + k)) e
    simp only [comp_C_mul_X_coeff, coeff_C_mul] at h2
    rw [h] at h2
    have hp : (2 * Real.sin β) ^ n ≠ 0 := pow_ne_zero _ (mul_ne_zero two_ne_zero hβ)
    apply mul_left_cancel₀ hp
    rw [← h2, mul_pow, pow_add]
    ring
  have c1 : Continuous fun β => (turned n 0 β).coeff (n + k) :=
    continuous_iff_continuousAt.mpr fun β => (turned_diff n 0 (by simp) β (n + k)).continuousAt
  have c2 : Continuous fun β => n.factorial / (n + k).factorial * Real.sin β ^ k * (G k n).eval (Real.cos β) :=
    (continuous_const.mul (Real.continuous_sin.pow k)).mul ((Polynomial.continuous (G k n)).comp Real.continuous_cos)
  have hd : Dense {β : ℝ | Real.sin β ≠ 0} := by
    have : {β : ℝ | Real.sin β ≠ 0} = (Set.range fun j : ℤ => (j : ℝ) * Real.pi)ᶜ := by
      ext β
      simp only [Set.mem_setOf_eq, Set.mem_compl_iff, Set.mem_range, ne_eq, Real.sin_eq_zero_iff]
    rw [this]
    exact (Set.countable_range _).dense_compl ℝ
  exact congrFun (Continuous.ext_on hd c1 c2 fun β hβ => key β hβ) β

open Verif.Legendre in
/-- `d^n_{0m}` is the function the code uses -/
theorem d_wigner (n m : Nat) (β : ℝ) : d n 0 m β = wigner m n β := by
  by_cases h : m ≤ n
  · rw [d_eq (by simp) (by rw [abs_of_nonneg (by omega)]; omega), show ((n : Int) + m).toNat = n + m by omega, turned_coeff]
    unfold wigner
    rw [if_pos h]
    have e1 : nrm n m = Real.sqrt ((n + m).factorial * (n - m).factorial) := by
      unfold nrm fac
      rw [show ((n : Int) + m).toNat = n + m by omega, show ((n : Int) - m).toNat = n - m by omega]
    have e2 : nrm n 0 = n.factorial := by
      unfold nrm fac
      rw [show ((n : Int) + 0).toNat = n by omega, show ((n : Int) - 0).toNat = n by omega]
      exact Real.sqrt_mul_self (by positivity)
    have e3 : Real.sqrt ((n - m).factorial / (n + m).factorial) = Real.sqrt ((n + m).factorial * (n - m).factorial) / (n + m).factorial := by
      have hf : (0 : ℝ) < (n + m).factorial := by exact_mod_cast Nat.factorial_pos _
      rw [eq_div_iff hf.ne']
      have := Real.sqrt_mul (x := ((n - m).factorial : ℝ) / (n + m).factorial) (by positivity) (((n + m).factorial : ℝ) ^ 2)
      rw [Real.sqrt_sq hf.le] at this
      rw [← this]
      congr 1
      field_simp
    rw [e1, e2, e3]
    have hf : (n.factorial : ℝ) ≠ 0 := by exact_mod_cast (Nat.factorial_pos _).ne'
    field_simp
  · rw [wigner_lt m n (by omega), d_out' (by rw [abs_of_nonneg (by omega)]; omega)]

open Verif.Legendre in
theorem d_legendre (n : Nat) (β : ℝ) : d n 0 0 β = (P n).eval (Real.cos β) := by
  have := d_wigner n 0 β
  rw [show ((0 : Nat) : Int) = 0 from rfl] at this
  rw [this]
  unfold wigner
  rw [if_pos (Nat.zero_le n)]
  have hf : (n.factorial : ℝ) ≠ 0 := by exact_mod_cast (Nat.factorial_pos _).ne'
  simp [G_zero, hf]

end Verif.Rotation
