import Verif.Proofs.Legendre
import Mathlib.Analysis.Calculus.Deriv.Polynomial
import Mathlib.MeasureTheory.Integral.IntervalIntegral.FundThmCalculus
import Mathlib.LinearAlgebra.Lagrange
import Mathlib.Topology.Algebra.Polynomial
import Mathlib.Tactic.ComputeDegree
import Mathlib.Analysis.Calculus.LocalExtr.Polynomial
import Mathlib.Tactic.LinearCombination
import Mathlib.Tactic.Linarith
import Mathlib.Tactic.FieldSimp

/-!
# Legendre polynomials: differential equation, orthogonality, Gauss quadrature
-/
namespace Verif.Legendre

open Polynomial

/-- `((1 - X²) P_n')' = -n(n+1) P_n` -/
theorem legendre_ode (n : Nat) :
    derivative ((1 - X ^ 2) * derivative (P n)) = -C ((n : ℝ) * (n + 1)) * P n := by
  have h1 := der_P_down n
  have h2 := der_P_succ n
  have e : (1 - X ^ 2) * derivative (P n) = X * (C ((n : ℝ) + 1) * P n) - C ((n : ℝ) + 1) * P (n + 1) := by
    rw [h2] at h1
    linear_combination h1
  rw [e, derivative_sub, derivative_mul, derivative_C_mul, derivative_C_mul, derivative_X, h2]
  simp only [C_mul, C_add, map_natCast, map_one]
  ring

theorem P_eval_one (n : Nat) : (P n).eval 1 = 1 := by
  induction n with
  | zero => rw [P_zero]; simp
  | succ n ih =>
    have h := congrArg (eval 1) (P_succ_der n)
    simp only [eval_mul, eval_C, eval_sub, eval_X, eval_pow, eval_one, one_mul, one_pow, sub_self, zero_mul] at h
    rcases mul_eq_zero.mp h with h | h
    · exact absurd h (by positivity)
    · linarith [ih, sub_eq_zero.mp h]

theorem P_eval_neg_one (n : Nat) : (P n).eval (-1) = (-1) ^ n := by
  induction n with
  | zero => rw [P_zero]; simp
  | succ n ih =>
    have h := congrArg (eval (-1)) (P_succ_der n)
    simp only [eval_mul, eval_C, eval_sub, eval_X, eval_pow, eval_one] at h
    norm_num at h
    rcases h with h | h
    · exact absurd h (by positivity)
    · rw [pow_succ, ← ih]; linarith

/-- integral over `[-1, 1]` -/
noncomputable def integral (f : ℝ[X]) : ℝ := ∫ x in (-1 : ℝ)..1, f.eval x

theorem integrable (f : ℝ[X]) (a b : ℝ) : IntervalIntegrable (fun x => f.eval x) MeasureTheory.volume a b :=
  f.continuous.intervalIntegrable _ _

theorem integral_add (f g : ℝ[X]) : integral (f + g) = integral f + integral g := by
  unfold integral
  simp only [eval_add]
  exact intervalIntegral.integral_add (integrable f _ _) (integrable g _ _)

theorem integral_C_mul (c : ℝ) (f : ℝ[X]) : integral (C c * f) = c * integral f := by
  unfold integral
  simp only [eval_mul, eval_C]
  exact intervalIntegral.integral_const_mul _ _

theorem integral_zero : integral 0 = 0 := by simp [integral]

theorem integral_neg (f : ℝ[X]) : integral (-f) = -integral f := by
  have := integral_C_mul (-1) f
  rw [map_neg, map_one, neg_one_mul, neg_one_mul] at this
  exact this

theorem integral_sub (f g : ℝ[X]) : integral (f - g) = integral f - integral g := by
  rw [sub_eq_add_neg, integral_add, integral_neg, sub_eq_add_neg]

theorem integral_sum {ι : Type} (s : Finset ι) (f : ι → ℝ[X]) : integral (∑ i ∈ s, f i) = ∑ i ∈ s, integral (f i) := by
  classical
  induction s using Finset.induction_on with
  | empty => simp [integral_zero]
  | insert a s h ih => rw [Finset.sum_insert h, Finset.sum_insert h, integral_add, ih]

/-- fundamental theorem of calculus -/
theorem integral_derivative (f : ℝ[X]) : integral (derivative f) = f.eval 1 - f.eval (-1) := by
  unfold integral
  exact intervalIntegral.integral_eq_sub_of_hasDerivAt (fun x _ => f.hasDerivAt x) (integrable _ _ _)

theorem vanish (n j : Nat) (h : j < n) : (derivative^[j] ((X ^ 2 - 1 : ℝ[X]) ^ n)).eval 1 = 0
    ∧ (derivative^[j] ((X ^ 2 - 1 : ℝ[X]) ^ n)).eval (-1) = 0 := by
  have key : (X ^ 2 - 1 : ℝ[X]) ^ (n - j) ∣ derivative^[j] ((X ^ 2 - 1 : ℝ[X]) ^ n) :=
    pow_sub_dvd_iterate_derivative_of_pow_dvd j dvd_rfl
  have k1 : (X ^ 2 - 1 : ℝ[X]) ∣ derivative^[j] ((X ^ 2 - 1 : ℝ[X]) ^ n) :=
    (dvd_pow_self _ (by omega)).trans key
  obtain ⟨q, hq⟩ := k1
  rw [hq]
  constructor <;> simp

theorem by_parts (f g : ℝ[X]) (h1 : f.eval 1 = 0) (h2 : f.eval (-1) = 0) : integral (derivative f * g) = -integral (f * derivative g) := by
  have h := integral_derivative (f * g)
  rw [derivative_mul, integral_add, eval_mul, eval_mul, h1, h2] at h
  linarith

theorem parts_iter (n : Nat) (g : ℝ[X]) : ∀ k, k ≤ n →
    integral (derivative^[n] ((X ^ 2 - 1 : ℝ[X]) ^ n) * g) = (-1) ^ k * integral (derivative^[n - k] ((X ^ 2 - 1 : ℝ[X]) ^ n) * derivative^[k] g) := by
  intro k
  induction k with
  | zero => intro _; simp
  | succ k ih =>
    intro hk
    obtain ⟨v1, v2⟩ := vanish n (n - (k + 1)) (by omega)
    rw [ih (by omega), show n - k = n - (k + 1) + 1 by omega, Function.iterate_succ_apply', by_parts _ _ v1 v2,
      ← Function.iterate_succ_apply' derivative k g, pow_succ]
    ring

/-- `P_n` is orthogonal to every polynomial of lower degree -/
theorem orthogonal_lower (n : Nat) (g : ℝ[X]) (hg : g.natDegree < n) : integral (P n * g) = 0 := by
  unfold P
  rw [mul_assoc, integral_C_mul, parts_iter n g n le_rfl, iterate_derivative_eq_zero hg, mul_zero, integral_zero, mul_zero, mul_zero]

theorem natDegree_P_le (n : Nat) : (P n).natDegree ≤ n := by
  unfold P
  refine (natDegree_C_mul_le _ _).trans ((natDegree_iterate_derivative _ _).trans ?_)
  have : ((X ^ 2 - 1 : ℝ[X]) ^ n).natDegree ≤ n * 2 := natDegree_pow_le_of_le n (by compute_degree)
  omega

/-- Legendre polynomials are orthogonal -/
theorem orthogonal {m n : Nat} (h : m ≠ n) : integral (P m * P n) = 0 := by
  rcases lt_or_gt_of_ne h with g | g
  · rw [mul_comm]; exact orthogonal_lower n _ (lt_of_le_of_lt (natDegree_P_le m) g)
  · exact orthogonal_lower m _ (lt_of_le_of_lt (natDegree_P_le n) g)

/-! ### Gauss quadrature -/

theorem simple_root {n : Nat} (hn : 1 ≤ n) {x : ℝ} (hx : (P n).eval x = 0) : (derivative (P n)).eval x ≠ 0 := by
  intro hd
  -- then all P_k vanish at x, going down
  obtain ⟨k, rfl⟩ : ∃ k, n = k + 1 := ⟨n - 1, by omega⟩
  have e1 := congrArg (eval x) (der_P_down k)
  have e2 := congrArg (eval x) (der_P_succ k)
  simp only [eval_sub, eval_add, eval_mul, eval_X, eval_C, hx, hd, mul_zero, sub_zero] at e1 e2
  rw [e1, mul_zero, add_zero] at e2
  have hk : (P k).eval x = 0 := by
    rcases mul_eq_zero.mp e2.symm with h | h
    · exact absurd h (by positivity)
    · exact h
  have down : ∀ j, j ≤ k → (P (k - j)).eval x = 0 ∧ (P (k - j + 1)).eval x = 0 := by
    intro j
    induction j with
    | zero => intro _; exact ⟨hk, hx⟩
    | succ j ih =>
      intro hj
      obtain ⟨a, b⟩ := ih (by omega)
      obtain ⟨l, hl⟩ : ∃ l, k - j = l + 1 := ⟨k - j - 1, by omega⟩
      have e := congrArg (eval x) (bonnet l)
      rw [hl] at a b
      simp only [eval_sub, eval_mul, eval_X, eval_C, a, b, mul_zero, zero_sub] at e
      rw [show k - (j + 1) = l by omega]
      refine ⟨?_, a⟩
      have := neg_eq_zero.mp e.symm
      rcases mul_eq_zero.mp this with h | h
      · exact absurd h (by positivity)
      · exact h
  have := (down k le_rfl).1
  rw [Nat.sub_self, P_zero] at this
  simp at this

theorem root_ne {n : Nat} {x : ℝ} (hx : (P n).eval x = 0) : x ≠ 1 ∧ x ≠ -1 := by
  constructor
  · rintro rfl; rw [P_eval_one] at hx; exact one_ne_zero hx
  · rintro rfl; rw [P_eval_neg_one] at hx; exact pow_ne_zero _ (by norm_num) hx

theorem P_ne_zero (n : Nat) : P n ≠ 0 := by
  intro h
  have := P_eval_one n
  rw [h] at this
  simp at this

section
variable {n : Nat} (x : Fin n → ℝ) (hinj : Function.Injective x) (hx : ∀ i, (P n).eval (x i) = 0)

/-- interpolatory weights -/
noncomputable def lam (i : Fin n) : ℝ := integral (Lagrange.basis Finset.univ x i)

include hinj hx in
theorem P_eq_nodal : ∃ a : ℝ, a ≠ 0 ∧ P n = C a * Lagrange.nodal Finset.univ x := by
  have hd : Lagrange.nodal Finset.univ x ∣ P n := by
    unfold Lagrange.nodal
    refine Finset.prod_dvd_of_coprime ?_ ?_
    · intro i _ j _ hij
      exact isCoprime_X_sub_C_of_isUnit_sub (by
        rw [isUnit_iff_ne_zero, sub_ne_zero]; exact fun h => hij (hinj h))
    · intro i _
      exact dvd_iff_isRoot.mpr (hx i)
  obtain ⟨c, hc⟩ := hd
  have hc0 : c ≠ 0 := by rintro rfl; rw [mul_zero] at hc; exact P_ne_zero n hc
  have hm := Lagrange.nodal_monic (s := Finset.univ) (v := x)
  have hdeg : (P n).natDegree = n + c.natDegree := by
    rw [hc, hm.natDegree_mul' hc0, Lagrange.natDegree_nodal]; simp
  have : c.natDegree = 0 := by have := natDegree_P_le n; omega
  obtain ⟨a, ha⟩ := natDegree_eq_zero.mp this
  refine ⟨a, ?_, ?_⟩
  · rintro rfl; rw [map_zero] at ha; exact hc0 ha.symm
  · rw [hc, ← ha, mul_comm]

include hinj hx in
/-- the interpolatory rule at the roots of `P_n` is exact up to degree `2 n - 1` -/
theorem interp_exact (f : ℝ[X]) (hf : f.natDegree < 2 * n) :
    integral f = ∑ i, lam x i * f.eval (x i) := by
  obtain ⟨a, ha, hP⟩ := P_eq_nodal x hinj hx
  set N := Lagrange.nodal Finset.univ x with hN
  have hm : N.Monic := Lagrange.nodal_monic
  have hNd : N.natDegree = n := by rw [hN, Lagrange.natDegree_nodal]; simp
  have hdiv := modByMonic_add_div f N
  have hq : (f /ₘ N).natDegree < n := by
    rw [natDegree_divByMonic f hm, hNd]; omega
  have h0 : integral (N * (f /ₘ N)) = 0 := by
    have := orthogonal_lower n _ hq
    rw [hP, mul_assoc, integral_C_mul] at this
    exact (mul_eq_zero.mp this).resolve_left ha
  have hr : (f %ₘ N).degree < (Finset.univ : Finset (Fin n)).card := by
    refine (degree_modByMonic_lt f hm).trans_le ?_
    rw [hN, Lagrange.degree_nodal]
  have hev : ∀ i, (f %ₘ N).eval (x i) = f.eval (x i) := by
    intro i
    conv_rhs => rw [← hdiv]
    rw [eval_add, eval_mul, Lagrange.eval_nodal_at_node (Finset.mem_univ i), zero_mul, add_zero]
  have hint := Lagrange.eq_interpolate (s := Finset.univ) (hinj.injOn) hr
  conv_lhs => rw [← hdiv]
  rw [integral_add, h0, add_zero, hint, Lagrange.interpolate_apply, integral_sum]
  refine Finset.sum_congr rfl fun i _ => ?_
  rw [integral_C_mul, hev]
  exact mul_comm _ _

include hinj hx in
theorem lam_eq (i : Fin n) :
    lam x i * (derivative (P n)).eval (x i) ^ 2 = 2 / (1 - x i ^ 2)
    ∧ 0 < lam x i * (derivative (P n)).eval (x i) ^ 2 := by
  have hn : 1 ≤ n := by have := i.2; omega
  obtain ⟨h, hh⟩ := dvd_iff_isRoot.mpr (hx i)
  have hd : derivative (P n) = h + (X - C (x i)) * derivative h := by
    rw [hh, derivative_mul]; simp
  have hni : (derivative (P n)).eval (x i) = h.eval (x i) := by rw [hd]; simp
  have hne : h.eval (x i) ≠ 0 := hni ▸ simple_root hn (hx i)
  have hh0 : h ≠ 0 := by rintro rfl; simp at hne
  have hnd : h.natDegree + 1 ≤ n := by
    have h1 := natDegree_P_le n
    rw [hh, (monic_X_sub_C (x i)).natDegree_mul' hh0, natDegree_X_sub_C] at h1
    omega
  have hdd : (derivative (P n)).natDegree < n := by
    have := natDegree_derivative_le (P n)
    have := natDegree_P_le n
    omega
  have hz : ∀ j, j ≠ i → h.eval (x j) = 0 := by
    intro j hj
    have := hx j
    rw [hh, eval_mul] at this
    refine (mul_eq_zero.mp this).resolve_left ?_
    rw [eval_sub, eval_X, eval_C]
    exact fun e => hj (hinj (sub_eq_zero.mp e))
  have i1 : integral (derivative (P n) * h) = lam x i * (derivative (P n)).eval (x i) ^ 2 := by
    rw [interp_exact x hinj hx _ (lt_of_le_of_lt natDegree_mul_le (by omega)), Finset.sum_eq_single i]
    · rw [eval_mul, ← hni]; ring
    · intro j _ hj; rw [eval_mul, hz j hj]; ring
    · simp
  have i2 : integral (h * h) = lam x i * (derivative (P n)).eval (x i) ^ 2 := by
    rw [interp_exact x hinj hx _ (lt_of_le_of_lt natDegree_mul_le (by omega)), Finset.sum_eq_single i]
    · rw [eval_mul, ← hni]; ring
    · intro j _ hj; rw [eval_mul, hz j hj]; ring
    · simp
  have e : derivative (P n * h) = C 2 * (derivative (P n) * h) - h * h := by
    rw [derivative_mul]
    conv_lhs => rw [hh]
    rw [← hh, hd, map_ofNat]
    rw [hh]
    ring
  have i3 := integral_derivative (P n * h)
  rw [e, integral_sub, integral_C_mul, i1, i2, eval_mul, eval_mul, P_eval_one, P_eval_neg_one] at i3
  obtain ⟨r1, r2⟩ := root_ne (hx i)
  have p1 : (1 - x i) * h.eval 1 = 1 := by
    have := P_eval_one n
    rw [hh, eval_mul] at this
    simpa using this
  have p2 : (-1 - x i) * h.eval (-1) = (-1) ^ n := by
    have := P_eval_neg_one n
    rw [hh, eval_mul] at this
    simpa using this
  have s1 : (1 - x i) ≠ 0 := sub_ne_zero.mpr r1.symm
  have s2 : (1 + x i) ≠ 0 := fun h => r2 (by linarith)
  have s3 : (1 - x i ^ 2) ≠ 0 := by
    rw [show 1 - x i ^ 2 = (1 - x i) * (1 + x i) by ring]; exact mul_ne_zero s1 s2
  have sq : ((-1 : ℝ) ^ n) * (-1) ^ n = 1 := by rw [← mul_pow]; norm_num
  refine ⟨?_, ?_⟩
  · rw [eq_div_iff s3]
    linear_combination (1 - x i ^ 2) * i3 + (1 + x i) * p1 + (1 - x i) * (-1) ^ n * p2 + (1 - x i) * sq
  · rw [← i2]
    unfold integral
    refine intervalIntegral.integral_pos (by norm_num) ((h * h).continuous.continuousOn) ?_ ?_
    · intro y _; rw [eval_mul]; exact mul_self_nonneg _
    · by_contra hcon
      push Not at hcon
      have hall : ∀ y ∈ Set.Icc (-1 : ℝ) 1, h.eval y = 0 := by
        intro y hy
        have := hcon y hy
        rw [eval_mul] at this
        exact mul_self_eq_zero.mp (le_antisymm this (mul_self_nonneg _))
      have := hall 1 (by norm_num)
      rw [this] at p1
      simp at p1

include hinj hx in
/-- roots of `P_n` lie strictly between -1 and 1 -/
theorem roots_interior (i : Fin n) : -1 < x i ∧ x i < 1 := by
  obtain ⟨a, b⟩ := lam_eq x hinj hx i
  rw [a] at b
  have : 0 < 1 - x i ^ 2 := by
    by_contra hc
    push Not at hc
    exact absurd b (not_lt.mpr (div_nonpos_of_nonneg_of_nonpos (by norm_num) hc))
  exact abs_lt.mp ((sq_lt_one_iff_abs_lt_one _).mp (by linarith))

include hinj hx in
/-- **Gauss-Legendre quadrature**: with nodes the `n` roots of `P_n` and weights
`2/((1-x²) P_n'(x)²)` the rule is exact for polynomials of degree up to `2n-1` -/
theorem gauss_exact (f : ℝ[X]) (hf : f.natDegree < 2 * n) :
    ∑ i, 2 / ((1 - x i ^ 2) * (derivative (P n)).eval (x i) ^ 2) * f.eval (x i) = integral f := by
  rw [interp_exact x hinj hx f hf]
  refine Finset.sum_congr rfl fun i _ => ?_
  have hn : 1 ≤ n := by have := i.2; omega
  have hne := simple_root hn (hx i)
  obtain ⟨a, -⟩ := lam_eq x hinj hx i
  obtain ⟨l, r⟩ := roots_interior x hinj hx i
  have : (1 - x i ^ 2) ≠ 0 := by nlinarith
  rw [show lam x i = 2 / (1 - x i ^ 2) / (derivative (P n)).eval (x i) ^ 2 by
    rw [← a]; field_simp]
  rw [div_div]
end

/-- `P_n` has `n` distinct real roots -/
theorem P_roots (n : Nat) : ∃ x : Fin n → ℝ, Function.Injective x ∧ ∀ i, (P n).eval (x i) = 0 := by
  have key : ∀ k, k ≤ n → 2 * n ≤ (derivative^[k] ((X ^ 2 - 1 : ℝ[X]) ^ n)).roots.card + k := by
    intro k
    induction k with
    | zero =>
      intro _
      have : (X ^ 2 - 1 : ℝ[X]) = (X - C 1) * (X - C (-1)) := by simp; ring
      rw [Function.iterate_zero, id, roots_pow, this, roots_mul, roots_X_sub_C, roots_X_sub_C]
      · simp; omega
      · exact mul_ne_zero (X_sub_C_ne_zero _) (X_sub_C_ne_zero _)
    | succ k ih =>
      intro hk
      have h1 := ih (by omega)
      have h2 := card_roots_le_derivative (derivative^[k] ((X ^ 2 - 1 : ℝ[X]) ^ n))
      rw [Function.iterate_succ_apply']
      omega
  have h1 := key n le_rfl
  have hroots : (P n).roots = (derivative^[n] ((X ^ 2 - 1 : ℝ[X]) ^ n)).roots := by
    unfold P
    exact roots_C_mul _ (by positivity)
  rw [← hroots] at h1
  have hnd : (P n).roots.Nodup := by
    rcases Nat.eq_zero_or_pos n with rfl | hn
    · rw [P_zero]; simp
    · rw [Multiset.nodup_iff_count_le_one]
      intro a
      rw [count_roots]
      by_contra hc
      push Not at hc
      have hm := (one_lt_rootMultiplicity_iff_isRoot (P_ne_zero n)).mp hc
      exact simple_root hn hm.1 hm.2
  have hcard : n ≤ (P n).roots.toFinset.card := by
    rw [Multiset.toFinset_card_of_nodup hnd]; omega
  obtain ⟨t, ht, htc⟩ := Finset.exists_subset_card_eq hcard
  refine ⟨fun i => t.orderEmbOfFin htc i, (t.orderEmbOfFin htc).injective, fun i => ?_⟩
  have := ht (t.orderEmbOfFin_mem htc i)
  rw [Multiset.mem_toFinset] at this
  exact isRoot_of_mem_roots this

/-- a point at which Newton's correction is small is close to a root -/
theorem near_root {n : Nat} (x : ℝ) (hd : (derivative (P n)).eval x ≠ 0) :
    ∃ y, (P n).eval y = 0 ∧ |x - y| ≤ n * |(P n).eval x / (derivative (P n)).eval x| := by
  obtain ⟨r, hinj, hr⟩ := P_roots n
  obtain ⟨a, ha, hP⟩ := P_eq_nodal r hinj hr
  have hder : (derivative (P n)).eval x = a * ∑ i, (Lagrange.nodal (Finset.univ.erase i) r).eval x := by
    rw [hP, derivative_C_mul, eval_mul, eval_C, Lagrange.derivative_nodal, eval_finset_sum]
  have hev : ∀ i, (P n).eval x = a * ((x - r i) * (Lagrange.nodal (Finset.univ.erase i) r).eval x) := by
    intro i
    rw [hP, eval_mul, eval_C, Lagrange.nodal_eq_mul_nodal_erase (Finset.mem_univ i), eval_mul]
    simp
  by_contra hc
  push Not at hc
  set q := (P n).eval x / (derivative (P n)).eval x with hq
  have hpos : ∀ i, n * |q| < |x - r i| := fun i => hc (r i) (hr i)
  -- `P_n'(x) = sum P_n(x)/(x - r_i)`
  have hsum : |(derivative (P n)).eval x| ≤ ∑ i, |(P n).eval x / (x - r i)| := by
    rw [hder, Finset.mul_sum]
    refine (Finset.abs_sum_le_sum_abs _ _).trans (Finset.sum_le_sum fun i _ => ?_)
    have hne : x - r i ≠ 0 := by
      intro h
      have := hpos i
      rw [h, abs_zero] at this
      exact absurd this (not_lt.mpr (by positivity))
    rw [hev i]
    apply le_of_eq
    congr 1
    field_simp
  have hn : 0 < n := by
    rcases Nat.eq_zero_or_pos n with rfl | h
    · rw [P_zero] at hd; simp at hd
    · exact h
  have hD : 0 < |(derivative (P n)).eval x| := abs_pos.mpr hd
  have hPq : |(P n).eval x| = |q| * |(derivative (P n)).eval x| := by
    rw [hq, abs_div]; field_simp
  rcases eq_or_ne q 0 with h0 | h0
  · have : (P n).eval x = 0 := by
      rcases div_eq_zero_iff.mp h0 with h | h
      · exact h
      · exact absurd h hd
    have h1 := hc x this
    rw [h0] at h1
    simp at h1
  · have hqp : 0 < |q| := abs_pos.mpr h0
    have hlt : ∑ i, |(P n).eval x / (x - r i)| < ∑ _i : Fin n, |(derivative (P n)).eval x| / n := by
      haveI : Nonempty (Fin n) := ⟨⟨0, hn⟩⟩
      refine Finset.sum_lt_sum_of_nonempty Finset.univ_nonempty fun i _ => ?_
      have hn' : (0 : ℝ) < n := by exact_mod_cast hn
      have hx : 0 < |x - r i| := lt_of_le_of_lt (by positivity) (hpos i)
      rw [abs_div, hPq, div_lt_div_iff₀ hx hn']
      have := mul_lt_mul_of_pos_left (hpos i) hD
      linarith
    rw [Finset.sum_const, Finset.card_univ, Fintype.card_fin, nsmul_eq_mul, mul_div_cancel₀ _ (by exact_mod_cast hn.ne')] at hlt
    exact absurd hsum (not_le.mpr hlt)

/-- the squared norm of a Legendre polynomial -/
theorem norm_sq (n : Nat) : integral (P n * P n) = 2 / (2 * n + 1) := by
  -- ∫ (x P_n²)' = 2, and x P_n' = n P_n + P_{n-1}' ...
  have h := integral_derivative (X * (P n * P n))
  have e : derivative (X * (P n * P n)) = P n * P n + C 2 * (P n * (X * derivative (P n))) := by
    rw [derivative_mul, derivative_mul, derivative_X, map_ofNat]; ring
  simp only [e, integral_add, integral_C_mul, eval_mul, eval_X, P_eval_one, P_eval_neg_one] at h
  have hlow : integral (P n * (X * derivative (P n))) = n * integral (P n * P n) := by
    rcases n with _ | k
    · rw [P_zero]; simp [integral_zero]
    · have d := der_P_down k
      rw [show X * derivative (P (k + 1)) = C ((k : ℝ) + 1) * P (k + 1) + derivative (P k) by linear_combination -d,
        mul_add, integral_add, orthogonal_lower (k + 1) (derivative (P k)), add_zero,
        show P (k + 1) * (C ((k : ℝ) + 1) * P (k + 1)) = C ((k : ℝ) + 1) * (P (k + 1) * P (k + 1)) by ring,
        integral_C_mul]
      · push_cast; ring
      · have := natDegree_derivative_le (P k)
        have := natDegree_P_le k
        omega
  rw [hlow] at h
  have sq : ((-1 : ℝ) ^ n) * (-1) ^ n = 1 := by rw [← mul_pow]; norm_num
  rw [eq_div_iff (by positivity)]
  rw [sq] at h
  linarith

end Verif.Legendre
