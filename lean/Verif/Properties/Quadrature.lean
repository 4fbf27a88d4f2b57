import Verif.Model.Quadrature
import Verif.Properties.Special
import Verif.Properties.Wigner
import Verif.Proofs.LegendreOrth
import Mathlib.MeasureTheory.Integral.IntervalIntegral.Basic
import Mathlib.Tactic.Linarith
import Mathlib.Tactic.Positivity

/-!
# C32, C70: accuracy and exactness of the quadrature rules; adaptive quadrature
-/
namespace Verif.Quadrature

open Verif.Special
open Verif.Matrix (loop loop_inv loop_self loop_succ)
open Verif.Legendre (P)
open Polynomial

/-! ## The Newton iteration ends close to a root -/

theorem newton_end (order : Nat) : ∀ (fuel niter : Nat) (check x pa y : ℝ), niter + fuel ≤ 100 →
    newton order fuel niter check x = some (pa, y) →
    ∃ z, (newtonStep order z).1 = pa ∧ (newtonStep order z).2.2 = y ∧ |(newtonStep order z).2.1| ≤ check * |y| := by
  intro fuel
  induction fuel with
  | zero => intro niter check x pa y _ h; simp [newton] at h
  | succ fuel ih =>
    intro niter check x pa y hn h
    rw [newton, if_neg (show ¬(100 < niter + 1) by omega)] at h
    split at h
    · exact ih (niter + 1) check _ pa y (by omega) h
    · rename_i hc
      simp only [Option.some.injEq, Prod.mk.injEq] at h
      refine ⟨x, h.1, h.2, ?_⟩
      rw [← h.2]
      exact not_lt.mp hc

/-- in a Newton step without division by zero the correction is `P_n/P_n'` -/
theorem step_eq (n : Nat) (x : ℝ) (h : (newtonStep (n + 1) x).1 ≠ 0) :
    x ^ 2 ≠ 1 ∧ (derivative (P (n + 1))).eval x ≠ 0
    ∧ (newtonStep (n + 1) x).1 = 1 / ((1 - x ^ 2) * (derivative (P (n + 1))).eval x)
    ∧ (newtonStep (n + 1) x).2.1 = (P (n + 1)).eval x / (derivative (P (n + 1))).eval x := by
  have hl := legendrePair_eval x n
  have hg := congrArg (Polynomial.eval x) (Legendre.G_der 0 n)
  simp only [Polynomial.eval_mul, Polynomial.eval_sub, Polynomial.eval_C, Polynomial.eval_X, Polynomial.eval_one,
    Polynomial.eval_pow, Legendre.G_zero, Nat.cast_zero, add_zero, sub_zero] at hg
  rw [← Legendre.der_G, Legendre.G_zero] at hg
  have hpa : (newtonStep (n + 1) x).1 = 1 / ((1 - x ^ 2) * (Polynomial.derivative (P (n + 1))).eval x) := by
    simp only [newtonStep, hl]
    congr 1
    push_cast
    linear_combination -hg
  rw [hpa] at h
  have h2 : (1 - x ^ 2) * (Polynomial.derivative (P (n + 1))).eval x ≠ 0 := by
    intro e; rw [e] at h; simp at h
  have h3 := left_ne_zero_of_mul h2
  have h4 := right_ne_zero_of_mul h2
  refine ⟨fun e => h3 (by linarith), h4, hpa, ?_⟩
  have e : (newtonStep (n + 1) x).2.1 = (newtonStep (n + 1) x).1 * (P (n + 1)).eval x * (1 - x * x) := by
    simp only [newtonStep, hl]
  rw [e, hpa, show 1 - x * x = 1 - x ^ 2 by ring]
  field_simp

theorem step_x (order : Nat) (x : ℝ) : (newtonStep order x).2.2 = x - (newtonStep order x).2.1 := rfl

/-- **C32** (accuracy) For every order: if the iterations end within 100 steps (before the tolerance is relaxed) and
no weight is zero (no division by zero), then every returned point is within `(n+1) 10^-16` of its size of a root of
the Legendre polynomial of that order. -/
theorem c32_accurate (fuel n : Nat) (hf : fuel ≤ 100) (s r : (Nat → ℝ) × (Nat → ℝ))
    (h : gaussLegendre realOps fuel n s = some r) (hw : ∀ i, i < n → r.2 i ≠ 0) :
    ∀ i, i < n → ∃ y, (P n).eval y = 0 ∧ |r.1 i - y| ≤ (n + 1) / 10 ^ 16 * |r.1 i| := by
  intro i hi
  obtain ⟨h1, -⟩ := gl_spec realOps fuel n s r h
  -- it is enough for one of each mirrored pair
  have core : ∀ k, k < n / 2 + n % 2 → ∃ y, (P n).eval y = 0 ∧ |r.1 (n - 1 - k) - y| ≤ (n + 1) / 10 ^ 16 * |r.1 (n - 1 - k)| := by
    intro k hk
    obtain ⟨pa, x, e0, e1, e2, -⟩ := h1 k hk
    obtain ⟨z, z1, z2, z3⟩ := newton_end n fuel 0 _ _ pa x (by omega) e0
    have hpa : pa ≠ 0 := by
      intro e
      apply hw (n - 1 - k) (by omega)
      rw [e2, e]; ring
    obtain ⟨m, rfl⟩ : ∃ m, n = m + 1 := ⟨n - 1, by omega⟩
    rw [← z1] at hpa
    obtain ⟨-, hd, -, hpb⟩ := step_eq m z hpa
    obtain ⟨y, hy, hyd⟩ := Legendre.near_root z hd
    refine ⟨y, hy, ?_⟩
    rw [e1]
    rw [← hpb] at hyd
    have hx : x - y = (z - y) - (newtonStep (m + 1) z).2.1 := by rw [← z2, step_x]; ring
    have htri : |x - y| ≤ |z - y| + |(newtonStep (m + 1) z).2.1| := by
      rw [hx]
      exact abs_sub _ _
    have hmul : ((m + 1 : ℕ) : ℝ) * |(newtonStep (m + 1) z).2.1| ≤ ((m + 1 : ℕ) : ℝ) * (1 / 10 ^ 16 * |x|) :=
      mul_le_mul_of_nonneg_left z3 (by positivity)
    calc |x - y| ≤ ((m + 1 : ℕ) : ℝ) * (1 / 10 ^ 16 * |x|) + 1 / 10 ^ 16 * |x| := by linarith
      _ = _ := by ring
  by_cases hk : n - 1 - i < n / 2 + n % 2
  · have := core (n - 1 - i) hk
    rw [show n - 1 - (n - 1 - i) = i by omega] at this
    exact this
  · obtain ⟨y, hy, hyd⟩ := core i (by omega)
    refine ⟨-y, ?_, ?_⟩
    · rw [Verif.Special.P_neg, hy, mul_zero]
    · rw [(c32_symmetric realOps fuel n s r h).1 i hi (by omega)] at hyd
      rw [abs_neg] at hyd
      rwa [show r.1 i - -y = -(-r.1 i - y) by ring, abs_neg]

/-- **C32** (exactness) For every order `n`: if the iterations end at fixed points, the points are distinct and no
weight is zero, the rule on `[a, b]` integrates every polynomial of degree up to `2n-1` exactly. -/
theorem c32_exact (fuel n : Nat) (a b : ℝ) (s q r : (Nat → ℝ) × (Nat → ℝ))
    (h : gaussLegendre realOps fuel n s = some q) (hr : gaussLegendreAB realOps fuel n a b s = some r)
    (hfix : ∀ i, i < n / 2 + n % 2 → ∃ pa x, newton n fuel 0 (1 / 10 ^ 16) (guess realOps n i) = some (pa, x)
      ∧ newtonStep n x = (pa, 0, x))
    (hdist : ∀ i j, i < n → j < n → q.1 i = q.1 j → i = j) (hw : ∀ i, i < n → q.2 i ≠ 0) :
    ∀ f : ℝ[X], f.natDegree ≤ 2 * n - 1 → 0 < n →
      ∑ i ∈ Finset.range n, r.2 i * f.eval (r.1 i) = ∫ x in a..b, f.eval x := by
  intro f hfd hn
  obtain ⟨h1, -⟩ := gl_spec realOps fuel n s q h
  obtain ⟨m, rfl⟩ : ∃ m, n = m + 1 := ⟨n - 1, by omega⟩
  have core : ∀ k, k < (m + 1) / 2 + (m + 1) % 2 → (P (m + 1)).eval (q.1 (m + 1 - 1 - k)) = 0
      ∧ q.2 (m + 1 - 1 - k) = 2 / ((1 - q.1 (m + 1 - 1 - k) ^ 2) * (derivative (P (m + 1))).eval (q.1 (m + 1 - 1 - k)) ^ 2) := by
    intro k hk
    obtain ⟨pa, x, e0, e1, e2, -⟩ := h1 k hk
    obtain ⟨pa', x', f0, f1⟩ := hfix k hk
    unfold root at e0
    rw [e0] at f0
    obtain ⟨rfl, rfl⟩ : pa = pa' ∧ x = x' := by simpa using f0
    have hpa : pa ≠ 0 := by
      intro e
      apply hw (m + 1 - 1 - k) (by omega)
      rw [e2, e]; ring
    have g1 : (newtonStep (m + 1) x).1 = pa := by rw [f1]
    have g2 : (newtonStep (m + 1) x).2.1 = 0 := by rw [f1]
    obtain ⟨hx1, hd, hpa', hpb⟩ := step_eq m x (by rw [g1]; exact hpa)
    rw [e1, e2]
    refine ⟨?_, ?_⟩
    · rw [g2] at hpb
      rcases div_eq_zero_iff.mp hpb.symm with h | h
      · exact h
      · exact absurd h hd
    · rw [g1] at hpa'
      have h1x : 1 - x ^ 2 ≠ 0 := fun h => hx1 (by linarith)
      rw [hpa', show 1 - x * x = 1 - x ^ 2 by ring]
      field_simp
  have hall : ∀ i, i < m + 1 → (P (m + 1)).eval (q.1 i) = 0
      ∧ q.2 i = 2 / ((1 - q.1 i ^ 2) * (derivative (P (m + 1))).eval (q.1 i) ^ 2) := by
    intro i hi
    by_cases hk : m + 1 - 1 - i < (m + 1) / 2 + (m + 1) % 2
    · have := core (m + 1 - 1 - i) hk
      rwa [show m + 1 - 1 - (m + 1 - 1 - i) = i by omega] at this
    · obtain ⟨c1, c2⟩ := core i (by omega)
      obtain ⟨s1, s2, -⟩ := c32_symmetric realOps fuel (m + 1) s q h
      rw [s1 i hi (by omega)] at c1 c2
      rw [s2 i hi] at c2
      rw [Verif.Special.P_neg] at c1
      have c3 := (mul_eq_zero.mp c1).resolve_left (pow_ne_zero _ (by norm_num))
      refine ⟨c3, ?_⟩
      rw [c2]
      congr 1
      have hd : (derivative (P (m + 1))).eval (-q.1 i) ^ 2 = (derivative (P (m + 1))).eval (q.1 i) ^ 2 := by
        have := Verif.Special.G_neg 1 (m + 1) (q.1 i)
        rw [show Legendre.G 1 (m + 1) = derivative (P (m + 1)) from rfl] at this
        rw [this, mul_pow, ← pow_mul, mul_comm (m + 1 + 1) 2, pow_mul]
        norm_num
      rw [hd]; ring
  obtain ⟨q', hq', -, -, hsum⟩ := c32_interval realOps fuel (m + 1) a b s r hr
  rw [h] at hq'
  cases hq'
  rw [hsum (fun x => f.eval x)]
  let x : Fin (m + 1) → ℝ := fun i => q.1 i
  have hinj : Function.Injective x := fun i j e => Fin.ext (hdist i j i.2 j.2 e)
  have hx : ∀ i, (P (m + 1)).eval (x i) = 0 := fun i => (hall i i.2).1
  have hcomp : ((f.comp (C ((b - a) / 2) * X + C ((a + b) / 2))).natDegree) < 2 * (m + 1) := by
    refine lt_of_le_of_lt natDegree_comp_le ?_
    have : (C ((b - a) / 2) * X + C ((a + b) / 2)).natDegree ≤ 1 := natDegree_linear_le
    have h2 : f.natDegree * (C ((b - a) / 2) * X + C ((a + b) / 2)).natDegree ≤ f.natDegree * 1 := Nat.mul_le_mul_left _ this
    omega
  have hex := Legendre.gauss_exact x hinj hx _ hcomp
  rw [Finset.sum_range]
  have e1 : ∑ i : Fin (m + 1), q.2 i * f.eval ((b - a) / 2 * q.1 i + (a + b) / 2)
      = Legendre.integral (f.comp (C ((b - a) / 2) * X + C ((a + b) / 2))) := by
    rw [← hex]
    refine Finset.sum_congr rfl fun i _ => ?_
    rw [(hall i i.2).2, eval_comp]
    simp [x]
  rw [e1]
  unfold Legendre.integral
  simp only [eval_comp, eval_add, eval_mul, eval_C, eval_X]
  have := intervalIntegral.smul_integral_comp_mul_add (a := (-1 : ℝ)) (b := 1) (fun y => f.eval y) ((b - a) / 2) ((a + b) / 2)
  rw [smul_eq_mul] at this
  rw [this]
  congr 1 <;> ring

/-- the hypotheses are met by the rule of order 1, computed by the code: point 0, weight 2 -/
example : ∃ q : (Nat → ℝ) × (Nat → ℝ), gaussLegendre realOps 5 1 (fun _ => 0, fun _ => 0) = some q ∧ q.1 0 = 0 ∧ q.2 0 = 2
    ∧ (∀ i, i < 1 / 2 + 1 % 2 → ∃ pa x, newton 1 5 0 (1 / 10 ^ 16) (guess realOps 1 i) = some (pa, x)
      ∧ newtonStep 1 x = (pa, 0, x)) := by
  have hg : guess realOps 1 0 = 0 := by
    unfold guess
    have : realOps.pi * (((0 : ℕ) : ℝ) + 3 / 4) / (((1 : ℕ) : ℝ) + 1 / 2) = Real.pi / 2 := by
      simp only [realOps]; push_cast; ring
    simp only [this]
    simp [realOps]
  have hs : newtonStep 1 (0 : ℝ) = (1, 0, 0) := by simp [newtonStep, legendrePair, loop_self]
  have hn : newton 1 5 0 (1 / 10 ^ 16) (0 : ℝ) = some (1, 0) := by simp [newton, hs]
  have hn' := hn
  rw [one_div] at hn'
  refine ⟨_, by simp [gaussLegendre, loopM, glBody, hg, hn']; rfl, ?_, ?_, ?_⟩
  · simp
  · simp
  · intro i hi
    obtain rfl : i = 0 := by omega
    exact ⟨1, 0, by rw [hg]; exact hn, hs⟩

/-- for every order the exact rule exists and is unique: `P_n` has exactly `n` real roots, all in `(-1, 1)` -/
theorem roots_exist (n : Nat) : ∃ x : Fin n → ℝ, Function.Injective x ∧ (∀ i, -1 < x i ∧ x i < 1)
    ∧ (∀ y, (P n).eval y = 0 ↔ ∃ i, x i = y) := by
  obtain ⟨x, hi, hx⟩ := Legendre.P_roots n
  refine ⟨x, hi, Legendre.roots_interior x hi hx, fun y => ⟨fun hy => ?_, ?_⟩⟩
  · obtain ⟨a, ha, hP⟩ := Legendre.P_eq_nodal x hi hx
    rw [hP, eval_mul, eval_C] at hy
    have := (mul_eq_zero.mp hy).resolve_left ha
    rw [Lagrange.eval_nodal, Finset.prod_eq_zero_iff] at this
    obtain ⟨i, -, h⟩ := this
    exact ⟨i, (sub_eq_zero.mp h).symm⟩
  · rintro ⟨i, rfl⟩; exact hx i

/-! ## C70: adaptive quadrature -/

section
variable {K : Type} [Field K] [LinearOrder K] (o : Ops K)

/-- the value of the rule of the given order is the weighted sum over its points -/
theorem rule_eq (fuel order : Nat) (f : K → K) (a b v : K) (h : rule o fuel order f a b = some v) :
    ∃ r, gaussLegendreAB o fuel order a b (fun _ => 0, fun _ => 0) = some r
      ∧ v = ∑ i ∈ Finset.range order, r.2 i * f (r.1 i) := by
  unfold rule at h
  cases hg : gaussLegendreAB o fuel order a b (fun _ => 0, fun _ => 0) with
  | none => rw [hg] at h; cases h
  | some r =>
    rw [hg] at h
    simp only [Option.map_some, Option.some.injEq] at h
    refine ⟨r, rfl, ?_⟩
    rw [← h]
    exact loop_inv (fun k q => q = ∑ i ∈ Finset.range k, r.2 i * f (r.1 i)) (Nat.zero_le order) _ 0 (by simp)
      (by intro k q _ _ hq; rw [Finset.sum_range_succ, hq])

/-- agreement of two successive values within one of the two tolerances (the relative one with respect to the sum) -/
def Agree (new old atol rtol : K) : Prop := |new - old| ≤ atol ∨ |new - old| ≤ rtol * |new + old|

theorem agree_of [IsStrictOrderedRing K] {new old atol rtol : K}
    (h : (decide (|new - old| > atol) && relExceeds |new - old| (new + old) rtol) = false) : Agree new old atol rtol := by
  rw [Bool.and_eq_false_iff] at h
  rcases h with h | h
  · exact Or.inl (not_lt.mp (of_decide_eq_false h))
  · right
    unfold relExceeds at h
    split at h
    · rename_i h0
      have h1 : |new - old| = 0 := not_not.mp (of_decide_eq_false h)
      rw [h0, h1]; simp
    · rename_i h0
      have h1 := not_lt.mp (of_decide_eq_false h)
      rwa [div_le_iff₀ (abs_pos.mpr h0)] at h1

theorem not_agree_of [IsStrictOrderedRing K] {new old atol rtol : K}
    (h : (decide (|new - old| > atol) && relExceeds |new - old| (new + old) rtol) = true) : ¬Agree new old atol rtol := by
  rw [Bool.and_eq_true] at h
  obtain ⟨h1, h2⟩ := h
  have h1 := of_decide_eq_true h1
  rintro (g | g)
  · exact absurd h1 (not_lt.mpr g)
  · unfold relExceeds at h2
    split at h2
    · rename_i h0
      rw [h0, abs_zero, mul_zero] at g
      exact of_decide_eq_true h2 (le_antisymm g (abs_nonneg _))
    · rename_i h0
      have h2 := of_decide_eq_true h2
      rw [gt_iff_lt, lt_div_iff₀ (abs_pos.mpr h0)] at h2
      exact absurd h2 (not_lt.mpr g)

/-- the value before the rule of order `N`: zero before the first -/
def Before (fuel : Nat) (f : K → K) (a b : K) (start N : Nat) (v : K) : Prop :=
  if N = start then v = 0 else rule o fuel (N - 1) f a b = some v

theorem iterate_spec [IsStrictOrderedRing K] (fuel : Nat) (f : K → K) (a b atol rtol : K) (start : Nat) :
    ∀ (left order : Nat) (old : K) (go : Bool) (N : Nat) (v : K), start ≤ order →
    Before o fuel f a b start order old →
    (∀ M, start ≤ M → M + (if go then 0 else 1) < order → ∃ new prev, rule o fuel M f a b = some new
      ∧ Before o fuel f a b start M prev ∧ ¬Agree new prev atol rtol) →
    (go = false → start < order ∧ ∃ prev, Before o fuel f a b start (order - 1) prev ∧ Agree old prev atol rtol) →
    iterate o fuel f a b atol rtol left order old go = some (N, v) →
    order ≤ N ∧ N ≤ order + left ∧ Before o fuel f a b start N v
    ∧ (N < order + left → start < N ∧ ∃ prev, Before o fuel f a b start (N - 1) prev ∧ Agree v prev atol rtol)
    ∧ (∀ M, start ≤ M → M + 1 < N → ∃ new prev, rule o fuel M f a b = some new
      ∧ Before o fuel f a b start M prev ∧ ¬Agree new prev atol rtol) := by
  intro left
  induction left with
  | zero =>
    intro order old go N v hs hb hM hgo h
    rw [iterate] at h
    simp only [Option.some.injEq, Prod.mk.injEq] at h
    obtain ⟨rfl, rfl⟩ := h
    exact ⟨le_rfl, le_rfl, hb, fun h => by omega, fun M h1 h2 => hM M h1 (by split <;> omega)⟩
  | succ left ih =>
    intro order old go N v hs hb hM hgo h
    rw [iterate] at h
    cases go with
    | false =>
      simp only [Bool.false_eq_true, if_false, Option.some.injEq, Prod.mk.injEq] at h
      obtain ⟨rfl, rfl⟩ := h
      exact ⟨le_rfl, by omega, hb, fun _ => hgo rfl, fun M h1 h2 => hM M h1 (by simpa using h2)⟩
    | true =>
      simp only [if_true] at h
      cases hr : rule o fuel order f a b with
      | none => rw [hr] at h; cases h
      | some new =>
        rw [hr] at h
        dsimp only at h
        have hb' : Before o fuel f a b start (order + 1) new := by
          unfold Before
          rw [if_neg (by omega)]; exact hr
        have res := ih (order + 1) new _ N v (by omega) hb' ?_ ?_ h
        · obtain ⟨r1, r2, r3, r4, r5⟩ := res
          exact ⟨by omega, by omega, r3, fun hlt => r4 (by omega), r5⟩
        · intro M h1 h2
          by_cases hMo : M = order
          · subst hMo
            refine ⟨new, old, hr, hb, ?_⟩
            split at h2
            · rename_i hg; exact not_agree_of hg
            · omega
          · refine hM M h1 ?_
            simp only [if_true]
            split at h2 <;> omega
        · intro hg
          exact ⟨by omega, old, by rw [Nat.add_sub_cancel]; exact hb, agree_of hg⟩

/-- **C70** For every integrand, interval, tolerances and orders with `start ≤ max`: the value returned is that of the
rule of some order `N - 1` with `start < N ≤ max` (or zero, with a warning, if `start = max`); if there is no warning
it agrees with the previous order (zero before the first) within one of the tolerances; and no earlier order did.
Missing from the full statement: a starting order above the maximum (`c70_violated_silent`). -/
theorem c70_adaptive_partial [IsStrictOrderedRing K] (fuel : Nat) (f : K → K) (a b atol rtol : K) (start max : Nat) (hsm : start ≤ max)
    (v : K) (warn : Bool) (h : quadrature o fuel f a b start max atol rtol = some (v, warn)) :
    ∃ N, start ≤ N ∧ N ≤ max ∧ Before o fuel f a b start N v
      ∧ (warn = true ↔ N = max)
      ∧ (warn = false → start < N ∧ ∃ prev, Before o fuel f a b start (N - 1) prev ∧ Agree v prev atol rtol)
      ∧ (∀ M, start ≤ M → M + 1 < N → ∃ new prev, rule o fuel M f a b = some new
          ∧ Before o fuel f a b start M prev ∧ ¬Agree new prev atol rtol) := by
  unfold quadrature at h
  cases hi : iterate o fuel f a b atol rtol (max - start) start 0 true with
  | none => rw [hi] at h; cases h
  | some r =>
    obtain ⟨N, w⟩ := r
    rw [hi] at h
    simp only [Option.map_some, Option.some.injEq, Prod.mk.injEq] at h
    obtain ⟨rfl, hw⟩ := h
    obtain ⟨r1, r2, r3, r4, r5⟩ := iterate_spec o fuel f a b atol rtol start (max - start) start 0 true N w le_rfl
      (by unfold Before; rw [if_pos rfl]) (fun M h1 h2 => by simp only [if_true] at h2; omega) (by simp) hi
    refine ⟨N, r1, by omega, r3, ?_, ?_, r5⟩
    · rw [← hw, decide_eq_true_iff]
    · intro hf
      rw [← hw] at hf
      have := of_decide_eq_false hf
      exact r4 (by omega)

/-- **C70 violated** with a starting order above the maximum no rule is evaluated and zero is returned for every
integrand, without a warning -/
theorem c70_violated_silent (fuel : Nat) (f : K → K) (a b atol rtol : K) (start max : Nat) (h : max < start) :
    quadrature o fuel f a b start max atol rtol = some (0, false) := by
  unfold quadrature
  rw [show max - start = 0 by omega, iterate]
  simp only [Option.map_some, Option.some.injEq, Prod.mk.injEq, true_and, decide_eq_false_iff_not]
  omega

end

/-- the hypotheses are met: integrating 1 over [0, 2] with rules of order 1 and 2 -/
example : ∃ v w, quadrature (K := ℚ) ⟨id, id, id, fun _ => 3 / 5, 3⟩ 20 (fun _ => 1) 0 2 1 3 (1 / 10) (1 / 10) = some (v, w) := by
  have : (quadrature (K := ℚ) ⟨id, id, id, fun _ => 3 / 5, 3⟩ 20 (fun _ => 1) 0 2 1 3 (1 / 10) (1 / 10)).isSome = true := by decide +kernel
  obtain ⟨⟨v, w⟩, h⟩ := Option.isSome_iff_exists.mp this
  exact ⟨v, w, h⟩

end Verif.Quadrature
