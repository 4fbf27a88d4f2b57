import Verif.Model.Orientation
import Verif.Properties.Quadrature
import Mathlib.Analysis.SpecialFunctions.Integrals.Basic

/-!
# C39: orientation and alignment distributions
-/
namespace Verif.Orientation

open Verif.Special Verif.Quadrature
open Verif.Matrix (loop loop_inv loop_self loop_succ)
open Verif.Legendre (P)
open Polynomial

/-- the expansion coefficient of order `n` of a distribution of angles: the average of the Legendre polynomial -/
noncomputable def expansion (p : ℝ → ℝ) (n : Nat) : ℝ := ∫ β in (0 : ℝ)..Real.pi, p β * (P n).eval (Real.cos β) * Real.sin β

theorem subst_cos (f : ℝ[X]) : ∫ β in (0 : ℝ)..Real.pi, f.eval (Real.cos β) * Real.sin β = Legendre.integral f := by
  have h := intervalIntegral.integral_comp_mul_deriv (a := 0) (b := Real.pi) (f := Real.cos) (f' := fun x => -Real.sin x)
    (g := fun x => f.eval x) (fun x _ => Real.hasDerivAt_cos x) (by fun_prop) f.continuous
  unfold Legendre.integral
  rw [Real.cos_zero, Real.cos_pi, intervalIntegral.integral_symm (-1) 1] at h
  simp only [Function.comp, mul_neg, intervalIntegral.integral_neg] at h
  linarith

/-- the Mishchenko distribution as a polynomial in `cos β` -/
theorem mishchenko_poly (c β : ℝ) : mishchenkoP c β (Real.cos β) (Real.sin β)
    = (C (1 / 2) * P 0 + C (5 / 2 * p2 c) * P 2).eval (Real.cos β) := by
  have hb := congrArg (eval (Real.cos β)) (Legendre.bonnet 0)
  simp only [Nat.cast_zero, zero_add, mul_zero, eval_mul, eval_sub, eval_C, eval_X, Legendre.P_zero, Legendre.P_one, eval_one] at hb
  simp only [eval_add, eval_mul, eval_C, Legendre.P_zero, eval_one, mishchenkoP]
  linear_combination (-5 / 4 * p2 c) * hb

theorem expansion_mishchenko (c : ℝ) (n : Nat) :
    expansion (fun β => mishchenkoP c β (Real.cos β) (Real.sin β)) n = if n = 0 then 1 else if n = 2 then p2 c else 0 := by
  unfold expansion
  have : (fun β => mishchenkoP c β (Real.cos β) (Real.sin β) * (P n).eval (Real.cos β) * Real.sin β)
      = fun β => ((C (1 / 2) * P 0 + C (5 / 2 * p2 c) * P 2) * P n).eval (Real.cos β) * Real.sin β := by
    funext β; rw [mishchenko_poly, eval_mul]
  rw [this, subst_cos, add_mul, mul_assoc, mul_assoc, Legendre.integral_add, Legendre.integral_C_mul, Legendre.integral_C_mul]
  by_cases h0 : n = 0
  · subst h0
    rw [if_pos rfl, Legendre.norm_sq, Legendre.orthogonal (by omega)]
    norm_num
  · rw [if_neg h0, Legendre.orthogonal (Ne.symm h0)]
    by_cases h2 : n = 2
    · subst h2
      rw [if_pos rfl, Legendre.norm_sq]
      push_cast
      ring
    · rw [if_neg h2, Legendre.orthogonal (Ne.symm h2)]
      ring

/-- **C39** (Mishchenko, function) For every parameter: the distribution is a probability distribution of the zenith
angle (non-negative everywhere, normalised) exactly for the documented range of the parameter, and the parameter is
the average of the squared cosine. -/
theorem c39_mishchenko (c : ℝ) :
    ((∀ β ∈ Set.Icc 0 Real.pi, 0 ≤ mishchenkoP c β (Real.cos β) (Real.sin β)) ↔ 1 / 5 ≤ c ∧ c ≤ 3 / 5)
    ∧ ∫ β in (0 : ℝ)..Real.pi, mishchenkoP c β (Real.cos β) (Real.sin β) * Real.sin β = 1
    ∧ ∫ β in (0 : ℝ)..Real.pi, mishchenkoP c β (Real.cos β) (Real.sin β) * Real.cos β ^ 2 * Real.sin β = c := by
  refine ⟨⟨fun h => ?_, ?_⟩, ?_, ?_⟩
  · have h0 := h 0 ⟨le_rfl, Real.pi_pos.le⟩
    have h1 := h (Real.pi / 2) ⟨by positivity, by linarith [Real.pi_pos]⟩
    simp only [mishchenkoP, p2, Real.cos_zero, Real.cos_pi_div_two] at h0 h1
    constructor <;> linarith
  · rintro ⟨h1, h2⟩ β -
    have hc := Real.cos_sq_le_one β
    have hc0 := sq_nonneg (Real.cos β)
    simp only [mishchenkoP, p2]
    nlinarith [mul_nonneg (sub_nonneg.mpr h1) hc0, mul_nonneg (sub_nonneg.mpr h2) (sub_nonneg.mpr hc),
      mul_nonneg (sub_nonneg.mpr h1) (sub_nonneg.mpr hc), mul_nonneg (sub_nonneg.mpr h2) hc0]
  · have := expansion_mishchenko c 0
    unfold expansion at this
    simpa [Legendre.P_zero] using this
  · have h0 := expansion_mishchenko c 0
    have h2 := expansion_mishchenko c 2
    unfold expansion at h0 h2
    have hb : ∀ β, (P 2).eval (Real.cos β) = 3 / 2 * Real.cos β ^ 2 - 1 / 2 := by
      intro β
      have hb := congrArg (eval (Real.cos β)) (Legendre.bonnet 0)
      simp only [Nat.cast_zero, zero_add, mul_zero, eval_mul, eval_sub, eval_C, eval_X, Legendre.P_zero, Legendre.P_one, eval_one] at hb
      linarith
    have e : (fun β => mishchenkoP c β (Real.cos β) (Real.sin β) * Real.cos β ^ 2 * Real.sin β)
        = fun β => 2 / 3 * (mishchenkoP c β (Real.cos β) (Real.sin β) * (P 2).eval (Real.cos β) * Real.sin β)
          + 1 / 3 * (mishchenkoP c β (Real.cos β) (Real.sin β) * (P 0).eval (Real.cos β) * Real.sin β) := by
      funext β
      rw [hb, Legendre.P_zero, eval_one]; ring
    rw [e, intervalIntegral.integral_add, intervalIntegral.integral_const_mul, intervalIntegral.integral_const_mul, h0, h2]
    · simp [p2]; ring
    · apply Continuous.intervalIntegrable
      simp only [mishchenkoP, hb]
      fun_prop
    · apply Continuous.intervalIntegrable
      simp only [mishchenkoP, Legendre.P_zero, eval_one]
      fun_prop

example : (1 / 5 : ℝ) ≤ 3 / 5 ∧ (3 / 5 : ℝ) ≤ 3 / 5 := by norm_num

/-- **C39** (Mishchenko, coefficients) For every order from 2 on the stored coefficients are the expansion
coefficients of the distribution function; an order below 2 is undefined behaviour (element 2 is written). -/
theorem c39_mishchenko_coefficients (nmax : Nat) (c : ℝ) :
    (2 ≤ nmax → ∃ d, mishchenko nmax c = .ok d ∧ d.align = true ∧ maximumOrder d = nmax
      ∧ ∀ n, n ≤ nmax → getCoefficient d n = .ok (expansion (fun β => mishchenkoP c β (Real.cos β) (Real.sin β)) n))
    ∧ (nmax < 2 → mishchenko nmax c = .error .ub) := by
  have hz : ∀ k, loop 0 k (fun i (c : Nat → ℝ) => Function.update c i 0) (fun _ => 0) = fun _ => 0 := by
    intro k
    exact loop_inv (fun _ s => s = fun _ => (0 : ℝ)) (Nat.zero_le k) _ _ rfl
      (by intro i s _ _ h; rw [h]; funext j; simp [Function.update_apply])
  constructor
  · intro h
    refine ⟨⟨1, nmax + 1, Function.update (Function.update (fun _ => 0) 0 1) 2 (p2 c), true⟩, ?_, rfl, rfl, ?_⟩
    · simp only [mishchenko, base, hz, write]
      rw [if_pos (by omega)]
      show (if 2 < nmax + 1 then _ else _) = _
      rw [if_pos (by omega)]
    · intro n hn
      rw [getCoefficient, if_pos (show n < nmax + 1 by omega), expansion_mishchenko]
      congr 1
      dsimp only
      by_cases h2 : n = 2
      · subst h2; simp
      · rw [Function.update_of_ne h2, if_neg h2]
        by_cases h0 : n = 0
        · subst h0; simp
        · rw [Function.update_of_ne h0, if_neg h0]
  · intro h
    simp only [mishchenko, base, hz, write]
    rw [if_pos (by omega)]
    show (if 2 < nmax + 1 then _ else _) = _
    rw [if_neg (by omega)]

/-! ### Davis-Greenstein -/

theorem P_zero_even (k : Nat) : (2 * (k : ℝ) + 2) * (P (2 * k + 2)).eval 0 = -(2 * k + 1) * (P (2 * k)).eval 0 := by
  have hb := congrArg (eval 0) (Legendre.bonnet (2 * k))
  simp only [eval_mul, eval_sub, eval_C, eval_X] at hb
  push_cast at hb
  linarith

theorem P_zero_odd (k : Nat) : (P (2 * k + 1)).eval 0 = 0 := by
  have := P_neg (2 * k + 1) 0
  rw [neg_zero, pow_succ, pow_mul] at this
  norm_num at this
  linarith

/-- **C39** (Davis-Greenstein) For every order the stored coefficients are the expansion coefficients of perfect
alignment: the Legendre polynomials at cosine 0 for prolate grains (axis perpendicular to the field), at cosine 1,
that is 1, for oblate grains (axis along the field). -/
theorem c39_davis_greenstein (nmax : Nat) (axisRatio : ℝ) :
    (davisGreenstein nmax axisRatio).align = true ∧ maximumOrder (davisGreenstein nmax axisRatio) = nmax
    ∧ (axisRatio < 1 → ∀ n, n ≤ nmax → getCoefficient (davisGreenstein nmax axisRatio) n = .ok ((P n).eval 0))
    ∧ (1 ≤ axisRatio → ∀ n, n ≤ nmax → getCoefficient (davisGreenstein nmax axisRatio) n = .ok ((P n).eval 1)) := by
  have hsz : (davisGreenstein nmax axisRatio).size = nmax + 1 := by unfold davisGreenstein; split <;> rfl
  refine ⟨by unfold davisGreenstein; split <;> rfl, by rw [maximumOrder, hsz]; rfl, ?_, ?_⟩
  · intro h n hn
    rw [getCoefficient, hsz, if_pos (by omega)]
    congr 1
    unfold davisGreenstein
    rw [if_pos h]
    have hc : loop 0 ((base (K := ℝ) nmax).size / 2) (fun k c => Function.update c (2 * k + 1) 0) (base (K := ℝ) nmax).coef = fun _ => 0 :=
      loop_inv (fun _ s => s = fun _ => (0 : ℝ)) (Nat.zero_le _) _ _ rfl
        (by intro i s _ _ h; rw [h]; funext j; simp [Function.update_apply])
    simp only [hc]
    have key := loop_inv (σ := (Nat → ℝ) × ℝ × ℝ)
      (fun k s => s.2.2 ≠ 0 ∧ (P (2 * k)).eval 0 = (-1) ^ k * s.2.1 / s.2.2
        ∧ ∀ j, s.1 j = if j < 2 * k then (P j).eval 0 else 0)
      (show 1 ≤ ((base (K := ℝ) nmax).size + 1) / 2 by simp only [base]; omega) dgEven
      (Function.update (fun _ => 0) 0 1, 1, 2) ?_ ?_
    · have := key.2.2 n
      rw [this]
      by_cases hlt : n < 2 * (((base (K := ℝ) nmax).size + 1) / 2)
      · rw [if_pos hlt]
      · exfalso; simp only [base] at hlt; omega
    · refine ⟨by norm_num, ?_, ?_⟩
      · have := P_zero_even 0
        rw [Nat.cast_zero, mul_zero, mul_zero, Legendre.P_zero] at this
        simp at this
        simp
        linarith
      · intro j
        dsimp only
        by_cases h0 : j = 0
        · subst h0; simp [Legendre.P_zero]
        · rw [Function.update_of_ne h0]
          by_cases h1 : j = 1
          · subst h1; rw [if_pos (by omega), P_zero_odd 0]
          · rw [if_neg (by omega)]
    · rintro k ⟨c, nom, den⟩ h1 hk ⟨hden, hP, hcs⟩
      dsimp only at hden hP hcs
      have hk0 : (k : ℝ) + 1 ≠ 0 := by positivity
      refine ⟨?_, ?_, ?_⟩
      · exact mul_ne_zero hden (mul_ne_zero two_ne_zero hk0)
      · have := P_zero_even k
        rw [hP] at this
        simp only [dgEven]
        rw [show 2 * (k + 1) = 2 * k + 2 by ring, eq_div_iff (by positivity)]
        have h2 : (P (2 * k + 2)).eval 0 * den * (2 * ((k : ℝ) + 1)) = den * ((2 * (k : ℝ) + 2) * (P (2 * k + 2)).eval 0) := by ring
        rw [← mul_assoc, h2, this, pow_succ]
        field_simp
      · intro j
        simp only [dgEven]
        by_cases hj : j = 2 * k
        · subst hj
          rw [Function.update_self, if_pos (show 2 * k < 2 * (k + 1) by omega), hP]
          congr 2
          by_cases he : k % 2 = 0
          · rw [if_pos he, Even.neg_one_pow (Nat.even_iff.mpr he)]
          · rw [if_neg he, Odd.neg_one_pow (Nat.odd_iff.mpr (by omega))]
        · rw [Function.update_of_ne hj, hcs j]
          by_cases hlt : j < 2 * k
          · rw [if_pos hlt, if_pos (by omega)]
          · rw [if_neg hlt]
            by_cases ho : j = 2 * k + 1
            · subst ho; rw [if_pos (by omega), P_zero_odd]
            · rw [if_neg (by omega)]
  · intro h n hn
    rw [getCoefficient, hsz, if_pos (by omega), Legendre.P_eval_one]
    congr 1
    unfold davisGreenstein
    rw [if_neg (not_lt.mpr h)]
    have key := loop_inv (σ := Nat → ℝ) (fun k s => ∀ j, j < k → s j = 1) (Nat.zero_le (base (K := ℝ) nmax).size)
      (fun i c => Function.update c i 1) (base (K := ℝ) nmax).coef (by intro j hj; omega)
      (by
        intro k s _ _ hs j hj
        by_cases e : j = k
        · subst e; simp
        · rw [Function.update_of_ne e]; exact hs j (by omega))
    exact key n (by simp only [base]; omega)

example : ∃ n, (davisGreenstein (K := ℚ) 4 (1 / 2)).coef n = 3 / 8 := ⟨4, by decide +kernel⟩

/-! ### Distributions given by a function -/

/-- **C39** (integrand) the quantity integrated for the coefficient of order `n` is `p(β) P_n(cos β) sin β` with the
normalised distribution function, at every angle strictly between 0 and π -/
theorem c39_integrand (p : ℝ → ℝ → ℝ → ℝ) (norm : ℝ) (n : Nat) (β : ℝ) (h0 : 0 < β) (hπ : β < Real.pi) :
    integrand realOps p norm n β
      = norm * p β (Real.cos β) (Real.sin β) * (P n).eval (Real.cos β) * Real.sin β := by
  unfold integrand
  dsimp only
  rcases Nat.eq_zero_or_pos n with rfl | hn
  · rw [if_neg (show ¬(0 > 0) by omega), Legendre.P_zero]
    simp only [realOps, eval_one]; ring
  · rw [if_pos hn]
    have hw := ((c63_wigner β h0 hπ n 0 (Nat.zero_le _) (fun _ => 0, fun _ => 0)).1 n hn le_rfl).1
    have e : (wignerD realOps (realOps.cos β) n 0 (fun _ => 0, fun _ => 0)).1 (n - 1) = (P n).eval (Real.cos β) := by
      show (wignerD realOps (Real.cos β) n 0 (fun _ => 0, fun _ => 0)).1 (n - 1) = _
      rw [hw]
      unfold Legendre.wigner
      rw [if_pos (Nat.zero_le n), Legendre.G_zero, Nat.sub_zero, Nat.add_zero, pow_zero, div_self (by positivity)]
      simp
    rw [e]
    simp only [realOps]
    ring

section
variable {K : Type} [Field K] [LinearOrder K] (o : Ops K)

theorem initCoefs_spec (fuel : Nat) (p : K → K → K → K) (norm atol rtol : K) : ∀ (left : Nat) (d r : Dist K),
    left ≤ d.size → initCoefs o fuel p norm atol rtol left d = .ok r →
    r.norm = d.norm ∧ r.size = d.size ∧ r.align = d.align
    ∧ (∀ i, i < d.size - left → r.coef i = d.coef i)
    ∧ (∀ i, d.size - left ≤ i → i < d.size →
        ∃ w, quadrature o fuel (integrand o p norm i) 0 o.pi (2 * (i + 1)) (100 * (i + 1)) atol rtol = some (r.coef i, w)) := by
  intro left
  induction left with
  | zero =>
    intro d r _ h
    rw [initCoefs] at h
    cases h
    exact ⟨rfl, rfl, rfl, fun _ _ => rfl, fun i h1 h2 => by omega⟩
  | succ left ih =>
    intro d r hl h
    rw [initCoefs] at h
    cases hq : quadrature o fuel (integrand o p norm (d.size - (left + 1))) 0 o.pi (2 * (d.size - (left + 1) + 1))
        (100 * (d.size - (left + 1) + 1)) atol rtol with
    | none => simp only [quad, hq] at h; cases h
    | some v =>
      have hw : write d (d.size - (left + 1)) v.1 = .ok { d with coef := Function.update d.coef (d.size - (left + 1)) v.1 } := by
        unfold write; rw [if_pos (by omega)]
      simp only [quad, hq] at h
      change (do let d ← write d (d.size - (left + 1)) v.1; initCoefs o fuel p norm atol rtol left d) = _ at h
      rw [hw] at h
      obtain ⟨r1, r2, r3, r4, r5⟩ := ih _ r (by dsimp only; omega) h
      dsimp only at r1 r2 r3 r4 r5
      refine ⟨r1, r2, r3, ?_, ?_⟩
      · intro i hi
        rw [r4 i (by omega), Function.update_of_ne (by omega)]
      · intro i h1 h2
        by_cases e : i = d.size - (left + 1)
        · subst e
          refine ⟨v.2, ?_⟩
          rw [hq, r4 _ (by omega), Function.update_self]
        · exact r5 i (by omega) h2

/-- **C39** (initialise) For every distribution function: coefficient 0 is 1, the normalisation is the inverse of the
computed integral of the function, and every other coefficient is the result of the adaptive quadrature (C70) of the
integrand of `c39_integrand` over all angles. -/
theorem c39_initialise (fuel : Nat) (p : K → K → K → K) (atol rtol : K) (d r : Dist K) (hd : 1 ≤ d.size)
    (h : initialise o fuel p atol rtol d = .ok r) :
    r.size = d.size ∧ r.align = d.align ∧ getCoefficient r 0 = .ok 1
    ∧ (∃ n w, quadrature o fuel (normIntegrand o p) 0 o.pi 100 1000 atol rtol = some (n, w) ∧ r.norm = 1 / n)
    ∧ ∀ i, 1 ≤ i → i < d.size → ∃ v w, getCoefficient r i = .ok v
        ∧ quadrature o fuel (integrand o p r.norm i) 0 o.pi (2 * (i + 1)) (100 * (i + 1)) atol rtol = some (v, w) := by
  unfold initialise at h
  cases hq : quadrature o fuel (normIntegrand o p) 0 o.pi 100 1000 atol rtol with
  | none => simp only [quad, hq] at h; cases h
  | some v =>
    simp only [quad, hq] at h
    have hw : write { d with norm := 1 / v.1 } 0 (1 : K) = .ok ⟨1 / v.1, d.size, Function.update d.coef 0 1, d.align⟩ := by
      unfold write; rw [if_pos (by exact hd)]
    change (do
      let d ← write { d with norm := 1 / v.1 } 0 (1 : K)
      initCoefs o fuel p d.norm atol rtol (d.size - 1) d) = _ at h
    rw [hw] at h
    obtain ⟨r1, r2, r3, r4, r5⟩ := initCoefs_spec o fuel p _ atol rtol _ _ r (by dsimp only; omega) h
    dsimp only at r1 r2 r3 r4 r5
    refine ⟨r2, r3, ?_, ⟨v.1, v.2, rfl, r1⟩, ?_⟩
    · rw [getCoefficient, r2, if_pos (by omega), r4 0 (by omega), Function.update_self]
    · intro i h1 h2
      obtain ⟨w, hw⟩ := r5 i (by omega) h2
      refine ⟨r.coef i, w, ?_, ?_⟩
      · rw [getCoefficient, r2, if_pos h2]
      · rw [r1]; exact hw

/-- **C39** (copy) a copy has the coefficients of the original -/
theorem c39_copy (d : Dist K) (n : Nat) : getCoefficient (copy d) n = getCoefficient d n ∧ maximumOrder (copy d) = maximumOrder d := by
  refine ⟨?_, rfl⟩
  unfold getCoefficient copy
  dsimp only
  split
  · rename_i hn
    have key := loop_inv (σ := Nat → K) (fun k s => ∀ j, j < k → s j = d.coef j) (Nat.zero_le d.size)
      (fun i c => Function.update c i (d.coef i)) (fun _ => 0) (by intro j hj; omega)
      (by
        intro k s _ _ hs j hj
        by_cases e : j = k
        · subst e; simp
        · rw [Function.update_of_ne e]; exact hs j (by omega))
    rw [key n hn]
  · rfl

end

/-- **C39** (choice) For every alignment type, size and axis ratio: grains not larger than the transition size use
the unaligned distribution; larger ones use, depending on the type, perfect or imperfect alignment with the axis along
the field for oblate and perpendicular to it for prolate grains, no averaging, or the user's distributions; other
types are an error. The coefficients up to twice the maximum order, which the averaging needs, are all there for the
built-in distributions. -/
theorem c39_choice (o : Ops ℝ) (fuel : Nat) (minimumSize : ℝ) (type : Int) (nmax : Nat) (hn : 1 ≤ nmax) (ob pr : Option (Dist ℝ)) :
    (∀ s, sizeBased o fuel minimumSize type nmax ob pr = .ok s → (0 ≤ type ∧ type ≤ 3) ∧
      ∀ radius d,
        (radius ≤ minimumSize → initialise o fuel uniformP (1 / 10 ^ 10) (1 / 10 ^ 5) (base (2 * nmax)) = .ok (getDistribution s radius d)
            ∧ (getDistribution s radius d).align = true ∧ maximumOrder (getDistribution s radius d) = 2 * nmax)
        ∧ (minimumSize < radius → type = 0 → (getDistribution s radius d).align = true
            ∧ ∀ n, n ≤ 2 * nmax → getCoefficient (getDistribution s radius d) n = .ok ((P n).eval (if 1 < d then 1 else 0)))
        ∧ (minimumSize < radius → type = 1 → (getDistribution s radius d).align = true
            ∧ ∀ n, n ≤ 2 * nmax → getCoefficient (getDistribution s radius d) n
              = .ok (expansion (fun β => mishchenkoP (if 1 < d then 3 / 5 else 1 / 5) β (Real.cos β) (Real.sin β)) n))
        ∧ (minimumSize < radius → type = 2 → (getDistribution s radius d).align = false)
        ∧ (minimumSize < radius → type = 3 → ∃ c, (if 1 < d then ob else pr) = some c
            ∧ ∀ n, getCoefficient (getDistribution s radius d) n = getCoefficient c n))
    ∧ (¬(0 ≤ type ∧ type ≤ 3) → ∀ s, sizeBased o fuel minimumSize type nmax ob pr ≠ .ok s) := by
  have main : ∀ s, sizeBased o fuel minimumSize type nmax ob pr = .ok s →
      ∃ non, initialise o fuel uniformP (1 / 10 ^ 10) (1 / 10 ^ 5) (base (2 * nmax)) = .ok non
        ∧ s.minimumSize = minimumSize ∧ s.nonAligned = non
        ∧ ((type = 0 ∧ s.oblate = davisGreenstein (2 * nmax) 2 ∧ s.prolate = davisGreenstein (2 * nmax) (1 / 2))
          ∨ (type = 1 ∧ mishchenko (2 * nmax) (3 / 5) = .ok s.oblate ∧ mishchenko (2 * nmax) (1 / 5) = .ok s.prolate)
          ∨ (type = 2 ∧ s.oblate = disabled ∧ s.prolate = disabled)
          ∨ (type = 3 ∧ ∃ a b, ob = some a ∧ pr = some b ∧ s.oblate = copy a ∧ s.prolate = copy b)) := by
    intro s hs
    unfold sizeBased at hs
    cases hi : initialise o fuel uniformP (1 / 10 ^ 10) (1 / 10 ^ 5) (base (2 * nmax)) with
    | error e => rw [hi] at hs; cases hs
    | ok non =>
      rw [hi] at hs
      refine ⟨non, rfl, ?_⟩
      change (if type = 0 then _ else _) = _ at hs
      by_cases t0 : type = 0
      · rw [if_pos t0] at hs; cases hs
        exact ⟨rfl, rfl, Or.inl ⟨t0, rfl, rfl⟩⟩
      rw [if_neg t0] at hs
      by_cases t1 : type = 1
      · rw [if_pos t1] at hs
        cases h1 : mishchenko (K := ℝ) (2 * nmax) (3 / 5) with
        | error e => rw [h1] at hs; cases hs
        | ok a =>
          cases h2 : mishchenko (K := ℝ) (2 * nmax) (1 / 5) with
          | error e => rw [h1, h2] at hs; cases hs
          | ok b =>
            rw [h1, h2] at hs
            cases hs
            exact ⟨rfl, rfl, Or.inr (Or.inl ⟨t1, rfl, rfl⟩)⟩
      rw [if_neg t1] at hs
      by_cases t2 : type = 2
      · rw [if_pos t2] at hs; cases hs
        exact ⟨rfl, rfl, Or.inr (Or.inr (Or.inl ⟨t2, rfl, rfl⟩))⟩
      rw [if_neg t2] at hs
      by_cases t3 : type = 3
      · rw [if_pos t3] at hs
        cases ob with
        | none => cases hs
        | some a =>
          cases pr with
          | none => cases hs
          | some b =>
            cases hs
            exact ⟨rfl, rfl, Or.inr (Or.inr (Or.inr ⟨t3, a, b, rfl, rfl, rfl, rfl⟩))⟩
      · rw [if_neg t3] at hs; cases hs
  refine ⟨fun s hs => ?_, fun ht s hs => ?_⟩
  · obtain ⟨non, hnon, hmin, hna, hcase⟩ := main s hs
    refine ⟨by rcases hcase with h | h | h | h <;> have := h.1 <;> omega, fun radius d => ?_⟩
    have hlo : radius ≤ minimumSize → getDistribution s radius d = non := by
      intro h; unfold getDistribution; rw [hmin, if_neg (not_lt.mpr h), hna]
    have hhi : minimumSize < radius → getDistribution s radius d = if 1 < d then s.oblate else s.prolate := by
      intro h; unfold getDistribution; rw [hmin, if_pos h]
    refine ⟨?_, ?_, ?_, ?_, ?_⟩
    · intro h
      rw [hlo h]
      obtain ⟨a1, a2, -⟩ := c39_initialise o fuel uniformP _ _ _ _ (by simp [base]) hnon
      exact ⟨hnon, a2, by rw [maximumOrder, a1]; rfl⟩
    · intro h ht
      rw [hhi h]
      rcases hcase with ⟨_, e1, e2⟩ | ⟨c, _⟩ | ⟨c, _⟩ | ⟨c, _⟩
      · rw [e1, e2]
        by_cases hd : 1 < d
        · simp only [if_pos hd]
          obtain ⟨a1, -, -, a4⟩ := c39_davis_greenstein (2 * nmax) 2
          exact ⟨a1, a4 (by norm_num)⟩
        · simp only [if_neg hd]
          obtain ⟨a1, -, a3, -⟩ := c39_davis_greenstein (2 * nmax) (1 / 2)
          exact ⟨a1, a3 (by norm_num)⟩
      all_goals omega
    · intro h ht
      rw [hhi h]
      rcases hcase with ⟨c, _⟩ | ⟨_, e1, e2⟩ | ⟨c, _⟩ | ⟨c, _⟩
      · omega
      · by_cases hd : 1 < d
        · simp only [if_pos hd]
          obtain ⟨x, a1, a2, -, a3⟩ := (c39_mishchenko_coefficients (2 * nmax) (3 / 5)).1 (by omega)
          rw [a1] at e1
          cases e1
          exact ⟨a2, a3⟩
        · simp only [if_neg hd]
          obtain ⟨x, a1, a2, -, a3⟩ := (c39_mishchenko_coefficients (2 * nmax) (1 / 5)).1 (by omega)
          rw [a1] at e2
          cases e2
          exact ⟨a2, a3⟩
      all_goals omega
    · intro h ht
      rw [hhi h]
      rcases hcase with ⟨c, _⟩ | ⟨c, _⟩ | ⟨_, e1, e2⟩ | ⟨c, _⟩
      · omega
      · omega
      · rw [e1, e2, ite_self]; rfl
      · omega
    · intro h ht
      rw [hhi h]
      rcases hcase with ⟨c, _⟩ | ⟨c, _⟩ | ⟨c, _⟩ | ⟨_, a, b, e1, e2, e3, e4⟩
      · omega
      · omega
      · omega
      · by_cases hd : 1 < d
        · simp only [if_pos hd, e3]
          exact ⟨a, e1, fun n => (c39_copy a n).1⟩
        · simp only [if_neg hd, e4]
          exact ⟨b, e2, fun n => (c39_copy b n).1⟩
  · obtain ⟨_, _, _, _, hcase⟩ := main s hs
    apply ht
    rcases hcase with h | h | h | h <;> have := h.1 <;> omega

/-! a case that meets the hypothesis: with a cosine that is zero everywhere the iterations start at 0, end at once, and
every rule of even order has zero weights -/

/-- elementary functions for the example -/
noncomputable def flatOps : Ops ℝ := ⟨Real.sqrt, id, Real.sin, fun _ => 0, Real.pi⟩

theorem flat_rule (j : Nat) (hj : 1 ≤ j) (f : ℝ → ℝ) (a b : ℝ) : rule flatOps 1 (2 * j) f a b = some 0 := by
  have hg : ∀ i, guess flatOps (2 * j) i = 0 := by intro i; simp [guess, flatOps]
  have hs : newtonStep (2 * j) (0 : ℝ) = (0, 0, 0) := by
    obtain ⟨k, rfl⟩ : ∃ k, j = k + 1 := ⟨j - 1, by omega⟩
    have hl := legendrePair_eval 0 (2 * k + 1)
    rw [show 2 * k + 1 + 1 = 2 * (k + 1) by ring, P_zero_odd] at hl
    simp [newtonStep, hl]
  have hn : ∀ i, newton (2 * j) 1 0 (1 / 10 ^ 16) (guess flatOps (2 * j) i) = some (0, 0) := by
    intro i; rw [hg i]; simp [newton, hs]
  have hsome : ∀ (k : Nat) (s : (Nat → ℝ) × (Nat → ℝ)), ∃ r, loopM k (glBody flatOps 1 (2 * j)) s = some r := by
    intro k
    induction k with
    | zero => intro s; exact ⟨s, rfl⟩
    | succ k ih =>
      intro s
      obtain ⟨r, hr⟩ := ih s
      unfold loopM at hr ⊢
      rw [List.range_succ, List.foldlM_append, hr]
      have hb : ∃ r', glBody flatOps 1 (2 * j) k r = some r' := by
        unfold glBody
        rw [hn k]
        dsimp only
        split
        · exact ⟨_, rfl⟩
        · exact ⟨_, rfl⟩
      obtain ⟨r', hr'⟩ := hb
      exact ⟨r', by simp [hr']⟩
  obtain ⟨q, hq⟩ := hsome (2 * j / 2 + 2 * j % 2) (fun _ => 0, fun _ => 0)
  have hw : ∀ i, i < 2 * j → q.2 i = 0 := by
    intro i hi
    obtain ⟨h1, -⟩ := gl_spec flatOps 1 (2 * j) _ q hq
    by_cases hk : i < 2 * j / 2 + 2 * j % 2
    · obtain ⟨pa, x, e0, -, -, e3⟩ := h1 i hk
      unfold root at e0
      rw [hn i] at e0
      obtain ⟨rfl, rfl⟩ : 0 = pa ∧ 0 = x := by simpa using e0
      rw [(e3 (by omega)).2]; ring
    · obtain ⟨pa, x, e0, -, e2, -⟩ := h1 (2 * j - 1 - i) (by omega)
      unfold root at e0
      rw [hn] at e0
      obtain ⟨rfl, rfl⟩ : 0 = pa ∧ 0 = x := by simpa using e0
      rw [show 2 * j - 1 - (2 * j - 1 - i) = i by omega] at e2
      rw [e2]; ring
  have hAB : ∃ r, gaussLegendreAB flatOps 1 (2 * j) a b (fun _ => 0, fun _ => 0) = some r := by
    unfold gaussLegendreAB gaussLegendre
    rw [hq]; exact ⟨_, rfl⟩
  obtain ⟨r, hr⟩ := hAB
  have hv : ∃ v, rule flatOps 1 (2 * j) f a b = some v := by unfold rule; rw [hr]; exact ⟨_, rfl⟩
  obtain ⟨v, hv⟩ := hv
  rw [hv]
  obtain ⟨r', hr', e⟩ := rule_eq flatOps 1 (2 * j) f a b v hv
  rw [e]
  congr 1
  apply Finset.sum_eq_zero
  intro i hi
  obtain ⟨q', hq', h2, -⟩ := c32_interval flatOps 1 (2 * j) a b _ r' hr'
  have : q' = q := by
    unfold gaussLegendre at hq'
    rw [hq] at hq'
    exact (Option.some.inj hq').symm
  rw [(h2 i (Finset.mem_range.mp hi)).2, this, hw i (Finset.mem_range.mp hi)]
  ring

theorem flat_quad (j m : Nat) (hj : 1 ≤ j) (hm : 2 * j < m) (f : ℝ → ℝ) (atol rtol : ℝ) (ha : 0 ≤ atol) :
    quad flatOps 1 f (2 * j) m atol rtol = .ok 0 := by
  unfold quad quadrature
  obtain ⟨l, hl⟩ : ∃ l, m - 2 * j = l + 1 := ⟨m - 2 * j - 1, by omega⟩
  rw [hl, iterate, if_pos rfl, flat_rule j hj]
  dsimp only
  have : (decide (|(0 : ℝ) - 0| > atol) && relExceeds |(0 : ℝ) - 0| (0 + 0) rtol) = false := by
    rw [sub_zero, abs_zero]
    simp [not_lt.mpr ha]
  rw [this]
  cases l with
  | zero => rfl
  | succ l => simp [iterate]

example : ∃ s, sizeBased flatOps 1 1 0 1 none none = .ok s := by
  have h1 : initialise flatOps 1 uniformP (1 / 10 ^ 10) (1 / 10 ^ 5) (base (2 * 1)) = .ok
      ⟨1 / 0, 3, Function.update (Function.update (Function.update (fun _ => 0) 0 1) 1 0) 2 0, true⟩ := by
    unfold initialise
    rw [flat_quad 50 1000 (by omega) (by omega) _ _ _ (by norm_num)]
    change (do
      let d ← write (⟨1 / 0, 3, fun _ => 0, true⟩ : Dist ℝ) 0 1
      initCoefs flatOps 1 uniformP d.norm (1 / 10 ^ 10) (1 / 10 ^ 5) (d.size - 1) d) = _
    simp only [write]
    change initCoefs flatOps 1 uniformP (1 / 0) (1 / 10 ^ 10) (1 / 10 ^ 5) 2
      (⟨1 / 0, 3, Function.update (fun _ => 0) 0 1, true⟩ : Dist ℝ) = _
    rw [initCoefs]
    dsimp only
    rw [flat_quad 2 200 (by omega) (by omega) _ _ _ (by norm_num)]
    change initCoefs flatOps 1 uniformP (1 / 0) (1 / 10 ^ 10) (1 / 10 ^ 5) 1
      (⟨1 / 0, 3, Function.update (Function.update (fun _ => 0) 0 1) 1 0, true⟩ : Dist ℝ) = _
    rw [initCoefs]
    dsimp only
    rw [flat_quad 3 300 (by omega) (by omega) _ _ _ (by norm_num)]
    rfl
  unfold sizeBased
  rw [h1]
  exact ⟨_, rfl⟩

end Verif.Orientation
