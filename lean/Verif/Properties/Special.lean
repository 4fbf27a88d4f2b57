import Verif.Model.Special
import Verif.Proofs.Matrix
import Verif.Proofs.Legendre
import Mathlib.Analysis.SpecialFunctions.Pow.Real
import Mathlib.Analysis.SpecialFunctions.Pow.Deriv

/-!
# C30-C33, C60: quadrature points, Wigner functions, Bessel functions, spheroid
-/
namespace Verif.Special

open Verif.Matrix (loop loop_inv loop_self loop_succ)
open Verif.Legendre (P G wigner)

/-- the elementary functions on the reals -/
noncomputable def realOps : Ops ℝ := ⟨Real.sqrt, fun x => x ^ (1 / 3 : ℝ), Real.sin, Real.cos, Real.pi⟩

/-! ## C32: Gauss-Legendre -/

theorem loopM_inv {σ : Type} (Q : Nat → σ → Prop) (body : Nat → σ → Option σ) : ∀ (hi : Nat) (s r : σ), Q 0 s →
    (∀ k s s', k < hi → Q k s → body k s = some s' → Q (k + 1) s') → loopM hi body s = some r → Q hi r := by
  intro hi
  induction hi with
  | zero =>
    intro s r h _ he
    simp only [loopM, List.range_zero, List.foldlM_nil] at he
    cases he
    exact h
  | succ hi ih =>
    intro s r h hs he
    rw [loopM, List.range_succ, List.foldlM_append] at he
    cases h1 : (List.range hi).foldlM (fun s k => body k s) s with
    | none => rw [h1] at he; cases he
    | some t =>
      rw [h1] at he
      have ht := ih s t h (fun k s s' hk => hs k s s' (by omega)) h1
      have he' : body hi t = some r := by
        cases hb : body hi t with
        | none => simp [hb] at he
        | some u => simp [hb] at he; rw [he]
      exact hs hi t r (by omega) ht he'

section

variable {K : Type} [Field K] [LinearOrder K] (o : Ops K)

/-- root `i` (counted from the largest) and `pa` as the Newton iteration leaves them -/
def root (fuel order i : Nat) : Option (K × K) := newton order fuel 0 (1 / 10 ^ 16) (guess o order i)

/-- what the two arrays contain afterwards, whatever they contained before -/
theorem gl_spec (fuel order : Nat) (s r : (Nat → K) × (Nat → K)) (h : gaussLegendre o fuel order s = some r) :
    (∀ i, i < order / 2 + order % 2 → ∃ pa x, root o fuel order i = some (pa, x)
      ∧ r.1 (order - 1 - i) = x ∧ r.2 (order - 1 - i) = 2 * pa * pa * (1 - x * x)
      ∧ (i ≠ order - 1 - i → r.1 i = -x ∧ r.2 i = 2 * pa * pa * (1 - x * x)))
    ∧ (∀ q, order ≤ q → r.1 q = s.1 q ∧ r.2 q = s.2 q) := by
  have key := loopM_inv
    (fun k t => (∀ i, i < k → ∃ pa x, root o fuel order i = some (pa, x)
        ∧ t.1 (order - 1 - i) = x ∧ t.2 (order - 1 - i) = 2 * pa * pa * (1 - x * x)
        ∧ (i ≠ order - 1 - i → t.1 i = -x ∧ t.2 i = 2 * pa * pa * (1 - x * x)))
      ∧ (∀ q, order ≤ q → t.1 q = s.1 q ∧ t.2 q = s.2 q))
    (glBody o fuel order) (order / 2 + order % 2) s r ⟨by intro i hi; omega, fun _ _ => ⟨rfl, rfl⟩⟩
    (by
      rintro k ⟨p, w⟩ t' hk ⟨hi, hf⟩ hb
      unfold glBody at hb
      cases hr : newton order fuel 0 (1 / 10 ^ 16) (guess o order k) with
      | none => rw [hr] at hb; cases hb
      | some v =>
        obtain ⟨pa, x⟩ := v
        rw [hr] at hb
        dsimp only at hb
        have hko : k < order := by omega
        have hsub : order - k - 1 = order - 1 - k := by omega
        rw [hsub] at hb
        by_cases hmid : k = order - 1 - k
        · have hc : ¬(k ≠ order / 2 + order % 2 - 1 ∨ order % 2 ≠ 1) := by omega
          rw [if_neg hc] at hb
          cases hb
          refine ⟨?_, ?_⟩
          · intro i hik
            by_cases hie : i = k
            · subst hie
              exact ⟨pa, x, hr, by simp, by simp, fun hne => absurd hmid hne⟩
            · obtain ⟨pa', x', h1, h2, h3, h4⟩ := hi i (by omega)
              refine ⟨pa', x', h1, ?_, ?_, ?_⟩
              · dsimp only; rw [Function.update_of_ne (by omega)]; exact h2
              · dsimp only; rw [Function.update_of_ne (by omega)]; exact h3
              · intro hne
                dsimp only
                rw [Function.update_of_ne (by omega), Function.update_of_ne (by omega)]
                exact h4 hne
          · intro q hq
            dsimp only
            rw [Function.update_of_ne (by omega), Function.update_of_ne (by omega)]
            exact hf q hq
        · have hc : k ≠ order / 2 + order % 2 - 1 ∨ order % 2 ≠ 1 := by omega
          rw [if_pos hc] at hb
          cases hb
          refine ⟨?_, ?_⟩
          · intro i hik
            by_cases hie : i = k
            · subst hie
              refine ⟨pa, x, hr, ?_, ?_, ?_⟩
              · dsimp only; rw [Function.update_of_ne (by omega)]; simp
              · dsimp only; rw [Function.update_of_ne (by omega)]; simp
              · intro _; simp
            · obtain ⟨pa', x', h1, h2, h3, h4⟩ := hi i (by omega)
              refine ⟨pa', x', h1, ?_, ?_, ?_⟩
              · dsimp only
                rw [Function.update_of_ne (by omega), Function.update_of_ne (by omega)]; exact h2
              · dsimp only
                rw [Function.update_of_ne (by omega), Function.update_of_ne (by omega)]; exact h3
              · intro hne
                dsimp only
                rw [Function.update_of_ne (by omega), Function.update_of_ne (by omega), Function.update_of_ne (by omega),
                  Function.update_of_ne (by omega)]
                exact h4 hne
          · intro q hq
            dsimp only
            rw [Function.update_of_ne (by omega), Function.update_of_ne (by omega), Function.update_of_ne (by omega),
              Function.update_of_ne (by omega)]
            exact hf q hq)
    h
  exact key

/-- **C32** (symmetry) Whenever the roots have been found, for every order: points at mirrored positions are opposite
(except the middle one of an odd rule with itself), weights at mirrored positions are equal, no element beyond the
order is touched, and the result does not depend on what the arrays contained. -/
theorem c32_symmetric (fuel order : Nat) (s r : (Nat → K) × (Nat → K)) (h : gaussLegendre o fuel order s = some r) :
    (∀ i, i < order → i ≠ order - 1 - i → r.1 (order - 1 - i) = -r.1 i)
    ∧ (∀ i, i < order → r.2 (order - 1 - i) = r.2 i)
    ∧ (∀ q, order ≤ q → r.1 q = s.1 q ∧ r.2 q = s.2 q)
    ∧ (∀ s' r', gaussLegendre o fuel order s' = some r' → ∀ i, i < order → r'.1 i = r.1 i ∧ r'.2 i = r.2 i) := by
  obtain ⟨h1, h2⟩ := gl_spec o fuel order s r h
  refine ⟨?_, ?_, h2, ?_⟩
  · intro i hi hne
    by_cases hik : i < order / 2 + order % 2
    · obtain ⟨pa, x, _, e1, _, e3⟩ := h1 i hik
      rw [e1, (e3 hne).1]; simp
    · obtain ⟨pa, x, _, e1, _, e3⟩ := h1 (order - 1 - i) (by omega)
      rw [show order - 1 - (order - 1 - i) = i by omega] at e1 e3
      rw [e1, (e3 (by omega)).1]
  · intro i hi
    by_cases hm : i = order - 1 - i
    · rw [← hm]
    · by_cases hik : i < order / 2 + order % 2
      · obtain ⟨pa, x, _, _, e2, e3⟩ := h1 i hik
        rw [e2, (e3 hm).2]
      · obtain ⟨pa, x, _, _, e2, e3⟩ := h1 (order - 1 - i) (by omega)
        rw [show order - 1 - (order - 1 - i) = i by omega] at e2 e3
        rw [e2, (e3 (by omega)).2]
  · intro s' r' h' i hi
    obtain ⟨h1', _⟩ := gl_spec o fuel order s' r' h'
    by_cases hik : i < order / 2 + order % 2
    · obtain ⟨pa, x, e0, e1, e2, e3⟩ := h1 i hik
      obtain ⟨pa', x', e0', e1', e2', e3'⟩ := h1' i hik
      rw [e0] at e0'
      obtain ⟨rfl, rfl⟩ : pa = pa' ∧ x = x' := by simpa using e0'
      by_cases hm : i = order - 1 - i
      · rw [← hm] at e1 e2 e1' e2'
        rw [e1, e2, e1', e2']; exact ⟨rfl, rfl⟩
      · rw [(e3 hm).1, (e3 hm).2, (e3' hm).1, (e3' hm).2]; exact ⟨rfl, rfl⟩
    · have hj : order - 1 - (order - 1 - i) = i := by omega
      obtain ⟨pa, x, e0, e1, e2, _⟩ := h1 (order - 1 - i) (by omega)
      obtain ⟨pa', x', e0', e1', e2', _⟩ := h1' (order - 1 - i) (by omega)
      rw [e0] at e0'
      obtain ⟨rfl, rfl⟩ : pa = pa' ∧ x = x' := by simpa using e0'
      rw [hj] at e1 e2 e1' e2'
      rw [e1, e2, e1', e2']; exact ⟨rfl, rfl⟩

/-- **C32** (interval) The rule on `[a, b]` is the affine image of the rule on `[-1, 1]`: so the weights sum to
`(b-a)/2` times the sum of the original weights, and every integrand is summed at the mapped points. -/
theorem c32_interval (fuel order : Nat) (a b : K) (s r : (Nat → K) × (Nat → K))
    (h : gaussLegendreAB o fuel order a b s = some r) :
    ∃ q, gaussLegendre o fuel order s = some q
      ∧ (∀ i, i < order → r.1 i = (b - a) / 2 * q.1 i + (a + b) / 2 ∧ r.2 i = (b - a) / 2 * q.2 i)
      ∧ (∀ i, order ≤ i → r.1 i = s.1 i ∧ r.2 i = s.2 i)
      ∧ (∀ f : K → K, ∑ i ∈ Finset.range order, r.2 i * f (r.1 i)
          = (b - a) / 2 * ∑ i ∈ Finset.range order, q.2 i * f ((b - a) / 2 * q.1 i + (a + b) / 2)) := by
  unfold gaussLegendreAB at h
  cases hq : gaussLegendre o fuel order s with
  | none => rw [hq] at h; cases h
  | some q =>
    rw [hq] at h
    simp only [Option.map_some, Option.some.injEq] at h
    have key := loop_inv (σ := (Nat → K) × (Nat → K))
      (fun k t => ∀ i, t.1 i = (if i < k then 1 / 2 * (b - a) * q.1 i + 1 / 2 * (a + b) else q.1 i)
        ∧ t.2 i = (if i < k then q.2 i * (1 / 2 * (b - a)) else q.2 i))
      (Nat.zero_le order)
      (fun i s => (Function.update s.1 i (1 / 2 * (b - a) * s.1 i + 1 / 2 * (a + b)),
        Function.update s.2 i (s.2 i * (1 / 2 * (b - a))))) q
      (by intro i; simp)
      (by
        intro k t _ hk ht i
        by_cases hik : i = k
        · subst hik
          have := ht i
          simp only [lt_irrefl, if_false] at this
          simp [this.1, this.2]
        · have := ht i
          dsimp only
          rw [Function.update_of_ne hik, Function.update_of_ne hik, this.1, this.2]
          exact ⟨if_congr (by omega) rfl rfl, if_congr (by omega) rfl rfl⟩)
    rw [h] at key
    have hin : ∀ i, i < order → r.1 i = (b - a) / 2 * q.1 i + (a + b) / 2 ∧ r.2 i = (b - a) / 2 * q.2 i := by
      intro i hi
      have := key i
      rw [if_pos hi, if_pos hi] at this
      exact ⟨by rw [this.1]; ring, by rw [this.2]; ring⟩
    refine ⟨q, rfl, hin, ?_, ?_⟩
    · intro i hi
      have := key i
      rw [if_neg (by omega), if_neg (by omega)] at this
      rw [this.1, this.2]
      exact (c32_symmetric o fuel order s q hq).2.2.1 i hi
    · intro f
      rw [Finset.mul_sum]
      refine Finset.sum_congr rfl fun i hi => ?_
      have := hin i (by simpa using hi)
      rw [this.1, this.2]
      ring

/-- the hypothesis is met: the iteration for the rule of order 2 finishes from a guess near the root -/
example : (gaussLegendre (K := ℚ) ⟨id, id, id, fun _ => 3 / 5, 3⟩ 20 2 (fun _ => 0, fun _ => 0)).isSome = true := by
  decide +kernel

end

theorem legendrePair_eval (x : ℝ) : ∀ n : Nat,
    legendrePair (n + 1) x = ((P n).eval x, (P (n + 1)).eval x) := by
  intro n
  induction n with
  | zero => simp [legendrePair, loop_self, Legendre.P_zero, Legendre.P_one]
  | succ n ih =>
    unfold legendrePair at ih ⊢
    rw [loop_succ (by omega), ih]
    simp only [Prod.mk.injEq, true_and]
    have hb := congrArg (Polynomial.eval x) (Legendre.bonnet n)
    simp only [Polynomial.eval_mul, Polynomial.eval_sub, Polynomial.eval_C, Polynomial.eval_X] at hb
    have h2 : (n : ℝ) + 2 ≠ 0 := by positivity
    have : (P (n + 2)).eval x = ((2 * (n : ℝ) + 3) * (x * (P (n + 1)).eval x) - ((n : ℝ) + 1) * (P n).eval x) / ((n : ℝ) + 2) := by
      rw [eq_div_iff h2]; linear_combination hb
    rw [this]
    push_cast
    have h3 : (n : ℝ) + 1 + 1 ≠ 0 := by positivity
    field_simp
    ring

/-- **C32** (roots) The iteration is Newton's method for the Legendre polynomial of that order (Rodrigues' formula):
the recursion evaluates it, the correction is `P_n / P_n'`, and a point that the iteration leaves unchanged is a root
of `P_n`, with the classical weight `2 / ((1-x^2) P_n'(x)^2)`. -/
theorem c32_newton (n : Nat) (x : ℝ) (hx : x ^ 2 ≠ 1) (hd : (Polynomial.derivative (P (n + 1))).eval x ≠ 0) :
    legendrePair (n + 1) x = ((P n).eval x, (P (n + 1)).eval x)
    ∧ (newtonStep (n + 1) x).2.2 = x - (P (n + 1)).eval x / (Polynomial.derivative (P (n + 1))).eval x
    ∧ ((newtonStep (n + 1) x).2.2 = x ↔ (P (n + 1)).eval x = 0)
    ∧ 2 * (newtonStep (n + 1) x).1 * (newtonStep (n + 1) x).1 * (1 - x * x)
        = 2 / ((1 - x ^ 2) * (Polynomial.derivative (P (n + 1))).eval x ^ 2) := by
  have hl := legendrePair_eval x n
  have h1x : 1 - x ^ 2 ≠ 0 := fun h => hx (by linarith)
  have hg := congrArg (Polynomial.eval x) (Legendre.G_der 0 n)
  simp only [Polynomial.eval_mul, Polynomial.eval_sub, Polynomial.eval_C, Polynomial.eval_X, Polynomial.eval_one,
    Polynomial.eval_pow, Legendre.G_zero, Nat.cast_zero, add_zero, sub_zero] at hg
  rw [← Legendre.der_G, Legendre.G_zero] at hg
  have hpa : (newtonStep (n + 1) x).1 = 1 / ((1 - x ^ 2) * (Polynomial.derivative (P (n + 1))).eval x) := by
    simp only [newtonStep, hl]
    congr 1
    push_cast
    linear_combination -hg
  have hstep : (newtonStep (n + 1) x).2.2 = x - (P (n + 1)).eval x / (Polynomial.derivative (P (n + 1))).eval x := by
    have : (newtonStep (n + 1) x).2.2 = x - (newtonStep (n + 1) x).1 * (P (n + 1)).eval x * (1 - x * x) := by
      simp only [newtonStep, hl]
    rw [this, hpa]
    congr 1
    rw [show 1 - x * x = 1 - x ^ 2 by ring]
    field_simp
  refine ⟨hl, hstep, ?_, ?_⟩
  · rw [hstep]
    constructor
    · intro h
      have : (P (n + 1)).eval x / (Polynomial.derivative (P (n + 1))).eval x = 0 := by linarith
      rcases div_eq_zero_iff.mp this with h | h
      · exact h
      · exact absurd h hd
    · intro h; rw [h]; simp
  · rw [hpa, show 1 - x * x = 1 - x ^ 2 by ring]
    field_simp

theorem legendrePair_zero : ∀ j : Nat, (legendrePair (2 * j + 1) (0 : ℝ)).2 = 0
  | 0 => by simp [legendrePair, loop_self]
  | j + 1 => by
    have ih := legendrePair_zero j
    unfold legendrePair at ih ⊢
    rw [show 2 * (j + 1) + 1 = (2 * j + 1 + 1) + 1 by ring, loop_succ (by omega), loop_succ (by omega)]
    generalize loop 1 (2 * j + 1) (fun j (s : ℝ × ℝ) => (s.2, 0 * s.2 + (0 * s.2 - s.1) * (j : ℝ) / ((j : ℝ) + 1))) (1, 0) = t at ih ⊢
    simp [ih]

/-- **C32** (middle) the middle point of an odd rule is exactly zero -/
theorem c32_middle (fuel j : Nat) (s r : (Nat → ℝ) × (Nat → ℝ))
    (h : gaussLegendre realOps fuel (2 * j + 1) s = some r) : r.1 j = 0 := by
  obtain ⟨h1, _⟩ := gl_spec realOps fuel (2 * j + 1) s r h
  obtain ⟨pa, x, e0, e1, _, _⟩ := h1 j (by omega)
  rw [show 2 * j + 1 - 1 - j = j by omega] at e1
  rw [e1]
  have hg : guess realOps (2 * j + 1) j = 0 := by
    unfold guess
    have : realOps.pi * ((j : ℝ) + 3 / 4) / (((2 * j + 1 : ℕ) : ℝ) + 1 / 2) = Real.pi / 2 := by
      push_cast
      have : (2 * (j : ℝ) + 1 + 1 / 2) ≠ 0 := by positivity
      simp only [realOps]
      field_simp
      ring
    simp only [this]
    simp [realOps]
  unfold root at e0
  rw [hg] at e0
  cases fuel with
  | zero => simp [newton] at e0
  | succ fuel =>
    rw [newton] at e0
    have hz : (newtonStep (2 * j + 1) (0 : ℝ)).2.1 = 0 ∧ (newtonStep (2 * j + 1) (0 : ℝ)).2.2 = 0 := by
      simp [newtonStep, legendrePair_zero]
    simp only [hz.1, hz.2, abs_zero, mul_zero, lt_irrefl, gt_iff_lt, if_false, Option.some.injEq, Prod.mk.injEq] at e0
    exact e0.2.symm

/-! ## C33: the spheroid -/

section

variable {K : Type} [Field K] (o : Ops K)

theorem rDr_spec (ct : Nat → K) (size : Nat) (d : K) (s : (Nat → K) × (Nat → K)) :
    (∀ i, i < size / 2 →
      (rDrSpheroid o ct size d s).1 i = o.cbrt d * o.cbrt d * (1 / ((1 - ct i) * (1 + ct i) + d * d * (ct i * ct i)))
      ∧ (rDrSpheroid o ct size d s).1 (size - 1 - i)
        = o.cbrt d * o.cbrt d * (1 / ((1 - ct i) * (1 + ct i) + d * d * (ct i * ct i)))
      ∧ (rDrSpheroid o ct size d s).2 i = 1 / ((1 - ct i) * (1 + ct i) + d * d * (ct i * ct i)) * ct i
          * o.sqrt ((1 - ct i) * (1 + ct i)) * (d * d - 1)
      ∧ (rDrSpheroid o ct size d s).2 (size - 1 - i) = -(1 / ((1 - ct i) * (1 + ct i) + d * d * (ct i * ct i)) * ct i
          * o.sqrt ((1 - ct i) * (1 + ct i)) * (d * d - 1)))
    ∧ ∀ q, size ≤ q → (rDrSpheroid o ct size d s).1 q = s.1 q ∧ (rDrSpheroid o ct size d s).2 q = s.2 q := by
  unfold rDrSpheroid
  dsimp only
  refine loop_inv (σ := (Nat → K) × (Nat → K))
    (fun k t => (∀ i, i < k →
      t.1 i = o.cbrt d * o.cbrt d * (1 / ((1 - ct i) * (1 + ct i) + d * d * (ct i * ct i)))
      ∧ t.1 (size - 1 - i) = o.cbrt d * o.cbrt d * (1 / ((1 - ct i) * (1 + ct i) + d * d * (ct i * ct i)))
      ∧ t.2 i = 1 / ((1 - ct i) * (1 + ct i) + d * d * (ct i * ct i)) * ct i
          * o.sqrt ((1 - ct i) * (1 + ct i)) * (d * d - 1)
      ∧ t.2 (size - 1 - i) = -(1 / ((1 - ct i) * (1 + ct i) + d * d * (ct i * ct i)) * ct i
          * o.sqrt ((1 - ct i) * (1 + ct i)) * (d * d - 1)))
      ∧ ∀ q, size ≤ q → t.1 q = s.1 q ∧ t.2 q = s.2 q)
    (Nat.zero_le _) _ s ⟨by intro i hi; omega, fun _ _ => ⟨rfl, rfl⟩⟩ ?_
  rintro k t _ hk ⟨h1, h2⟩
  have hs : size - k - 1 = size - 1 - k := by omega
  rw [hs]
  refine ⟨?_, ?_⟩
  · intro i hi
    by_cases hik : i = k
    · subst hik
      have hne : i ≠ size - 1 - i := by omega
      refine ⟨?_, ?_, ?_, ?_⟩
      · dsimp only; rw [Function.update_of_ne hne]; simp
      · simp
      · dsimp only; rw [Function.update_of_ne hne]; simp
      · simp
    · obtain ⟨e1, e2, e3, e4⟩ := h1 i (by omega)
      have n1 : i ≠ k := hik
      have n2 : i ≠ size - 1 - k := by omega
      have n3 : size - 1 - i ≠ k := by omega
      have n4 : size - 1 - i ≠ size - 1 - k := by omega
      dsimp only
      simp only [Function.update_of_ne n1, Function.update_of_ne n2, Function.update_of_ne n3, Function.update_of_ne n4]
      exact ⟨e1, e2, e3, e4⟩
  · intro q hq
    dsimp only
    rw [Function.update_of_ne (by omega), Function.update_of_ne (by omega), Function.update_of_ne (by omega),
      Function.update_of_ne (by omega)]
    exact h2 q hq

end

/-- distance from the centre to the surface, in the direction `θ`, of the spheroid with semi-axes `a` (equatorial) and
`b` (along the symmetry axis): the point at that distance is on the surface -/
def OnSpheroid (a b r θ : ℝ) : Prop := (r * Real.sin θ) ^ 2 / a ^ 2 + (r * Real.cos θ) ^ 2 / b ^ 2 = 1

/-- **C33** For every even number of points, symmetric angles and axis ratio `d > 0`: there are semi-axes with ratio
`d` and the volume of the unit sphere (`a² b = 1`) such that every tabulated `r²` belongs to a point on that spheroid
in the direction of the quadrature point, and the tabulated derivative is the logarithmic derivative of the surface;
mirrored points have the same radius and opposite derivatives; nothing beyond the tables is written. -/
theorem c33_spheroid (n : Nat) (d : ℝ) (hd : 0 < d) (θ : Nat → ℝ) (hθ : ∀ i, i < 2 * n → 0 < θ i ∧ θ i < Real.pi)
    (hsym : ∀ i, i < 2 * n → θ (2 * n - 1 - i) = Real.pi - θ i) (s : (Nat → ℝ) × (Nat → ℝ)) :
    let t := rDrSpheroid realOps (fun i => Real.cos (θ i)) (2 * n) d s
    ∃ (a b : ℝ) (r : ℝ → ℝ), 0 < a ∧ 0 < b ∧ a / b = d ∧ a ^ 2 * b = 1
      ∧ (∀ x, 0 < r x ∧ OnSpheroid a b (r x) x)
      ∧ (∀ i, i < 2 * n → t.1 i = r (θ i) ^ 2 ∧ HasDerivAt r (t.2 i * r (θ i)) (θ i))
      ∧ (∀ i, i < 2 * n → t.1 (2 * n - 1 - i) = t.1 i ∧ t.2 (2 * n - 1 - i) = -t.2 i)
      ∧ (∀ q, 2 * n ≤ q → t.1 q = s.1 q ∧ t.2 q = s.2 q) := by
  intro t
  set a : ℝ := d ^ (1 / 3 : ℝ) with ha
  have ha0 : 0 < a := Real.rpow_pos_of_pos hd _
  have ha3 : a ^ 3 = d := by
    rw [ha, ← Real.rpow_natCast, ← Real.rpow_mul hd.le]; norm_num
  have hden : ∀ x : ℝ, 0 < Real.sin x ^ 2 + d ^ 2 * Real.cos x ^ 2 := by
    intro x
    by_cases hc : Real.cos x = 0
    · have := Real.sin_sq_add_cos_sq x
      rw [hc] at this ⊢
      nlinarith
    · have : 0 < Real.cos x ^ 2 := by positivity
      nlinarith [sq_nonneg (Real.sin x), mul_pos (pow_pos hd 2) this]
  let r : ℝ → ℝ := fun x => a / Real.sqrt (Real.sin x ^ 2 + d ^ 2 * Real.cos x ^ 2)
  have hr2 : ∀ x, r x ^ 2 = a ^ 2 / (Real.sin x ^ 2 + d ^ 2 * Real.cos x ^ 2) := by
    intro x
    simp only [r, div_pow, Real.sq_sqrt (hden x).le]
  have hrpos : ∀ x, 0 < r x := fun x => div_pos ha0 (Real.sqrt_pos.mpr (hden x))
  have hder : ∀ x, HasDerivAt r
      (1 / (Real.sin x ^ 2 + d ^ 2 * Real.cos x ^ 2) * Real.cos x * Real.sin x * (d * d - 1) * r x) x := by
    intro x
    have h1 : HasDerivAt (fun x => Real.sin x ^ 2 + d ^ 2 * Real.cos x ^ 2)
        (2 * Real.sin x * Real.cos x + d ^ 2 * (2 * Real.cos x * -Real.sin x)) x := by
      have e1 := (Real.hasDerivAt_sin x).pow 2
      have e2 := ((Real.hasDerivAt_cos x).pow 2).const_mul (d ^ 2)
      have := e1.add e2
      refine (this.congr_deriv ?_)
      simp
    have h2 := (h1.sqrt (hden x).ne')
    have hsq : Real.sqrt (Real.sin x ^ 2 + d ^ 2 * Real.cos x ^ 2) ≠ 0 := (Real.sqrt_pos.mpr (hden x)).ne'
    have h3 := (hasDerivAt_const x a).div h2 hsq
    refine h3.congr_deriv ?_
    have hs2 : Real.sqrt (Real.sin x ^ 2 + d ^ 2 * Real.cos x ^ 2) ^ 2 = Real.sin x ^ 2 + d ^ 2 * Real.cos x ^ 2 :=
      Real.sq_sqrt (hden x).le
    simp only [r]
    generalize Real.sqrt (Real.sin x ^ 2 + d ^ 2 * Real.cos x ^ 2) = q at hs2 hsq ⊢
    rw [← hs2]
    field_simp
    ring
  obtain ⟨hspec, hframe⟩ := rDr_spec realOps (fun i => Real.cos (θ i)) (2 * n) d s
  have hsin : ∀ i, i < 2 * n → Real.sqrt ((1 - Real.cos (θ i)) * (1 + Real.cos (θ i))) = Real.sin (θ i) := by
    intro i hi
    have h := hθ i hi
    have hp := Real.sin_pos_of_pos_of_lt_pi h.1 h.2
    rw [show (1 - Real.cos (θ i)) * (1 + Real.cos (θ i)) = Real.sin (θ i) ^ 2 by
      have := Real.sin_sq_add_cos_sq (θ i); nlinarith]
    exact Real.sqrt_sq hp.le
  have hcossym : ∀ i, i < 2 * n → Real.cos (θ (2 * n - 1 - i)) = -Real.cos (θ i)
      ∧ Real.sin (θ (2 * n - 1 - i)) = Real.sin (θ i) := by
    intro i hi
    rw [hsym i hi, Real.cos_pi_sub, Real.sin_pi_sub]; exact ⟨rfl, rfl⟩
  have hval : ∀ i, i < 2 * n → t.1 i = r (θ i) ^ 2
      ∧ t.2 i = 1 / (Real.sin (θ i) ^ 2 + d ^ 2 * Real.cos (θ i) ^ 2) * Real.cos (θ i) * Real.sin (θ i) * (d * d - 1) := by
    intro i hi
    have hid : ∀ j, (1 - Real.cos (θ j)) * (1 + Real.cos (θ j)) + d * d * (Real.cos (θ j) * Real.cos (θ j))
        = Real.sin (θ j) ^ 2 + d ^ 2 * Real.cos (θ j) ^ 2 := by
      intro j
      have := Real.sin_sq_add_cos_sq (θ j)
      linear_combination -this
    by_cases hin : i < n
    · obtain ⟨e1, _, e3, _⟩ := hspec i (by omega)
      refine ⟨?_, ?_⟩
      · rw [hr2]
        refine e1.trans ?_
        simp only [hid, realOps, ← ha]
        ring
      · refine e3.trans ?_
        simp only [hid]
        rw [show realOps.sqrt = Real.sqrt from rfl, hsin i hi]
    · obtain ⟨_, e2, _, e4⟩ := hspec (2 * n - 1 - i) (by omega)
      rw [show 2 * n - 1 - (2 * n - 1 - i) = i by omega] at e2 e4
      obtain ⟨hc, hs⟩ := hcossym i hi
      refine ⟨?_, ?_⟩
      · rw [hr2]
        refine e2.trans ?_
        simp only [hid, realOps, ← ha]
        rw [hc, hs]
        ring
      · refine e4.trans ?_
        simp only [hid]
        rw [show realOps.sqrt = Real.sqrt from rfl, hsin _ (by omega), hc, hs]
        ring
  refine ⟨a, a / d, r, ha0, div_pos ha0 hd, by field_simp, ?_, ?_, ?_, ?_, hframe⟩
  · rw [← ha3]; field_simp
  · intro x
    refine ⟨hrpos x, ?_⟩
    unfold OnSpheroid
    rw [mul_pow, mul_pow, hr2]
    have := (hden x).ne'
    field_simp
  · intro i hi
    obtain ⟨e1, e2⟩ := hval i hi
    exact ⟨e1, by rw [e2]; exact hder (θ i)⟩
  · intro i hi
    obtain ⟨e1, e2⟩ := hval i hi
    obtain ⟨e1', e2'⟩ := hval (2 * n - 1 - i) (by omega)
    obtain ⟨hc, hs⟩ := hcossym i hi
    refine ⟨?_, ?_⟩
    · rw [e1, e1', hr2, hr2, hc, hs]; simp
    · rw [e2, e2', hc, hs]; ring

example : ∃ θ : Nat → ℝ, (∀ i, i < 2 * 1 → 0 < θ i ∧ θ i < Real.pi)
    ∧ ∀ i, i < 2 * 1 → θ (2 * 1 - 1 - i) = Real.pi - θ i := by
  have hpi := Real.pi_pos
  refine ⟨fun i => if i = 0 then Real.pi / 4 else Real.pi - Real.pi / 4, ?_, ?_⟩
  · intro i hi
    rcases (by omega : i = 0 ∨ i = 1) with rfl | rfl
    · simp only [if_true]; constructor <;> linarith
    · simp only [one_ne_zero, if_false]; constructor <;> linarith
  · intro i hi
    rcases (by omega : i = 0 ∨ i = 1) with rfl | rfl <;> norm_num

end Verif.Special
