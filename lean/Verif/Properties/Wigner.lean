import Verif.Properties.Special
import Mathlib.Analysis.Real.Pi.Bounds
import Mathlib.Topology.Algebra.Polynomial

/-!
# C63: the Wigner arrays contain the Wigner functions and their derivatives
-/
namespace Verif.Special

open Verif.Matrix (loop loop_inv loop_self loop_succ)
open Verif.Legendre (P G wigner)

/-- starting value of the recursion -/
theorem wigner_start (θ : ℝ) (m : Nat) :
    loop 0 m (fun i d => d * (realOps.sqrt ((2 * ((i : ℝ) + 1) - 1) / (2 * ((i : ℝ) + 1))) * Real.sin θ)) 1 = wigner m m θ :=
  loop_inv (fun k (d : ℝ) => d = wigner k k θ) (Nat.zero_le m) _ 1 (Legendre.wigner_zero_zero θ).symm (by
    rintro k s _ _ rfl
    rw [Legendre.wigner_diag_succ]
    rfl)

theorem zero_fill (hi : Nat) (s : (Nat → ℝ) × (Nat → ℝ)) :
    ∀ q, (q < hi → (loop 0 hi (fun n (s : (Nat → ℝ) × (Nat → ℝ)) => (Function.update s.1 n 0, Function.update s.2 n 0)) s).1 q = 0
        ∧ (loop 0 hi (fun n (s : (Nat → ℝ) × (Nat → ℝ)) => (Function.update s.1 n 0, Function.update s.2 n 0)) s).2 q = 0)
      ∧ (hi ≤ q → (loop 0 hi (fun n (s : (Nat → ℝ) × (Nat → ℝ)) => (Function.update s.1 n 0, Function.update s.2 n 0)) s).1 q = s.1 q
        ∧ (loop 0 hi (fun n (s : (Nat → ℝ) × (Nat → ℝ)) => (Function.update s.1 n 0, Function.update s.2 n 0)) s).2 q = s.2 q) := by
  refine loop_inv (σ := (Nat → ℝ) × (Nat → ℝ))
    (fun k t => ∀ q, (q < k → t.1 q = 0 ∧ t.2 q = 0) ∧ (k ≤ q → t.1 q = s.1 q ∧ t.2 q = s.2 q))
    (Nat.zero_le hi) _ s ?_ ?_
  · intro q
    exact ⟨fun h => absurd h (by omega), fun _ => ⟨rfl, rfl⟩⟩
  · intro k t _ _ h q
    dsimp only
    by_cases hq : q = k
    · subst hq; simp
    · rw [Function.update_of_ne hq, Function.update_of_ne hq]
      exact ⟨fun h' => (h q).1 (by omega), fun h' => (h q).2 (by omega)⟩

theorem wigner_const_zero (m n : Nat) (h : n < m) (θ : ℝ) : HasDerivAt (wigner m n) 0 θ := by
  have : wigner m n = fun _ => 0 := funext fun x => Legendre.wigner_lt m n h x
  rw [this]
  exact hasDerivAt_const θ 0

theorem wigner_arrays_spec (θ ysc : ℝ) (hθ : 0 < θ) (hπ : θ < Real.pi) (nmax m : Nat) (hm : m ≤ nmax)
    (s : (Nat → ℝ) × (Nat → ℝ)) :
    (∀ n, n < nmax →
      (wignerArrays realOps (Real.cos θ) (Real.sin θ) (1 / Real.sin θ) ysc nmax m s).1 n
          = wigner m (n + 1) θ * (if n + 1 < m then 1 else ysc)
      ∧ HasDerivAt (wigner m (n + 1)) ((wignerArrays realOps (Real.cos θ) (Real.sin θ) (1 / Real.sin θ) ysc nmax m s).2 n) θ)
    ∧ ∀ q, nmax ≤ q → (wignerArrays realOps (Real.cos θ) (Real.sin θ) (1 / Real.sin θ) ysc nmax m s).1 q = s.1 q
      ∧ (wignerArrays realOps (Real.cos θ) (Real.sin θ) (1 / Real.sin θ) ysc nmax m s).2 q = s.2 q := by
  have hs : Real.sin θ ≠ 0 := (Real.sin_pos_of_pos_of_lt_pi hθ hπ).ne'
  by_cases h0 : m = 0
  · subst h0
    have key := loop_inv
      (fun k (t : WState ℝ) => t.d1 = wigner 0 k θ ∧ t.d2 = wigner 0 (k + 1) θ
        ∧ (∀ n, n < k → t.y n = wigner 0 (n + 1) θ * ysc ∧ HasDerivAt (wigner 0 (n + 1)) (t.dy n) θ)
        ∧ ∀ q, k ≤ q → t.y q = s.1 q ∧ t.dy q = s.2 q)
      (Nat.zero_le nmax) (wignerBody0 (Real.cos θ) (1 / Real.sin θ) ysc) ⟨1, Real.cos θ, s.1, s.2⟩
      ⟨(Legendre.wigner_zero_zero θ).symm, (Legendre.wigner_zero_one θ).symm, fun n hn => absurd hn (by omega),
        fun _ _ => ⟨rfl, rfl⟩⟩
      (by
        rintro k t _ _ ⟨h1, h2, h3, h4⟩
        have hrec := Legendre.wigner_rec 0 k (by omega) θ
        have hder := Legendre.wigner_deriv 0 k (by omega) θ hs
        have e1 : Real.sqrt (((k : ℝ) + 1) * (k + 1) - ((0 : ℕ) : ℝ) * ((0 : ℕ) : ℝ)) = (k : ℝ) + 1 := by
          rw [Nat.cast_zero, mul_zero, sub_zero, Real.sqrt_mul_self (by positivity)]
        have e2 : Real.sqrt (((k : ℝ) + 2) * (k + 2) - ((0 : ℕ) : ℝ) * ((0 : ℕ) : ℝ)) = (k : ℝ) + 2 := by
          rw [Nat.cast_zero, mul_zero, sub_zero, Real.sqrt_mul_self (by positivity)]
        rw [e1, e2] at hrec hder
        have hk2 : (k : ℝ) + 2 ≠ 0 := by positivity
        have hk3 : 2 * (k : ℝ) + 3 ≠ 0 := by positivity
        have hd : ((2 * ((k : ℝ) + 1) + 1) * Real.cos θ * wigner 0 (k + 1) θ - ((k : ℝ) + 1) * wigner 0 k θ) / ((k : ℝ) + 2)
            = wigner 0 (k + 2) θ := by
          rw [div_eq_iff hk2]; linear_combination -hrec
        refine ⟨h2, ?_, ?_, ?_⟩
        · simp only [wignerBody0, h1, h2]; exact hd
        · intro n hn
          by_cases hnk : n = k
          · subst hnk
            simp only [wignerBody0, h1, h2, Function.update_self]
            refine ⟨trivial, ?_⟩
            refine hder.congr_deriv ?_
            rw [hd, show 2 * ((n : ℝ) + 1) + 1 = 2 * n + 3 by ring]
            ring
          · simp only [wignerBody0, Function.update_of_ne hnk]
            exact h3 n (by omega)
        · intro q hq
          simp only [wignerBody0, Function.update_of_ne (by omega : q ≠ k)]
          exact h4 q (by omega))
    simp only [wignerArrays, if_true]
    refine ⟨fun n hn => ?_, key.2.2.2⟩
    rw [if_neg (by omega)]
    exact key.2.2.1 n hn
  · have hz := zero_fill (m - 1) s
    simp only [wignerArrays, if_neg h0, wigner_start]
    generalize loop 0 (m - 1) (fun n (s : (Nat → ℝ) × (Nat → ℝ)) => (Function.update s.1 n 0, Function.update s.2 n 0)) s = z at hz ⊢
    have key := loop_inv
      (fun k (t : WState ℝ) => t.d1 = wigner m k θ ∧ t.d2 = wigner m (k + 1) θ
        ∧ (∀ n, n < k → t.y n = wigner m (n + 1) θ * (if n + 1 < m then 1 else ysc) ∧ HasDerivAt (wigner m (n + 1)) (t.dy n) θ)
        ∧ ∀ q, k ≤ q → t.y q = s.1 q ∧ t.dy q = s.2 q)
      (by omega : m - 1 ≤ nmax) (wignerBody realOps m (Real.cos θ) (1 / Real.sin θ) ysc) ⟨0, wigner m m θ, z.1, z.2⟩
      ⟨(Legendre.wigner_lt m (m - 1) (by omega) θ).symm, by rw [show m - 1 + 1 = m by omega], fun n hn => by
          dsimp only
          rw [Legendre.wigner_lt m (n + 1) (by omega) θ, zero_mul, ((hz n).1 hn).1, ((hz n).1 hn).2]
          exact ⟨rfl, wigner_const_zero m (n + 1) (by omega) θ⟩,
        fun q hq => (hz q).2 hq⟩
      (by
        rintro k t hk _ ⟨h1, h2, h3, h4⟩
        have hrec := Legendre.wigner_rec m k (by omega) θ
        have hder := Legendre.wigner_deriv m k (by omega) θ hs
        have hmk : (m : ℝ) ≤ (k : ℝ) + 1 := by exact_mod_cast (by omega : m ≤ k + 1)
        have hm0 : (0 : ℝ) ≤ m := by positivity
        have hk2 : Real.sqrt (((k : ℝ) + 2) * (k + 2) - m * m) ≠ 0 := by
          refine (Real.sqrt_pos.mpr ?_).ne'
          nlinarith
        have hd : ((2 * ((k : ℝ) + 1) + 1) * Real.cos θ * wigner m (k + 1) θ
              - Real.sqrt (((k : ℝ) + 1) * ((k : ℝ) + 1) - m * m) * wigner m k θ)
                / Real.sqrt (((k : ℝ) + 2) * ((k : ℝ) + 2) - m * m)
            = wigner m (k + 2) θ := by
          rw [div_eq_iff hk2]; linear_combination -hrec
        refine ⟨h2, ?_, ?_, ?_⟩
        · simp only [wignerBody, h1, h2, realOps]; exact hd
        · intro n hn
          by_cases hnk : n = k
          · subst hnk
            simp only [wignerBody, h1, h2, realOps, Function.update_self]
            rw [if_neg (by omega)]
            refine ⟨rfl, ?_⟩
            refine hder.congr_deriv ?_
            rw [hd, show 2 * ((n : ℝ) + 1) + 1 = 2 * n + 3 by ring]
          · simp only [wignerBody, Function.update_of_ne hnk]
            exact h3 n (by omega)
        · intro q hq
          simp only [wignerBody, Function.update_of_ne (by omega : q ≠ k)]
          exact h4 q (by omega))
    exact ⟨key.2.2.1, key.2.2.2⟩

/-- **C63** For every angle in `(0, π)`, every `m ≤ nmax` and every previous content of the arrays: element `n-1` of
the first array is the Wigner function `d^n_{0m}` (defined through Rodrigues' formula), element `n-1` of the second its
derivative with respect to the angle, for `1 ≤ n ≤ nmax`; nothing else is written. -/
theorem c63_wigner (θ : ℝ) (hθ : 0 < θ) (hπ : θ < Real.pi) (nmax m : Nat) (hm : m ≤ nmax) (s : (Nat → ℝ) × (Nat → ℝ)) :
    (∀ n, 1 ≤ n → n ≤ nmax → (wignerD realOps (Real.cos θ) nmax m s).1 (n - 1) = wigner m n θ
      ∧ HasDerivAt (wigner m n) ((wignerD realOps (Real.cos θ) nmax m s).2 (n - 1)) θ)
    ∧ ∀ q, nmax ≤ q → (wignerD realOps (Real.cos θ) nmax m s).1 q = s.1 q
      ∧ (wignerD realOps (Real.cos θ) nmax m s).2 q = s.2 q := by
  have hsin : realOps.sqrt ((1 - Real.cos θ) * (1 + Real.cos θ)) = Real.sin θ := by
    have hp := Real.sin_pos_of_pos_of_lt_pi hθ hπ
    show Real.sqrt _ = _
    rw [show (1 - Real.cos θ) * (1 + Real.cos θ) = Real.sin θ ^ 2 by
      have := Real.sin_sq_add_cos_sq θ; nlinarith]
    exact Real.sqrt_sq hp.le
  obtain ⟨h1, h2⟩ := wigner_arrays_spec θ 1 hθ hπ nmax m hm s
  simp only [wignerD, hsin]
  refine ⟨fun n hn1 hn => ?_, h2⟩
  have := h1 (n - 1) (by omega)
  rw [show n - 1 + 1 = n by omega, ite_self, mul_one] at this
  exact this

example : (0 : ℝ) < 1 ∧ (1 : ℝ) < Real.pi ∧ 2 ≤ 3 := ⟨one_pos, by linarith [Real.pi_gt_three], by omega⟩

/-! ## behaviour under reflection and at the poles -/

theorem P_neg (n : Nat) (x : ℝ) : (P n).eval (-x) = (-1) ^ n * (P n).eval x := by
  induction n using Nat.twoStepInduction with
  | zero => simp [Legendre.P_zero]
  | one => simp [Legendre.P_one]
  | more n ih0 ih1 =>
    have h1 := congrArg (Polynomial.eval x) (Legendre.bonnet n)
    have h2 := congrArg (Polynomial.eval (-x)) (Legendre.bonnet n)
    simp only [Polynomial.eval_mul, Polynomial.eval_sub, Polynomial.eval_C, Polynomial.eval_X] at h1 h2
    rw [ih0, ih1] at h2
    have hk : (n : ℝ) + 2 ≠ 0 := by positivity
    apply mul_left_cancel₀ hk
    rw [h2]
    rw [pow_succ, pow_succ]
    linear_combination -(-1 : ℝ) ^ n * h1

theorem G_neg (m n : Nat) (x : ℝ) : (G m n).eval (-x) = (-1) ^ (n + m) * (G m n).eval x := by
  induction m generalizing x with
  | zero => exact P_neg n x
  | succ m ih =>
    rw [← Legendre.der_G]
    have h1 : HasDerivAt (fun x => (G m n).eval (-x)) ((Polynomial.derivative (G m n)).eval (-x) * -1) x :=
      ((G m n).hasDerivAt (-x)).comp x (hasDerivAt_neg x)
    have h2 : HasDerivAt (fun x => (-1) ^ (n + m) * (G m n).eval x) ((-1) ^ (n + m) * (Polynomial.derivative (G m n)).eval x) x :=
      ((G m n).hasDerivAt x).const_mul _
    have h3 : (fun x => (G m n).eval (-x)) = (fun x => (-1) ^ (n + m) * (G m n).eval x) := funext ih
    rw [h3] at h1
    have := h1.unique h2
    rw [← add_assoc, pow_succ]
    linear_combination -this

/-- `d^n_{0m}(π - θ) = (-1)^(n+m) d^n_{0m}(θ)` -/
theorem wigner_reflect (m n : Nat) (θ : ℝ) : wigner m n (Real.pi - θ) = (-1) ^ (n + m) * wigner m n θ := by
  by_cases h : m ≤ n
  · rw [Legendre.wigner_eq m n h, Legendre.wigner_eq m n h, Real.cos_pi_sub, Real.sin_pi_sub, G_neg]
    ring
  · rw [Legendre.wigner_lt m n (by omega), Legendre.wigner_lt m n (by omega), mul_zero]

theorem P_at_one (n : Nat) : (P n).eval 1 = 1 := by
  induction n using Nat.twoStepInduction with
  | zero => simp [Legendre.P_zero]
  | one => simp [Legendre.P_one]
  | more n ih0 ih1 =>
    have h1 := congrArg (Polynomial.eval 1) (Legendre.bonnet n)
    simp only [Polynomial.eval_mul, Polynomial.eval_sub, Polynomial.eval_C, Polynomial.eval_X] at h1
    rw [ih0, ih1] at h1
    have hk : (n : ℝ) + 2 ≠ 0 := by positivity
    apply mul_left_cancel₀ hk
    rw [h1]; ring

theorem G_one_at_one (n : Nat) : (G 1 n).eval 1 = (n : ℝ) * (n + 1) / 2 := by
  induction n with
  | zero => rw [Legendre.G_lt 1 0 (by omega)]; simp
  | succ n ih =>
    have h := congrArg (Polynomial.eval 1) (Legendre.der_P_succ n)
    rw [← Legendre.G_zero, Legendre.der_G, ← Legendre.G_zero, Legendre.der_G] at h
    simp only [Polynomial.eval_mul, Polynomial.eval_add, Polynomial.eval_C, Polynomial.eval_X, Legendre.G_zero, P_at_one] at h
    rw [h, ih]; push_cast; ring

theorem N_one (n : Nat) (hn : 1 ≤ n) : Legendre.N 1 n * ((n : ℝ) * (n + 1) / 2) = 1 / 2 * Real.sqrt ((n : ℝ) * (n + 1)) := by
  unfold Legendre.N
  obtain ⟨k, rfl⟩ := Nat.exists_eq_add_of_le' hn
  have hf : ((k + 1 + 1).factorial : ℝ) = ((k : ℝ) + 1 + 1) * (((k : ℝ) + 1) * k.factorial) := by
    rw [Nat.factorial_succ, Nat.factorial_succ]; push_cast; ring
  rw [Nat.add_sub_cancel, hf]
  have h0 : (k.factorial : ℝ) ≠ 0 := by positivity
  rw [show (k.factorial : ℝ) / (((k : ℝ) + 1 + 1) * (((k : ℝ) + 1) * k.factorial)) = 1 / (((k : ℝ) + 1) * (k + 1 + 1)) by
    field_simp]
  push_cast
  have hp : 0 < ((k : ℝ) + 1) * (k + 1 + 1) := by positivity
  rw [Real.sqrt_div zero_le_one, Real.sqrt_one]
  have hq : Real.sqrt (((k : ℝ) + 1) * (k + 1 + 1)) ≠ 0 := (Real.sqrt_pos.mpr hp).ne'
  have hq2 := Real.sq_sqrt hp.le
  generalize Real.sqrt (((k : ℝ) + 1) * (k + 1 + 1)) = q at hq hq2 ⊢
  rw [← hq2]
  field_simp

/-- derivative of the Wigner function everywhere -/
theorem wigner_hasDeriv (m n : Nat) (h : m ≤ n) (θ : ℝ) :
    HasDerivAt (wigner m n) (Legendre.N m n * ((m : ℝ) * Real.sin θ ^ (m - 1) * Real.cos θ * (G m n).eval (Real.cos θ)
      + Real.sin θ ^ m * ((G (m + 1) n).eval (Real.cos θ) * -Real.sin θ))) θ := by
  have hw : wigner m n = fun t => Legendre.N m n * (Real.sin t ^ m * (G m n).eval (Real.cos t)) := by
    funext t; rw [Legendre.wigner_eq m n h]; ring
  rw [hw]
  have h1 := (Real.hasDerivAt_sin θ).pow m
  have h2 : HasDerivAt (fun t => (G m n).eval (Real.cos t)) ((Polynomial.derivative (G m n)).eval (Real.cos θ) * -Real.sin θ) θ :=
    ((G m n).hasDerivAt (Real.cos θ)).comp θ (Real.hasDerivAt_cos θ)
  rw [Legendre.der_G] at h2
  exact ((h1.mul h2).const_mul (Legendre.N m n)).congr_deriv (by simp)

/-- what the special case for the poles stores -/
theorem pole_spec (m nmax : Nat) (c sx si : ℝ) (hc : c = 1 ∨ c = -1) (s : (Nat → ℝ) × (Nat → ℝ)) :
    (∀ n, n < nmax →
      (wignerDsinx realOps c sx si nmax m s).1 n
        = (if m = 1 then (if c < 0 then (-1) ^ n else 1) * (1 / 2 * Real.sqrt (((n : ℝ) + 1) * ((n : ℝ) + 1 + 1))) else 0)
      ∧ (wignerDsinx realOps c sx si nmax m s).2 n
        = (if m = 1 then (if c < 0 then -(-1) ^ n else 1) * (1 / 2 * Real.sqrt (((n : ℝ) + 1) * ((n : ℝ) + 1 + 1))) else 0))
    ∧ ∀ q, nmax ≤ q → (wignerDsinx realOps c sx si nmax m s).1 q = s.1 q ∧ (wignerDsinx realOps c sx si nmax m s).2 q = s.2 q := by
  have hz : abs (1 - abs c) ≤ 1 / 10 ^ 10 := by
    rcases hc with rfl | rfl <;> norm_num
  unfold wignerDsinx
  rw [if_pos hz]
  by_cases h1 : m = 1
  · simp only [if_pos h1]
    have key := loop_inv (σ := ℝ × (Nat → ℝ) × (Nat → ℝ))
      (fun k t => 1 ≤ k ∧ t.1 = (-1) ^ (k - 1)
        ∧ (∀ n, n + 1 < k →
          t.2.1 n = (if c < 0 then (-1) ^ n else 1) * (1 / 2 * Real.sqrt (((n : ℝ) + 1) * ((n : ℝ) + 1 + 1)))
          ∧ t.2.2 n = (if c < 0 then -(-1) ^ n else 1) * (1 / 2 * Real.sqrt (((n : ℝ) + 1) * ((n : ℝ) + 1 + 1))))
        ∧ ∀ q, k ≤ q + 1 → t.2.1 q = s.1 q ∧ t.2.2 q = s.2 q)
      (by omega : 1 ≤ nmax + 1)
      (fun n (t : ℝ × (Nat → ℝ) × (Nat → ℝ)) =>
        (-t.1, Function.update t.2.1 (n - 1)
            (if c < 0 then 1 / 2 * realOps.sqrt ((n : ℝ) * ((n : ℝ) + 1)) * t.1 else 1 / 2 * realOps.sqrt ((n : ℝ) * ((n : ℝ) + 1))),
          Function.update t.2.2 (n - 1)
            (if c < 0 then -(if c < 0 then 1 / 2 * realOps.sqrt ((n : ℝ) * ((n : ℝ) + 1)) * t.1 else 1 / 2 * realOps.sqrt ((n : ℝ) * ((n : ℝ) + 1)))
              else (if c < 0 then 1 / 2 * realOps.sqrt ((n : ℝ) * ((n : ℝ) + 1)) * t.1 else 1 / 2 * realOps.sqrt ((n : ℝ) * ((n : ℝ) + 1))))))
      (1, s.1, s.2) ⟨le_rfl, by simp, fun n hn => absurd hn (by omega), fun _ _ => ⟨rfl, rfl⟩⟩
      (by
        rintro k t hk _ ⟨_, e1, e2, e3⟩
        refine ⟨by omega, ?_, ?_, ?_⟩
        · dsimp only
          rw [e1, show k + 1 - 1 = (k - 1) + 1 by omega, pow_succ]; ring
        · intro n hn
          by_cases hnk : n = k - 1
          · subst hnk
            have hkc : ((k - 1 : ℕ) : ℝ) + 1 = k := by rw [Nat.cast_sub hk]; simp
            dsimp only
            rw [Function.update_self, Function.update_self, hkc, e1]
            by_cases hneg : c < 0
            · simp only [if_pos hneg, realOps]; constructor <;> ring
            · simp only [if_neg hneg, realOps]; constructor <;> ring
          · dsimp only
            rw [Function.update_of_ne hnk, Function.update_of_ne hnk]
            exact e2 n (by omega)
        · intro q hq
          dsimp only
          rw [Function.update_of_ne (by omega), Function.update_of_ne (by omega)]
          exact e3 q (by omega))
    exact ⟨fun n hn => key.2.2.1 n (by omega), fun q hq => key.2.2.2 q (by omega)⟩
  · simp only [if_neg h1]
    exact ⟨fun n hn => (zero_fill nmax s n).1 hn, fun q hq => (zero_fill nmax s q).2 hq⟩

/-- **C63** (divided by the sine) For every angle in `[0, π]` outside the strip in which the code switches to the
polar values, and at both poles: for `m ≥ 1` element `n-1` of the first array is the value of `d^n_{0m}/sin`, extended by
its limit at the poles; for every `m` element `n-1` of the second array is the derivative of `d^n_{0m}`; nothing else is
written. -/
theorem c63_wigner_sinx (θ : ℝ) (nmax m : Nat) (hm : m ≤ nmax) (s : (Nat → ℝ) × (Nat → ℝ))
    (hθ : (0 < θ ∧ θ < Real.pi ∧ 1 / 10 ^ 10 < abs (1 - abs (Real.cos θ))) ∨ θ = 0 ∨ θ = Real.pi) :
    (∀ n, 1 ≤ n → n ≤ nmax →
      (1 ≤ m → Filter.Tendsto (fun t => wigner m n t / Real.sin t) (nhdsWithin θ {θ}ᶜ)
        (nhds ((wignerDsinx realOps (Real.cos θ) (Real.sin θ) (1 / Real.sin θ) nmax m s).1 (n - 1))))
      ∧ HasDerivAt (wigner m n) ((wignerDsinx realOps (Real.cos θ) (Real.sin θ) (1 / Real.sin θ) nmax m s).2 (n - 1)) θ)
    ∧ ∀ q, nmax ≤ q → (wignerDsinx realOps (Real.cos θ) (Real.sin θ) (1 / Real.sin θ) nmax m s).1 q = s.1 q
      ∧ (wignerDsinx realOps (Real.cos θ) (Real.sin θ) (1 / Real.sin θ) nmax m s).2 q = s.2 q := by
  rcases hθ with ⟨h0, hπ, hc⟩ | hpole
  · have hs : Real.sin θ ≠ 0 := (Real.sin_pos_of_pos_of_lt_pi h0 hπ).ne'
    unfold wignerDsinx
    rw [if_neg (not_le.mpr hc)]
    obtain ⟨h1, h2⟩ := wigner_arrays_spec θ (1 / Real.sin θ) h0 hπ nmax m hm s
    refine ⟨fun n hn1 hn => ?_, h2⟩
    obtain ⟨e1, e2⟩ := h1 (n - 1) (by omega)
    rw [show n - 1 + 1 = n by omega] at e1 e2
    refine ⟨fun _ => ?_, e2⟩
    have hcont : ContinuousAt (fun t => wigner m n t / Real.sin t) θ :=
      e2.continuousAt.div Real.continuous_sin.continuousAt hs
    have : (wignerArrays realOps (Real.cos θ) (Real.sin θ) (1 / Real.sin θ) (1 / Real.sin θ) nmax m s).1 (n - 1)
        = wigner m n θ / Real.sin θ := by
      rw [e1]
      by_cases hlt : n < m
      · rw [Legendre.wigner_lt m n hlt]; simp
      · rw [if_neg hlt]; ring
    rw [this]
    exact hcont.tendsto.mono_left nhdsWithin_le_nhds
  · have hsin : Real.sin θ = 0 := by rcases hpole with rfl | rfl <;> simp
    have hcos : Real.cos θ = 1 ∨ Real.cos θ = -1 := by rcases hpole with rfl | rfl <;> simp
    obtain ⟨h1, h2⟩ := pole_spec m nmax (Real.cos θ) (Real.sin θ) (1 / Real.sin θ) hcos s
    refine ⟨fun n hn1 hn => ?_, h2⟩
    obtain ⟨e1, e2⟩ := h1 (n - 1) (by omega)
    rw [e1, e2]
    have hcast : ((n - 1 : ℕ) : ℝ) + 1 = n := by rw [Nat.cast_sub hn1]; simp
    rw [hcast]
    -- value of `G_1 n` at the pole
    have hG1 : Legendre.N 1 n * (G 1 n).eval (Real.cos θ)
        = (if Real.cos θ < 0 then (-1) ^ (n - 1) else 1) * (1 / 2 * Real.sqrt ((n : ℝ) * (n + 1))) := by
      rcases hcos with h | h
      · rw [h, G_one_at_one, if_neg (by norm_num), one_mul, N_one n hn1]
      · rw [h, G_neg, G_one_at_one, if_pos (by norm_num), show n + 1 = (n - 1) + 2 by omega, pow_add]
        have := N_one n hn1
        linear_combination (-1 : ℝ) ^ (n - 1) * this
    refine ⟨?_, ?_⟩
    · intro hm1
      by_cases hmn : m ≤ n
      · have hlim : Filter.Tendsto (fun t => Legendre.N m n * (Real.sin t ^ (m - 1) * (G m n).eval (Real.cos t))) (nhdsWithin θ {θ}ᶜ)
            (nhds (Legendre.N m n * (Real.sin θ ^ (m - 1) * (G m n).eval (Real.cos θ)))) := by
          have : Continuous fun t => Legendre.N m n * (Real.sin t ^ (m - 1) * (G m n).eval (Real.cos t)) := by
            have hp : Continuous fun t => (G m n).eval (Real.cos t) := (G m n).continuous.comp Real.continuous_cos
            exact continuous_const.mul ((Real.continuous_sin.pow _).mul hp)
          exact this.continuousAt.tendsto.mono_left nhdsWithin_le_nhds
        have hval : Legendre.N m n * (Real.sin θ ^ (m - 1) * (G m n).eval (Real.cos θ))
            = (if m = 1 then (if Real.cos θ < 0 then (-1) ^ (n - 1) else 1) * (1 / 2 * Real.sqrt ((n : ℝ) * (n + 1))) else 0) := by
          by_cases h1' : m = 1
          · subst h1'
            rw [if_pos rfl, ← hG1]; simp
          · rw [if_neg h1', hsin, zero_pow (by omega)]; ring
        rw [hval] at hlim
        refine hlim.congr' ?_
        -- near a pole but away from it the sine does not vanish
        have hne : ∀ᶠ t in nhdsWithin θ {θ}ᶜ, Real.sin t ≠ 0 := by
          have hd := Real.hasDerivAt_sin θ
          have hc0 : Real.cos θ ≠ 0 := by rcases hcos with h | h <;> rw [h] <;> norm_num
          have := hd.eventually_ne hc0 (c := 0)
          exact this
        filter_upwards [hne] with t ht
        rw [Legendre.wigner_eq m n hmn]
        rw [show Real.sin t ^ m = Real.sin t ^ (m - 1) * Real.sin t by
          rw [← pow_succ, show m - 1 + 1 = m by omega]]
        field_simp
      · have h1' : m ≠ 1 := by omega
        rw [if_neg h1']
        simp only [Legendre.wigner_lt m n (by omega), zero_div]
        exact tendsto_const_nhds
    · by_cases hmn : m ≤ n
      · refine (wigner_hasDeriv m n hmn θ).congr_deriv ?_
        by_cases h1' : m = 1
        · subst h1'
          rw [if_pos rfl, hsin]
          have : Legendre.N 1 n * (((1 : ℕ) : ℝ) * (0 : ℝ) ^ (1 - 1) * Real.cos θ * (G 1 n).eval (Real.cos θ)
                + (0 : ℝ) ^ 1 * ((G (1 + 1) n).eval (Real.cos θ) * -0))
              = Real.cos θ * (Legendre.N 1 n * (G 1 n).eval (Real.cos θ)) := by simp; ring
          rw [this, hG1]
          rcases hcos with h | h
          · rw [h]; norm_num
          · rw [h]; norm_num
        · rw [if_neg h1', hsin]
          by_cases h00 : m = 0
          · subst h00; simp
          · rw [zero_pow (by omega), zero_pow (by omega)]; simp
      · rw [if_neg (by omega)]
        exact wigner_const_zero m n (by omega) θ

example : ((0 : ℝ) < Real.pi / 2 ∧ Real.pi / 2 < Real.pi ∧ (1 : ℝ) / 10 ^ 10 < abs (1 - abs (Real.cos (Real.pi / 2)))) := by
  refine ⟨by positivity, by linarith [Real.pi_pos], ?_⟩
  rw [Real.cos_pi_div_two]; norm_num

end Verif.Special
