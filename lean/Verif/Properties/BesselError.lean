import Verif.Properties.Bessel
import Verif.Properties.Special
import Mathlib.Analysis.Calculus.MeanValue
import Mathlib.Data.Nat.Factorial.DoubleFactorial
import Mathlib.Analysis.Complex.Trigonometric
import Mathlib.Tactic.Linarith
import Mathlib.Tactic.Positivity

/-!
# C62: what the arrays of the first kind contain, exactly, and how far that is from the spherical Bessel functions

The code assumes the ratio `z / 1601` for the orders 800 and 799.  In exact arithmetic it returns the combination of the functions of the
first and second kind that vanishes at order 801.
-/
namespace Verif.Bessel

open Finset
open scoped Nat
open Verif.Matrix (loop loop_inv loop_self loop_succ)
open Verif.Special (Ops realOps sphericalY sphericalJ besselRho besselNmax)

/-! ## exact formula -/

section
variable {𝕜 : Type} [NontriviallyNormedField 𝕜]

/-- two solutions of the same three-term recurrence: their determinant does not depend on the order -/
theorem casorati {c u v : Nat → 𝕜} {N : Nat} (hu : ∀ n, n < N → u (n + 2) = c n * u (n + 1) - u n)
    (hv : ∀ n, n < N → v (n + 2) = c n * v (n + 1) - v n) : ∀ n, n ≤ N → u n * v (n + 1) - u (n + 1) * v n = u 0 * v 1 - u 1 * v 0 := by
  intro n
  induction n with
  | zero => intro _; rfl
  | succ n ih =>
    intro h
    rw [hu n (by omega), hv n (by omega), ← ih (by omega)]
    ring

/-- a solution that starts with two zeros is zero -/
theorem recurrence_zero {c u : Nat → 𝕜} {N : Nat} (hu : ∀ n, n < N → u (n + 2) = c n * u (n + 1) - u n) (h0 : u 0 = 0) (h1 : u 1 = 0) :
    ∀ n, n ≤ N + 1 → u n = 0 := by
  have : ∀ n, n ≤ N → u n = 0 ∧ u (n + 1) = 0 := by
    intro n
    induction n with
    | zero => intro _; exact ⟨h0, h1⟩
    | succ n ih =>
      intro h
      obtain ⟨a, b⟩ := ih (by omega)
      exact ⟨b, by rw [hu n (by omega), a, b]; ring⟩
  intro n hn
  rcases n with _ | n
  · exact h0
  · exact (this n (by omega)).2

/-- the ratios of the code, continued by zero -/
noncomputable def ext (z : 𝕜) (rho0 : Nat → 𝕜) (j0 : 𝕜) (n : Nat) : 𝕜 :=
  if n ≤ 800 then (∏ i ∈ range n, besselRho besselNmax z rho0 i) * j0 else 0

theorem ext_succ (z : 𝕜) (rho0 : Nat → 𝕜) (j0 : 𝕜) {n : Nat} (h : n < 800) :
    ext z rho0 j0 (n + 1) = besselRho besselNmax z rho0 n * ext z rho0 j0 n := by
  unfold ext
  rw [if_pos (by omega), if_pos (by omega), prod_range_succ]
  ring

theorem rho_last (z : 𝕜) (rho0 : Nat → 𝕜) : besselRho besselNmax z rho0 799 = z / 1601 := by
  rw [show (799 : ℕ) = besselNmax - 1 by rfl, (rho_spec besselNmax (by decide) z rho0).1]
  unfold besselNmax; norm_num

theorem ext_three (z : 𝕜) (hz : z ≠ 0) (h1601 : (1601 : 𝕜) ≠ 0) (rho0 : Nat → 𝕜) (j0 : 𝕜)
    (hdiv : ∀ i : Nat, i + 1 < 800 → (2 * ((i : 𝕜) + 1) + 1) * (1 / z) - besselRho besselNmax z rho0 (i + 1) ≠ 0) :
    ∀ n, n < 800 → ext z rho0 j0 (n + 2) = (2 * (n : 𝕜) + 3) / z * ext z rho0 j0 (n + 1) - ext z rho0 j0 n := by
  intro n hn
  have e1 := ext_succ z rho0 j0 hn
  by_cases h : n = 799
  · subst h
    have e2 : ext z rho0 j0 (799 + 2) = 0 := by
      unfold ext
      rw [if_neg (by omega)]
    rw [rho_last] at e1
    rw [e2, e1]
    have : (2 * ((799 : ℕ) : 𝕜) + 3) = 1601 := by push_cast; norm_num
    rw [this]
    field_simp
    ring
  · have e2 := ext_succ z rho0 j0 (n := n + 1) (by omega)
    have hr := (rho_spec besselNmax (by decide) z rho0).2.1 n (by unfold besselNmax; omega)
    have hd := hdiv n (by omega)
    rw [hr] at e1
    rw [show n + 2 = n + 1 + 1 by rfl, e2]
    generalize besselRho besselNmax z rho0 (n + 1) = ρ at *
    have : ((2 * ((n : 𝕜) + 1) + 1) * (1 / z) - ρ) * ext z rho0 j0 (n + 1) = ext z rho0 j0 n := by
      rw [e1, ← mul_assoc, mul_one_div_cancel hd, one_mul]
    linear_combination -this

/-- the array returned for the first kind -/
theorem sphericalJ_ext (o : Ops 𝕜) (z : 𝕜) (rho0 : Nat → 𝕜) (nmax : Nat) (h800 : nmax ≤ 800) (t : (Nat → 𝕜) × (Nat → 𝕜)) :
    ∀ n, 1 ≤ n → n ≤ nmax → (sphericalJ o nmax z rho0 t).1 (n - 1) = ext z rho0 (o.sin z / z) n := by
  intro n
  induction n with
  | zero => intro h; omega
  | succ n ih =>
    intro _ hn
    obtain ⟨s1, s2, s3, s4⟩ := sphericalJ_spec o z rho0 nmax (by omega) t
    rw [ext_succ _ _ _ (by omega), Nat.add_sub_cancel]
    rcases n with _ | n
    · rw [s1]
      simp [ext, div_eq_mul_inv]
    · rw [(s3 (n + 1) (by omega) (by omega)).1, ← ih (by omega) (by omega)]

/-- **C62** the exact result for the functions of the first kind: whatever the argument, as long as no division by zero occurs in the
recursion and `sin z ≠ 0`, the value returned for order `n` is `j_n` plus `j_801 (y_0 j_n - j_0 y_n) / (j_0 y_801 - y_0 j_801)`. -/
theorem c62_first_kind_exact (o : Ops 𝕜) (ht : IsTrig o.sin o.cos) (hp : ∀ z, o.sin z ^ 2 + o.cos z ^ 2 = 1) (h1601 : (1601 : 𝕜) ≠ 0)
    (z : 𝕜) (hz : z ≠ 0) (hs : o.sin z ≠ 0) (nmax : Nat) (h800 : nmax ≤ 800) (rho0 : Nat → 𝕜) (t : (Nat → 𝕜) × (Nat → 𝕜))
    (hdiv : ∀ i : Nat, i + 1 < 800 → (2 * ((i : 𝕜) + 1) + 1) * (1 / z) - besselRho besselNmax z rho0 (i + 1) ≠ 0) :
    let j := fun n => sphJ o.sin n z
    let y := fun n => sphY o.cos n z
    j 0 * y 801 - y 0 * j 801 ≠ 0
    ∧ ∀ n, 1 ≤ n → n ≤ nmax →
      (sphericalJ o nmax z rho0 t).1 (n - 1) = j n + j 801 * (y 0 * j n - j 0 * y n) / (j 0 * y 801 - y 0 * j 801) := by
  intro j y
  have j0 : j 0 = o.sin z / z := rayleigh_zero _ z
  have y0 : y 0 = -o.cos z / z := rayleigh_zero _ z
  have j1 : j 1 = o.sin z / z / z - o.cos z / z := ht.startJ.one z hz
  have y1 : y 1 = -o.cos z / z / z - o.sin z / z := ht.startY.one z hz
  have hj : ∀ n, j (n + 2) = (2 * (n : 𝕜) + 3) / z * j (n + 1) - j n := fun n => ht.startJ.three_term n z hz
  have hy : ∀ n, y (n + 2) = (2 * (n : 𝕜) + 3) / z * y (n + 1) - y n := fun n => ht.startY.three_term n z hz
  set c : Nat → 𝕜 := fun n => (2 * (n : 𝕜) + 3) / z with hc
  set X : Nat → 𝕜 := ext z rho0 (o.sin z / z) with hX
  have hXr : ∀ n, n < 800 → X (n + 2) = c n * X (n + 1) - X n := ext_three z hz h1601 rho0 _ hdiv
  have X0 : X 0 = j 0 := by
    rw [j0]
    simp [hX, ext]
  have X801 : X 801 = 0 := by
    rw [hX]
    unfold ext
    rw [if_neg (by omega)]
  set U : Nat → 𝕜 := fun n => j n * y 801 - y n * j 801 with hU
  have hUr : ∀ n, U (n + 2) = c n * U (n + 1) - U n := by
    intro n
    change j (n + 2) * y 801 - y (n + 2) * j 801 = c n * (j (n + 1) * y 801 - y (n + 1) * j 801) - (j n * y 801 - y n * j 801)
    rw [hj n, hy n]
    change (c n * j (n + 1) - j n) * y 801 - (c n * y (n + 1) - y n) * j 801 = _
    ring
  have U801 : U 801 = 0 := by
    change j 801 * y 801 - y 801 * j 801 = 0
    ring
  -- the determinant of the first and second kind
  have hW := casorati (N := 800) (c := c) (u := j) (v := y) (fun n _ => hj n) (fun n _ => hy n) 800 le_rfl
  have hW' : j 800 * y 801 - j 801 * y 800 = -(1 / z ^ 2) := by
    rw [hW, j0, y0, j1, y1]
    have e : o.sin z / z * (-o.cos z / z / z - o.sin z / z) - (o.sin z / z / z - o.cos z / z) * (-o.cos z / z)
        = -((o.sin z ^ 2 + o.cos z ^ 2) / z ^ 2) := by
      field_simp
      ring
    rw [e, hp]
  have hU800 : U 800 ≠ 0 := by
    change j 800 * y 801 - y 800 * j 801 ≠ 0
    rw [mul_comm (y 800), hW']
    exact neg_ne_zero.mpr (one_div_ne_zero (pow_ne_zero 2 hz))
  -- the determinant of the result and `U`
  have hC := casorati (N := 800) (c := c) (u := X) (v := U) hXr (fun n _ => hUr n) 800 le_rfl
  rw [U801, X801] at hC
  have hV : ∀ n, n ≤ 800 + 1 → U 0 * X n - j 0 * U n = 0 := by
    refine recurrence_zero (c := c) (fun n hn => ?_) ?_ ?_
    · rw [hXr n hn, hUr n]
      ring
    · rw [X0]
      ring
    · rw [← X0]
      linear_combination hC
  have hU0 : U 0 ≠ 0 := by
    intro h
    have := hV 800 (by omega)
    rw [h, zero_mul, zero_sub, neg_eq_zero] at this
    rcases mul_eq_zero.mp this with h' | h'
    · rw [j0] at h'
      exact div_ne_zero hs hz h'
    · exact hU800 h'
  have hU0' : j 0 * y 801 - y 0 * j 801 ≠ 0 := hU0
  refine ⟨hU0', fun n h1 hn => ?_⟩
  rw [sphericalJ_ext o z rho0 nmax h800 t n h1 hn]
  have := hV n (by omega)
  change (j 0 * y 801 - y 0 * j 801) * X n - j 0 * (j n * y 801 - y n * j 801) = 0 at this
  change X n = _
  generalize hD : j 0 * y 801 - y 0 * j 801 = D at this hU0' ⊢
  rw [eq_comm, ← sub_eq_zero]
  have e : j n + j 801 * (y 0 * j n - j 0 * y n) / D - X n
      = (D * j n + j 801 * (y 0 * j n - j 0 * y n) - D * X n) / D := by
    field_simp
  rw [e, ← hD, div_eq_zero_iff]
  rw [← hD] at this
  left
  linear_combination -this

end

/-- **C62** (violated) where the sine vanishes: for the argument `π` every value the code computes is zero, but `j_1(π) = 1/π` -/
theorem c62_violated_pi (nmax : Nat) (h1 : 1 ≤ nmax) (rho0 : Nat → ℝ) (t : (Nat → ℝ) × (Nat → ℝ)) :
    (sphericalJ realOps nmax Real.pi rho0 t).1 0 = 0 ∧ sphJ Real.sin 1 Real.pi = 1 / Real.pi := by
  refine ⟨?_, ?_⟩
  · rw [(sphericalJ_spec realOps Real.pi rho0 nmax h1 t).1]
    change _ * (Real.sin Real.pi * _) = 0
    rw [Real.sin_pi]
    ring
  · have := isTrig_real.startJ.one Real.pi Real.pi_ne_zero
    refine this.trans ?_
    rw [Real.sin_pi, Real.cos_pi]
    ring

/-! ## the numerators `z^(n+1) j_n(z)` -/

section
variable {𝕜 : Type} [RCLike 𝕜]

/-- `z^(n+1) j_n(z)` as a function on the whole field -/
noncomputable def num (s c : 𝕜 → 𝕜) : Nat → 𝕜 → 𝕜
  | 0 => s
  | 1 => fun z => s z - z * c z
  | n + 2 => fun z => (2 * (n : 𝕜) + 3) * num s c (n + 1) z - z ^ 2 * num s c n z

theorem num_eq {s c : 𝕜 → 𝕜} (ht : IsTrig s c) (z : 𝕜) (hz : z ≠ 0) :
    ∀ n, num s c n z = z ^ (n + 1) * sphJ s n z ∧ num s c (n + 1) z = z ^ (n + 2) * sphJ s (n + 1) z := by
  intro n
  induction n with
  | zero =>
    have j0 : sphJ s 0 z = s z / z := rayleigh_zero _ z
    have j1 : sphJ s 1 z = s z / z / z - c z / z := ht.startJ.one z hz
    refine ⟨?_, ?_⟩
    · rw [j0]
      change s z = _
      field_simp
      ring
    · rw [j1]
      change s z - z * c z = _
      field_simp
      ring
  | succ n ih =>
    refine ⟨ih.2, ?_⟩
    have h3 : sphJ s (n + 2) z = (2 * (n : 𝕜) + 3) / z * sphJ s (n + 1) z - sphJ s n z := ht.startJ.three_term n z hz
    change (2 * (n : 𝕜) + 3) * num s c (n + 1) z - z ^ 2 * num s c n z = _
    rw [ih.1, ih.2, h3]
    field_simp
    ring

theorem num_deriv {s c : 𝕜 → 𝕜} (ht : IsTrig s c) :
    ∀ n (z : 𝕜), HasDerivAt (num s c (n + 1)) (z * num s c n z) z ∧ HasDerivAt (num s c (n + 2)) (z * num s c (n + 1) z) z := by
  intro n
  induction n with
  | zero =>
    intro z
    have h1 : HasDerivAt (num s c 1) (z * num s c 0 z) z := by
      refine ((ht.ds z).sub ((hasDerivAt_id z).mul (ht.dc z))).congr_deriv ?_
      change c z - (1 * c z + z * -s z) = z * s z
      ring
    refine ⟨h1, ?_⟩
    refine ((h1.const_mul (2 * ((0 : ℕ) : 𝕜) + 3)).sub (((hasDerivAt_id z).pow 2).mul (ht.ds z))).congr_deriv ?_
    change _ = z * (s z - z * c z)
    simp only [num, id, Pi.pow_apply]
    push_cast
    ring
  | succ n ih =>
    intro z
    refine ⟨(ih z).2, ?_⟩
    refine (((ih z).2.const_mul (2 * ((n + 1 : ℕ) : 𝕜) + 3)).sub (((hasDerivAt_id z).pow 2).mul (ih z).1)).congr_deriv ?_
    change _ = z * ((2 * (n : 𝕜) + 3) * num s c (n + 1) z - z ^ 2 * num s c n z)
    simp only [id, Pi.pow_apply]
    push_cast
    ring

theorem num_zero {s c : 𝕜 → 𝕜} (hs : s 0 = 0) : ∀ n, num s c n 0 = 0 ∧ num s c (n + 1) 0 = 0 := by
  intro n
  induction n with
  | zero => exact ⟨hs, by simp [num, hs]⟩
  | succ n ih => exact ⟨ih.2, by simp [num, ih.2]⟩

/-- a bound on `sin z - a z` relative to `z` carries over to all orders -/
theorem num_bound {s c : 𝕜 → 𝕜} (ht : IsTrig s c) (hs : s 0 = 0) (a : 𝕜) (ε R : ℝ)
    (h0 : ∀ z, ‖z‖ ≤ R → ‖s z - a * z‖ ≤ ε * ‖z‖) :
    ∀ n z, ‖z‖ ≤ R → ‖num s c n z - a * z ^ (2 * n + 1) / ((2 * n + 1)‼ : ℕ)‖ ≤ ε * ‖z‖ ^ (2 * n + 1) / ((2 * n + 1)‼ : ℕ) := by
  intro n
  induction n with
  | zero =>
    intro z hz
    simpa [num] using h0 z hz
  | succ n ih =>
    intro z hz
    have hd : ((2 * n + 1)‼ : ℝ) ≠ 0 := by exact_mod_cast (Nat.doubleFactorial_pos _).ne'
    have hd' : ((2 * n + 1)‼ : 𝕜) ≠ 0 := by exact_mod_cast (Nat.doubleFactorial_pos _).ne'
    have hk : (2 * (n : ℝ) + 3) ≠ 0 := by positivity
    have hk' : (2 * (n : 𝕜) + 3) ≠ 0 := by exact_mod_cast (show 2 * n + 3 ≠ 0 by omega)
    have e : 2 * (n + 1) + 1 = (2 * n + 1) + 2 := by ring
    have edf : ((2 * (n + 1) + 1)‼ : ℕ) = (2 * n + 3) * (2 * n + 1)‼ := by
      rw [e, Nat.doubleFactorial_add_two]
    -- along the segment from the origin
    set f : ℝ → 𝕜 := fun t => num s c (n + 1) ((t : 𝕜) * z) - a * ((t : 𝕜) * z) ^ (2 * (n + 1) + 1) / ((2 * (n + 1) + 1)‼ : ℕ) with hf
    set B : ℝ → ℝ := fun t => ε * (t * ‖z‖) ^ (2 * (n + 1) + 1) / ((2 * (n + 1) + 1)‼ : ℕ) with hB
    have hl : ∀ t : ℝ, HasDerivAt (fun t : ℝ => (t : 𝕜) * z) z t := by
      intro t
      have := (RCLike.ofRealCLM (K := 𝕜)).hasDerivAt (x := t)
      simpa using this.mul_const z
    have hfd : ∀ t : ℝ, HasDerivAt f (z * ((t : 𝕜) * z) * (num s c n ((t : 𝕜) * z) - a * ((t : 𝕜) * z) ^ (2 * n + 1) / ((2 * n + 1)‼ : ℕ))) t := by
      intro t
      have d1 := ((num_deriv ht n ((t : 𝕜) * z)).1).scomp t (hl t)
      have d2 := (((hl t).pow (2 * (n + 1) + 1)).const_mul a).div_const (((2 * (n + 1) + 1)‼ : ℕ) : 𝕜)
      refine (d1.sub d2).congr_deriv ?_
      rw [edf]
      simp only [smul_eq_mul]
      push_cast
      field_simp
      ring
    have hBd : ∀ t : ℝ, HasDerivAt B (‖z‖ * (t * ‖z‖) * (ε * (t * ‖z‖) ^ (2 * n + 1) / ((2 * n + 1)‼ : ℕ))) t := by
      intro t
      have d2 := ((((hasDerivAt_id t).mul_const ‖z‖).pow (2 * (n + 1) + 1)).const_mul ε).div_const (((2 * (n + 1) + 1)‼ : ℕ) : ℝ)
      refine d2.congr_deriv ?_
      rw [edf]
      simp only [id]
      push_cast
      field_simp
      ring
    have key := image_norm_le_of_norm_deriv_right_le_deriv_boundary (f := f) (a := 0) (b := 1) (B := B)
      (fun t _ => (hfd t).continuousAt.continuousWithinAt) (fun t _ => (hfd t).hasDerivWithinAt)
      (by simp [hf, hB, (num_zero hs n).2]) hBd (by
        intro t ht'
        have ht0 : 0 ≤ t := ht'.1
        have ht1 : t ≤ 1 := ht'.2.le
        have hn : ‖(t : 𝕜) * z‖ = t * ‖z‖ := by rw [norm_mul, RCLike.norm_ofReal, abs_of_nonneg ht0]
        have := ih ((t : 𝕜) * z) (by rw [hn]; nlinarith [norm_nonneg z])
        rw [hn] at this
        rw [norm_mul, norm_mul z, hn]
        exact mul_le_mul_of_nonneg_left this (by positivity)) (x := 1) (by simp)
    simpa [hf, hB] using key

end

/-! ## the modulus of the functions of the third kind, for real arguments -/

/-- `(n+k)! / (n-k)!` -/
noncomputable def ff (n k : Nat) : ℝ := ∏ i ∈ range k, (((n : ℝ) - i) * (n + 1 + i))

/-- the coefficients of `z^2 (j_n^2 + y_n^2)` as a polynomial in `1/z^2` -/
noncomputable def co (n k : Nat) : ℝ := (∏ i ∈ range k, ((2 * (i : ℝ) + 1) / (2 * (i + 1)))) * ff n k

theorem ff_succ (n k : Nat) : ff n (k + 1) = ff n k * (((n : ℝ) - k) * (n + 1 + k)) := prod_range_succ _ _

theorem ff_shift (n : Nat) : ∀ k, ((n : ℝ) + 1 - k) * ff (n + 1) k = (n + 1 + k) * ff n k := by
  intro k
  induction k with
  | zero => simp [ff]
  | succ k ih =>
    rw [ff_succ, ff_succ]
    push_cast
    linear_combination ((n : ℝ) - k) * (n + 2 + k) * ih

theorem ff_zero {n k : Nat} (h : n < k) : ff n k = 0 :=
  prod_eq_zero (mem_range.mpr h) (by simp)

theorem ff_nonneg (n k : Nat) : 0 ≤ ff n k := by
  by_cases h : n < k
  · rw [ff_zero h]
  · refine prod_nonneg fun i hi => ?_
    have : (i : ℝ) ≤ n := by exact_mod_cast (by have := mem_range.mp hi; omega : i ≤ n)
    exact mul_nonneg (by linarith) (by positivity)

theorem ff_mono (n k : Nat) : ff n k ≤ ff (n + 1) k := by
  by_cases h : n < k
  · rw [ff_zero h]
    exact ff_nonneg _ _
  · refine prod_le_prod (fun i hi => ?_) (fun i hi => ?_)
    · have : (i : ℝ) ≤ n := by exact_mod_cast (by have := mem_range.mp hi; omega : i ≤ n)
      exact mul_nonneg (by linarith) (by positivity)
    · have : (i : ℝ) ≤ n := by exact_mod_cast (by have := mem_range.mp hi; omega : i ≤ n)
      push_cast
      nlinarith [show (0 : ℝ) ≤ i by positivity, show (0 : ℝ) ≤ n by positivity]

theorem half_nonneg (k : Nat) : 0 ≤ ∏ i ∈ range k, ((2 * (i : ℝ) + 1) / (2 * (i + 1))) := prod_nonneg fun i _ => by positivity

theorem co_shift (n k : Nat) : ((n : ℝ) + 1 - k) * co (n + 1) k = (n + 1 + k) * co n k := by
  unfold co
  linear_combination (∏ i ∈ range k, ((2 * (i : ℝ) + 1) / (2 * (i + 1)))) * ff_shift n k

theorem co_diff (n k : Nat) :
    co (n + 2) (k + 1) - co n (k + 1) = (2 * ((n : ℝ) + 1) + 1) * (((n : ℝ) + 2 - k) * co (n + 2) k - ((n : ℝ) + 1 - k) * co (n + 1) k) := by
  have s1 := ff_shift (n + 1) k
  have s0 := ff_shift n k
  unfold co
  rw [prod_range_succ, ff_succ, ff_succ]
  generalize (∏ i ∈ range k, ((2 * (i : ℝ) + 1) / (2 * (i + 1)))) = b
  have hk : (k : ℝ) + 1 ≠ 0 := by positivity
  push_cast at *
  have e : b * ((2 * (k : ℝ) + 1) / (2 * (k + 1))) * (ff (n + 2) k * (((n : ℝ) + 2 - k) * (n + 2 + 1 + k)))
      - b * ((2 * (k : ℝ) + 1) / (2 * (k + 1))) * (ff n k * (((n : ℝ) - k) * (n + 1 + k)))
      = b * ((2 * (k : ℝ) + 1) / (2 * (k + 1))) * (2 * (k + 1) * (2 * n + 3) * ff (n + 1) k) := by
    linear_combination b * ((2 * (k : ℝ) + 1) / (2 * (k + 1))) * ((n + 3 + k) * s1 + (n - k) * s0)
  rw [e]
  have e2 : b * ((2 * (k : ℝ) + 1) / (2 * (k + 1))) * (2 * (k + 1) * (2 * n + 3) * ff (n + 1) k)
      = b * (2 * (k : ℝ) + 1) * ((2 * n + 3) * ff (n + 1) k) := by
    field_simp
  rw [e2]
  linear_combination -b * (2 * n + 3) * s1

/-- the polynomials, with enough terms -/
theorem modulus {x : ℝ} {M R : Nat → ℝ} (hM0 : M 0 = 1) (hM1 : M 1 = 1 + x) (hR : R 1 = 1)
    (hRr : ∀ n, R (n + 2) + R (n + 1) = (2 * ((n : ℝ) + 1) + 1) * M (n + 1))
    (hMr : ∀ n, M (n + 2) - M n = (2 * ((n : ℝ) + 1) + 1) * x * (R (n + 2) - R (n + 1))) :
    ∀ n K, n + 1 < K → M n = ∑ k ∈ range K, co n k * x ^ k ∧ M (n + 1) = ∑ k ∈ range K, co (n + 1) k * x ^ k
      ∧ R (n + 1) = ∑ k ∈ range K, ((n : ℝ) + 1 - k) * co (n + 1) k * x ^ k := by
  have co0 : ∀ n, co n 0 = 1 := by intro n; simp [co, ff]
  have cz : ∀ n k, n < k → co n k = 0 := by
    intro n k h
    unfold co
    rw [ff_zero h, mul_zero]
  intro n
  induction n with
  | zero =>
    intro K hK
    obtain ⟨K, rfl⟩ : ∃ q, K = q + 2 := ⟨K - 2, by omega⟩
    have c11 : co 1 1 = 1 := by
      simp [co, ff]
      norm_num
    rw [sum_range_succ', sum_range_succ', sum_range_succ', sum_range_succ', sum_range_succ', sum_range_succ']
    refine ⟨?_, ?_, ?_⟩
    · rw [sum_eq_zero (fun k _ => by rw [cz 0 _ (by omega), zero_mul]), cz 0 _ (by omega), co0, hM0]
      ring
    · rw [sum_eq_zero (fun k _ => by rw [cz 1 _ (by omega), zero_mul]), c11, co0, hM1]
      ring
    · rw [sum_eq_zero (fun k _ => by rw [cz 1 _ (by omega), mul_zero, zero_mul]), c11, co0, hR]
      push_cast
      ring
  | succ n ih =>
    intro K hK
    obtain ⟨K, rfl⟩ : ∃ q, K = q + 1 := ⟨K - 1, by omega⟩
    obtain ⟨a, b, r⟩ := ih (K + 1) (by omega)
    obtain ⟨-, -, r'⟩ := ih K (by omega)
    -- the ratios
    have hR2 : ∀ K', n + 1 < K' → R (n + 2) = ∑ k ∈ range K', ((n : ℝ) + 2 - k) * co (n + 2) k * x ^ k := by
      intro K' hK'
      obtain ⟨-, b, r⟩ := ih K' hK'
      have : R (n + 2) = (2 * ((n : ℝ) + 1) + 1) * M (n + 1) - R (n + 1) := by linear_combination hRr n
      rw [this, b, r, mul_sum, ← sum_sub_distrib]
      refine sum_congr rfl fun k _ => ?_
      have := co_shift (n + 1) k
      push_cast at this
      linear_combination -x ^ k * this
    refine ⟨b, ?_, ?_⟩
    · have : M (n + 2) = M n + (2 * ((n : ℝ) + 1) + 1) * x * (R (n + 2) - R (n + 1)) := by linear_combination hMr n
      rw [show n + 1 + 1 = n + 2 by rfl, this, a, hR2 K (by omega), r', ← sum_sub_distrib, mul_sum, sum_range_succ', sum_range_succ' (fun k => co (n + 2) k * x ^ k),
        co0, co0]
      rw [add_right_comm, ← sum_add_distrib]
      congr 1
      refine sum_congr rfl fun k _ => ?_
      have := co_diff n k
      linear_combination -x ^ (k + 1) * this
    · rw [show n + 1 + 1 = n + 2 by rfl, hR2 (K + 1) (by omega)]
      refine sum_congr rfl fun k _ => ?_
      push_cast
      ring

theorem modulus_mono {x : ℝ} (hx : 0 ≤ x) {M R : Nat → ℝ} (hM0 : M 0 = 1) (hM1 : M 1 = 1 + x) (hR : R 1 = 1)
    (hRr : ∀ n, R (n + 2) + R (n + 1) = (2 * ((n : ℝ) + 1) + 1) * M (n + 1))
    (hMr : ∀ n, M (n + 2) - M n = (2 * ((n : ℝ) + 1) + 1) * x * (R (n + 2) - R (n + 1))) : Monotone M := by
  refine monotone_nat_of_le_succ fun n => ?_
  obtain ⟨a, b, -⟩ := modulus hM0 hM1 hR hRr hMr n (n + 2) (by omega)
  rw [a, b]
  refine sum_le_sum fun k _ => mul_le_mul_of_nonneg_right ?_ (by positivity)
  exact mul_le_mul_of_nonneg_left (ff_mono n k) (half_nonneg k)

/-- **the modulus** `j_n^2 + y_n^2` grows with the order and is at least `1/z^2` -/
theorem modulus_bessel (z : ℝ) (hz : z ≠ 0) : Monotone (fun n => sphJ Real.sin n z ^ 2 + sphY Real.cos n z ^ 2)
    ∧ ∀ n, 1 / z ^ 2 ≤ sphJ Real.sin n z ^ 2 + sphY Real.cos n z ^ 2 := by
  set j := fun n => sphJ Real.sin n z with hj
  set y := fun n => sphY Real.cos n z with hy
  have j0 : j 0 = Real.sin z / z := rayleigh_zero _ z
  have y0 : y 0 = -Real.cos z / z := rayleigh_zero _ z
  have j1 : j 1 = Real.sin z / z / z - Real.cos z / z := isTrig_real.startJ.one z hz
  have y1 : y 1 = -Real.cos z / z / z - Real.sin z / z := isTrig_real.startY.one z hz
  have j3 : ∀ n, j (n + 2) = (2 * (n : ℝ) + 3) / z * j (n + 1) - j n := fun n => isTrig_real.startJ.three_term n z hz
  have y3 : ∀ n, y (n + 2) = (2 * (n : ℝ) + 3) / z * y (n + 1) - y n := fun n => isTrig_real.startY.three_term n z hz
  have sc := Real.sin_sq_add_cos_sq z
  have hz2 : 0 < z ^ 2 := by positivity
  have hm : Monotone (fun n => z ^ 2 * (j n ^ 2 + y n ^ 2)) := by
    refine modulus_mono (x := 1 / z ^ 2) (by positivity) (R := fun n => z ^ 3 * (j n * j (n - 1) + y n * y (n - 1))) ?_ ?_ ?_ ?_ ?_
    · rw [j0, y0]
      field_simp
      linear_combination sc
    · rw [j1, y1]
      field_simp
      linear_combination (1 + z ^ 2) * sc
    · change z ^ 3 * (j 1 * j 0 + y 1 * y 0) = 1
      rw [j1, y1, j0, y0]
      field_simp
      linear_combination sc
    · intro n
      change z ^ 3 * (j (n + 2) * j (n + 1) + y (n + 2) * y (n + 1)) + z ^ 3 * (j (n + 1) * j n + y (n + 1) * y n)
        = _ * (z ^ 2 * (j (n + 1) ^ 2 + y (n + 1) ^ 2))
      rw [j3 n, y3 n]
      field_simp
      ring
    · intro n
      change z ^ 2 * (j (n + 2) ^ 2 + y (n + 2) ^ 2) - z ^ 2 * (j n ^ 2 + y n ^ 2)
        = _ * (z ^ 3 * (j (n + 2) * j (n + 1) + y (n + 2) * y (n + 1)) - z ^ 3 * (j (n + 1) * j n + y (n + 1) * y n))
      rw [j3 n, y3 n]
      field_simp
      ring
  have hm' : Monotone (fun n => j n ^ 2 + y n ^ 2) := fun a b hab => le_of_mul_le_mul_left (hm hab) hz2
  refine ⟨hm', fun n => ?_⟩
  have := hm' (Nat.zero_le n)
  refine le_trans (le_of_eq ?_) this
  change 1 / z ^ 2 = j 0 ^ 2 + y 0 ^ 2
  rw [j0, y0]
  field_simp
  linear_combination -sc

/-- `|j_n(z)| ≤ |z|^n / (2n+1)!!` for real arguments -/
theorem sphJ_le (z : ℝ) (hz : z ≠ 0) (n : Nat) : |sphJ Real.sin n z| ≤ |z| ^ n / ((2 * n + 1)‼ : ℕ) := by
  have h := num_bound isTrig_real Real.sin_zero 0 1 |z| (fun x _ => by
    simpa using Real.abs_sin_le_abs) n z le_rfl
  rw [zero_mul, zero_div, sub_zero, (num_eq isTrig_real z hz n).1, one_mul, norm_mul, norm_pow, Real.norm_eq_abs, Real.norm_eq_abs] at h
  have e : |z| ^ (2 * n + 1) = |z| ^ (n + 1) * |z| ^ n := by
    rw [← pow_add]
    congr 1
    ring
  rw [e, mul_div_assoc] at h
  exact le_of_mul_le_mul_left h (by positivity)

/-- **C62** accuracy of the functions of the first kind for real arguments: the error is at most
`2 |z|^801 / (1603!! |sin z|)`, as long as that is small. -/
theorem c62_first_kind_real (o : Ops ℝ) (hos : o.sin = Real.sin) (hoc : o.cos = Real.cos) (z : ℝ) (hz : z ≠ 0)
    (hsmall : |z| ^ 802 / (1603‼ : ℕ) ≤ |Real.sin z| / 4) (nmax : Nat) (h800 : nmax ≤ 800) (rho0 : Nat → ℝ) (t : (Nat → ℝ) × (Nat → ℝ))
    (hdiv : ∀ i : Nat, i + 1 < 800 → (2 * ((i : ℝ) + 1) + 1) * (1 / z) - besselRho besselNmax z rho0 (i + 1) ≠ 0) :
    ∀ n, 1 ≤ n → n ≤ nmax → |(sphericalJ o nmax z rho0 t).1 (n - 1) - sphJ Real.sin n z| ≤ 2 * (|z| ^ 801 / (1603‼ : ℕ)) / |Real.sin z| := by
  have hdf : (0 : ℝ) < (1603‼ : ℕ) := by exact_mod_cast Nat.doubleFactorial_pos _
  have hz0 : 0 < |z| := abs_pos.mpr hz
  have hsin : 0 < |Real.sin z| := by
    have : 0 < |z| ^ 802 / (1603‼ : ℕ) := by positivity
    linarith
  intro n h1 hn
  have hex := c62_first_kind_exact o (by rw [hos, hoc]; exact isTrig_real) (by rw [hos, hoc]; exact Real.sin_sq_add_cos_sq) (by norm_num) z hz
    (by rw [hos]; exact abs_pos.mp hsin) nmax h800 rho0 t hdiv
  rw [hos, hoc] at hex
  obtain ⟨hD, hex⟩ := hex
  rw [hex n h1 hn, add_sub_cancel_left]
  obtain ⟨hmono, hlow⟩ := modulus_bessel z hz
  have hb := sphJ_le z hz 801
  have j0 : sphJ Real.sin 0 z = Real.sin z / z := rayleigh_zero _ z
  have y0 : sphY Real.cos 0 z = -Real.cos z / z := rayleigh_zero _ z
  have hmn := hmono (show n ≤ 801 by omega)
  have hl := hlow 801
  dsimp only at hmn hD ⊢
  generalize sphJ Real.sin n z = jn at *
  generalize sphY Real.cos n z = yn at *
  generalize sphJ Real.sin 801 z = j8 at *
  generalize sphY Real.cos 801 z = y8 at *
  rw [j0, y0] at *
  set b : ℝ := |z| ^ 801 / ((2 * 801 + 1)‼ : ℕ) with hbd
  have hb0 : 0 ≤ b := le_trans (abs_nonneg _) hb
  have hsm : |z| * b ≤ |Real.sin z| / 4 := by
    refine le_trans (le_of_eq ?_) hsmall
    rw [hbd, show 802 = 801 + 1 by rfl, pow_succ]
    ring
  set s := |Real.sin z| with hs
  -- the modulus at order 801
  set m := Real.sqrt (j8 ^ 2 + y8 ^ 2) with hm
  have hm2 : m ^ 2 = j8 ^ 2 + y8 ^ 2 := Real.sq_sqrt (by positivity)
  have hm0 : 0 ≤ m := Real.sqrt_nonneg _
  have hm1 : 1 / |z| ≤ m := by
    refine Real.le_sqrt_of_sq_le ?_
    rw [div_pow, one_pow, sq_abs]
    exact hl
  have hmz : 1 ≤ m * |z| := by
    rw [div_le_iff₀ hz0] at hm1
    exact hm1
  have hj8 : |j8| ≤ s * m / 4 := by
    refine hb.trans ?_
    have : |z| * b * m ≤ s / 4 * m := mul_le_mul_of_nonneg_right hsm hm0
    nlinarith
  have hs1 : s ≤ 1 := Real.abs_sin_le_one z
  have hy8 : 15 / 16 * m ≤ |y8| := by
    refine abs_le_of_sq_le_sq' ?_ (abs_nonneg _) |>.2
    have h1 : j8 ^ 2 ≤ (m / 4) ^ 2 := by
      rw [← sq_abs j8]
      refine pow_le_pow_left₀ (abs_nonneg _) (hj8.trans ?_) 2
      nlinarith
    rw [sq_abs]
    nlinarith
  -- numerator
  have hnum : |-Real.cos z / z * jn - Real.sin z / z * yn| ≤ 1 / |z| * m := by
    refine abs_le_of_sq_le_sq ?_ (by positivity)
    have sc := Real.sin_sq_add_cos_sq z
    have e : (-Real.cos z / z * jn - Real.sin z / z * yn) ^ 2 + (Real.sin z * jn / z - Real.cos z * yn / z) ^ 2
        = (Real.sin z ^ 2 + Real.cos z ^ 2) * ((1 / z) ^ 2 * (jn ^ 2 + yn ^ 2)) := by
      ring
    rw [sc, one_mul] at e
    rw [mul_pow, hm2, div_pow, sq_abs, ← div_pow]
    have : (1 / z) ^ 2 * (jn ^ 2 + yn ^ 2) ≤ (1 / z) ^ 2 * (j8 ^ 2 + y8 ^ 2) := mul_le_mul_of_nonneg_left hmn (by positivity)
    nlinarith [sq_nonneg (Real.sin z * jn / z - Real.cos z * yn / z)]
  -- denominator
  have hden : 11 / 16 * (s * m / |z|) ≤ |Real.sin z / z * y8 - -Real.cos z / z * j8| := by
    have h1 : |Real.sin z / z * y8| - |-Real.cos z / z * j8| ≤ |Real.sin z / z * y8 - -Real.cos z / z * j8| := abs_sub_abs_le_abs_sub _ _
    refine le_trans ?_ h1
    rw [abs_mul, abs_mul, abs_div, abs_div, abs_neg]
    have hc : |Real.cos z| ≤ 1 := Real.abs_cos_le_one z
    have h2 : s / |z| * (15 / 16 * m) ≤ s / |z| * |y8| := mul_le_mul_of_nonneg_left hy8 (by positivity)
    have h3 : |Real.cos z| / |z| * |j8| ≤ 1 / |z| * (s * m / 4) :=
      mul_le_mul (div_le_div_of_nonneg_right hc hz0.le) hj8 (abs_nonneg _) (by positivity)
    have e1 : 11 / 16 * (s * m / |z|) = s / |z| * (15 / 16 * m) - 1 / |z| * (s * m / 4) := by ring
    rw [e1]
    linarith
  have hmp : 0 < m := by
    have : 0 < 1 / |z| := by positivity
    linarith
  have hsm0 : 0 < 11 / 16 * (s * m / |z|) := by positivity
  rw [abs_div, abs_mul]
  calc |j8| * |-Real.cos z / z * jn - Real.sin z / z * yn| / |Real.sin z / z * y8 - -Real.cos z / z * j8|
      ≤ b * (1 / |z| * m) / (11 / 16 * (s * m / |z|)) := by
        refine div_le_div₀ (by positivity) ?_ hsm0 hden
        exact mul_le_mul hb hnum (abs_nonneg _) hb0
    _ = 16 / 11 * (b / s) := by field_simp
    _ ≤ 2 * b / s := by
        rw [mul_div_assoc]
        have : 0 ≤ b / s := by positivity
        nlinarith

theorem double_factorial_large : 500 ^ 802 * 10 ^ 57 ≤ 1603‼ := by decide +kernel

/-- **C62** in numbers: for every real argument with `0 < |z| ≤ 500` and `|sin z| ≥ 10^-50`, and every order up to 800, the values of the first
kind are within `10^-59 / |sin z|` of the spherical Bessel functions, and the values of the second array are within
`(1 + n/|z|) 10^-59 / |sin z|` of `[z j_n(z)]' / z`. -/
theorem c62_first_kind_real_500 (o : Ops ℝ) (hos : o.sin = Real.sin) (hoc : o.cos = Real.cos) (z : ℝ) (hz : z ≠ 0) (h500 : |z| ≤ 500)
    (hs : 1 / 10 ^ 50 ≤ |Real.sin z|) (nmax : Nat) (h800 : nmax ≤ 800) (rho0 : Nat → ℝ) (t : (Nat → ℝ) × (Nat → ℝ))
    (hdiv : ∀ i : Nat, i + 1 < 800 → (2 * ((i : ℝ) + 1) + 1) * (1 / z) - besselRho besselNmax z rho0 (i + 1) ≠ 0) :
    ∀ n, 1 ≤ n → n ≤ nmax → |(sphericalJ o nmax z rho0 t).1 (n - 1) - sphJ Real.sin n z| ≤ 1 / 10 ^ 59 / |Real.sin z|
      ∧ ∃ d, HasDerivAt (fun x => x * sphJ Real.sin n x) (z * d) z
        ∧ |(sphericalJ o nmax z rho0 t).2 (n - 1) - d| ≤ (1 + n / |z|) * (1 / 10 ^ 59 / |Real.sin z|) := by
  have hdf : (0 : ℝ) < (1603‼ : ℕ) := by exact_mod_cast Nat.doubleFactorial_pos _
  have hz0 : 0 < |z| := abs_pos.mpr hz
  have hlarge : (500 : ℝ) ^ 802 * 10 ^ 57 ≤ (1603‼ : ℕ) := by exact_mod_cast double_factorial_large
  have hsp : 0 < |Real.sin z| := lt_of_lt_of_le (by positivity) hs
  have b1 : |z| ^ 802 / (1603‼ : ℕ) ≤ 1 / 10 ^ 57 := by
    rw [div_le_div_iff₀ hdf (by positivity), one_mul]
    refine le_trans ?_ hlarge
    exact mul_le_mul_of_nonneg_right (pow_le_pow_left₀ hz0.le h500 802) (by positivity)
  have b2 : 2 * (|z| ^ 801 / (1603‼ : ℕ)) ≤ 1 / 10 ^ 59 := by
    have : 2 * (|z| ^ 801 / (1603‼ : ℕ)) ≤ 2 * (500 ^ 801 / (500 ^ 802 * 10 ^ 57)) := by
      refine mul_le_mul_of_nonneg_left ?_ (by norm_num)
      exact div_le_div₀ (by positivity) (pow_le_pow_left₀ hz0.le h500 801) (by positivity) hlarge
    refine this.trans ?_
    rw [show (500 : ℝ) ^ 802 = 500 ^ 801 * 500 from pow_succ _ _, mul_assoc, ← div_div, div_self (by positivity)]
    norm_num
  have main := c62_first_kind_real o hos hoc z hz (b1.trans (by linarith [show (1 : ℝ) / 10 ^ 57 ≤ 1 / 10 ^ 50 / 4 by norm_num])) nmax h800 rho0 t hdiv
  have main' : ∀ n, 1 ≤ n → n ≤ nmax → |(sphericalJ o nmax z rho0 t).1 (n - 1) - sphJ Real.sin n z| ≤ 1 / 10 ^ 59 / |Real.sin z| :=
    fun n h1 hn => (main n h1 hn).trans (div_le_div_of_nonneg_right b2 hsp.le)
  intro n h1 hn
  refine ⟨main' n h1 hn, sphJ Real.sin (n - 1) z - (n : ℝ) / z * sphJ Real.sin n z, ?_, ?_⟩
  · obtain ⟨k, rfl⟩ : ∃ k, n = k + 1 := ⟨n - 1, by omega⟩
    have := isTrig_real.startJ.deriv_mul k z hz
    push_cast
    exact this
  · have hd := (c62_first_kind_partial o (by rw [hos, hoc]; exact isTrig_real) z hz nmax (by omega) h800 rho0 t hdiv).2.1 n h1 hn
    dsimp only at hd
    rw [if_neg (show ¬ n = 0 by omega)] at hd
    rw [hd]
    have e0 : |(if n - 1 = 0 then o.sin z / z else (sphericalJ o nmax z rho0 t).1 (n - 1 - 1)) - sphJ Real.sin (n - 1) z|
        ≤ 1 / 10 ^ 59 / |Real.sin z| := by
      by_cases h : n - 1 = 0
      · rw [if_pos h, h, hos]
        have : sphJ Real.sin 0 z = Real.sin z / z := rayleigh_zero _ z
        rw [this, sub_self, abs_zero]
        positivity
      · rw [if_neg h]
        exact main' (n - 1) (by omega) (by omega)
    have e1 := main' n h1 hn
    generalize (if n - 1 = 0 then o.sin z / z else (sphericalJ o nmax z rho0 t).1 (n - 1 - 1)) = a at *
    generalize (sphericalJ o nmax z rho0 t).1 (n - 1) = b at *
    generalize sphJ Real.sin (n - 1) z = a' at *
    generalize sphJ Real.sin n z = b' at *
    calc |a - (n : ℝ) / z * b - (a' - (n : ℝ) / z * b')| = |(a - a') - (n : ℝ) / z * (b - b')| := by congr 1; ring
      _ ≤ |a - a'| + |(n : ℝ) / z * (b - b')| := abs_sub _ _
      _ ≤ 1 / 10 ^ 59 / |Real.sin z| + n / |z| * (1 / 10 ^ 59 / |Real.sin z|) := by
        refine add_le_add e0 ?_
        rw [abs_mul, abs_div, Nat.abs_cast]
        exact mul_le_mul_of_nonneg_left e1 (by positivity)
      _ = _ := by ring

/-! ## small complex arguments -/

/-- for `|z| ≤ 1` the functions of the first kind are close to the first term of their series -/
theorem num_small (z : ℂ) (h : ‖z‖ ≤ 1) (n : Nat) :
    ‖num Complex.sin Complex.cos n z - z ^ (2 * n + 1) / ((2 * n + 1)‼ : ℕ)‖ ≤ 3 / 16 * ‖z‖ ^ (2 * n + 1) / ((2 * n + 1)‼ : ℕ) := by
  have := num_bound isTrig_complex Complex.sin_zero 1 (3 / 16) 1 (fun x hx => by
    have h1 := Complex.sin_bound hx
    have h2 : Complex.sin x - 1 * x = (Complex.sin x - (x - x ^ 3 / 6)) - x ^ 3 / 6 := by ring
    rw [h2]
    refine (norm_sub_le _ _).trans ?_
    refine (add_le_add_left h1 _).trans ?_
    rw [norm_div, norm_pow]
    have h3 : ‖x‖ ^ 3 ≤ ‖x‖ := by nlinarith [norm_nonneg x, sq_nonneg ‖x‖, mul_nonneg (norm_nonneg x) (sub_nonneg.mpr hx)]
    have h4 : ‖x‖ ^ 5 ≤ ‖x‖ := by
      calc ‖x‖ ^ 5 ≤ ‖x‖ ^ 1 := pow_le_pow_of_le_one (norm_nonneg x) hx (by norm_num)
        _ = ‖x‖ := pow_one _
    have : ‖(6 : ℂ)‖ = 6 := by simp
    rw [this]
    nlinarith [norm_nonneg x]) n z h
  simpa using this

/-- no function of the first kind vanishes for `0 < |z| ≤ 1`, and consecutive orders have a ratio of at most 1/2 -/
theorem ratio_small (z : ℂ) (hz : z ≠ 0) (h : ‖z‖ ≤ 1) (n : Nat) :
    sphJ Complex.sin n z ≠ 0 ∧ ‖sphJ Complex.sin (n + 1) z‖ ≤ 1 / 2 * ‖sphJ Complex.sin n z‖ := by
  have hz0 : 0 < ‖z‖ := norm_pos_iff.mpr hz
  have key : ∀ k, 13 / 16 * (‖z‖ ^ k / ((2 * k + 1)‼ : ℕ)) ≤ ‖sphJ Complex.sin k z‖
      ∧ ‖sphJ Complex.sin k z‖ ≤ 19 / 16 * (‖z‖ ^ k / ((2 * k + 1)‼ : ℕ)) := by
    intro k
    have hd : (0 : ℝ) < ((2 * k + 1)‼ : ℕ) := by exact_mod_cast Nat.doubleFactorial_pos _
    have hk := num_small z h k
    rw [(num_eq isTrig_complex z hz k).1] at hk
    have e : ‖z ^ (2 * k + 1) / (((2 * k + 1)‼ : ℕ) : ℂ)‖ = ‖z‖ ^ (k + 1) * (‖z‖ ^ k / ((2 * k + 1)‼ : ℕ)) := by
      rw [norm_div, norm_pow, Complex.norm_natCast, show 2 * k + 1 = (k + 1) + k by ring, pow_add, mul_div_assoc]
    have e2 : 3 / 16 * ‖z‖ ^ (2 * k + 1) / (((2 * k + 1)‼ : ℕ) : ℝ) = ‖z‖ ^ (k + 1) * (3 / 16 * (‖z‖ ^ k / ((2 * k + 1)‼ : ℕ))) := by
      rw [show ‖z‖ ^ (2 * k + 1) = ‖z‖ ^ (k + 1) * ‖z‖ ^ k by rw [← pow_add]; congr 1; ring]
      ring
    rw [e2] at hk
    have t1 := norm_le_norm_add_norm_sub' (z ^ (k + 1) * sphJ Complex.sin k z) (z ^ (2 * k + 1) / (((2 * k + 1)‼ : ℕ) : ℂ))
    have t2 := norm_le_norm_add_norm_sub (z ^ (k + 1) * sphJ Complex.sin k z) (z ^ (2 * k + 1) / (((2 * k + 1)‼ : ℕ) : ℂ))
    rw [e, norm_mul, norm_pow] at t1 t2
    have hp : 0 < ‖z‖ ^ (k + 1) := by positivity
    refine ⟨le_of_mul_le_mul_left ?_ hp, le_of_mul_le_mul_left ?_ hp⟩
    · linarith
    · linarith
  have hp : (0 : ℝ) < ‖z‖ ^ n / ((2 * n + 1)‼ : ℕ) := by
    have hd : (0 : ℝ) < ((2 * n + 1)‼ : ℕ) := by exact_mod_cast Nat.doubleFactorial_pos _
    positivity
  refine ⟨fun h0 => ?_, ?_⟩
  · have := (key n).1
    rw [h0, norm_zero] at this
    linarith
  · refine (key (n + 1)).2.trans ?_
    refine le_trans ?_ (mul_le_mul_of_nonneg_left (key n).1 (by norm_num))
    have e : ‖z‖ ^ (n + 1) / (((2 * (n + 1) + 1)‼ : ℕ) : ℝ) = ‖z‖ / (2 * n + 3) * (‖z‖ ^ n / ((2 * n + 1)‼ : ℕ)) := by
      rw [show 2 * (n + 1) + 1 = (2 * n + 1) + 2 by ring, Nat.doubleFactorial_add_two, pow_succ]
      push_cast
      rw [div_mul_div_comm]
      congr 1 <;> ring
    rw [e]
    have : ‖z‖ / (2 * (n : ℝ) + 3) ≤ 1 / 3 := by
      refine div_le_div₀ (by norm_num) h (by norm_num) ?_
      have : (0 : ℝ) ≤ n := by positivity
      linarith
    nlinarith

/-- **C62** accuracy of the functions of the first kind for small complex arguments (`0 < |z| ≤ 1`): the relative error of order `n` is at most
`4^(n - 800)`; no division by zero occurs. -/
theorem c62_first_kind_small (o : Ops ℂ) (hos : o.sin = Complex.sin) (z : ℂ) (hz : z ≠ 0) (h : ‖z‖ ≤ 1)
    (nmax : Nat) (h800 : nmax ≤ 800) (rho0 : Nat → ℂ) (t : (Nat → ℂ) × (Nat → ℂ)) :
    ∀ n, 1 ≤ n → n ≤ nmax → sphJ Complex.sin n z ≠ 0
      ∧ ‖(sphericalJ o nmax z rho0 t).1 (n - 1) - sphJ Complex.sin n z‖ ≤ ‖sphJ Complex.sin n z‖ / 4 ^ (800 - n) := by
  have hdiv := c62_no_division_by_zero z hz (by linarith) rho0
  have hz0 : 0 < ‖z‖ := norm_pos_iff.mpr hz
  set j := fun n => sphJ Complex.sin n z with hj
  have j3 : ∀ n, j (n + 2) = (2 * (n : ℂ) + 3) / z * j (n + 1) - j n := fun n => isTrig_complex.startJ.three_term n z hz
  have jne : ∀ n, j n ≠ 0 := fun n => (ratio_small z hz h n).1
  set r := fun n => j (n + 1) / j n with hr
  have rle : ∀ n, ‖r n‖ ≤ 1 / 2 := by
    intro n
    rw [hr]
    change ‖j (n + 1) / j n‖ ≤ 1 / 2
    rw [norm_div, div_le_iff₀ (norm_pos_iff.mpr (jne n))]
    exact (ratio_small z hz h n).2
  have rrec : ∀ n, r n * ((2 * (n : ℂ) + 3) / z - r (n + 1)) = 1 := by
    intro n
    have h0 := jne n
    have h1 := jne (n + 1)
    have e : (2 * (n : ℂ) + 3) / z * j (n + 1) = j (n + 2) + j n := by rw [j3 n]; ring
    change j (n + 1) / j n * ((2 * (n : ℂ) + 3) / z - j (n + 2) / j (n + 1)) = 1
    have : j (n + 1) / j n * ((2 * (n : ℂ) + 3) / z - j (n + 2) / j (n + 1))
        = ((2 * (n : ℂ) + 3) / z * j (n + 1) - j (n + 2)) / j n := by
      generalize (2 * (n : ℂ) + 3) / z = q
      field_simp
    rw [this, e, add_sub_cancel_left, div_self h0]
  -- the ratios of the code, continued by zero
  obtain ⟨r1, r2, -⟩ := rho_spec besselNmax (by decide) z rho0
  set ρ := fun i => if i < 800 then besselRho besselNmax z rho0 i else 0 with hρ
  have ρrec : ∀ i, i < 800 → ρ i * ((2 * (i : ℂ) + 3) / z - ρ (i + 1)) = 1 := by
    intro i hi
    by_cases h9 : i = 799
    · subst h9
      have e1 : ρ 799 = z / 1601 := by
        rw [hρ]
        dsimp only
        rw [if_pos (by omega), rho_last]
      have e2 : ρ (799 + 1) = 0 := by
        rw [hρ]
        dsimp only
        rw [if_neg (by omega)]
      rw [e1, e2]
      push_cast
      field_simp
      norm_num
    · have e1 : ρ i = besselRho besselNmax z rho0 i := by rw [hρ]; dsimp only; rw [if_pos hi]
      have e2 : ρ (i + 1) = besselRho besselNmax z rho0 (i + 1) := by rw [hρ]; dsimp only; rw [if_pos (by omega)]
      have hd := hdiv i (by omega)
      rw [e1, e2, r2 i (by unfold besselNmax; omega)]
      generalize besselRho besselNmax z rho0 (i + 1) = x at *
      have e3 : (2 * (i : ℂ) + 3) / z - x = (2 * ((i : ℂ) + 1) + 1) * (1 / z) - x := by ring
      rw [e3, one_div_mul_cancel hd]
  have ρle : ∀ k i, i + k = 800 → ‖ρ i‖ ≤ 1 / 2 := by
    intro k
    induction k with
    | zero =>
      intro i hi
      rw [hρ]
      dsimp only
      rw [if_neg (by omega)]
      simp
    | succ k ih =>
      intro i hi
      have hn := ih (i + 1) (by omega)
      have e := congrArg norm (ρrec i (by omega))
      rw [norm_mul, norm_one] at e
      have hlow : 2 ≤ ‖(2 * (i : ℂ) + 3) / z - ρ (i + 1)‖ := by
        have h1 : ‖(2 * (i : ℂ) + 3) / z‖ - ‖ρ (i + 1)‖ ≤ ‖(2 * (i : ℂ) + 3) / z - ρ (i + 1)‖ := norm_sub_norm_le _ _
        have h2 : 3 ≤ ‖(2 * (i : ℂ) + 3) / z‖ := by
          rw [norm_div, le_div_iff₀ hz0]
          have : ‖2 * (i : ℂ) + 3‖ = 2 * i + 3 := by
            have : (2 * (i : ℂ) + 3) = ((2 * i + 3 : ℕ) : ℂ) := by push_cast; ring
            rw [this, Complex.norm_natCast]
            push_cast
            ring
          rw [this]
          have : (0 : ℝ) ≤ i := by positivity
          nlinarith
        linarith
      nlinarith [norm_nonneg (ρ i)]
  have hdiff : ∀ k i, i + k = 800 → ‖ρ i - r i‖ ≤ 1 / 2 * (1 / 4) ^ k := by
    intro k
    induction k with
    | zero =>
      intro i hi
      have : ρ i = 0 := by
        rw [hρ]
        dsimp only
        rw [if_neg (by omega)]
      rw [this, zero_sub, norm_neg]
      simpa using rle i
    | succ k ih =>
      intro i hi
      have e : ρ i - r i = ρ i * r i * (ρ (i + 1) - r (i + 1)) := by
        linear_combination -(ρ i) * (rrec i) + (r i) * (ρrec i (by omega))
      rw [e, norm_mul, norm_mul]
      have h1 := ρle (k + 1) i hi
      have h2 := rle i
      have h3 := ih (i + 1) (by omega)
      calc ‖ρ i‖ * ‖r i‖ * ‖ρ (i + 1) - r (i + 1)‖ ≤ (1 / 2 * (1 / 2)) * (1 / 2 * (1 / 4) ^ k) :=
            mul_le_mul (mul_le_mul h1 h2 (norm_nonneg _) (by norm_num)) h3 (norm_nonneg _) (by norm_num)
        _ = 1 / 2 * (1 / 4) ^ (k + 1) := by rw [pow_succ]; ring
  -- the values
  have hX : ∀ n, n ≤ 800 → ‖ext z rho0 (o.sin z / z) n - j n‖ ≤ ‖j n‖ * (1 / 4) ^ (800 - n) := by
    intro n
    induction n with
    | zero =>
      intro _
      have : j 0 = o.sin z / z := by rw [hos]; exact rayleigh_zero _ z
      rw [this]
      have e : ext z rho0 (o.sin z / z) 0 = o.sin z / z := by simp [ext]
      rw [e, sub_self, norm_zero]
      positivity
    | succ n ih =>
      intro hn
      have h0 := ih (by omega)
      have eρ : ρ n = besselRho besselNmax z rho0 n := by rw [hρ]; dsimp only; rw [if_pos (by omega)]
      rw [ext_succ _ _ _ (by omega), ← eρ]
      have ej : j (n + 1) = r n * j n := by
        change j (n + 1) = j (n + 1) / j n * j n
        rw [div_mul_cancel₀ _ (jne n)]
      obtain ⟨q, hq⟩ : ∃ q, 800 - n = q + 1 := ⟨800 - n - 1, by omega⟩
      rw [hq] at h0
      rw [show 800 - (n + 1) = q by omega]
      -- relative deviation of the ratio
      have er : ρ n - r n = ρ n * r n * (ρ (n + 1) - r (n + 1)) := by
        linear_combination -(ρ n) * (rrec n) + (r n) * (ρrec n (by omega))
      have hδ : ‖ρ n * (ρ (n + 1) - r (n + 1))‖ ≤ 1 / 4 * (1 / 4) ^ q := by
        rw [norm_mul]
        calc ‖ρ n‖ * ‖ρ (n + 1) - r (n + 1)‖ ≤ 1 / 2 * (1 / 2 * (1 / 4) ^ q) :=
              mul_le_mul (ρle (q + 1) n (by omega)) (hdiff q (n + 1) (by omega)) (norm_nonneg _) (by norm_num)
          _ = _ := by ring
      set δ := ρ n * (ρ (n + 1) - r (n + 1)) with hδd
      set x := ext z rho0 (o.sin z / z) n with hx
      have e : ρ n * x - j (n + 1) = r n * ((x - j n) * (1 + δ) + j n * δ) := by
        rw [ej]
        have : ρ n = r n * (1 + δ) := by rw [hδd]; linear_combination er
        rw [this]
        ring
      have p1 : (1 / 4 : ℝ) ^ q ≤ 1 := pow_le_one₀ (by norm_num) (by norm_num)
      have p0 : (0 : ℝ) ≤ (1 / 4) ^ q := by positivity
      have hδ1 : ‖1 + δ‖ ≤ 2 := by
        refine (norm_add_le _ _).trans ?_
        rw [norm_one]
        linarith
      rw [e, norm_mul, ej, norm_mul, mul_assoc]
      refine mul_le_mul_of_nonneg_left ?_ (norm_nonneg _)
      refine (norm_add_le _ _).trans ?_
      rw [norm_mul, norm_mul]
      have b1 : ‖x - j n‖ * ‖1 + δ‖ ≤ ‖j n‖ * (1 / 4) ^ (q + 1) * 2 := mul_le_mul h0 hδ1 (norm_nonneg _) (by positivity)
      have b2 : ‖j n‖ * ‖δ‖ ≤ ‖j n‖ * (1 / 4 * (1 / 4) ^ q) := mul_le_mul_of_nonneg_left hδ (norm_nonneg _)
      have : ‖j n‖ * (1 / 4) ^ (q + 1) * 2 + ‖j n‖ * (1 / 4 * (1 / 4) ^ q) = 3 / 4 * (‖j n‖ * (1 / 4) ^ q) := by rw [pow_succ]; ring
      have : 0 ≤ ‖j n‖ * (1 / 4) ^ q := by positivity
      linarith
  intro n h1 hn
  refine ⟨jne n, ?_⟩
  rw [sphericalJ_ext o z rho0 nmax h800 t n h1 hn]
  refine (hX n (by omega)).trans (le_of_eq ?_)
  rw [one_div, inv_pow]
  rfl

/-! ## the hypotheses are met -/

theorem sin_one_large : 1 / 2 ≤ Real.sin 1 := by
  have h := (abs_le.mp (Real.sin_bound (x := 1) (by norm_num))).1
  norm_num at h
  linarith

example (nmax : Nat) (h : nmax ≤ 800) (rho0 : Nat → ℝ) (t : (Nat → ℝ) × (Nat → ℝ)) :
    ∀ n, 1 ≤ n → n ≤ nmax → |(sphericalJ realOps nmax 1 rho0 t).1 (n - 1) - sphJ Real.sin n 1| ≤ 1 / 10 ^ 59 / |Real.sin 1| :=
  fun n h1 hn => (c62_first_kind_real_500 realOps rfl rfl 1 one_ne_zero (by norm_num)
    ((show (1 : ℝ) / 10 ^ 50 ≤ 1 / 2 by norm_num).trans (sin_one_large.trans (le_abs_self _))) nmax h rho0 t
    (c62_no_division_by_zero 1 one_ne_zero (by norm_num) rho0) n h1 hn).1

example (rho0 : Nat → ℂ) (t : (Nat → ℂ) × (Nat → ℂ)) :
    ‖(sphericalJ complexOps 100 (Complex.I / 2) rho0 t).1 99 - sphJ Complex.sin 100 (Complex.I / 2)‖ ≤ ‖sphJ Complex.sin 100 (Complex.I / 2)‖ / 4 ^ 700 :=
  (c62_first_kind_small complexOps rfl (Complex.I / 2) (by simp) (by simp; norm_num) 100 (by norm_num) rho0 t 100 (by norm_num) (by norm_num)).2

end Verif.Bessel
