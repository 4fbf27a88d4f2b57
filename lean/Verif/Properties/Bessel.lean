import Verif.Model.Special
import Verif.Spec.Bessel
import Verif.Proofs.Matrix
import Mathlib.Analysis.Calculus.ContDiff.Deriv
import Mathlib.Analysis.Calculus.ContDiff.Operations
import Mathlib.Analysis.Calculus.Deriv.Pow
import Mathlib.Analysis.SpecialFunctions.Trigonometric.Deriv
import Mathlib.Analysis.SpecialFunctions.Trigonometric.DerivHyp
import Mathlib.Analysis.Real.Pi.Bounds
import Mathlib.Tactic.FieldSimp
import Mathlib.Tactic.Ring
import Mathlib.Tactic.LinearCombination

/-!
# C62: the spherical Bessel arrays
-/
namespace Verif.Bessel

open Verif.Matrix (loop loop_inv loop_self loop_succ)
open Verif.Special (Ops sphericalY sphericalJ besselRho besselNmax)

variable {𝕜 : Type} [NontriviallyNormedField 𝕜]

theorem smooth_L (f : 𝕜 → 𝕜) (hf : ContDiffOn 𝕜 (⊤ : ℕ∞) f {0}ᶜ) (n : Nat) : ContDiffOn 𝕜 (⊤ : ℕ∞) (L^[n] f) {0}ᶜ := by
  induction n generalizing f with
  | zero => exact hf
  | succ n ih =>
    rw [Function.iterate_succ_apply]
    refine ih _ ?_
    have h := (contDiffOn_infty_iff_deriv_of_isOpen (isOpen_compl_singleton (x := (0 : 𝕜)))).mp hf
    exact h.2.div contDiffOn_id (fun x hx => hx)

theorem rayleigh_succ (f : 𝕜 → 𝕜) (n : Nat) (z : 𝕜) (hz : z ≠ 0) :
    rayleigh f (n + 1) z = -(-z) ^ n * deriv (L^[n] f) z := by
  unfold rayleigh
  rw [Function.iterate_succ_apply', pow_succ]
  unfold L
  field_simp

/-- `f_n' = (n/z) f_n - f_{n+1}` -/
theorem rayleigh_deriv (f : 𝕜 → 𝕜) (hf : ContDiffOn 𝕜 (⊤ : ℕ∞) f {0}ᶜ) (n : Nat) (z : 𝕜) (hz : z ≠ 0) :
    HasDerivAt (rayleigh f n) ((n : 𝕜) / z * rayleigh f n z - rayleigh f (n + 1) z) z := by
  have hd : DifferentiableAt 𝕜 (L^[n] f) z :=
    ((smooth_L f hf n).differentiableOn (by simp)).differentiableAt (isOpen_compl_singleton.mem_nhds hz)
  have h1 : HasDerivAt (fun z : 𝕜 => (-z) ^ n) ((n : 𝕜) * (-z) ^ (n - 1) * -1) z := (hasDerivAt_neg z).pow n
  refine (h1.mul hd.hasDerivAt).congr_deriv ?_
  rw [rayleigh_succ f n z hz]
  unfold rayleigh
  cases n with
  | zero => simp
  | succ n =>
    rw [Nat.add_sub_cancel, pow_succ]
    field_simp
    ring

/-- the pair of functions `f_{-1}`, `f_0` that starts the sequence -/
structure Start (e f : 𝕜 → 𝕜) : Prop where
  smooth : ContDiffOn 𝕜 (⊤ : ℕ∞) f {0}ᶜ
  df : ∀ z, z ≠ 0 → HasDerivAt f (e z - f z / z) z
  de : ∀ z, z ≠ 0 → HasDerivAt e (-(e z) / z - f z) z

variable {e f : 𝕜 → 𝕜}

theorem Start.one (h : Start e f) (z : 𝕜) (hz : z ≠ 0) : rayleigh f 1 z = f z / z - e z := by
  rw [show (1 : ℕ) = 0 + 1 by rfl, rayleigh_succ f 0 z hz]
  simp only [pow_zero, Function.iterate_zero, id]
  rw [(h.df z hz).deriv]
  ring

theorem rayleigh_zero (f : 𝕜 → 𝕜) (z : 𝕜) : rayleigh f 0 z = f z := by simp [rayleigh]

/-- `f_{n+1}' = f_n - ((n+2)/z) f_{n+1}` -/
theorem Start.deriv_succ (h : Start e f) : ∀ (n : Nat) (z : 𝕜), z ≠ 0 →
    HasDerivAt (rayleigh f (n + 1)) (rayleigh f n z - ((n : 𝕜) + 2) / z * rayleigh f (n + 1) z) z := by
  intro n
  induction n with
  | zero =>
    intro z hz
    have heq : rayleigh f 1 =ᶠ[nhds z] fun z => f z / z - e z := by
      filter_upwards [isOpen_compl_singleton.mem_nhds hz] with x hx
      exact h.one x hx
    refine HasDerivAt.congr_of_eventuallyEq ?_ heq
    have h1 := ((h.df z hz).div (hasDerivAt_id z) hz).sub (h.de z hz)
    refine h1.congr_deriv ?_
    rw [rayleigh_zero, h.one z hz]
    simp only [id, Nat.cast_zero]
    field_simp
    ring
  | succ n ih =>
    intro z hz
    -- three-term relation near `z`
    have hthree : ∀ x : 𝕜, x ≠ 0 →
        rayleigh f (n + 2) x = (2 * (n : 𝕜) + 3) / x * rayleigh f (n + 1) x - rayleigh f n x := by
      intro x hx
      have e1 := rayleigh_deriv f h.smooth (n + 1) x hx
      have e2 := ih x hx
      have := e1.unique e2
      push_cast at this
      linear_combination -this
    have heq : rayleigh f (n + 2) =ᶠ[nhds z]
        fun x => (2 * (n : 𝕜) + 3) / x * rayleigh f (n + 1) x - rayleigh f n x := by
      filter_upwards [isOpen_compl_singleton.mem_nhds hz] with x hx
      exact hthree x hx
    refine HasDerivAt.congr_of_eventuallyEq ?_ heq
    have d1 : HasDerivAt (fun x : 𝕜 => (2 * (n : 𝕜) + 3) / x) (-(2 * (n : 𝕜) + 3) / z ^ 2) z := by
      refine ((hasDerivAt_const z (2 * (n : 𝕜) + 3)).div (hasDerivAt_id z) hz).congr_deriv ?_
      simp
    have d2 := rayleigh_deriv f h.smooth (n + 1) z hz
    have d3 := rayleigh_deriv f h.smooth n z hz
    refine ((d1.mul d2).sub d3).congr_deriv ?_
    have h3 := hthree z hz
    have h3' : rayleigh f n z = (2 * (n : 𝕜) + 3) / z * rayleigh f (n + 1) z - rayleigh f (n + 2) z := by
      linear_combination h3
    rw [h3']
    push_cast
    field_simp
    ring

theorem Start.three_term (h : Start e f) (n : Nat) (z : 𝕜) (hz : z ≠ 0) :
    rayleigh f (n + 2) z = (2 * (n : 𝕜) + 3) / z * rayleigh f (n + 1) z - rayleigh f n z := by
  have := (rayleigh_deriv f h.smooth (n + 1) z hz).unique (h.deriv_succ n z hz)
  push_cast at this
  linear_combination -this

/-- the combination the arrays contain: `[z f_{n+1}]' = z (f_n - ((n+1)/z) f_{n+1})` -/
theorem Start.deriv_mul (h : Start e f) (n : Nat) (z : 𝕜) (hz : z ≠ 0) :
    HasDerivAt (fun x => x * rayleigh f (n + 1) x)
      (z * (rayleigh f n z - ((n : 𝕜) + 1) / z * rayleigh f (n + 1) z)) z := by
  refine ((hasDerivAt_id z).mul (h.deriv_succ n z hz)).congr_deriv ?_
  simp only [id]
  field_simp
  ring

/-- sine and cosine: each is the derivative of the other, up to sign, and they are smooth -/
structure IsTrig (s c : 𝕜 → 𝕜) : Prop where
  ds : ∀ z, HasDerivAt s (c z) z
  dc : ∀ z, HasDerivAt c (-s z) z
  smooth_s : ContDiff 𝕜 (⊤ : ℕ∞) s
  smooth_c : ContDiff 𝕜 (⊤ : ℕ∞) c

theorem isTrig_real : IsTrig Real.sin Real.cos :=
  ⟨Real.hasDerivAt_sin, Real.hasDerivAt_cos, Real.contDiff_sin, Real.contDiff_cos⟩

theorem isTrig_complex : IsTrig Complex.sin Complex.cos :=
  ⟨Complex.hasDerivAt_sin, Complex.hasDerivAt_cos, Complex.contDiff_sin, Complex.contDiff_cos⟩

variable {s c : 𝕜 → 𝕜}

theorem IsTrig.startY (h : IsTrig s c) : Start (fun z => s z / z) (fun z => -c z / z) where
  smooth := h.smooth_c.contDiffOn.neg.div contDiffOn_id (fun _ hx => hx)
  df := by
    intro z hz
    refine ((h.dc z).neg.div (hasDerivAt_id z) hz).congr_deriv ?_
    simp only [id, Pi.neg_apply]
    field_simp
  de := by
    intro z hz
    refine ((h.ds z).div (hasDerivAt_id z) hz).congr_deriv ?_
    simp only [id]
    field_simp
    ring

theorem IsTrig.startJ (h : IsTrig s c) : Start (fun z => c z / z) (fun z => s z / z) where
  smooth := h.smooth_s.contDiffOn.div contDiffOn_id (fun _ hx => hx)
  df := by
    intro z hz
    refine ((h.ds z).div (hasDerivAt_id z) hz).congr_deriv ?_
    simp only [id]
    field_simp
  de := by
    intro z hz
    refine ((h.dc z).div (hasDerivAt_id z) hz).congr_deriv ?_
    simp only [id]
    field_simp
    ring

/-- **C62** (second kind) For every argument `z ≠ 0`, real or complex, every maximum order `nmax ≥ 2` and previous
contents: element `n-1` of the first array is the spherical Bessel function of the second kind `y_n(z)`, element `n-1`
of the second array is `[z y_n(z)]'/z`, for `1 ≤ n ≤ nmax`, and nothing else is written. -/
theorem c62_second_kind_partial (o : Ops 𝕜) (ht : IsTrig o.sin o.cos) (z : 𝕜) (hz : z ≠ 0) (nmax : Nat) (hn : 2 ≤ nmax)
    (t : (Nat → 𝕜) × (Nat → 𝕜)) :
    (∀ n, 1 ≤ n → n ≤ nmax → (sphericalY o nmax z t).1 (n - 1) = sphY o.cos n z
      ∧ HasDerivAt (fun x => x * sphY o.cos n x) (z * (sphericalY o nmax z t).2 (n - 1)) z)
    ∧ ∀ q, nmax ≤ q → (sphericalY o nmax z t).1 q = t.1 q ∧ (sphericalY o nmax z t).2 q = t.2 q := by
  have hs := ht.startY
  have y0 : sphY o.cos 0 z = -o.cos z / z := rayleigh_zero _ z
  have y1 : sphY o.cos 1 z = -o.cos z * (1 / z * (1 / z)) - o.sin z * (1 / z) := by
    have := hs.one z hz
    unfold sphY
    rw [this]; field_simp
  have y2 : sphY o.cos 2 z = (-3 * (1 / z * (1 / z) * (1 / z)) + 1 / z) * o.cos z - 3 * (1 / z * (1 / z)) * o.sin z := by
    have := hs.three_term 0 z hz
    change sphY o.cos 2 z = _ * sphY o.cos 1 z - sphY o.cos 0 z at this
    rw [this, y1, y0]
    push_cast
    field_simp
    ring
  have hd : ∀ (k : Nat) (v : 𝕜), v = sphY o.cos k z - ((k : 𝕜) + 1) / z * sphY o.cos (k + 1) z →
      HasDerivAt (fun x => x * sphY o.cos (k + 1) x) (z * v) z := by
    rintro k v rfl
    exact hs.deriv_mul k z hz
  have key := loop_inv (σ := (Nat → 𝕜) × (Nat → 𝕜))
    (fun k u => (∀ n, n < k → u.1 n = sphY o.cos (n + 1) z
        ∧ u.2 n = sphY o.cos n z - ((n : 𝕜) + 1) / z * sphY o.cos (n + 1) z)
      ∧ ∀ q, k ≤ q → u.1 q = t.1 q ∧ u.2 q = t.2 q) hn
    (fun i u => (Function.update u.1 i ((2 * (i : 𝕜) + 1) * (1 / z) * u.1 (i - 1) - u.1 (i - 2)),
      Function.update u.2 i (u.1 (i - 1) - ((i : 𝕜) + 1) * (1 / z) * ((2 * (i : 𝕜) + 1) * (1 / z) * u.1 (i - 1) - u.1 (i - 2)))))
    (Function.update (Function.update t.1 0 (-o.cos z * (1 / z * (1 / z)) - o.sin z * (1 / z))) 1
        ((-3 * (1 / z * (1 / z) * (1 / z)) + 1 / z) * o.cos z - 3 * (1 / z * (1 / z)) * o.sin z),
      Function.update (Function.update t.2 0 (-(1 / z) * (o.cos z + (-o.cos z * (1 / z * (1 / z)) - o.sin z * (1 / z))))) 1
        ((-o.cos z * (1 / z * (1 / z)) - o.sin z * (1 / z))
          - 2 * (1 / z) * ((-3 * (1 / z * (1 / z) * (1 / z)) + 1 / z) * o.cos z - 3 * (1 / z * (1 / z)) * o.sin z)))
    (by
      refine ⟨?_, ?_⟩
      · intro n hn2
        rcases (by omega : n = 0 ∨ n = 1) with rfl | rfl
        · dsimp only
          simp only [Function.update_of_ne (zero_ne_one' ℕ), Function.update_self]
          rw [← y1, y0]
          refine ⟨rfl, ?_⟩
          push_cast
          ring
        · dsimp only
          rw [Function.update_self, Function.update_self, ← y1, ← y2]
          refine ⟨rfl, ?_⟩
          push_cast
          ring
      · intro q hq
        dsimp only
        rw [Function.update_of_ne (by omega), Function.update_of_ne (by omega), Function.update_of_ne (by omega),
          Function.update_of_ne (by omega)]
        exact ⟨rfl, rfl⟩)
    (by
      rintro k u hk _ ⟨h1, h2⟩
      have a1 := (h1 (k - 1) (by omega)).1
      have a2 := (h1 (k - 2) (by omega)).1
      rw [show k - 1 + 1 = k by omega] at a1
      rw [show k - 2 + 1 = k - 1 by omega] at a2
      have h3 := hs.three_term (k - 1) z hz
      rw [show k - 1 + 2 = k + 1 by omega, show k - 1 + 1 = k by omega] at h3
      have hcast : ((k - 1 : ℕ) : 𝕜) = (k : 𝕜) - 1 := by rw [Nat.cast_sub (by omega)]; simp
      have hv : (2 * (k : 𝕜) + 1) * (1 / z) * u.1 (k - 1) - u.1 (k - 2) = sphY o.cos (k + 1) z := by
        rw [a1, a2]
        unfold sphY
        rw [h3, hcast]
        ring
      refine ⟨?_, ?_⟩
      · intro n hn2
        by_cases hnk : n = k
        · subst hnk
          dsimp only
          rw [Function.update_self, Function.update_self, hv, a1]
          exact ⟨rfl, by ring⟩
        · dsimp only
          rw [Function.update_of_ne hnk, Function.update_of_ne hnk]
          exact h1 n (by omega)
      · intro q hq
        dsimp only
        rw [Function.update_of_ne (by omega), Function.update_of_ne (by omega)]
        exact h2 q (by omega))
  refine ⟨fun n h1 h2 => ?_, key.2⟩
  have := key.1 (n - 1) (by omega)
  have hk := hd (n - 1) _ this.2
  rw [show n - 1 + 1 = n by omega] at this
  refine ⟨this.1, ?_⟩
  rw [show n - 1 + 1 = n by omega] at hk
  exact hk

/-- the elementary functions on the complex numbers, as far as the Bessel functions need them -/
noncomputable def complexOps : Ops ℂ := ⟨fun x => x ^ (1 / 2 : ℂ), fun x => x ^ (1 / 3 : ℂ), Complex.sin, Complex.cos, Real.pi⟩

example : IsTrig complexOps.sin complexOps.cos ∧ (⟨1, 1⟩ : ℂ) ≠ 0 := ⟨isTrig_complex, fun h => by
  have := congrArg Complex.re h; simp at this⟩

/-- **C62** (violated) for `nmax = 1` the second element of both arrays is written although the caller provides only
one: whatever was stored there is overwritten. -/
theorem c62_violated_nmax_one {K : Type} [Field K] (o : Ops K) (z : K) (t : (Nat → K) × (Nat → K)) :
    (sphericalY o 1 z t).1 1 = (-3 * (1 / z * (1 / z) * (1 / z)) + 1 / z) * o.cos z - 3 * (1 / z * (1 / z)) * o.sin z
    ∧ ∃ t' : (Nat → K) × (Nat → K), (sphericalY o 1 z t').1 1 ≠ t'.1 1 := by
  have h : ∀ t : (Nat → K) × (Nat → K), (sphericalY o 1 z t).1 1
      = (-3 * (1 / z * (1 / z) * (1 / z)) + 1 / z) * o.cos z - 3 * (1 / z * (1 / z)) * o.sin z := by
    intro t
    simp [sphericalY, loop]
  refine ⟨h t, (fun _ => ((-3 * (1 / z * (1 / z) * (1 / z)) + 1 / z) * o.cos z - 3 * (1 / z * (1 / z)) * o.sin z) + 1, t.2), ?_⟩
  rw [h]
  simp

/-! ## first kind -/

/-- the ratios: the last one is the asymptotic value, the others follow from the recursion -/
theorem rho_spec {K : Type} [Field K] (top : Nat) (htop : 1 ≤ top) (z : K) (rho : Nat → K) :
    besselRho top z rho (top - 1) = z / (2 * (top : K) + 1)
    ∧ (∀ i, i + 1 < top → besselRho top z rho i = 1 / ((2 * ((i : K) + 1) + 1) * (1 / z) - besselRho top z rho (i + 1)))
    ∧ (∀ i, top ≤ i → besselRho top z rho i = rho i) := by
  have key := loop_inv (σ := Nat → K)
    (fun k r => r (top - 1) = z / (2 * (top : K) + 1)
      ∧ (∀ i, i + 1 < top → top - k ≤ i → r i = 1 / ((2 * ((i : K) + 1) + 1) * (1 / z) - r (i + 1)))
      ∧ (∀ i, top ≤ i → r i = rho i)) htop
    (fun i rho => Function.update rho (top - i - 1) (1 / ((2 * ((top - i : Nat) : K) + 1) * (1 / z) - rho (top - i))))
    (Function.update rho (top - 1) (z / (2 * (top : K) + 1)))
    ⟨by simp, fun i h1 h2 => absurd h1 (by omega), fun i hi => by rw [Function.update_of_ne (by omega)]⟩
    (by
      rintro k r hk hk2 ⟨h1, h2, h3⟩
      refine ⟨?_, ?_, ?_⟩
      · rw [Function.update_of_ne (by omega)]; exact h1
      · intro i hi1 hi2
        by_cases hik : i = top - k - 1
        · subst hik
          rw [Function.update_self, Function.update_of_ne (by omega)]
          have hc : ((top - k - 1 : ℕ) : K) + 1 = ((top - k : ℕ) : K) := by
            rw [← Nat.cast_succ]; congr 1; omega
          rw [hc, show top - k - 1 + 1 = top - k by omega]
        · rw [Function.update_of_ne hik, Function.update_of_ne (by omega)]
          exact h2 i hi1 (by omega)
      · intro i hi
        rw [Function.update_of_ne (by omega)]; exact h3 i hi)
  exact ⟨key.1, fun i hi => key.2.1 i hi (by omega), key.2.2⟩

/-- what the arrays contain, for any order -/
theorem sphericalJ_spec {K : Type} [Field K] (o : Ops K) (z : K) (rho0 : Nat → K) (nmax : Nat) (hn : 1 ≤ nmax)
    (t : (Nat → K) × (Nat → K)) :
    (sphericalJ o nmax z rho0 t).1 0 = besselRho besselNmax z rho0 0 * (o.sin z * (1 / z))
    ∧ (sphericalJ o nmax z rho0 t).2 0 = o.sin z * (1 / z) - (sphericalJ o nmax z rho0 t).1 0 * (1 / z)
    ∧ (∀ i, 1 ≤ i → i < nmax → (sphericalJ o nmax z rho0 t).1 i
          = besselRho besselNmax z rho0 i * (sphericalJ o nmax z rho0 t).1 (i - 1)
        ∧ (sphericalJ o nmax z rho0 t).2 i = (sphericalJ o nmax z rho0 t).1 (i - 1)
          - ((i : K) + 1) * (1 / z) * (sphericalJ o nmax z rho0 t).1 i)
    ∧ ∀ q, nmax ≤ q → (sphericalJ o nmax z rho0 t).1 q = t.1 q ∧ (sphericalJ o nmax z rho0 t).2 q = t.2 q := by
  refine loop_inv (σ := (Nat → K) × (Nat → K))
    (fun k u => u.1 0 = besselRho besselNmax z rho0 0 * (o.sin z * (1 / z))
      ∧ u.2 0 = o.sin z * (1 / z) - u.1 0 * (1 / z)
      ∧ (∀ i, 1 ≤ i → i < k → u.1 i = besselRho besselNmax z rho0 i * u.1 (i - 1)
        ∧ u.2 i = u.1 (i - 1) - ((i : K) + 1) * (1 / z) * u.1 i)
      ∧ ∀ q, k ≤ q → u.1 q = t.1 q ∧ u.2 q = t.2 q) hn _ _ ?_ ?_
  · refine ⟨by simp, by simp, fun i h1 h2 => absurd h2 (by omega), ?_⟩
    intro q hq
    dsimp only
    rw [Function.update_of_ne (by omega), Function.update_of_ne (by omega)]
    exact ⟨rfl, rfl⟩
  · rintro k u hk _ ⟨h1, h2, h3, h4⟩
    dsimp only
    refine ⟨?_, ?_, ?_, ?_⟩
    · rw [Function.update_of_ne (by omega)]; exact h1
    · rw [Function.update_of_ne (by omega), Function.update_of_ne (by omega)]; exact h2
    · intro i hi1 hi2
      by_cases hik : i = k
      · subst hik
        rw [Function.update_self, Function.update_self, Function.update_of_ne (by omega)]
        exact ⟨rfl, rfl⟩
      · rw [Function.update_of_ne hik, Function.update_of_ne (by omega), Function.update_of_ne hik]
        exact h3 i hi1 (by omega)
    · intro q hq
      rw [Function.update_of_ne (by omega), Function.update_of_ne (by omega)]
      exact h4 q (by omega)

/-- **C62** (first kind) For every argument `z ≠ 0`, every `1 ≤ nmax ≤ 800`, previous contents of the arrays and of the
uninitialised work array, provided no division by zero occurs in the recursion: with `J 0 = sin z / z` and `J n` the
value returned for order `n`, the values satisfy the three-term recurrence of the spherical Bessel functions exactly,
the second array is `J (n-1) - (n/z) J n` (the recurrence for `[z j_n]'/z`), nothing else is written, and the results do
not depend on the uninitialised array. The only approximation is the ratio assumed at order 800: if it equals the true
ratio `j_800/j_799`, all values are the spherical Bessel functions of the first kind. -/
theorem c62_first_kind_partial (o : Ops 𝕜) (ht : IsTrig o.sin o.cos) (z : 𝕜) (hz : z ≠ 0) (nmax : Nat) (h1 : 1 ≤ nmax)
    (h800 : nmax ≤ 800) (rho0 : Nat → 𝕜) (t : (Nat → 𝕜) × (Nat → 𝕜))
    (hdiv : ∀ i : Nat, i + 1 < 800 → (2 * ((i : 𝕜) + 1) + 1) * (1 / z) - besselRho besselNmax z rho0 (i + 1) ≠ 0) :
    let J : Nat → 𝕜 := fun n => if n = 0 then o.sin z / z else (sphericalJ o nmax z rho0 t).1 (n - 1)
    (∀ n, n + 2 ≤ nmax → J (n + 2) = (2 * (n : 𝕜) + 3) / z * J (n + 1) - J n)
    ∧ (∀ n, 1 ≤ n → n ≤ nmax → (sphericalJ o nmax z rho0 t).2 (n - 1) = J (n - 1) - (n : 𝕜) / z * J n)
    ∧ (∀ q, nmax ≤ q → (sphericalJ o nmax z rho0 t).1 q = t.1 q ∧ (sphericalJ o nmax z rho0 t).2 q = t.2 q)
    ∧ (sphJ o.sin 800 z = z / 1601 * sphJ o.sin 799 z →
        ∀ n, 1 ≤ n → n ≤ nmax → J n = sphJ o.sin n z
          ∧ HasDerivAt (fun x => x * sphJ o.sin n x) (z * (sphericalJ o nmax z rho0 t).2 (n - 1)) z) := by
  intro J
  obtain ⟨s1, s2, s3, s4⟩ := sphericalJ_spec o z rho0 nmax h1 t
  obtain ⟨r1, r2, r3⟩ := rho_spec besselNmax (by decide) z rho0
  have hJ : ∀ n, 1 ≤ n → n ≤ nmax → J n = besselRho besselNmax z rho0 (n - 1) * J (n - 1) := by
    intro n hn1 hn2
    simp only [J, if_neg (by omega : ¬n = 0)]
    by_cases hn : n = 1
    · subst hn
      rw [if_pos rfl, s1]; ring
    · rw [if_neg (by omega)]
      exact (s3 (n - 1) (by omega) (by omega)).1
  have hdj : ∀ n, 1 ≤ n → n ≤ nmax → (sphericalJ o nmax z rho0 t).2 (n - 1) = J (n - 1) - (n : 𝕜) / z * J n := by
    intro n hn1 hn2
    simp only [J, if_neg (by omega : ¬n = 0)]
    by_cases hn : n = 1
    · subst hn
      rw [if_pos rfl, s2]; push_cast; ring
    · rw [if_neg (by omega), (s3 (n - 1) (by omega) (by omega)).2]
      rw [show ((n - 1 : ℕ) : 𝕜) + 1 = n by rw [Nat.cast_sub hn1]; simp]
      ring
  refine ⟨?_, hdj, s4, ?_⟩
  · intro n hn
    have e2 := hJ (n + 2) (by omega) hn
    have e1 := hJ (n + 1) (by omega) (by omega)
    simp only [Nat.add_sub_cancel, show n + 2 - 1 = n + 1 by omega] at e1 e2
    have hr := r2 n (by unfold besselNmax; omega)
    have hd := hdiv n (by omega)
    rw [hr] at e1
    rw [e2]
    generalize besselRho besselNmax z rho0 (n + 1) = ρ at *
    have : ((2 * ((n : 𝕜) + 1) + 1) * (1 / z) - ρ) * J (n + 1) = J n := by
      rw [e1, ← mul_assoc, mul_one_div_cancel hd, one_mul]
    linear_combination -this
  · intro hlast n hn1 hn2
    have hs := ht.startJ
    -- the true functions satisfy `j_{i+1} = rho_i j_i`
    have hrho : ∀ d i, i + d = 799 → sphJ o.sin (i + 1) z = besselRho besselNmax z rho0 i * sphJ o.sin i z := by
      intro d
      induction d with
      | zero =>
        intro i hi
        obtain rfl : i = 799 := by omega
        rw [hlast]
        have : besselRho besselNmax z rho0 799 = z / 1601 := by
          rw [show (799 : ℕ) = besselNmax - 1 by rfl, r1]
          unfold besselNmax; norm_num
        rw [this]
      | succ d ih =>
        intro i hi
        have hnext := ih (i + 1) (by omega)
        have h3 := hs.three_term i z hz
        change sphJ o.sin (i + 2) z = _ * sphJ o.sin (i + 1) z - sphJ o.sin i z at h3
        have hd := hdiv i (by omega)
        rw [r2 i (by unfold besselNmax; omega)]
        generalize besselRho besselNmax z rho0 (i + 1) = ρ at *
        have : ((2 * ((i : 𝕜) + 1) + 1) * (1 / z) - ρ) * sphJ o.sin (i + 1) z = sphJ o.sin i z := by
          rw [show i + 1 + 1 = i + 2 by rfl, h3] at hnext
          linear_combination hnext
        rw [← this, ← mul_assoc, one_div_mul_cancel hd, one_mul]
    have hJeq : ∀ n, n ≤ nmax → J n = sphJ o.sin n z := by
      intro n
      induction n with
      | zero => intro _; simp only [J, if_true]; exact (rayleigh_zero _ z).symm
      | succ n ih =>
        intro hn
        rw [hJ (n + 1) (by omega) hn, Nat.add_sub_cancel, ih (by omega), hrho (799 - n) n (by omega)]
    refine ⟨hJeq n hn2, ?_⟩
    rw [hdj n hn1 hn2, hJeq n hn2, hJeq (n - 1) (by omega)]
    have := hs.deriv_mul (n - 1) z hz
    rw [show n - 1 + 1 = n by omega, show ((n - 1 : ℕ) : 𝕜) + 1 = n by rw [Nat.cast_sub hn1]; simp] at this
    exact this

/-- the recursion never divides by zero for `|z| ≤ 3/2` -/
theorem c62_no_division_by_zero {K : Type} [RCLike K] (z : K) (hz : z ≠ 0) (h1 : ‖z‖ ≤ 3 / 2) (rho0 : Nat → K) :
    ∀ i : Nat, i + 1 < 800 → (2 * ((i : K) + 1) + 1) * (1 / z) - besselRho besselNmax z rho0 (i + 1) ≠ 0 := by
  obtain ⟨r1, r2, r3⟩ := rho_spec besselNmax (by decide) z rho0
  have hz0 : 0 < ‖z‖ := norm_pos_iff.mpr hz
  -- lower bound on the denominator when the next ratio is at most one
  have hden : ∀ (i : Nat) (ρ : K), ‖ρ‖ ≤ 1 → 1 ≤ ‖(2 * ((i : K) + 1) + 1) * (1 / z) - ρ‖ := by
    intro i ρ hρ
    have hn : ‖(2 * ((i : K) + 1) + 1) * (1 / z)‖ = (2 * ((i : ℝ) + 1) + 1) / ‖z‖ := by
      rw [norm_mul, norm_div, norm_one, show (2 * ((i : K) + 1) + 1) = ((2 * (i + 1) + 1 : ℕ) : K) by push_cast; ring,
        RCLike.norm_natCast]
      push_cast; ring
    have h3 : 2 ≤ ‖(2 * ((i : K) + 1) + 1) * (1 / z)‖ := by
      rw [hn, le_div_iff₀ hz0]
      have : (0 : ℝ) ≤ i := by positivity
      nlinarith
    have := norm_sub_norm_le ((2 * ((i : K) + 1) + 1) * (1 / z)) ρ
    linarith
  have hrho : ∀ d i, i + d = 799 → ‖besselRho besselNmax z rho0 i‖ ≤ 1 := by
    intro d
    induction d with
    | zero =>
      intro i hi
      obtain rfl : i = 799 := by omega
      have : besselRho besselNmax z rho0 799 = z / 1601 := by
        rw [show (799 : ℕ) = besselNmax - 1 by rfl, r1]
        unfold besselNmax; norm_num
      rw [this, norm_div]
      rw [show ‖(1601 : K)‖ = 1601 from RCLike.norm_ofNat 1601, div_le_one (by norm_num)]
      linarith
    | succ d ih =>
      intro i hi
      rw [r2 i (by unfold besselNmax; omega), norm_div, norm_one]
      have := hden i _ (ih (i + 1) (by omega))
      rw [div_le_one (by linarith)]
      linarith
  intro i hi h
  have := hden i _ (hrho (799 - (i + 1)) (i + 1) (by omega))
  rw [h, norm_zero] at this
  norm_num at this

/-- **C62** (violated) for an order above 800 the returned value is a product with an element beyond the end of the
local array of ratios, that is, with whatever is stored there. -/
theorem c62_violated_large {K : Type} [Field K] (o : Ops K) (z : K) (rho0 : Nat → K) (nmax : Nat) (h : 800 < nmax)
    (t : (Nat → K) × (Nat → K)) :
    (sphericalJ o nmax z rho0 t).1 800 = rho0 800 * (sphericalJ o nmax z rho0 t).1 799 := by
  have := (sphericalJ_spec o z rho0 nmax (by omega) t).2.2.1 800 (by omega) h
  rw [this.1, (rho_spec besselNmax (by decide) z rho0).2.2 800 (by decide)]

end Verif.Bessel
