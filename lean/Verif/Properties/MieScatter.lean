import Verif.Spec.MieScatter
import Verif.Properties.Mie

/-!
# C113: the light scattered by spheres
-/
namespace Verif.Mie

open Finset Verif.Scatter Verif.Rotation Verif.TMatrix.Spec Verif.Content Verif.Frame
open Verif.Direct (theory alphaF)
open Verif.Alignment (Axisymmetric Stores)
open Verif.Legendre (N G)

/-! ## incoming light along the third axis -/

theorem pole_zero {p : Angular} (hp : p.IsOf 0) {n : Nat} (hn : 1 ≤ n) {k : Int} (hk : |k| ≤ n) (h1 : k ≠ 1) (h2 : k ≠ -1) : p.pi k n = 0 ∧ p.tau k n = 0 := by
  obtain ⟨e1, e2⟩ := pole_int hp hn hk
  rw [if_neg (by tauto)] at e1 e2
  exact ⟨pow_eq_zero_iff (by norm_num) |>.1 e1, pow_eq_zero_iff (by norm_num) |>.1 e2⟩

theorem pole_sum {n : Nat} (hn : 1 ≤ n) {f : Int → ℂ} (h : ∀ k : Int, |k| ≤ n → k ≠ 1 → k ≠ -1 → f k = 0) : ∑ k ∈ Icc (-(n : Int)) n, f k = f 1 + f (-1) := by
  rw [← Finset.sum_pair (show (1 : Int) ≠ -1 by decide)]
  refine (Finset.sum_subset (fun k hk => ?_) fun k hk hk' => ?_).symm
  · simp only [Finset.mem_insert, Finset.mem_singleton] at hk
    rw [mem_Icc]
    omega
  · simp only [Finset.mem_insert, Finset.mem_singleton, not_or] at hk'
    exact h k (abs_le.2 (mem_Icc.1 hk)) hk'.1 hk'.2

theorem pole_products {p s : Angular} {θ : ℝ} (hp : p.IsOf 0) (hs : s.IsOf θ) {n : Nat} (hn : 1 ≤ n) :
    (∑ m ∈ Icc (-(n : Int)) n, (s.pi m n : ℂ) * (p.pi m n : ℂ) = πn n (Real.cos θ)) ∧ (∑ m ∈ Icc (-(n : Int)) n, (s.tau m n : ℂ) * (p.tau m n : ℂ) = τn n (Real.cos θ))
      ∧ (∑ m ∈ Icc (-(n : Int)) n, (s.pi m n : ℂ) * (p.tau m n : ℂ) = 0) ∧ (∑ m ∈ Icc (-(n : Int)) n, (s.tau m n : ℂ) * (p.pi m n : ℂ) = 0) := by
  have hz : ∀ k : Int, |k| ≤ n → k ≠ 1 → k ≠ -1 → p.pi k n = 0 ∧ p.tau k n = 0 := fun k h1 h2 h3 => pole_zero hp hn h1 h2 h3
  have sp : s.pi 1 n = N 1 n * πn n (Real.cos θ) := by
    have := pi_eq hs (m := 1) hn hn
    simpa [G, πn] using this
  have st : s.tau 1 n = N 1 n * τn n (Real.cos θ) := by
    have := tau_eq hs (m := 1) hn hn
    rw [show ((1 : Nat) : Int) = 1 from rfl] at this
    rw [this]
    simp only [G, πn, τn, Function.iterate_succ, Function.iterate_zero, Function.comp, id]
    have h := Real.sin_sq_add_cos_sq θ
    rw [show 1 - Real.cos θ ^ 2 = Real.sin θ ^ 2 by linarith]
    push_cast
    ring
  have pp : p.pi 1 n = N 1 n * (n * (n + 1) / 2) := by
    have := pi_eq hp (m := 1) hn hn
    rw [Real.cos_zero, Special.G_one_at_one] at this
    simpa using this
  have pt : p.tau 1 n = N 1 n * (n * (n + 1) / 2) := by
    have := tau_eq hp (m := 1) hn hn
    rw [Real.cos_zero, Special.G_one_at_one] at this
    simpa using this
  have np : ∀ a : Angular, a.pi (-1) n = a.pi 1 n := fun a => by
    have := a.pi_neg 1 n
    rw [this]
    simp
  have nt : ∀ a : Angular, a.tau (-1) n = -a.tau 1 n := fun a => by
    have := a.tau_neg 1 n
    rw [this]
    simp
  have hN : N 1 n ^ 2 * (n * (n + 1)) = 1 := by
    have h := N_one_sq hn
    have hn1 : (0 : ℝ) < n := by exact_mod_cast hn
    have hn0 : (0 : ℝ) < n * (n + 1) := by positivity
    have : N 1 n ^ 2 * (n * (n + 1)) * (n * (n + 1) / 4) = 1 * (n * (n + 1) / 4) := by linear_combination h
    exact mul_right_cancel₀ (by positivity) this
  have hN' : (N 1 n : ℂ) ^ 2 * (n * (n + 1)) = 1 := by exact_mod_cast hN
  refine ⟨?_, ?_, ?_, ?_⟩
  · rw [pole_sum hn fun k h1 h2 h3 => by rw [(hz k h1 h2 h3).1]; simp, np, np, sp, pp]
    push_cast
    linear_combination (πn n (Real.cos θ) : ℂ) * hN'
  · rw [pole_sum hn fun k h1 h2 h3 => by rw [(hz k h1 h2 h3).2]; simp, nt, nt, st, pt]
    push_cast
    linear_combination (τn n (Real.cos θ) : ℂ) * hN'
  · rw [pole_sum hn fun k h1 h2 h3 => by rw [(hz k h1 h2 h3).2]; simp, np, nt]
    push_cast
    ring
  · rw [pole_sum hn fun k h1 h2 h3 => by rw [(hz k h1 h2 h3).1]; simp, np, nt]
    push_cast
    ring

/-- the T-matrix of a sphere is a multiple of the identity, for every degree -/
theorem mie_scalar {T : Nat → Nat → Int → Nat → Nat → ℂ} {m : ℂ} {x : ℝ} {N : Nat} (hT : IsMie T m x N) :
    ∀ (a n : Nat) (k : Int) (b n' : Nat), a < 2 → b < 2 → 1 ≤ n → n ≤ N → 1 ≤ n' → n' ≤ N → |k| ≤ n → |k| ≤ n' →
      T a n k b n' = if n = n' then element m x a b n else 0 := by
  intro i n k i' n' h1 h2 h3 h4 h5 h6 h7 h8
  rw [hT i n k i' n' h1 h2 h3 h4 h5 h6 h7 h8]
  unfold element
  by_cases hn : n = n' <;> by_cases hi : i = i' <;> simp [hn, hi]

theorem element_scalar (m : ℂ) (x : ℝ) (N : Nat) : Scalar N (fun i i' n => element m x i i' n) (fun i n _ i' n' => if n = n' then element m x i i' n else 0) :=
  fun _ _ _ _ _ _ _ _ _ _ => rfl

/-- light along the third axis, scattered in any direction -/
theorem pole_theory {T : Nat → Nat → Int → Nat → Nat → ℂ} {m : ℂ} {x : ℝ} {N : Nat} (hT : IsMie T m x N) (k : ℝ) {p s : Angular} {θ : ℝ} (hp : p.IsOf 0) (hs : s.IsOf θ) :
    theory T k N p s 0 = ⟨Complex.I / k * S2 m x N (Real.cos θ), 0, 0, Complex.I / k * S1 m x N (Real.cos θ)⟩ := by
  rw [theory_valid (mie_scalar hT)]
  have h := element_scalar m x N
  have e00 : ∀ n, element m x 0 0 n = -b m x n := fun n => by simp [element]
  have e11 : ∀ n, element m x 1 1 n = -a m x n := fun n => by simp [element]
  have e01 : ∀ n, element m x 0 1 n = 0 := fun n => by simp [element]
  have e10 : ∀ n, element m x 1 0 n = 0 := fun n => by simp [element]
  unfold theory
  congr 1
  · unfold S11
    simp only [mul_assoc]
    rw [scalar_sum h, S2, mul_sum, mul_sum]
    refine sum_congr rfl fun n hn => ?_
    obtain ⟨h1, h2, h3, h4⟩ := pole_products hp hs (mem_Icc.1 hn).1
    rw [h1, h2, e00, e11, e01, e10]
    ring
  · unfold S12
    simp only [mul_assoc]
    rw [scalar_sum h, mul_eq_zero]
    right
    refine sum_eq_zero fun n hn => ?_
    obtain ⟨h1, h2, h3, h4⟩ := pole_products hp hs (mem_Icc.1 hn).1
    rw [h3, h4, e01, e10]
    ring
  · unfold S21
    simp only [mul_assoc]
    rw [scalar_sum h, mul_eq_zero]
    right
    refine sum_eq_zero fun n hn => ?_
    obtain ⟨h1, h2, h3, h4⟩ := pole_products hp hs (mem_Icc.1 hn).1
    rw [h3, h4, e01, e10]
    ring
  · unfold S22
    simp only [mul_assoc]
    rw [scalar_sum h, S1, mul_sum, mul_sum]
    refine sum_congr rfl fun n hn => ?_
    obtain ⟨h1, h2, h3, h4⟩ := pole_products hp hs (mem_Icc.1 hn).1
    rw [h1, h2, e00, e11, e01, e10]
    ring

/-! ## any directions -/

/-- there is an amplitude matrix in the laboratory for any choice of the angles in the frame of the particle -/
theorem oriented_of (T : Nat → Nat → Int → Nat → Nat → ℂ) (k : ℝ) (nmax : Nat) {α β θi φi θo φo θi' φi' θo' φo' : ℝ}
    (di : dir θi' φi' = Matrix.mulVec (rot α β) (dir θi φi)) (ds : dir θo' φo' = Matrix.mulVec (rot α β) (dir θo φo)) {i' s' : Angular} (hi' : i'.IsOf θi') (hs' : s'.IsOf θo') :
    ∃ S, Oriented T k nmax α β θi φi θo φo S ∧ ∀ Ev Eh, ∃ ev eh, Matrix.mulVec (rotC α β) (field θi φi Ev Eh) = field θi' φi' ev eh
      ∧ Matrix.mulVec (rotC α β) (field θo φo (S.s0 * Ev + S.s1 * Eh) (S.s2 * Ev + S.s3 * Eh))
        = field θo' φo' ((theory T k nmax i' s' (φo' - φi')).s0 * ev + (theory T k nmax i' s' (φo' - φi')).s1 * eh)
            ((theory T k nmax i' s' (φo' - φi')).s2 * ev + (theory T k nmax i' s' (φo' - φi')).s3 * eh) := by
  obtain ⟨A, hA, fA⟩ := transverse_lin di
  obtain ⟨B, hB, fB⟩ := transverse_lin ds
  have hB' : B * B.transpose = 1 := mul_eq_one_comm.mp hB
  set P := theory T k nmax i' s' (φo' - φi') with hP
  set Q : Matrix (Fin 2) (Fin 2) ℂ := !![P.s0, P.s1; P.s2, P.s3] with hQ
  set S := B.transpose * (Q * A) with hS
  have e : B * S = Q * A := by rw [hS, ← Matrix.mul_assoc, hB', Matrix.one_mul]
  have key : ∀ Ev Eh, Matrix.mulVec (rotC α β) (field θo φo (S 0 0 * Ev + S 0 1 * Eh) (S 1 0 * Ev + S 1 1 * Eh))
      = field θo' φo' (P.s0 * (A 0 0 * Ev + A 0 1 * Eh) + P.s1 * (A 1 0 * Ev + A 1 1 * Eh)) (P.s2 * (A 0 0 * Ev + A 0 1 * Eh) + P.s3 * (A 1 0 * Ev + A 1 1 * Eh)) := by
    intro Ev Eh
    rw [fB]
    have e00 := congrFun (congrFun e 0) 0
    have e01 := congrFun (congrFun e 0) 1
    have e10 := congrFun (congrFun e 1) 0
    have e11 := congrFun (congrFun e 1) 1
    simp only [Matrix.mul_apply, Fin.sum_univ_two, hQ, Matrix.of_apply, Matrix.cons_val_zero, Matrix.cons_val_one, Matrix.cons_val', Matrix.cons_val_fin_one] at e00 e01 e10 e11
    congr 1
    · linear_combination Ev * e00 + Eh * e01
    · linear_combination Ev * e10 + Eh * e11
  exact ⟨⟨S 0 0, S 0 1, S 1 0, S 1 1⟩, ⟨θi', φi', θo', φo', i', s', di, ds, hi', hs', fun Ev Eh => ⟨_, _, fA Ev Eh, key Ev Eh⟩⟩, fun Ev Eh => ⟨_, _, fA Ev Eh, key Ev Eh⟩⟩

/-- turning a sphere changes nothing -/
theorem sphere_turn {T : Nat → Nat → Int → Nat → Nat → ℂ} {m : ℂ} {x : ℝ} {N : Nat} (hT : IsMie T m x N) (k : ℝ) {α β θi φi θo φo : ℝ} {i s : Angular} (hi : i.IsOf θi)
    (hs : s.IsOf θo) {S : Amp} (hS : Oriented T k N α β θi φi θo φo S) : S = theory T k N i s (φo - φi) := by
  have hS' : Oriented (fun i n _ i' n' => if n = n' then element m x i i' n else 0) k N α β θi φi θo φo S := by
    obtain ⟨θi', φi', θo', φo', i', s', di, ds, hi', hs', h⟩ := hS
    rw [theory_valid (mie_scalar hT)] at h
    exact ⟨θi', φi', θo', φo', i', s', di, ds, hi', hs', h⟩
  refine amp_ext fun p q => ?_
  rw [c93_oriented hS' hi hs, theory_valid (mie_scalar hT), ← general_diagonal]
  exact general_congr k s φo i φi p q fun a n μ b n' μ' a1 a2 a3 a4 a5 a6 => rotated_scalar (element_scalar m x N) α β a1 a2 a3 a4 a5 a6

/-- the frame in which the light comes along the third axis -/
theorem sphere_frame {T : Nat → Nat → Int → Nat → Nat → ℂ} {m : ℂ} {x : ℝ} {N : Nat} (hT : IsMie T m x N) (k : ℝ) {θi φi θo φo : ℝ} {i s : Angular} (hi : i.IsOf θi)
    (hs : s.IsOf θo) : ∃ θ φ : ℝ, dir 0 φ = Matrix.mulVec (rot φi θi) (dir θi φi) ∧ dir θ φ = Matrix.mulVec (rot φi θi) (dir θo φo) ∧ Real.cos θ = cosAngle θi φi θo φo
      ∧ ∀ Ev Eh, ∃ ev eh, Matrix.mulVec (rotC φi θi) (field θi φi Ev Eh) = field 0 φ ev eh
        ∧ Matrix.mulVec (rotC φi θi) (field θo φo ((theory T k N i s (φo - φi)).s0 * Ev + (theory T k N i s (φo - φi)).s1 * Eh)
            ((theory T k N i s (φo - φi)).s2 * Ev + (theory T k N i s (φo - φi)).s3 * Eh))
          = field θ φ (Complex.I / k * S2 m x N (cosAngle θi φi θo φo) * ev) (Complex.I / k * S1 m x N (cosAngle θi φi θo φo) * eh) := by
  obtain ⟨θ, φ, -, -, ds⟩ := Direct.exists_angles φi θi θo φo
  have di : dir 0 φ = Matrix.mulVec (rot φi θi) (dir θi φi) := by
    have h1 := Real.sin_sq_add_cos_sq φi
    have h2 := Real.sin_sq_add_cos_sq θi
    ext c
    fin_cases c <;> simp [rot, dir, aboutY, aboutZ, Matrix.mulVec, dotProduct, Fin.sum_univ_three]
    · linear_combination -(Real.cos θi * Real.sin θi) * h1
    · ring
    · linear_combination -(Real.sin θi ^ 2) * h1 - h2
  obtain ⟨p, hp⟩ := angular_all 0
  obtain ⟨q, hq⟩ := angular_all θ
  have hc : Real.cos θ = cosAngle θi φi θo φo := by
    unfold cosAngle
    rw [← Direct.rot_dot φi θi, ← di, ← ds, Direct.dot3]
    simp [dir]
  obtain ⟨S, hS, hf⟩ := oriented_of T k N di ds hp hq
  obtain rfl := sphere_turn hT k hi hs hS
  refine ⟨θ, φ, di, ds, hc, fun Ev Eh => ?_⟩
  obtain ⟨ev, eh, h1, h2⟩ := hf Ev Eh
  refine ⟨ev, eh, h1, ?_⟩
  rw [h2, sub_self, pole_theory hT k hp hq, hc]
  simp

theorem pole_normal (θ φ : ℝ) : crossProduct (dirC 0 φ) (dirC θ φ) = field θ φ 0 (Real.sin θ) ∧ crossProduct (dirC 0 φ) (dirC θ φ) = field 0 φ 0 (Real.sin θ) := by
  constructor <;> rw [cross_apply] <;> funext c <;> fin_cases c <;> simp [field, dirC, dir, eTheta, ePhi]

theorem field_across (θ φ : ℝ) (Ev Eh : ℂ) : crossProduct (field θ φ Ev Eh) (dirC θ φ) = field θ φ Eh (-Ev) := by
  have h := cross_field θ φ Ev Eh
  rw [show crossProduct (field θ φ Ev Eh) (dirC θ φ) = -crossProduct (dirC θ φ) (field θ φ Ev Eh) from (cross_anticomm _ _).symm]
  rw [show dirC θ φ = toC (dir θ φ) from rfl, ← h]
  funext c
  simp [field]
  ring

/-- **C113**: the amplitude matrix of a sphere, for any directions: the field component perpendicular to the scattering plane is multiplied with `S₁`, the component in it with
`S₂`; both depend on the angle between the directions only -/
theorem c113_amplitude {T : Nat → Nat → Int → Nat → Nat → ℂ} {m : ℂ} {x : ℝ} {N : Nat} (hT : IsMie T m x N) (k : ℝ) {θi φi θo φo : ℝ} {i s : Angular} (hi : i.IsOf θi)
    (hs : s.IsOf θo) : IsSphere m x N k θi φi θo φo (theory T k N i s (φo - φi)) := by
  obtain ⟨θ, φ, di, ds, hc, hf⟩ := sphere_frame hT k hi hs
  intro Ev Eh E F w
  obtain ⟨ev, eh, h1, h2⟩ := hf Ev Eh
  have ei : Matrix.mulVec (rotC φi θi) (dirC θi φi) = dirC 0 φ := by
    rw [show dirC θi φi = toC (dir θi φi) from rfl, ← toC_rot, ← di]
    rfl
  have es : Matrix.mulVec (rotC φi θi) (dirC θo φo) = dirC θ φ := by
    rw [show dirC θo φo = toC (dir θo φo) from rfl, ← toC_rot, ← ds]
    rfl
  have ew : Matrix.mulVec (rotC φi θi) w = crossProduct (dirC 0 φ) (dirC θ φ) := by rw [cross_rot, ei, es]
  obtain ⟨w1, w2⟩ := pole_normal θ φ
  constructor
  · rw [← rotC_dot φi θi F w, ← rotC_dot φi θi E w, ew, h1, h2]
    rw [w1, field_dot, ← w1, w2, field_dot]
    ring
  · rw [← rotC_dot φi θi F, ← rotC_dot φi θi E, cross_rot φi θi w, cross_rot φi θi w, ew, ei, es, h1, h2]
    rw [w1, field_across, field_dot, ← w1, w2, field_across, field_dot]
    ring

/-- there is only one, unless the light is scattered forward or backward -/
theorem c113_unique {m : ℂ} {x : ℝ} {N : Nat} {k θi φi θo φo : ℝ} (hc : cosAngle θi φi θo φo ^ 2 ≠ 1) {S S' : Amp} (hS : IsSphere m x N k θi φi θo φo S)
    (hS' : IsSphere m x N k θi φi θo φo S') : S = S' := by
  set w := crossProduct (dirC θi φi) (dirC θo φo) with hw
  -- `w` and `w × no`, in terms of the polar and the azimuthal direction
  set p := field θo φo 1 0 ⬝ᵥ w with hp
  set q := field θo φo 0 1 ⬝ᵥ w with hq
  have hwo : field θo φo p q = w := by
    have h := Direct.frame_complete θo φo (crossProduct (dir θi φi) (dir θo φo))
    have hwR : ∀ c, w c = ((crossProduct (dir θi φi) (dir θo φo) c : ℝ) : ℂ) := by
      intro c
      rw [hw, cross_apply, cross_apply]
      fin_cases c <;> simp [dirC]
    have e1 : p = ((eTheta θo φo ⬝ᵥ crossProduct (dir θi φi) (dir θo φo) : ℝ) : ℂ) := by
      rw [hp]
      simp [dotProduct, Fin.sum_univ_three, hwR, field]
    have e2 : q = ((ePhi φo ⬝ᵥ crossProduct (dir θi φi) (dir θo φo) : ℝ) : ℂ) := by
      rw [hq]
      simp [dotProduct, Fin.sum_univ_three, hwR, field]
    have e3 : crossProduct (dir θi φi) (dir θo φo) ⬝ᵥ dir θo φo = 0 := by rw [dotProduct_comm, dot_cross_self]
    funext c
    rw [hwR, h c, e3, e1, e2]
    simp [field]
  have hpq : p ^ 2 + q ^ 2 ≠ 0 := by
    have hu : ∀ θ φ : ℝ, dirC θ φ ⬝ᵥ dirC θ φ = 1 := by
      intro θ φ
      have h : dir θ φ ⬝ᵥ dir θ φ = 1 := by
        rw [Direct.dot3]
        simp [dir]
        linear_combination Real.sin θ ^ 2 * Real.sin_sq_add_cos_sq φ + Real.sin_sq_add_cos_sq θ
      have := congrArg (fun r : ℝ => (r : ℂ)) h
      simpa [dotProduct, Fin.sum_univ_three, dirC] using this
    have hd : dirC θi φi ⬝ᵥ dirC θo φo = (cosAngle θi φi θo φo : ℂ) := by
      simp [cosAngle, dotProduct, Fin.sum_univ_three, dirC]
    have h1 : w ⬝ᵥ w = 1 - (cosAngle θi φi θo φo : ℂ) ^ 2 := by
      rw [hw, cross_dot_cross, hu, hu, hd, dotProduct_comm, hd]
      ring
    rw [← hwo, field_dot] at h1
    rw [sq, sq, h1]
    intro h0
    apply hc
    have : (cosAngle θi φi θo φo : ℂ) ^ 2 = 1 := by linear_combination -h0
    exact_mod_cast this
  have key : ∀ F F' : Fin 2 → ℂ, field θo φo (F 0) (F 1) ⬝ᵥ w = field θo φo (F' 0) (F' 1) ⬝ᵥ w →
      field θo φo (F 0) (F 1) ⬝ᵥ crossProduct w (dirC θo φo) = field θo φo (F' 0) (F' 1) ⬝ᵥ crossProduct w (dirC θo φo) → F 0 = F' 0 ∧ F 1 = F' 1 := by
    intro F F' h1 h2
    rw [← hwo, field_dot, field_dot] at h1
    rw [← hwo, field_across, field_dot, field_dot] at h2
    constructor
    · refine mul_right_cancel₀ hpq ?_
      linear_combination p * h1 + q * h2
    · refine mul_right_cancel₀ hpq ?_
      linear_combination q * h1 - p * h2
  have hv := key ![S.s0, S.s2] ![S'.s0, S'.s2]
  have hh := key ![S.s1, S.s3] ![S'.s1, S'.s3]
  obtain ⟨a1, a2⟩ := hS 1 0
  obtain ⟨b1, b2⟩ := hS' 1 0
  obtain ⟨c1, c2⟩ := hS 0 1
  obtain ⟨d1, d2⟩ := hS' 0 1
  simp only [mul_one, mul_zero, add_zero, zero_add] at a1 a2 b1 b2 c1 c2 d1 d2
  obtain ⟨r0, r2⟩ := hv (a1.trans b1.symm) (a2.trans b2.symm)
  obtain ⟨r1, r3⟩ := hh (c1.trans d1.symm) (c2.trans d2.symm)
  cases S
  cases S'
  simp only [Matrix.cons_val_zero, Matrix.cons_val_one] at r0 r1 r2 r3
  rw [r0, r1, r2, r3]

/-! ## intensities -/

theorem field_inj {θ φ : ℝ} {a b c d : ℂ} (h : field θ φ a b = field θ φ c d) : a = c ∧ b = d := by
  constructor
  · have := field_dot θ φ a b 1 0
    rw [h, field_dot] at this
    simpa using this.symm
  · have := field_dot θ φ a b 0 1
    rw [h, field_dot] at this
    simpa using this.symm

/-- length of a transverse field -/
theorem field_norm (θ φ : ℝ) (a b : ℂ) : field θ φ a b ⬝ᵥ field θ φ ((starRingEnd ℂ) a) ((starRingEnd ℂ) b) = ((Complex.normSq a + Complex.normSq b : ℝ) : ℂ) := by
  rw [field_dot, Complex.mul_conj, Complex.mul_conj]
  push_cast
  rfl

theorem turn_norm {α β θ φ θ' φ' : ℝ} {a b a' b' : ℂ} (h : Matrix.mulVec (rotC α β) (field θ φ a b) = field θ' φ' a' b') :
    Complex.normSq a' + Complex.normSq b' = Complex.normSq a + Complex.normSq b := by
  have h1 := field_norm θ' φ' a' b'
  rw [field_conj, ← h, ← rot_conj, ← field_conj, rotC_dot, field_norm] at h1
  exact_mod_cast h1.symm

/-- the sum of the intensities for two perpendicular polarisations -/
theorem c113_intensity {T : Nat → Nat → Int → Nat → Nat → ℂ} {m : ℂ} {x : ℝ} {N : Nat} (hT : IsMie T m x N) (k : ℝ) {θi φi θo φo : ℝ} {i s : Angular} (hi : i.IsOf θi)
    (hs : s.IsOf θo) {S : Amp} (hS : S = theory T k N i s (φo - φi)) :
    (Complex.normSq S.s0 + Complex.normSq S.s1 + Complex.normSq S.s2 + Complex.normSq S.s3) / 2 = phase m x N k (cosAngle θi φi θo φo) := by
  obtain ⟨θ, φ, di, ds, hc, hf⟩ := sphere_frame hT k hi hs
  rw [← hS] at hf
  obtain ⟨M, hM, fM⟩ := transverse_lin di
  have hM' : M * M.transpose = 1 := mul_eq_one_comm.mp hM
  -- the change of the frame is real
  have hreal : ∀ p q, (starRingEnd ℂ) (M p q) = M p q := by
    have h0 := rot_conj φi θi (field θi φi 1 0)
    rw [← field_conj, fM, fM 1 0, ← field_conj 0 φ (M 0 0 * 1 + M 0 1 * 0) (M 1 0 * 1 + M 1 1 * 0), map_one, map_zero] at h0
    have h1 := rot_conj φi θi (field θi φi 0 1)
    rw [← field_conj, fM, fM 0 1, ← field_conj 0 φ (M 0 0 * 0 + M 0 1 * 1) (M 1 0 * 0 + M 1 1 * 1), map_one, map_zero] at h1
    obtain ⟨a1, a2⟩ := field_inj h0
    obtain ⟨b1, b2⟩ := field_inj h1
    simp only [mul_one, mul_zero, add_zero, zero_add] at a1 a2 b1 b2
    intro p q
    fin_cases p <;> fin_cases q
    · exact a1.symm
    · exact b1.symm
    · exact a2.symm
    · exact b2.symm
  have hrow : ∀ p, Complex.normSq (M p 0) + Complex.normSq (M p 1) = 1 := by
    intro p
    have := congrFun (congrFun hM' p) p
    rw [Matrix.mul_apply, Fin.sum_univ_two, Matrix.transpose_apply, Matrix.transpose_apply, Matrix.one_apply_eq] at this
    have e : ((Complex.normSq (M p 0) + Complex.normSq (M p 1) : ℝ) : ℂ) = 1 := by
      rw [← this]
      push_cast
      rw [← Complex.mul_conj, ← Complex.mul_conj, hreal, hreal]
    exact_mod_cast e
  obtain ⟨ev, eh, h1, h2⟩ := hf 1 0
  obtain ⟨ev', eh', h1', h2'⟩ := hf 0 1
  rw [fM] at h1 h1'
  obtain ⟨a1, a2⟩ := field_inj h1
  obtain ⟨b1, b2⟩ := field_inj h1'
  simp only [mul_one, mul_zero, add_zero, zero_add] at a1 a2 b1 b2
  have n1 := turn_norm h2
  have n2 := turn_norm h2'
  simp only [mul_one, mul_zero, add_zero, zero_add, Complex.normSq_mul, ← a1, ← a2, ← b1, ← b2] at n1 n2
  have r0 := hrow 0
  have r1 := hrow 1
  have hI : Complex.normSq (Complex.I / k) = 1 / k ^ 2 := by
    rw [Complex.normSq_div, Complex.normSq_I, Complex.normSq_ofReal, sq]
  rw [hI] at n1 n2
  have : Complex.normSq S.s0 + Complex.normSq S.s1 + Complex.normSq S.s2 + Complex.normSq S.s3
      = 1 / k ^ 2 * Complex.normSq (S2 m x N (cosAngle θi φi θo φo)) + 1 / k ^ 2 * Complex.normSq (S1 m x N (cosAngle θi φi θo φo)) := by
    linear_combination -n1 - n2 + 1 / k ^ 2 * Complex.normSq (S2 m x N (cosAngle θi φi θo φo)) * r0 + 1 / k ^ 2 * Complex.normSq (S1 m x N (cosAngle θi φi θo φo)) * r1
  rw [this, phase]
  ring

/-- **C113**: the scattered intensity that is subtracted for the absorption coefficients (C84), for unpolarised light -/
theorem c113_scattered {H : Problem} {c : Graph.Cell} {g : Nat} {T : Nat → Nat → Int → Nat → Nat → ℂ} {m : ℂ} {x : ℝ} (hT : IsMie T m x (orderAt H g))
    (hp : H.aligned c = true → (H.coeff c).v 0 = 1) {θi θo φ : ℝ} {o i : Angular} (ho : o.IsOf θo) (hi : i.IsOf θi) :
    scattered H c g T o i φ 0 = phase m x (orderAt H g) (waveK H c.par) (cosAngle θi 0 θo φ) := by
  rw [← c113_intensity (φi := 0) (φo := φ) (ensemble_mie hT hp) (waveK H c.par) hi ho rfl, sub_zero]
  simp only [scattered, stokes, Matrix.cons_val_zero]
  rw [show (theory (ensemble H c T) (waveK H c.par) (orderAt H g) i o φ).s0 = amp11 H c g T o i φ from rfl,
    show (theory (ensemble H c T) (waveK H c.par) (orderAt H g) i o φ).s1 = amp12 H c g T o i φ from rfl,
    show (theory (ensemble H c T) (waveK H c.par) (orderAt H g) i o φ).s2 = amp21 H c g T o i φ from rfl,
    show (theory (ensemble H c T) (waveK H c.par) (orderAt H g) i o φ).s3 = amp22 H c g T o i φ from rfl]
  ring

/-! ## the table -/

section spheres

variable {H : Problem} {B : Nat → Content.Bessel} {p : Graph.Par} (hS : Spheres H B p) {g : Nat → Nat} {T : Nat → Nat → Nat → Int → Nat → Nat → ℂ} (hG : Grains H B p g T)
  (hw : ∑ s ∈ range H.P.nshape, H.weight s ≠ 0) (hc : ∀ s < H.P.nshape, H.aligned ⟨p, s⟩ = true → (H.coeff ⟨p, s⟩).v 0 = 1)
include hS hG hw hc

/-- **C113** The scattering matrices of spheres are those of Mie theory: they transform the Stokes vector of every incoming wave to that of the wave that the amplitude matrix of a
sphere gives. The first element depends on the scattering angle only. -/
theorem c113_matrix {Z : Nat → Nat → Nat → ℝ} (hZ : IsScattering H p g T Z) :
    ∃ g0, IsCutOff H p g0 ∧ ∀ it < H.ntheta, ∀ ip < 2 * H.ntheta,
      (∃ S, IsSphere (H.mr p) (size H p) (orderAt H g0) (waveK H p) (Real.pi / 2) 0 (gridθ H H.ntheta it) (gridφ H (2 * H.ntheta) ip) S
        ∧ ∀ (Ev Eh : ℂ) (r : Fin 4), ∑ k : Fin 4, Z (it * (2 * H.ntheta) + ip) r k * stokes Ev Eh k = stokes (S.s0 * Ev + S.s1 * Eh) (S.s2 * Ev + S.s3 * Eh) r)
      ∧ Z (it * (2 * H.ntheta) + ip) 0 0
        = phase (H.mr p) (size H p) (orderAt H g0) (waveK H p) (Real.sin (gridθ H H.ntheta it) * Real.cos (gridφ H (2 * H.ntheta) ip)) := by
  obtain ⟨g0, h0, hg⟩ := same_order hS hG hw
  refine ⟨g0, h0, fun it hit ip hip => ?_⟩
  obtain ⟨o, ho⟩ := angular_all (gridθ H H.ntheta it)
  obtain ⟨i, hi⟩ := angular_all (Real.pi / 2)
  have hn : 0 < H.P.nshape := by
    by_contra h
    rw [Nat.eq_zero_of_not_pos h] at hw
    simp at hw
  have hM : ∀ s < H.P.nshape, IsMie (ensemble H ⟨p, s⟩ (T s)) (H.mr p) (size H p) (orderAt H g0) := by
    intro s hs
    have := ensemble_mie (c := ⟨p, s⟩) (c101_mie hS hs (hG s hs)) (hc s hs)
    rwa [hg s hs] at this
  set φ := gridφ H (2 * H.ntheta) ip with hφ
  set S := theory (ensemble H ⟨p, 0⟩ (T 0)) (waveK H p) (orderAt H g0) i o (φ - 0) with hS0
  have same : ∀ s < H.P.nshape, theory (ensemble H ⟨p, s⟩ (T s)) (waveK H p) (orderAt H (g s)) i o φ = S := by
    intro s hs
    rw [hg s hs, hS0, sub_zero, theory_valid (mie_scalar (hM s hs)), theory_valid (mie_scalar (hM 0 hn))]
  have hZ' : ∀ (Ev Eh : ℂ) (r : Fin 4), ∑ k : Fin 4, Z (it * (2 * H.ntheta) + ip) r k * stokes Ev Eh k = stokes (S.s0 * Ev + S.s1 * Eh) (S.s2 * Ev + S.s3 * Eh) r := by
    intro Ev Eh r
    rw [hZ it hit ip hip o i ho hi Ev Eh r]
    refine shapeMean_const hw fun s hs => ?_
    rw [← same s hs]
    rfl
  refine ⟨⟨S, c113_amplitude (hM 0 hn) (waveK H p) hi ho, hZ'⟩, ?_⟩
  have hm := c113_intensity (φi := 0) (φo := φ) (hM 0 hn) (waveK H p) hi ho hS0
  have hcos : cosAngle (Real.pi / 2) 0 (gridθ H H.ntheta it) φ = Real.sin (gridθ H H.ntheta it) * Real.cos φ := by
    unfold cosAngle
    rw [Direct.dot3]
    simp [dir]
  rw [← hcos, ← hm]
  have z1 := hZ' 1 0 0
  have z2 := hZ' 0 1 0
  simp [stokes, Fin.sum_univ_four] at z1 z2
  linear_combination 1 / 2 * z1 + 1 / 2 * z2

end spheres

section run
open Verif.Exec Verif.Store Verif.Api Verif.Graph
open Verif.Special (realOps)

/-- **C113** For every schedule, every number of threads and every memory limit: when a thread has returned, the entries of the table hold the scattering matrices of Mie theory. -/
theorem c113_run {H : Problem} (hP : Sensible H.P) {l : List Call} (h : generate H.P = some l) (m0 : Place Loc → Val) (hcl : AllClean H.P (clean H) m0)
    (hv : ∀ c, m0 (.inl (.conv c)) = .ctl Ctl.new) (ty : Tk → Nat) (pl : Tk → List Nat) (hpl : ∀ t, (pl t).length ≤ 8000) (J Jp : Junk)
    (hist : List (Op × Junk)) (hh : hist.map Prod.fst = toOps ty pl l) (nq nth : Nat) (hq : 0 < nq) (hth : nth ≤ nq) (weight0 : Nat → Int) :
    ∃ s r, exec (hist ++ [(.prepare, Jp)]) (init J) = some s ∧ prepareOf s nq weight0 = some r ∧
      ∀ pr x, XReach _ (bodyOf l (placed H.P (code realOps H))) ⟨startOf s nq nth r, m0, pr⟩ x →
        (∃ th, x.st.pc th = .exited) → ∀ p, H.P.want .scat = true → p ∈ pars H.P → ∀ B, Spheres H B p → Proper H B p → Directions H .scat →
          (∀ s < H.P.nshape, H.aligned ⟨p, s⟩ = true → (H.coeff ⟨p, s⟩).v 0 = 1) →
          ∃ g0 Z, IsCutOff H p g0 ∧ x.mem (.inl (.result .scat p)) = .scat Z ∧
            ∀ it < H.ntheta, ∀ ip < 2 * H.ntheta,
              (∃ S, IsSphere (H.mr p) (size H p) (orderAt H g0) (waveK H p) (Real.pi / 2) 0 (gridθ H H.ntheta it) (gridφ H (2 * H.ntheta) ip) S
                ∧ ∀ (Ev Eh : ℂ) (r : Fin 4), ∑ k : Fin 4, Z (it * (2 * H.ntheta) + ip) r k * stokes Ev Eh k = stokes (S.s0 * Ev + S.s1 * Eh) (S.s2 * Ev + S.s3 * Eh) r)
              ∧ Z (it * (2 * H.ntheta) + ip) 0 0
                = phase (H.mr p) (size H p) (orderAt H g0) (waveK H p) (Real.sin (gridθ H H.ntheta it) * Real.cos (gridφ H (2 * H.ntheta) ip)) := by
  obtain ⟨s, r, e1, e2, e3⟩ := c84_values hP h m0 hcl hv ty pl hpl J Jp hist hh nq nth hq hth weight0
  refine ⟨s, r, e1, e2, fun pr x hx hex p hw hp B hS hpr hd hc => ?_⟩
  obtain ⟨g, T, hG, Z, hZ, hI⟩ := (e3 pr x hx).1 hex .scat p hw hp B hpr hd
  obtain ⟨g0, h0, hval⟩ := c113_matrix hS hG hpr.shapes hc hI
  exact ⟨g0, Z, h0, hZ, hval⟩

end run

/-! ## energy -/

/-- the T-matrix of a sphere -/
noncomputable def exT (m : ℂ) (x : ℝ) (i n : Nat) (_ : Int) (i' n' : Nat) : ℂ := if i = i' ∧ n = n' then -(if i = 0 then b m x n else a m x n) else 0

theorem exT_mie (m : ℂ) (x : ℝ) (N : Nat) : IsMie (exT m x) m x N := fun _ _ _ _ _ _ _ _ _ _ _ _ _ => rfl

/-- a problem with given wavenumber, radius and order, in which nothing is aligned -/
noncomputable def single (k r : ℝ) (N : Nat) : Problem := { exH with wavelength := fun _ => 2 * Real.pi / k, radius := fun _ => r, minOrder := N, aligned := fun _ => false }

/-- **C113**: the intensity that is scattered into all directions is the scattering efficiency of Mie theory times the area of the disc -/
theorem c113_energy (m : ℂ) {x k : ℝ} (hx : 0 < x) (hk : 0 < k) (N : Nat) (θi : ℝ) :
    sphere (fun θ φ => phase m x N k (cosAngle θi 0 θ φ)) = Real.pi * (x / k) ^ 2 * Qsca m x N := by
  have hpi := Real.pi_pos
  set H := single k (x / k) N with hH
  set c : Graph.Cell := ⟨⟨0, 0, 0⟩, 0⟩ with hc
  have hw : waveK H c.par = k := by
    change 2 * Real.pi / (2 * Real.pi / k) = k
    field_simp
  have ho : orderAt H 0 = N := by
    simp [orderAt, hH, single]
  have hsz : size H c.par = x := by
    unfold size
    rw [hw]
    change k * (x / k) = x
    field_simp
  have hd : Refine.Distributed H c 0 := fun h => absurd h (by simp [hH, single])
  choose A hA using angular_all
  have hT : IsMie (exT m x) m x (orderAt H 0) := exT_mie m x _
  have hT' := hT
  rw [← hsz] at hT'
  obtain ⟨q1, q2⟩   := Refine.backwards (o := A θi) hA hd (mie_reciprocal hT) (mie_mirror hT)
  have d := fun pol => (mie_dispersed (c := c) hT' (fun h => absurd h (by simp [hH, single])) (by rw [hw]; exact hk) (by change 0 < x / k; positivity) hA (hA θi) pol).1
  rw [hsz, ho] at d
  have e : ∀ θ φ, scattered H c 0 (exT m x) (A θi) (A θ) (-φ) 0 = phase m x N k (cosAngle θi 0 θ φ) := by
    intro θ φ
    rw [c113_scattered hT (fun h => absurd h (by simp [hH, single])) (hA θi) (hA θ), ho, hw]
    congr 1
    unfold cosAngle
    rw [Direct.dot3, Direct.dot3]
    simp [dir]
    ring
  rw [d 0] at q1
  rw [d 1] at q2
  rw [Rotation.sphere_congr e] at q1 q2
  have hdisc : disc H c.par = Real.pi * (x / k) ^ 2 := rfl
  rw [hdisc] at q1 q2
  linear_combination 1 / 2 * q1 + 1 / 2 * q2

/-! ## objects with the T-matrix of a sphere -/

/-- **C113**: the amplitude matrices that an object (C75) with the T-matrix of a sphere gives are those of Mie theory, with or without angles of orientation -/
theorem c113_object (o : Direct.Obj ℝ ℂ) {T : Nat → Nat → Int → Nat → Nat → ℂ} (hA : Axisymmetric T) (hS : Stores o.res T) {m : ℂ} {x : ℝ} (hT : IsMie T m x o.nmax)
    {θi φi θo φo : ℝ} (hri : Regular θi) (hro : Regular θo) :
    IsSphere m x o.nmax o.k θi φi θo φo (Direct.forwardAngles o θi φi θo φo)
      ∧ ∀ α β θi' φi' θo' φo', dir θi' φi' = Matrix.mulVec (rot α β) (dir θi φi) → dir θo' φo' = Matrix.mulVec (rot α β) (dir θo φo) → Regular θi' → Regular θo' →
        Direct.forwardOriented o α β θi φi θo φo = Direct.forwardAngles o θi φi θo φo := by
  obtain ⟨i, hi⟩ := angular_all θi
  obtain ⟨s, hs⟩ := angular_all θo
  rw [Direct.c75_forward o hA hS θi φi θo φo hri hro hi hs]
  exact ⟨c113_amplitude hT o.k hi hs, fun α β θi' φi' θo' φo' di ds h1 h2 => sphere_turn hT o.k hi hs (c93_code o hA hS α β θi φi θo φo di ds h1 h2)⟩

/-! ## examples -/

/-- dipoles: the amplitude is the same for all angles perpendicular to the scattering plane, and proportional to the cosine in it -/
example (m : ℂ) (x μ : ℝ) (h : b m x 1 = 0) : S1 m x 1 μ = 3 / 2 * a m x 1 ∧ S2 m x 1 μ = 3 / 2 * a m x 1 * μ := by
  unfold S1 S2 τn πn
  rw [show Icc 1 1 = {1} from rfl, Finset.sum_singleton, Finset.sum_singleton, h]
  constructor
  · simp [Legendre.P_one]
    ring_nf
    simp
  · simp [Legendre.P_one]
    ring

/-- scattering by a right angle in the horizontal plane -/
example (m : ℂ) (x : ℝ) : ∀ Ev Eh : ℂ,
    let S := Direct.forwardAngles (object (exT m x)) (Real.pi / 2) 0 (Real.pi / 2) (Real.pi / 2)
    S.s0 * Ev + S.s1 * Eh = Complex.I * S1 m x 1 0 * Ev ∧ S.s2 * Ev + S.s3 * Eh = Complex.I * S2 m x 1 0 * Eh := by
  intro Ev Eh S
  have hr := regular_examples.2.2
  have hA : Axisymmetric (exT m x) := by
    intro i n1 μ j n2
    unfold exT
    by_cases h : i = j ∧ n1 = n2
    · obtain ⟨rfl, rfl⟩ := h
      simp [← two_mul]
    · simp [h]
  obtain ⟨h1, h2⟩ := (c113_object (object (exT m x)) hA (object_stores _) (exT_mie m x 1) (φi := 0) (φo := Real.pi / 2) hr hr).1 Ev Eh
  have hc : cosAngle (Real.pi / 2) 0 (Real.pi / 2) (Real.pi / 2) = 0 := by
    unfold cosAngle
    rw [Direct.dot3]
    simp [dir]
  rw [hc] at h1 h2
  simp [cross_apply, dirC, dir, field, eTheta, ePhi, dotProduct, Fin.sum_univ_three] at h1 h2
  rw [show (object (exT m x)).k = 1 from rfl, show (object (exT m x)).nmax = 1 from rfl, Complex.ofReal_one, div_one] at h1 h2
  exact ⟨by linear_combination -h1, h2⟩

theorem exS_directions (m : ℂ) : Directions (exS m) .scat := by
  have h3 : (0 : ℝ) < Real.sqrt 3 := Real.sqrt_pos.2 (by norm_num)
  have hs : Real.sqrt 3 ^ 2 = 3 := Real.sq_sqrt (by norm_num)
  have h1 : (1 : ℝ) < Real.sqrt 3 := by nlinarith
  have h2 : Real.sqrt 3 < 2 := by nlinarith
  have hb : 1 / 2 < 1 / Real.sqrt 3 := one_div_lt_one_div_of_lt h3 h2
  have ha : 1 / Real.sqrt 3 < 3 / 4 := by rw [div_lt_iff₀ h3]; nlinarith
  have hv : ∀ i, ((exS m).gl 2).1 i = if i = 0 then -(1 / Real.sqrt 3) else 1 / Real.sqrt 3 := fun _ => rfl
  change ∀ j < 2, -1 ≤ ((exS m).gl 2).1 j ∧ ((exS m).gl 2).1 j ≤ 1 ∧ Scatter.Regular (Real.arccos (((exS m).gl 2).1 j))
  intro j _
  rw [hv]
  have hq : |if j = 0 then -(1 / Real.sqrt 3) else 1 / Real.sqrt 3| = 1 / Real.sqrt 3 := by
    split_ifs
    · rw [abs_neg, abs_of_pos (by positivity)]
    · rw [abs_of_pos (by positivity)]
  generalize (if j = 0 then -(1 / Real.sqrt 3) else 1 / Real.sqrt 3) = v at hq
  have hv1 := abs_le.1 (hq.le.trans ha.le)
  refine ⟨by linarith, by linarith, Or.inl ⟨Real.arccos_pos.2 (by linarith), Real.arccos_lt_pi.2 (by linarith), ?_⟩⟩
  rw [Real.cos_arccos (by linarith) (by linarith), hq, abs_of_pos (by linarith)]
  have : (1 : ℝ) / 10 ^ 10 < 1 / 4 := by norm_num
  linarith

/-- the problem of C101 meets the hypotheses of the theorem on the table -/
example : (∀ p, Spheres (exS 2) (fun _ => exact) p ∧ Proper (exS 2) (fun _ => exact) p) ∧ Directions (exS 2) .scat ∧ Graph.Sensible (exS 2).P
    ∧ (∃ l, Graph.generate (exS 2).P = some l) ∧ (exS 2).P.want .scat = true ∧ (⟨0, 0, 0⟩ : Graph.Par) ∈ Graph.pars (exS 2).P
    ∧ (∀ c, (exS 2).aligned c = true → ((exS 2).coeff c).v 0 = 1) := by
  have h2 : (2 : ℂ) ≠ 0 ∧ 0 ≤ ((2 : ℂ) ^ 2).im := by norm_num [pow_two]
  exact ⟨fun p => ⟨exS_spheres h2.1 h2.2 p, exS_proper h2.1 h2.2 p⟩, exS_directions 2, ⟨by decide, by decide, by decide⟩, Graph.c19_total (by decide), rfl, by decide, fun _ _ => rfl⟩

end Verif.Mie
