import Verif.Proofs.WignerD
import Verif.Proofs.DirectFrame
import Verif.Spec.Frame
import Verif.Spec.Scatter
import Mathlib.Algebra.Polynomial.Homogenize
import Mathlib.LinearAlgebra.CrossProduct
import Mathlib.Tactic.LinearCombination
import Mathlib.Tactic.FinCases

/-!
# Vector spherical functions and rotations
-/
namespace Verif.Rotation

open Polynomial Finset
open Verif.Clebsch Verif.Frame

/-- product of the null vector with the spinor `(u, v)` and the vector `x` -/
noncomputable def A (u v : ℂ[X]) (x : Fin 3 → ℂ) : ℂ[X] :=
  C (x 2) * (u * v) + C (1 / 2) * (C (x 0 + Complex.I * x 1) * u ^ 2 - C (x 0 - Complex.I * x 1) * v ^ 2)

theorem A_add (u v : ℂ[X]) (x y : Fin 3 → ℂ) : A u v (x + y) = A u v x + A u v y := by
  unfold A
  simp only [Pi.add_apply, C_add, C_sub, mul_add]
  ring

theorem A_smul (u v : ℂ[X]) (c : ℂ) (x : Fin 3 → ℂ) : A u v (c • x) = C c * A u v x := by
  unfold A
  simp only [Pi.smul_apply, smul_eq_mul, C_add, C_sub, C_mul]
  ring

/-- generating function -/
noncomputable def W (n : Nat) (u v : ℂ[X]) (x y : Fin 3 → ℂ) : ℂ[X] := (n : ℂ[X]) * A u v x ^ (n - 1) * A u v y

theorem natDegree_A (x : Fin 3 → ℂ) : (A X 1 x).natDegree ≤ 2 := by
  unfold A
  compute_degree

theorem eval_hom (d : Nat) (p u v : ℂ[X]) :
    MvPolynomial.aeval ![u, v] (p.homogenize d) = ∑ k ∈ range (d + 1), C (p.coeff k) * u ^ k * v ^ (d - k) := by
  unfold homogenize
  rw [map_sum, Finset.Nat.sum_antidiagonal_eq_sum_range_succ (f := fun a b => (MvPolynomial.aeval ![u, v]) (MvPolynomial.monomial (fun₀ | 0 => a | 1 => b) (p.coeff a)))]
  apply Finset.sum_congr rfl
  intro k _
  rw [MvPolynomial.aeval_monomial]
  rw [Finsupp.prod_fintype _ _ (by simp)]
  simp [Fin.prod_univ_two, mul_assoc]

theorem hom_A (x : Fin 3 → ℂ) (u v : ℂ[X]) : MvPolynomial.aeval ![u, v] ((A X 1 x).homogenize 2) = A u v x := by
  rw [eval_hom]
  simp only [Finset.sum_range_succ, Finset.sum_range_zero]
  have e : A X 1 x = C (-(1 / 2 * (x 0 - Complex.I * x 1))) + C (x 2) * X + C (1 / 2 * (x 0 + Complex.I * x 1)) * X ^ 2 := by
    unfold A
    simp only [C_neg, C_mul]
    ring
  rw [e]
  simp only [coeff_add, coeff_C, coeff_C_mul, coeff_X, coeff_X_pow]
  norm_num
  unfold A
  simp only [C_add, C_sub, C_mul]
  ring

theorem hom_pow (p : ℂ[X]) (hp : p.natDegree ≤ 2) (n : Nat) : (p ^ n).natDegree ≤ 2 * n ∧ (p ^ n).homogenize (2 * n) = p.homogenize 2 ^ n := by
  induction n with
  | zero => simp
  | succ n ih =>
    rw [pow_succ, pow_succ, show 2 * (n + 1) = 2 * n + 2 by ring, homogenize_mul _ _ ih.1 hp, ih.2]
    exact ⟨natDegree_mul_le.trans (by omega), rfl⟩

theorem natCast_C (n : Nat) : ((n : Nat) : ℂ[X]) = C (n : ℂ) := (C_eq_natCast n).symm

theorem W_hom {n : Nat} (hn : 1 ≤ n) (u v : ℂ[X]) (x y : Fin 3 → ℂ) :
    W n u v x y = ∑ k ∈ range (2 * n + 1), C ((W n X 1 x y).coeff k) * u ^ k * v ^ (2 * n - k) := by
  rw [← eval_hom]
  unfold W
  obtain ⟨h1, h2⟩ := hom_pow (A X 1 x) (natDegree_A x) (n - 1)
  rw [natCast_C, mul_assoc, mul_assoc, homogenize_C_mul]
  have : 2 * n = 2 * (n - 1) + 2 := by omega
  rw [this, homogenize_mul _ _ h1 (natDegree_A y), h2, map_mul, map_mul, map_pow, hom_A, hom_A, MvPolynomial.aeval_C]
  rfl

/-! ### rotations -/

theorem A_rot (α β : ℝ) (x : Fin 3 → ℂ) :
    A X 1 (_root_.Matrix.mulVec (rotC α β) x)
      = C (Complex.exp (Complex.I * α)) * A (C (Complex.exp (-(Complex.I * α))) * (C ((Real.cos (β / 2) : ℝ) : ℂ) * X + C ((Real.sin (β / 2) : ℝ) : ℂ)))
          (C ((Real.cos (β / 2) : ℝ) : ℂ) - C ((Real.sin (β / 2) : ℝ) : ℂ) * X) x := by
  have e : β = 2 * (β / 2) := by ring
  have hs : Real.sin β = 2 * Real.sin (β / 2) * Real.cos (β / 2) := by
    conv_lhs => rw [e, Real.sin_two_mul]
  have hc : Real.cos β = 2 * Real.cos (β / 2) ^ 2 - 1 := by
    conv_lhs => rw [e, Real.cos_two_mul]
  have hsc := Real.sin_sq_add_cos_sq (β / 2)
  have r0 : _root_.Matrix.mulVec (rotC α β) x 0 = Real.cos β * (Real.cos α * x 0 + Real.sin α * x 1) - Real.sin β * x 2 := by
    simp [rotC, rot, aboutY, aboutZ, _root_.Matrix.mulVec, dotProduct, Fin.sum_univ_three, _root_.Matrix.mul_apply]
    ring
  have r1 : _root_.Matrix.mulVec (rotC α β) x 1 = -(Real.sin α * x 0) + Real.cos α * x 1 := by
    simp [rotC, rot, aboutY, aboutZ, _root_.Matrix.mulVec, dotProduct, Fin.sum_univ_three, _root_.Matrix.mul_apply]
  have r2 : _root_.Matrix.mulVec (rotC α β) x 2 = Real.sin β * (Real.cos α * x 0 + Real.sin α * x 1) + Real.cos β * x 2 := by
    simp [rotC, rot, aboutY, aboutZ, _root_.Matrix.mulVec, dotProduct, Fin.sum_univ_three, _root_.Matrix.mul_apply]
    ring
  have ep : Complex.exp (Complex.I * α) = (Real.cos α : ℂ) + Complex.I * (Real.sin α : ℂ) := by
    rw [mul_comm, Complex.exp_mul_I]
    push_cast
    ring
  have em : Complex.exp (-(Complex.I * α)) = (Real.cos α : ℂ) - Complex.I * (Real.sin α : ℂ) := by
    rw [show -(Complex.I * (α : ℂ)) = ((-α : ℝ) : ℂ) * Complex.I by push_cast; ring, Complex.exp_mul_I]
    push_cast
    rw [Complex.cos_neg, Complex.sin_neg]
    ring
  have hsc' : ((Real.sin (β / 2) : ℝ) : ℂ) ^ 2 + ((Real.cos (β / 2) : ℝ) : ℂ) ^ 2 = 1 := by exact_mod_cast hsc
  have hEF : Complex.exp (Complex.I * α) * Complex.exp (-(Complex.I * α)) = 1 := by rw [← Complex.exp_add, add_neg_cancel, Complex.exp_zero]
  have hI := Complex.I_sq
  rw [hs, hc] at r0 r2
  simp only [Complex.ofReal_mul, Complex.ofReal_sub, Complex.ofReal_pow, Complex.ofReal_one, Complex.ofReal_ofNat] at r0 r2
  generalize ((Real.sin (β / 2) : ℝ) : ℂ) = s at *
  generalize ((Real.cos (β / 2) : ℝ) : ℂ) = c at *
  generalize ((Real.sin α : ℝ) : ℂ) = sa at *
  generalize ((Real.cos α : ℝ) : ℂ) = ca at *
  generalize Complex.exp (Complex.I * α) = E at *
  generalize Complex.exp (-(Complex.I * α)) = F at *
  have k2 : _root_.Matrix.mulVec (rotC α β) x 0 + Complex.I * _root_.Matrix.mulVec (rotC α β) x 1
      = c ^ 2 * (F * (x 0 + Complex.I * x 1)) + (c ^ 2 - 1) * (E * (x 0 - Complex.I * x 1)) - 2 * (s * c * x 2) := by
    rw [r0, r1, ep, em]
    linear_combination ((2 * c ^ 2 - 1) * sa * x 1) * hI
  have k0 : _root_.Matrix.mulVec (rotC α β) x 0 - Complex.I * _root_.Matrix.mulVec (rotC α β) x 1
      = (c ^ 2 - 1) * (F * (x 0 + Complex.I * x 1)) + c ^ 2 * (E * (x 0 - Complex.I * x 1)) - 2 * (s * c * x 2) := by
    rw [r0, r1, ep, em]
    linear_combination ((2 * c ^ 2 - 1) * sa * x 1) * hI
  have k1 : _root_.Matrix.mulVec (rotC α β) x 2
      = s * c * (F * (x 0 + Complex.I * x 1) + E * (x 0 - Complex.I * x 1)) + (2 * c ^ 2 - 1) * x 2 := by
    rw [r2, ep, em]
    linear_combination (2 * s * c * sa * x 1) * hI
  unfold A
  rw [k0, k1, k2]
  have hP : (C s : ℂ[X]) ^ 2 + C c ^ 2 = 1 := by rw [← C_pow, ← C_pow, ← C_add, hsc', C_1]
  have hEF' : (C E * C F : ℂ[X]) = 1 := by rw [← C_mul, hEF, C_1]
  have h2 : (2 * C (1 / 2) : ℂ[X]) = 1 := by rw [show (2 : ℂ[X]) = C 2 from rfl, ← C_mul]; norm_num
  have hC2 : (C (2 : ℂ) : ℂ[X]) = 2 := rfl
  simp only [C_mul, C_add, C_sub, C_pow, C_1, hC2]
  generalize (C s : ℂ[X]) = s at *
  generalize (C c : ℂ[X]) = c at *
  generalize (C E : ℂ[X]) = E at *
  generalize (C F : ℂ[X]) = F at *
  generalize (C Complex.I : ℂ[X]) = i at *
  generalize (C (x 0) : ℂ[X]) = x0 at *
  generalize (C (x 1) : ℂ[X]) = x1 at *
  generalize (C (x 2) : ℂ[X]) = x2 at *
  generalize (C (1 / 2 : ℂ) : ℂ[X]) = H at *
  linear_combination (H * (-(F * (x0 + i * x1)) + E * (x0 - i * x1) * X ^ 2) + x2 * X) * hP
    - (s * c * X * (F * (x0 + i * x1) + E * (x0 - i * x1)) + s * c * x2 * (X ^ 2 - 1)) * h2
    - (x2 * (c * X + s) * (c - s * X) + H * F * (x0 + i * x1) * (c * X + s) ^ 2) * hEF'

/-- coefficients of the generating function, normalised -/
noncomputable def cf (n : Nat) (m : Int) (x y : Fin 3 → ℂ) : ℂ := ((nrm n m / n.factorial : ℝ) : ℂ) * (W n X 1 x y).coeff ((n : Int) + m).toNat

theorem cf_add (n : Nat) (m : Int) (x y z : Fin 3 → ℂ) : cf n m x (y + z) = cf n m x y + cf n m x z := by
  unfold cf W
  rw [A_add, mul_add, coeff_add, mul_add]

theorem cf_smul (n : Nat) (m : Int) (x : Fin 3 → ℂ) (c : ℂ) (y : Fin 3 → ℂ) : cf n m x (c • y) = c * cf n m x y := by
  unfold cf W
  rw [A_smul, mul_left_comm ((n : ℂ[X]) * _), coeff_C_mul]
  ring

theorem A_scale (E : ℂ) (u v : ℂ[X]) (x : Fin 3 → ℂ) (n : Nat) (hn : 1 ≤ n) (y : Fin 3 → ℂ) :
    (n : ℂ[X]) * (C E * A u v x) ^ (n - 1) * (C E * A u v y) = C (E ^ n) * W n u v x y := by
  unfold W
  obtain ⟨k, rfl⟩ : ∃ k, n = k + 1 := ⟨n - 1, by omega⟩
  rw [C_pow, Nat.add_sub_cancel, mul_pow, pow_succ]
  ring

theorem sum_range_Icc {M : Type} [AddCommMonoid M] (n : Nat) (f : Nat → M) :
    ∑ k ∈ range (2 * n + 1), f k = ∑ m ∈ Icc (-(n : Int)) n, f ((n : Int) + m).toNat := by
  refine Finset.sum_bij' (fun k _ => (k : Int) - n) (fun m _ => ((n : Int) + m).toNat) ?_ ?_ ?_ ?_ ?_
  · intro k hk
    rw [Finset.mem_range] at hk
    rw [Finset.mem_Icc]
    omega
  · intro m hm
    rw [Finset.mem_Icc] at hm
    rw [Finset.mem_range]
    omega
  · intro k _
    omega
  · intro m hm
    rw [Finset.mem_Icc] at hm
    omega
  · intro k _
    congr 1
    omega

/-- The vector spherical functions in a rotated frame: Wigner's functions. -/
theorem cf_rot {n : Nat} (hn : 1 ≤ n) {m : Int} (hm : |m| ≤ n) (α β : ℝ) (x y : Fin 3 → ℂ) :
    cf n m (_root_.Matrix.mulVec (rotC α β) x) (_root_.Matrix.mulVec (rotC α β) y)
      = ∑ k ∈ Icc (-(n : Int)) n, D n k m α (-β) * cf n k x y := by
  have e1 : W n X 1 (_root_.Matrix.mulVec (rotC α β) x) (_root_.Matrix.mulVec (rotC α β) y)
      = ∑ k ∈ Icc (-(n : Int)) n, C (Complex.exp (-(Complex.I * (k * α))) * (W n X 1 x y).coeff ((n : Int) + k).toNat) * (turned n k (-β)).map Complex.ofRealHom := by
    unfold W
    rw [A_rot, A_rot, A_scale _ _ _ _ n hn, W_hom hn, sum_range_Icc, Finset.mul_sum]
    apply Finset.sum_congr rfl
    intro k hk
    rw [Finset.mem_Icc] at hk
    unfold turned
    rw [neg_div, Real.cos_neg, Real.sin_neg]
    simp only [Polynomial.map_mul, Polynomial.map_pow, Polynomial.map_sub, Polynomial.map_add, Polynomial.map_neg, map_C, map_X, Complex.ofRealHom_eq_coe, Complex.ofReal_neg, C_neg]
    rw [show 2 * n - ((n : Int) + k).toNat = ((n : Int) - k).toNat by omega, mul_pow]
    have e : (C (Complex.exp (Complex.I * α) ^ n) * C (Complex.exp (-(Complex.I * α))) ^ ((n : Int) + k).toNat : ℂ[X]) = C (Complex.exp (-(Complex.I * (k * α)))) := by
      rw [← C_pow, ← C_mul, ← Complex.exp_nat_mul, ← Complex.exp_nat_mul, ← Complex.exp_add]
      congr 2
      have : ((((n : Int) + k).toNat : Nat) : ℂ) = (n : ℂ) + k := by
        rw [← Int.cast_natCast, Int.toNat_of_nonneg (by omega)]
        push_cast
        rfl
      rw [this]
      ring
    rw [C_mul, ← e]
    change _ = C (Complex.exp (Complex.I * α) ^ n) * C (Complex.exp (-(Complex.I * α))) ^ ((n : Int) + k).toNat * C ((W n X 1 x y).coeff _) * _
    ring
  unfold cf
  rw [e1, finsetSum_coeff, Finset.mul_sum]
  apply Finset.sum_congr rfl
  intro k hk
  rw [Finset.mem_Icc, ← abs_le] at hk
  unfold D
  rw [d_eq hk hm, coeff_C_mul, coeff_map, Complex.ofRealHom_eq_coe]
  have hN : (nrm n k : ℂ) ≠ 0 := by exact_mod_cast (nrm_pos n k).ne'
  have hF : (n.factorial : ℂ) ≠ 0 := by exact_mod_cast (Nat.factorial_pos n).ne'
  push_cast
  field_simp

/-! ### the functions of the theory -/

/-- real vectors as complex vectors -/
noncomputable def toC (x : Fin 3 → ℝ) : Fin 3 → ℂ := fun i => (x i : ℂ)

theorem A_diff {x : ℝ → Fin 3 → ℝ} {x' : Fin 3 → ℝ} {t : ℝ} (h : ∀ i, HasDerivAt (fun s => x s i) (x' i) t) :
    Diff (fun s => A X 1 (toC (x s))) (A X 1 (toC x')) t := by
  have hc : ∀ i, HasDerivAt (fun s => (x s i : ℂ)) (x' i : ℂ) t := fun i => (h i).ofReal_comp
  have d2 := (Diff.C (hc 2)).mul (Diff.const (X * 1 : ℂ[X]) t)
  have dp := (Diff.C ((hc 0).fun_add ((hc 1).const_mul Complex.I))).mul (Diff.const (X ^ 2 : ℂ[X]) t)
  have dm := (Diff.C ((hc 0).fun_sub ((hc 1).const_mul Complex.I))).mul (Diff.const (1 ^ 2 : ℂ[X]) t)
  refine (d2.add ((Diff.const (C (1 / 2) : ℂ[X]) t).mul (dp.sub dm))).congr ?_
  unfold A toC
  ring

/-- the derivative of the generating function of the scalar functions -/
theorem pow_diff {x : ℝ → Fin 3 → ℝ} {x' : Fin 3 → ℝ} {t : ℝ} (h : ∀ i, HasDerivAt (fun s => x s i) (x' i) t) (n : Nat) :
    Diff (fun s => A X 1 (toC (x s)) ^ n) (W n X 1 (toC (x t)) (toC x')) t := (A_diff h).pow n

theorem dir_dtheta (θ φ : ℝ) (i : Fin 3) : HasDerivAt (fun t => dir t φ i) (eTheta θ φ i) θ := by
  fin_cases i
  · exact (Real.hasDerivAt_sin θ).mul_const _
  · exact (Real.hasDerivAt_sin θ).mul_const _
  · exact Real.hasDerivAt_cos θ

theorem dir_dphi (θ φ : ℝ) (i : Fin 3) : HasDerivAt (fun t => dir θ t i) ((Real.sin θ • ePhi φ) i) φ := by
  fin_cases i
  · exact ((Real.hasDerivAt_cos φ).const_mul _)
  · exact ((Real.hasDerivAt_sin φ).const_mul _)
  · refine (hasDerivAt_const φ (Real.cos θ)).congr_deriv ?_
    simp [ePhi]

/-- the scalar functions -/
theorem pow_coeff (n : Nat) {m : Int} (hm : |m| ≤ n) (θ φ : ℝ) :
    ((nrm n m / n.factorial : ℝ) : ℂ) * (A X 1 (toC (dir θ φ)) ^ n).coeff ((n : Int) + m).toNat = Complex.exp (Complex.I * (m * φ)) * d n 0 m θ := by
  have e : A X 1 (toC (dir θ φ)) ^ n
      = C (Complex.exp (-(Complex.I * φ)) ^ n) * ((turned n 0 θ).map Complex.ofRealHom).comp (C (Complex.exp (Complex.I * φ)) * X) := by
    rw [turned_zero, Polynomial.map_pow, pow_comp, C_pow, ← mul_pow]
    congr 1
    simp only [Polynomial.map_sub, Polynomial.map_add, Polynomial.map_mul, Polynomial.map_pow, map_C, map_X, Complex.ofRealHom_eq_coe,
      sub_comp, add_comp, mul_comp, pow_comp, C_comp, X_comp]
    have k0 : toC (dir θ φ) 0 + Complex.I * toC (dir θ φ) 1 = Real.sin θ * Complex.exp (Complex.I * φ) := by
      rw [mul_comm Complex.I (φ : ℂ), Complex.exp_mul_I]
      simp [toC, dir]
      ring
    have k1 : toC (dir θ φ) 0 - Complex.I * toC (dir θ φ) 1 = Real.sin θ * Complex.exp (-(Complex.I * φ)) := by
      rw [show -(Complex.I * (φ : ℂ)) = (-φ : ℂ) * Complex.I by ring, Complex.exp_mul_I, Complex.cos_neg, Complex.sin_neg]
      simp [toC, dir]
      ring
    have k2 : toC (dir θ φ) 2 = Real.cos θ := by simp [toC, dir]
    have hEF : Complex.exp (-(Complex.I * φ)) * Complex.exp (Complex.I * φ) = 1 := by rw [← Complex.exp_add, neg_add_cancel, Complex.exp_zero]
    unfold A
    rw [k0, k1, k2]
    have hEF' : (C (Complex.exp (-(Complex.I * φ))) * C (Complex.exp (Complex.I * φ)) : ℂ[X]) = 1 := by rw [← C_mul, hEF, C_1]
    rw [show (((Real.sin θ / 2 : ℝ)) : ℂ) = 1 / 2 * (Real.sin θ : ℂ) by push_cast; ring]
    simp only [C_mul]
    generalize (C (Complex.exp (-(Complex.I * φ))) : ℂ[X]) = F at *
    generalize (C (Complex.exp (Complex.I * φ)) : ℂ[X]) = E at *
    linear_combination (-(C ((Real.cos θ : ℝ) : ℂ) * X) - C (1 / 2) * C ((Real.sin θ : ℝ) : ℂ) * E * X ^ 2) * hEF'
  rw [e, coeff_C_mul, comp_C_mul_X_coeff, coeff_map, d_eq (by simp) hm, Complex.ofRealHom_eq_coe]
  have e2 : nrm n 0 = n.factorial := by
    unfold nrm fac
    rw [show ((n : Int) + 0).toNat = n by omega, show ((n : Int) - 0).toNat = n by omega]
    exact Real.sqrt_mul_self (by positivity)
  have e3 : Complex.exp (-(Complex.I * φ)) ^ n * Complex.exp (Complex.I * φ) ^ ((n : Int) + m).toNat = Complex.exp (Complex.I * (m * φ)) := by
    rw [← Complex.exp_nat_mul, ← Complex.exp_nat_mul, ← Complex.exp_add]
    congr 1
    have : ((((n : Int) + m).toNat : Nat) : ℂ) = (n : ℂ) + m := by
      rw [← Int.cast_natCast, Int.toNat_of_nonneg (by rw [abs_le] at hm; omega)]
      push_cast
      rfl
    rw [this]
    ring
  rw [e2, ← e3]
  push_cast
  ring

/-- the polar component -/
theorem cf_theta (n : Nat) {m : Int} (hm : |m| ≤ n) (θ φ : ℝ) {t : ℝ} (ht : HasDerivAt (d n 0 m) t θ) :
    cf n m (toC (dir θ φ)) (toC (eTheta θ φ)) = Complex.exp (Complex.I * (m * φ)) * t := by
  have h1 := (pow_diff (x := fun s => dir s φ) (dir_dtheta θ φ) n ((n : Int) + m).toNat).const_mul ((nrm n m / n.factorial : ℝ) : ℂ)
  have h2 : HasDerivAt (fun s => ((nrm n m / n.factorial : ℝ) : ℂ) * (A X 1 (toC (dir s φ)) ^ n).coeff ((n : Int) + m).toNat)
      (Complex.exp (Complex.I * (m * φ)) * t) θ := by
    simp_rw [pow_coeff n hm]
    exact ht.ofReal_comp.const_mul _
  exact h1.unique h2

/-- the azimuthal component -/
theorem cf_phi (n : Nat) {m : Int} (hm : |m| ≤ n) (θ φ : ℝ) :
    Real.sin θ * cf n m (toC (dir θ φ)) (toC (ePhi φ)) = Complex.I * m * Complex.exp (Complex.I * (m * φ)) * d n 0 m θ := by
  have h1 := (pow_diff (x := fun s => dir θ s) (dir_dphi θ φ) n ((n : Int) + m).toNat).const_mul ((nrm n m / n.factorial : ℝ) : ℂ)
  have h2 : HasDerivAt (fun s => ((nrm n m / n.factorial : ℝ) : ℂ) * (A X 1 (toC (dir θ s)) ^ n).coeff ((n : Int) + m).toNat)
      (Complex.I * m * Complex.exp (Complex.I * (m * φ)) * d n 0 m θ) φ := by
    simp_rw [pow_coeff n hm]
    refine HasDerivAt.mul_const ?_ _
    have h3 : HasDerivAt (fun s : ℝ => Complex.I * (m * (s : ℂ))) (Complex.I * (m * 1)) φ := ((hasDerivAt_id φ).ofReal_comp.const_mul _).const_mul _
    exact h3.cexp.congr_deriv (by ring)
  have h3 := h1.unique h2
  rw [← h3, ← cf_smul]
  unfold cf
  congr 3
  funext i
  simp [toC]

theorem cf_continuous (n : Nat) (m : Int) (φ : ℝ) : Continuous fun θ => cf n m (toC (dir θ φ)) (toC (ePhi φ)) := by
  unfold cf W
  refine continuous_const.mul (continuous_iff_continuousAt.mpr fun θ => ?_)
  exact (((Diff.const (n : ℂ[X]) θ).mul ((A_diff (x := fun s => dir s φ) (dir_dtheta θ φ)).pow (n - 1))).mul
    (Diff.const (A X 1 (toC (ePhi φ))) θ) ((n : Int) + m).toNat).continuousAt

theorem sin_punctured (θ : ℝ) : ∀ᶠ t in nhdsWithin θ {θ}ᶜ, Real.sin t ≠ 0 := by
  by_cases h : Real.sin θ = 0
  · have := (Real.hasDerivAt_sin θ).eventually_ne (c := 0) (by
      intro hc
      have := Real.sin_sq_add_cos_sq θ
      rw [h, hc] at this
      norm_num at this)
    exact this
  · exact (Real.continuous_sin.continuousAt.eventually_ne h).filter_mono nhdsWithin_le_nhds

/-- limits of the azimuthal component -/
theorem cf_phi_limit (n : Nat) {m : Int} (hm : |m| ≤ n) (θ φ : ℝ) (c : ℂ) {f : ℝ → ℝ} {p : ℝ}
    (h : ∀ t, Complex.I * m * Complex.exp (Complex.I * (m * φ)) * d n 0 m t = c * f t)
    (hp : Filter.Tendsto (fun t => f t / Real.sin t) (nhdsWithin θ {θ}ᶜ) (nhds p)) :
    cf n m (toC (dir θ φ)) (toC (ePhi φ)) = c * p := by
  have h1 := ((cf_continuous n m φ).tendsto θ).mono_left (nhdsWithin_le_nhds (s := {θ}ᶜ))
  have h2 : Filter.Tendsto (fun t => c * ((f t / Real.sin t : ℝ) : ℂ)) (nhdsWithin θ {θ}ᶜ) (nhds (c * p)) :=
    ((Complex.continuous_ofReal.tendsto p).comp hp).const_mul c
  refine tendsto_nhds_unique (h1.congr' ?_) h2
  filter_upwards [sin_punctured θ] with t ht
  have h3 := cf_phi n hm t φ
  rw [h t] at h3
  have hs : ((Real.sin t : ℝ) : ℂ) ≠ 0 := by exact_mod_cast ht
  rw [Complex.ofReal_div]
  field_simp
  rw [mul_comm, h3]

open Verif.Scatter in
/-- the components are the angular functions of the theory -/
theorem cf_angular {n : Nat} (hn : 1 ≤ n) {m : Int} (hm : |m| ≤ n) {a : Angular} {θ : ℝ} (ha : a.IsOf θ) (φ : ℝ) :
    cf n m (toC (dir θ φ)) (toC (eTheta θ φ)) = Complex.exp (Complex.I * (m * φ)) * a.tau m n
    ∧ cf n m (toC (dir θ φ)) (toC (ePhi φ)) = Complex.I * Complex.exp (Complex.I * (m * φ)) * a.pi m n := by
  rcases le_total 0 m with h | h
  · obtain ⟨k, rfl⟩ : ∃ k : Nat, m = k := ⟨m.toNat, by omega⟩
    obtain ⟨a1, a2⟩ := ha k n hn (by rw [abs_of_nonneg h] at hm; omega)
    have e : d n 0 k = Legendre.wigner k n := funext fun t => d_wigner n k t
    refine ⟨cf_theta n hm θ φ (by rw [e]; exact a2), ?_⟩
    rcases Nat.eq_zero_or_pos k with hk | hk
    · subst hk
      have h0 := a.pi_neg 0 n
      have h0' : a.pi ((0 : Nat) : Int) n = 0 := by
        norm_num at h0 ⊢
        linarith
      rw [h0']
      exact cf_phi_limit n hm θ φ _ (f := fun _ => 0) (fun t => by simp) (by simpa using tendsto_const_nhds)
    · refine cf_phi_limit n hm θ φ _ (f := fun t => k * Legendre.wigner k n t) (fun t => ?_) ?_
      · rw [d_wigner]
        push_cast
        ring
      · refine (a1 hk).congr fun t => ?_
        ring
  · obtain ⟨k, rfl⟩ : ∃ k : Nat, m = -k := ⟨(-m).toNat, by omega⟩
    rw [abs_neg] at hm
    obtain ⟨a1, a2⟩ := ha k n hn (by rw [abs_of_nonneg (by omega)] at hm; omega)
    have e : d n 0 (-k) = fun t => (-1) ^ k * Legendre.wigner k n t := funext fun t => by
      have := d_neg n 0 k (by simp) t
      rw [neg_zero, zero_add, Int.natAbs_natCast, d_wigner] at this
      exact this
    have hm' : |(-k : Int)| ≤ (n : Int) := by rwa [abs_neg]
    have t1 := a.tau_neg k n
    have t2 := a.pi_neg k n
    rw [Int.natAbs_natCast] at t1 t2
    refine ⟨cf_theta n hm' θ φ (by rw [e, t1]; exact a2.const_mul _), ?_⟩
    rcases Nat.eq_zero_or_pos k with hk | hk
    · subst hk
      have h0 := a.pi_neg 0 n
      have h0' : a.pi (-((0 : Nat) : Int)) n = 0 := by
        norm_num at h0 ⊢
        linarith
      rw [h0']
      exact cf_phi_limit n hm' θ φ _ (f := fun _ => 0) (fun t => by simp) (by simpa using tendsto_const_nhds)
    · rw [t2]
      have := cf_phi_limit n hm' θ φ (-(Complex.I * Complex.exp (Complex.I * (((-k : Int)) * φ)) * (-1) ^ k))
        (f := fun t => k * Legendre.wigner k n t) (p := a.pi k n) (fun t => by
          rw [congrFun e t]
          push_cast
          ring) ((a1 hk).congr fun t => by ring)
      rw [this]
      push_cast
      ring

end Verif.Rotation
