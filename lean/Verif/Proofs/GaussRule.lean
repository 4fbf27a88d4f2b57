import Verif.Proofs.Refine
import Verif.Properties.Quadrature
import Mathlib.Data.Finset.Sort

/-!
# The Gauss-Legendre rules with ordered points

The points are in increasing order and symmetric, as those of the code (C32).
-/
namespace Verif.Refine

open Polynomial Verif.Legendre

theorem P_symm (n : Nat) : (P n).comp (-X) = C ((-1) ^ n) * P n := by
  refine Polynomial.funext fun x => ?_
  rw [eval_comp, eval_neg, eval_X, Special.P_neg, eval_mul, eval_C]

theorem dP_sq (n : Nat) (x : ℝ) : (derivative (P n)).eval (-x) ^ 2 = (derivative (P n)).eval x ^ 2 := by
  have h := congrArg (fun q => (derivative q).eval x) (P_symm n)
  simp only [derivative_comp, derivative_neg, derivative_X, derivative_mul, derivative_C, zero_mul, zero_add, eval_mul, eval_comp, eval_neg, eval_X, eval_one, eval_C] at h
  have h2 : ((-1 : ℝ) ^ n) ^ 2 = 1 := by
    rw [← pow_mul, mul_comm, pow_mul]
    norm_num
  have h3 : (derivative (P n)).eval (-x) = -((-1) ^ n * (derivative (P n)).eval x) := by linarith
  rw [h3, neg_sq, mul_pow, h2, one_mul]

/-- there is a rule for every number of points, with points and weights that are symmetric -/
theorem rule_exists (n : Nat) : ∃ r : (Nat → ℝ) × (Nat → ℝ), Gauss n r ∧ (∀ i < n, r.1 (n - 1 - i) = -r.1 i) ∧ ∀ i < n, r.2 (n - 1 - i) = r.2 i := by
  obtain ⟨x, hx, -, hz⟩ := Quadrature.roots_exist n
  have hc : (Finset.univ.image x).card = n := by
    rw [Finset.card_image_of_injective _ hx, Finset.card_univ, Fintype.card_fin]
  have hS : ∀ y, y ∈ Finset.univ.image x ↔ (P n).eval y = 0 := by
    intro y
    rw [hz y]
    simp
  set f := (Finset.univ.image x).orderEmbOfFin hc with hf
  have hfz : ∀ i, (P n).eval (f i) = 0 := fun i => (hS _).1 (Finset.orderEmbOfFin_mem _ hc i)
  have hneg : (fun i => -f (Fin.rev i)) = f := by
    refine Finset.orderEmbOfFin_unique hc (fun i => (hS _).2 ?_) fun i j hij => ?_
    · rw [Special.P_neg, hfz, mul_zero]
    · exact neg_lt_neg (f.strictMono (Fin.rev_lt_rev.2 hij))
  set v : Nat → ℝ := fun i => if h : i < n then f ⟨i, h⟩ else 0 with hv
  have hvi : ∀ i (h : i < n), v i = f ⟨i, h⟩ := fun i h => dif_pos h
  have hs : ∀ i < n, v (n - 1 - i) = -v i := by
    intro i hi
    rw [hvi i hi, hvi _ (by omega), ← congrFun hneg ⟨i, hi⟩, neg_neg]
    congr 1
    refine Fin.ext ?_
    rw [Fin.val_rev]
    simp only
    omega
  refine ⟨(v, fun i => 2 / ((1 - v i ^ 2) * (derivative (P n)).eval (v i) ^ 2)), ⟨fun i hi => ?_, fun i hi j hj e => ?_, fun _ _ => rfl⟩, hs, fun i hi => ?_⟩
  · change (P n).eval (v i) = 0
    rw [hvi i hi]
    exact hfz _
  · have e : v i = v j := e
    rw [hvi i hi, hvi j hj] at e
    simpa using f.injective e
  · simp only [hs i hi, dP_sq, neg_sq]

end Verif.Refine
