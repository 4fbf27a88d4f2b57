import Verif.Model.DirectScatter
import Verif.Spec.Frame
import Verif.Proofs.Matrix
import Mathlib.LinearAlgebra.Matrix.DotProduct
import Mathlib.Analysis.SpecialFunctions.Trigonometric.Inverse
import Mathlib.Tactic.LinearCombination
import Mathlib.Tactic.FinCases
import Mathlib.Tactic.Linarith

/-!
# Change of reference frame: the small matrices of `get_forward_scattering_matrix`
-/
namespace Verif.Direct

open Finset Verif.Matrix Verif.Frame
open _root_.Matrix (mulVec)

theorem product_spec (reset : Bool) {rows cols : Nat} (A B C : Mat ℝ) (hc : C.cols = cols)
    (h0 : reset = true ∨ ∀ i j, i < rows → j < cols → C.get i j = 0) :
    (product reset rows cols A B C).cols = cols ∧ ∀ i j, i < rows → j < cols →
      (product reset rows cols A B C).get i j = A.get i 0 * B.get 0 j + A.get i 1 * B.get 1 j + A.get i 2 * B.get 2 j := by
  unfold product
  have := loop_inv (fun q (D : Mat ℝ) => D.cols = cols
      ∧ (∀ i j, i < q → i < rows → j < cols → D.get i j = A.get i 0 * B.get 0 j + A.get i 1 * B.get 1 j + A.get i 2 * B.get 2 j)
      ∧ ∀ i j, q ≤ i → i < rows → j < cols → D.get i j = C.get i j) (Nat.zero_le rows) (fun i C => loop 0 cols (fun j C =>
    loop 0 3 (fun k C => C.set i j (C.get i j + A.get i k * B.get k j)) (if reset then C.set i j 0 else C)) C) C
    ⟨hc, fun i j h => by omega, fun _ _ _ _ _ => rfl⟩ (by
    rintro r D _ hr ⟨d1, d2, d3⟩
    have := loop_inv (fun q (E : Mat ℝ) => E.cols = cols
      ∧ (∀ j, j < q → j < cols → E.get r j = A.get r 0 * B.get 0 j + A.get r 1 * B.get 1 j + A.get r 2 * B.get 2 j)
      ∧ (∀ j, q ≤ j → j < cols → E.get r j = C.get r j) ∧ ∀ i j, i ≠ r → j < cols → E.get i j = D.get i j) (Nat.zero_le cols)
      (fun j C => loop 0 3 (fun k C => C.set r j (C.get r j + A.get r k * B.get k j)) (if reset then C.set r j 0 else C)) D
      ⟨d1, fun j h => by omega, fun j _ hj => d3 r j le_rfl hr hj, fun _ _ _ _ => rfl⟩ (by
      rintro c E _ hcc ⟨e1, e2, e3, e4⟩
      have hs : ∃ F : Mat ℝ, (if reset then E.set r c 0 else E) = F ∧ F.cols = cols ∧ F.get r c = 0
          ∧ ∀ i j, (i ≠ r ∨ j ≠ c) → j < cols → F.get i j = E.get i j := by
        refine ⟨_, rfl, ?_⟩
        cases reset
        · rcases h0 with h | h
          · cases h
          · exact ⟨e1, by rw [if_neg (by decide), e3 c le_rfl hcc, h r c hr hcc], fun _ _ _ _ => rfl⟩
        · rw [if_pos rfl]
          refine ⟨e1, ?_, ?_⟩
          · rw [get_set _ _ (by rw [e1]; exact hcc) (by rw [e1]; exact hcc), if_pos ⟨rfl, rfl⟩]
          · intro i j hij hj
            rw [get_set _ _ (by rw [e1]; exact hcc) (by rw [e1]; exact hj), if_neg]
            rintro ⟨rfl, rfl⟩
            rcases hij with h | h <;> exact h rfl
      obtain ⟨F, hF, f1, f2, f3⟩ := hs
      rw [hF]
      have := loop_inv (fun q (G : Mat ℝ) => G.cols = cols ∧ G.get r c = ∑ k ∈ range q, A.get r k * B.get k c
          ∧ ∀ i j, (i ≠ r ∨ j ≠ c) → j < cols → G.get i j = E.get i j) (Nat.zero_le 3)
          (fun k C => C.set r c (C.get r c + A.get r k * B.get k c)) F ⟨f1, by simpa using f2, f3⟩ (by
        rintro k G _ _ ⟨g1, g2, g3⟩
        refine ⟨g1, ?_, ?_⟩
        · rw [get_set _ _ (by rw [g1]; exact hcc) (by rw [g1]; exact hcc), if_pos ⟨rfl, rfl⟩, sum_range_succ, g2]
        · intro i j hij hj
          rw [get_set _ _ (by rw [g1]; exact hcc) (by rw [g1]; exact hj), if_neg, g3 i j hij hj]
          rintro ⟨rfl, rfl⟩
          rcases hij with h | h <;> exact h rfl)
      generalize loop 0 3 _ F = G at this ⊢
      obtain ⟨g1, g2, g3⟩ := this
      refine ⟨g1, ?_, ?_, ?_⟩
      · intro j hj hj'
        by_cases h : j = c
        · subst h
          rw [g2]
          simp [sum_range_succ]
        · rw [g3 r j (Or.inr h) hj', e2 j (by omega) hj']
      · intro j hj hj'
        rw [g3 r j (Or.inr (by omega)) hj', e3 j (by omega) hj']
      · intro i j hi hj
        rw [g3 i j (Or.inl hi) hj, e4 i j hi hj])
    obtain ⟨f1, f2, _, f4⟩ := this
    refine ⟨f1, ?_, ?_⟩
    · intro i j hi hi' hj
      by_cases h : i = r
      · subst h
        exact f2 j hj hj
      · rw [f4 i j h hj, d2 i j (by omega) hi' hj]
    · intro i j hi hi' hj
      rw [f4 i j (by omega) hj, d3 i j (by omega) hi' hj])
  exact ⟨this.1, fun i j hi hj => this.2.1 i j hi hi hj⟩

/-- elements of a small matrix built by assignments -/
theorem matB_get (α β : ℝ) (i j : Fin 3) : (matB α β).get i j = rot α β i j := by
  unfold matB rot aboutY aboutZ
  fin_cases i <;> fin_cases j <;>
    simp [Mat.get, Mat.set, Mat.new, pos, Function.update_apply, Matrix.mul_apply, Fin.sum_univ_three] <;> ring

theorem matAL_get (θ φ : ℝ) (i : Fin 3) : (matAL θ φ).get i 0 = eTheta θ φ i ∧ (matAL θ φ).get i 1 = ePhi φ i := by
  unfold matAL eTheta ePhi
  fin_cases i <;> simp [Mat.get, Mat.set, Mat.new, pos, Function.update_apply]

theorem new_get (r c i j : Nat) : (Mat.new r c : Mat ℝ).get i j = 0 := rfl

/-- `C` holds the rotated basis vectors -/
theorem matC_spec (α β θ φ θ' φ' : ℝ) (i : Fin 3) :
    ((matCin α β θ φ).get i 0 = mulVec (rot α β) (eTheta θ φ) i ∧ (matCin α β θ φ).get i 1 = mulVec (rot α β) (ePhi φ) i)
    ∧ (matCout α β θ φ θ' φ').get i 0 = mulVec (rot α β) (eTheta θ' φ') i ∧ (matCout α β θ φ θ' φ').get i 1 = mulVec (rot α β) (ePhi φ') i := by
  have hin := product_spec false (rows := 3) (matB α β) (matAL θ φ) (Mat.new 3 2) (cols := 2) rfl (Or.inr fun i j _ _ => new_get 3 2 i j)
  have hout := product_spec true (rows := 3) (matB α β) (matAL θ' φ') (matCin α β θ φ) hin.1 (Or.inl rfl)
  have b0 := matB_get α β i 0
  have b1 := matB_get α β i 1
  have b2 := matB_get α β i 2
  simp only [Fin.val_zero, Fin.val_one, Fin.val_two] at b0 b1 b2
  have hi := i.isLt
  have e : ∀ v : Fin 3 → ℝ, mulVec (rot α β) v i = rot α β i 0 * v 0 + rot α β i 1 * v 1 + rot α β i 2 * v 2 := by
    intro v
    simp [mulVec, dotProduct, Fin.sum_univ_three]
  have a := fun θ φ => matAL_get θ φ 0
  have a1 := fun θ φ => matAL_get θ φ 1
  have a2 := fun θ φ => matAL_get θ φ 2
  simp only [Fin.val_zero, Fin.val_one, Fin.val_two] at a a1 a2
  unfold matCout
  refine ⟨⟨?_, ?_⟩, ?_, ?_⟩
  · unfold matCin
    rw [hin.2 i 0 hi (by norm_num), e, b0, b1, b2, (a _ _).1, (a1 _ _).1, (a2 _ _).1]
  · unfold matCin
    rw [hin.2 i 1 hi (by norm_num), e, b0, b1, b2, (a _ _).2, (a1 _ _).2, (a2 _ _).2]
  · rw [hout.2 i 0 hi (by norm_num), e, b0, b1, b2, (a _ _).1, (a1 _ _).1, (a2 _ _).1]
  · rw [hout.2 i 1 hi (by norm_num), e, b0, b1, b2, (a _ _).2, (a1 _ _).2, (a2 _ _).2]

/-! ## rotations and frames -/

theorem rot_orth (α β : ℝ) : (rot α β).transpose * rot α β = 1 := by
  have hY : (aboutY β).transpose * aboutY β = 1 := by
    ext i j
    have := Real.sin_sq_add_cos_sq β
    fin_cases i <;> fin_cases j <;> simp [aboutY, Matrix.mul_apply, Fin.sum_univ_three] <;> linarith
  have hZ : (aboutZ α).transpose * aboutZ α = 1 := by
    ext i j
    have := Real.sin_sq_add_cos_sq α
    fin_cases i <;> fin_cases j <;> simp [aboutZ, Matrix.mul_apply, Fin.sum_univ_three] <;> linarith
  unfold rot
  rw [Matrix.transpose_mul, Matrix.mul_assoc, ← Matrix.mul_assoc (aboutY β).transpose, hY, Matrix.one_mul, hZ]

theorem rot_dot (α β : ℝ) (u v : Fin 3 → ℝ) : mulVec (rot α β) u ⬝ᵥ mulVec (rot α β) v = u ⬝ᵥ v := by
  rw [Matrix.dotProduct_mulVec, ← Matrix.mulVec_transpose, Matrix.mulVec_mulVec, rot_orth, Matrix.one_mulVec]

theorem dot3 (u v : Fin 3 → ℝ) : u ⬝ᵥ v = u 0 * v 0 + u 1 * v 1 + u 2 * v 2 := by
  simp [dotProduct, Fin.sum_univ_three]

theorem eTheta_dir (θ φ : ℝ) : eTheta θ φ ⬝ᵥ dir θ φ = 0 := by
  rw [dot3]
  simp [eTheta, dir]
  linear_combination Real.sin θ * Real.cos θ * Real.sin_sq_add_cos_sq φ

theorem ePhi_dir (θ φ : ℝ) : ePhi φ ⬝ᵥ dir θ φ = 0 := by
  rw [dot3]
  simp [ePhi, dir]
  ring

theorem eTheta_eTheta (θ φ : ℝ) : eTheta θ φ ⬝ᵥ eTheta θ φ = 1 := by
  rw [dot3]
  simp [eTheta]
  linear_combination Real.cos θ ^ 2 * Real.sin_sq_add_cos_sq φ + Real.sin_sq_add_cos_sq θ

theorem eTheta_ePhi (θ φ : ℝ) : eTheta θ φ ⬝ᵥ ePhi φ = 0 := by
  rw [dot3]
  simp [ePhi, eTheta]
  ring

theorem ePhi_ePhi (φ : ℝ) : ePhi φ ⬝ᵥ ePhi φ = 1 := by
  rw [dot3]
  simp [ePhi]
  linear_combination Real.sin_sq_add_cos_sq φ

/-- a vector is the sum of its components along the three unit vectors -/
theorem frame_complete (θ φ : ℝ) (v : Fin 3 → ℝ) (c : Fin 3) :
    v c = (v ⬝ᵥ dir θ φ) * dir θ φ c + (eTheta θ φ ⬝ᵥ v) * eTheta θ φ c + (ePhi φ ⬝ᵥ v) * ePhi φ c := by
  have h1 := Real.sin_sq_add_cos_sq θ
  have h2 := Real.sin_sq_add_cos_sq φ
  simp only [dot3]
  have e0 : dir θ φ 0 = Real.sin θ * Real.cos φ := rfl
  have e1 : dir θ φ 1 = Real.sin θ * Real.sin φ := rfl
  have e2 : dir θ φ 2 = Real.cos θ := rfl
  have t0 : eTheta θ φ 0 = Real.cos θ * Real.cos φ := rfl
  have t1 : eTheta θ φ 1 = Real.cos θ * Real.sin φ := rfl
  have t2 : eTheta θ φ 2 = -Real.sin θ := rfl
  have p0 : ePhi φ 0 = -Real.sin φ := rfl
  have p1 : ePhi φ 1 = Real.cos φ := rfl
  have p2 : ePhi φ 2 = 0 := rfl
  rw [e0, e1, e2, t0, t1, t2, p0, p1, p2]
  generalize Real.sin θ = s at *
  generalize Real.cos θ = k at *
  generalize Real.sin φ = x at *
  generalize Real.cos φ = y at *
  fin_cases c
  · simp only [Fin.mk_zero, e0, t0, p0, Fin.zero_eta]
    linear_combination (-(y * y) * v 0 - x * y * v 1) * h1 - v 0 * h2
  · simp only [Fin.mk_one, e1, t1, p1]
    linear_combination (-(x * y) * v 0 - x * x * v 1) * h1 - v 1 * h2
  · simp only [Fin.reduceFinMk, e2, t2, p2]
    linear_combination -v 2 * h1

end Verif.Direct
