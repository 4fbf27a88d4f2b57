import Verif.Proofs.ClebschCode
import Verif.Proofs.ClebschOrth

/-!
# C65: the Clebsch-Gordan coefficients

The recursions of the code yield the Clebsch-Gordan coefficients in closed form (`Verif.Spec.Clebsch`), for every triangle
`n1, n2, N`, and touch exactly the first `(N + 1) (2 n1 + 1)` elements of the workspace. The coefficients are orthonormal and
complete. Numbers are real.
-/
namespace Verif.Clebsch

open Finset Verif.Matrix

variable {n1 n2 N : Int}

/-- **C65** `get_clebsch_gordan_coefficients`: element `nmin + m` of the workspace is `C^{N0}_{n1 m n2 -m}`, whatever the
workspace contained before, and all accesses are in bounds exactly if the workspace has `(N+1)(2 n1 + 1)` elements. -/
theorem c65_coefficients (T : Triangle n1 n2 N) (C : Vec ℝ) :
    (coefficients Real.sqrt n1 n2 N C).ok = (C.ok && decide ((N + 1) * (2 * n1 + 1) ≤ C.size))
    ∧ (coefficients Real.sqrt n1 n2 N C).size = C.size
    ∧ ∀ m, |m| ≤ min n1 n2 → (coefficients Real.sqrt n1 n2 N C).v (min n1 n2 + m) = cg n1 n2 N 0 m := by
  have l1 := T.lo; have l2 := T.lo'; have l3 := T.hi; have l4 := T.h1; have l5 := T.h2; have l6 := T.N0
  obtain ⟨t1, t2⟩ := rows_spec T C
  unfold coefficients forUp
  generalize rows Real.sqrt n1 n2 N C = D at t1 t2
  dsimp only
  have hB : (2 * n1 + 1) ≤ (N + 1) * (2 * n1 + 1) := by nlinarith
  have A := loop_inv (σ := Vec ℝ)
    (fun k E => Acc C ((N + 1) * (2 * n1 + 1)) E
      ∧ (∀ i : Int, 0 ≤ i → i < k → E.v i = cg n1 n2 N 0 (i - min n1 n2))
      ∧ ∀ i : Int, (k : Int) ≤ i → E.v i = D.v i)
    (hi := (2 * min n1 n2 - 0 + 1).toNat) (lo := 0) (by omega)
    (fun k E => (E.touch (0 + (k : Int) - min n1 n2 + n1)).set (0 + (k : Int)) (E.v (0 + (k : Int) - min n1 n2 + n1)))
    D ⟨t1, fun i h1 h2 => by omega, fun i h => rfl⟩ (by
      intro k E _ hk ⟨e1, e2, e3⟩
      refine ⟨(e1.touch (by omega) (by omega)).set (by omega) (by omega) _, ?_, ?_⟩
      · intro i h1 h2
        rw [Vec.set_v]
        by_cases h : i = 0 + (k : Int)
        · rw [if_pos h, e3 _ (by omega)]
          have := t2 0 (i - min n1 n2) le_rfl l6 (by omega) (by omega) (by omega) (by omega)
          rw [← this, idx]
          congr 1
          omega
        · rw [if_neg h, Vec.touch_v]
          push_cast at h2
          exact e2 i h1 (by omega)
      · intro i h
        push_cast at h
        rw [Vec.set_v, if_neg (by omega), Vec.touch_v]
        exact e3 i (by omega))
  obtain ⟨a1, a2, -⟩ := A
  refine ⟨a1.2, a1.1, ?_⟩
  intro m hm
  have := abs_le.mp hm
  rw [a2 _ (by omega) (by omega)]
  congr 1
  ring

/-- **C65** `get_clebsch_gordan_coefficient`: every allowed coefficient, also for negative `M`, with all accesses in bounds -/
theorem c65_coefficient (T : Triangle n1 n2 N) {m1 m2 M : Int} (h1 : |m1| ≤ n1) (h2 : |m2| ≤ n2) (hM : |M| ≤ N) :
    coefficient Real.sqrt n1 m1 n2 m2 N M = (if m1 + m2 = M then cg n1 n2 N M m1 else 0, true) := by
  have l1 := T.lo; have l2 := T.lo'; have l3 := T.hi; have l4 := T.h1; have l5 := T.h2; have l6 := T.N0
  have a1 := abs_le.mp h1
  have a2 := abs_le.mp h2
  have a3 := abs_le.mp hM
  unfold coefficient
  by_cases h : m1 + m2 = M
  · rw [if_neg (by simpa using h), if_pos h]
    dsimp only
    obtain ⟨t1, t2⟩ := rows_spec T ⟨(N + 1) * (2 * n1 + 1), fun _ => 0, true⟩
    generalize rows Real.sqrt n1 n2 N ⟨(N + 1) * (2 * n1 + 1), fun _ => 0, true⟩ = D at t1 t2
    by_cases hp : M ≥ 0
    · rw [if_pos hp]
      have hb := idx_bounds (N := N) hp a3.2 a1.1 a1.2
      have := (t1.touch hb.1 hb.2).2
      have v := t2 M m1 hp a3.2 a1.1 a1.2 (by omega) (by omega)
      unfold idx at this v
      rw [Vec.touch_v, v, this]
      simp
    · rw [if_neg hp]
      have hb := idx_bounds (n1 := n1) (N := N) (M := -M) (m := -m1) (by omega) (by omega) (by omega) (by omega)
      have := (t1.touch hb.1 hb.2).2
      have v := t2 (-M) (-m1) (by omega) (by omega) (by omega) (by omega) (by omega) (by omega)
      unfold idx at this v
      rw [show -M * (2 * n1 + 1) + n1 - m1 = -M * (2 * n1 + 1) + -m1 + n1 by ring, Vec.touch_v, v, this, cg_reflect T]
      have hs : (if (N - n1 - n2).tmod 2 = 0 then (1 : ℝ) else -1) = (-1) ^ (n1 + n2 - N).toNat := by
        rcases Int.even_or_odd' (n1 + n2 - N) with ⟨k, hk | hk⟩
        · rw [if_pos (Int.dvd_iff_tmod_eq_zero.mp (by omega)), Even.neg_one_pow ⟨k.toNat, by omega⟩]
        · rw [if_neg (fun h => by have := Int.dvd_iff_tmod_eq_zero.mpr h; omega), Odd.neg_one_pow ⟨k.toNat, by omega⟩]
      rw [hs, ← mul_assoc, ← mul_pow]
      simp
  · rw [if_pos (by simpa using h), if_neg h]

/-- **C65** the coefficients are orthonormal -/
theorem c65_orthonormal {N' M : Int} (T : Triangle n1 n2 N) (T' : Triangle n1 n2 N') (h : |M| ≤ N) (h' : |M| ≤ N') :
    ∑ m ∈ Icc (-n1) n1, cg n1 n2 N M m * cg n1 n2 N' M m = if N = N' then 1 else 0 :=
  dot_eq T T' (abs_le.mp h).1 (abs_le.mp h).2 (abs_le.mp h').1 (abs_le.mp h').2

/-- **C65** the coefficients with `M = 0` are complete -/
theorem c65_complete (h1 : 0 ≤ n1) (h2 : 0 ≤ n2) {m m' : Int} (ha : |m| ≤ min n1 n2) (hb : |m'| ≤ min n1 n2) :
    ∑ N ∈ Icc |n1 - n2| (n1 + n2), cg n1 n2 N 0 m * cg n1 n2 N 0 m' = if m = m' then 1 else 0 :=
  complete h1 h2 ha hb

/-- **C65** they are the simultaneous eigenvectors of the theory of angular momentum: the ladder relation, together with the
norm and the positive highest coefficient, which fix them completely -/
theorem c65_ladder (T : Triangle n1 n2 N) {M : Int} (h1 : -N ≤ M) (h2 : M < N) (m : Int) :
    Real.sqrt ((N + M + 1) * (N - M)) * cg n1 n2 N M m
      = Real.sqrt ((n1 + m + 1) * (n1 - m)) * cg n1 n2 N (M + 1) (m + 1)
      + Real.sqrt ((n2 + (M - m) + 1) * (n2 - (M - m))) * cg n1 n2 N (M + 1) m := by
  have := lower_all T h1 h2 m
  unfold lad at this
  push_cast at this
  exact this

theorem c65_highest (T : Triangle n1 n2 N) : 0 < cg n1 n2 N N n1 := cg_sign T

/-- **C65** a coefficient that violates a selection rule is zero -/
theorem c65_selection (T : Triangle n1 n2 N) {M m1 : Int} (h : n1 < |m1| ∨ n2 < |M - m1| ∨ N < |M|) : cg n1 n2 N M m1 = 0 := by
  apply cg_zero T
  rcases abs_cases m1 with a | a <;> rcases abs_cases (M - m1) with b | b <;> rcases abs_cases M with c | c <;> omega

/-! ### concrete cases -/

/-- the triangles of a dipole: `1 ⊗ 1 → 2` -/
example : Triangle 1 1 2 := ⟨by norm_num, by norm_num, by norm_num, by norm_num, by norm_num⟩

/-- `C^{20}_{1 0 1 0} = √(2/3)` -/
theorem cg_110 : cg 1 1 2 0 0 = Real.sqrt (2 / 3) := by
  have h2 : fac 2 = 2 := by decide
  have h1 : fac 1 = 1 := by decide
  have h0 : fac 0 = 1 := by decide
  have h5 : fac 5 = 120 := by decide
  have hs : S 0 2 2 1 1 = 4 := by decide
  have e : cg 1 1 2 0 0 = Real.sqrt ((2 * (2 : Int) + 1) * (fac 2 * fac 2 * (fac 1 * fac 1 * fac 1 * fac 1))
      / (fac 0 * fac 2 * fac 2 * fac 5)) * (S 0 2 2 1 1 : Int) := rfl
  rw [e, h0, h1, h2, h5, hs]
  push_cast
  rw [show (2 / 3 : ℝ) = ((2 * 2 + 1) * (2 * 2 * (1 * 1 * 1 * 1)) / (1 * 2 * 2 * 120)) * 4 ^ 2 by norm_num,
    Real.sqrt_mul (by norm_num), Real.sqrt_sq (by norm_num)]

/-- `C^{20}_{1 0 1 0}` as returned by the code -/
example : coefficient Real.sqrt 1 0 1 0 2 0 = (Real.sqrt (2 / 3), true) := by
  have T : Triangle 1 1 2 := ⟨by norm_num, by norm_num, by norm_num, by norm_num, by norm_num⟩
  rw [c65_coefficient T (by norm_num) (by norm_num) (by norm_num), if_pos (by norm_num), cg_110]

/-- the antisymmetric `C^{1,-1}_{1 0 1 -1} = -C^{11}_{1 0 1 1}` has the sign of the code's reflection -/
example : cg 1 1 1 (-1) 0 = -cg 1 1 1 1 0 := by
  have T : Triangle 1 1 1 := ⟨by norm_num, by norm_num, by norm_num, by norm_num, by norm_num⟩
  have := cg_reflect T 1 0
  simpa using this

end Verif.Clebsch
