import Verif.Proofs.ClebschSum
import Mathlib.Tactic.FieldSimp
import Mathlib.Tactic.Positivity
import Mathlib.Order.Interval.Finset.Nat
import Mathlib.Data.Int.Interval

/-!
# Ladder relations of the Clebsch-Gordan coefficients
-/
namespace Verif.Clebsch

open Finset

theorem sqrt_pair {x y e w : ℝ} (h : x * y = w ^ 2 * e) (hx : 0 ≤ x) (hw : 0 ≤ w) :
    Real.sqrt x * Real.sqrt y = w * Real.sqrt e := by
  rw [← Real.sqrt_mul hx, h, Real.sqrt_mul (by positivity), Real.sqrt_sq hw]

theorem fac_nat (n : Nat) : fac (n : Int) = n.factorial := by simp [fac]

theorem fac_succ {a : Int} (h : 0 ≤ a) : (fac (a + 1) : ℝ) = (a + 1) * fac a := by
  obtain ⟨n, rfl⟩ := Int.eq_ofNat_of_zero_le h
  have : ((n : Int) + 1) = ((n + 1 : Nat) : Int) := by push_cast; ring
  rw [this, fac_nat, fac_nat, Nat.factorial_succ]
  push_cast
  ring

theorem fac_pos (a : Int) : (0 : ℝ) < fac a := by
  unfold fac
  exact_mod_cast Nat.factorial_pos _

/-- the constant factor under the root -/
noncomputable def amp (n1 n2 N : Int) : ℝ :=
  (2 * N + 1) / (fac (n1 + n2 - N) * fac (n1 - n2 + N) * fac (n2 - n1 + N) * fac (n1 + n2 + N + 1))

/-- the sum for given quantum numbers -/
def sum (n1 n2 N M m1 : Int) : Int :=
  S (n1 + n2 - N).toNat (n1 - n2 + N).toNat (n2 - n1 + N).toNat (n1 - m1) (n2 + (M - m1))

noncomputable def prod (n1 n2 m1 m2 : Int) : ℝ := fac (n1 + m1) * fac (n1 - m1) * fac (n2 + m2) * fac (n2 - m2)

theorem prod_pos (n1 n2 m1 m2 : Int) : 0 < prod n1 n2 m1 m2 := by
  unfold prod
  have := fac_pos (n1 + m1); have := fac_pos (n1 - m1); have := fac_pos (n2 + m2); have := fac_pos (n2 - m2)
  positivity

theorem cg_eq (n1 n2 N M m1 : Int) :
    cg n1 n2 N M m1 = Real.sqrt (amp n1 n2 N * (fac (N + M) * fac (N - M) * prod n1 n2 m1 (M - m1))) * sum n1 n2 N M m1 := by
  unfold cg amp prod sum
  congr 2
  ring

variable {n1 n2 N : Int}

theorem Triangle.N0 (T : Triangle n1 n2 N) : 0 ≤ N := by
  have := T.h1; have := T.h2; have := T.lo; have := T.lo'; omega

theorem amp_pos (T : Triangle n1 n2 N) : 0 < amp n1 n2 N := by
  unfold amp
  have : (0 : ℝ) ≤ N := by exact_mod_cast T.N0
  have := fac_pos (n1 + n2 - N); have := fac_pos (n1 - n2 + N); have := fac_pos (n2 - n1 + N); have := fac_pos (n1 + n2 + N + 1)
  positivity

/-- the coefficients vanish outside the ranges of the projections -/
theorem sum_zero (T : Triangle n1 n2 N) {M m1 : Int} (h : m1 < -n1 ∨ n1 < m1 ∨ M - m1 < -n2 ∨ n2 < M - m1 ∨ N < M ∨ M < -N) :
    sum n1 n2 N M m1 = 0 := by
  have := T.lo; have := T.lo'; have := T.hi
  unfold sum
  by_cases h1 : n1 < m1 ∨ M - m1 < -n2 ∨ N < M
  · exact S_vanish _ _ _ _ _ (by omega)
  · exact S_vanish' _ _ _ _ _ (by omega)

theorem cg_zero (T : Triangle n1 n2 N) {M m1 : Int} (h : m1 < -n1 ∨ n1 < m1 ∨ M - m1 < -n2 ∨ n2 < M - m1 ∨ N < M ∨ M < -N) :
    cg n1 n2 N M m1 = 0 := by
  rw [cg_eq, sum_zero T h]; simp

theorem sum_lower (T : Triangle n1 n2 N) (M m1 : Int) :
    (n1 + m1 + 1) * sum n1 n2 N (M + 1) (m1 + 1) + (n2 + (M - m1) + 1) * sum n1 n2 N (M + 1) m1 = (N - M) * sum n1 n2 N M m1 := by
  have := T.lo; have := T.lo'; have := T.hi
  have h := S_lower (n1 + n2 - N).toNat (n1 - n2 + N).toNat (n2 - n1 + N).toNat (n1 - m1) (n2 + (M - m1))
  unfold sum
  rw [show ((n1 + n2 - N).toNat : Int) = n1 + n2 - N by omega, show ((n1 - n2 + N).toNat : Int) = n1 - n2 + N by omega,
    show ((n2 - n1 + N).toNat : Int) = n2 - n1 + N by omega] at h
  rw [show n1 - (m1 + 1) = n1 - m1 - 1 by ring, show M + 1 - (m1 + 1) = M - m1 by ring, show n2 + (M + 1 - m1) = n2 + (M - m1) + 1 by ring]
  linear_combination h

/-- the right hand side of the lowering relation -/
theorem lower_aux (T : Triangle n1 n2 N) {M m1 : Int} (ha : -n1 ≤ m1) (hb : m1 ≤ n1) (hc : -n2 ≤ M - m1) (hd : M - m1 ≤ n2) :
    Real.sqrt (((n1 : ℝ) + m1 + 1) * ((n1 : ℝ) - m1)) * cg n1 n2 N (M + 1) (m1 + 1)
      + Real.sqrt (((n2 : ℝ) + (M - m1 : Int) + 1) * ((n2 : ℝ) - (M - m1 : Int))) * cg n1 n2 N (M + 1) m1
    = Real.sqrt (amp n1 n2 N * (fac (N + (M + 1)) * fac (N - (M + 1)) * prod n1 n2 m1 (M - m1))) * ((N - M) * sum n1 n2 N M m1 : Int) := by
  have hA := amp_pos T
  have f1 := fac_pos (N + (M + 1))
  have f2 := fac_pos (N - (M + 1))
  rw [← sum_lower T, cg_eq, cg_eq]
  generalize hE : Real.sqrt (amp n1 n2 N * (fac (N + (M + 1)) * fac (N - (M + 1)) * prod n1 n2 m1 (M - m1))) = E
  rw [show M + 1 - (m1 + 1) = M - m1 by ring, show M + 1 - m1 = M - m1 + 1 by ring]
  have ra : (-(n1 : ℝ)) ≤ m1 := by exact_mod_cast ha
  have rb : (m1 : ℝ) ≤ n1 := by exact_mod_cast hb
  have rc : (-(n2 : ℝ)) ≤ ((M - m1 : Int) : ℝ) := by exact_mod_cast hc
  have rd : ((M - m1 : Int) : ℝ) ≤ n2 := by exact_mod_cast hd
  have e1 : Real.sqrt (((n1 : ℝ) + m1 + 1) * ((n1 : ℝ) - m1))
      * Real.sqrt (amp n1 n2 N * (fac (N + (M + 1)) * fac (N - (M + 1)) * prod n1 n2 (m1 + 1) (M - m1))) * sum n1 n2 N (M + 1) (m1 + 1)
      = (n1 + m1 + 1) * E * sum n1 n2 N (M + 1) (m1 + 1) := by
    by_cases he : m1 = n1
    · rw [sum_zero T (show _ by omega)]; simp
    · congr 1
      rw [← hE]
      refine sqrt_pair ?_ (by nlinarith) (by linarith)
      have g1 := fac_succ (a := n1 + m1) (by omega)
      have g2 := fac_succ (a := n1 - m1 - 1) (by omega)
      rw [show n1 - m1 - 1 + 1 = n1 - m1 by ring] at g2
      unfold prod
      rw [show n1 + (m1 + 1) = n1 + m1 + 1 by ring, show n1 - (m1 + 1) = n1 - m1 - 1 by ring, g1, g2]
      push_cast
      ring
  have e2 : Real.sqrt (((n2 : ℝ) + (M - m1 : Int) + 1) * ((n2 : ℝ) - (M - m1 : Int)))
      * Real.sqrt (amp n1 n2 N * (fac (N + (M + 1)) * fac (N - (M + 1)) * prod n1 n2 m1 (M - m1 + 1))) * sum n1 n2 N (M + 1) m1
      = (n2 + (M - m1 : Int) + 1) * E * sum n1 n2 N (M + 1) m1 := by
    by_cases he : M - m1 = n2
    · rw [sum_zero T (show _ by omega)]; simp
    · congr 1
      rw [← hE]
      generalize M - m1 = m2 at *
      refine sqrt_pair ?_ (by nlinarith) (by linarith)
      have g1 := fac_succ (a := n2 + m2) (by omega)
      have g2 := fac_succ (a := n2 - m2 - 1) (by omega)
      rw [show n2 - m2 - 1 + 1 = n2 - m2 by ring] at g2
      unfold prod
      rw [show n2 + (m2 + 1) = n2 + m2 + 1 by ring, show n2 - (m2 + 1) = n2 - m2 - 1 by ring, g1, g2]
      push_cast
      ring
  rw [mul_assoc] at e1 e2
  rw [e1, e2]
  push_cast
  ring

/-- **lowering**: `J_- ψ_{M+1} = √((N+M+1)(N-M)) ψ_M` -/
theorem cg_lower (T : Triangle n1 n2 N) {M m1 : Int} (h1 : -N ≤ M) (h2 : M < N) (ha : -n1 ≤ m1) (hb : m1 ≤ n1) (hc : -n2 ≤ M - m1)
    (hd : M - m1 ≤ n2) :
    Real.sqrt (((N : ℝ) + M + 1) * ((N : ℝ) - M)) * cg n1 n2 N M m1
      = Real.sqrt (((n1 : ℝ) + m1 + 1) * ((n1 : ℝ) - m1)) * cg n1 n2 N (M + 1) (m1 + 1)
      + Real.sqrt (((n2 : ℝ) + (M - m1 : Int) + 1) * ((n2 : ℝ) - (M - m1 : Int))) * cg n1 n2 N (M + 1) m1 := by
  rw [lower_aux T ha hb hc hd, cg_eq]
  have r1 : (-(N : ℝ)) ≤ M := by exact_mod_cast h1
  have r2 : (M : ℝ) < N := by exact_mod_cast h2
  rw [← mul_assoc]
  have : Real.sqrt (((N : ℝ) + M + 1) * ((N : ℝ) - M)) * Real.sqrt (amp n1 n2 N * (fac (N + M) * fac (N - M) * prod n1 n2 m1 (M - m1)))
      = (N - M) * Real.sqrt (amp n1 n2 N * (fac (N + (M + 1)) * fac (N - (M + 1)) * prod n1 n2 m1 (M - m1))) := by
    refine sqrt_pair ?_ (by nlinarith) (by linarith)
    have g1 := fac_succ (a := N + M) (by omega)
    have g2 := fac_succ (a := N - (M + 1)) (by omega)
    rw [show N - (M + 1) + 1 = N - M by ring] at g2
    rw [show N + (M + 1) = N + M + 1 by ring, g1, g2]
    push_cast
    ring
  rw [this]
  push_cast
  ring

/-- **reflection** -/
theorem cg_reflect (T : Triangle n1 n2 N) (M m1 : Int) :
    cg n1 n2 N (-M) (-m1) = (-1) ^ (n1 + n2 - N).toNat * cg n1 n2 N M m1 := by
  have := T.lo; have := T.lo'; have := T.hi
  rw [cg_eq, cg_eq]
  have h := S_reflect (n1 + n2 - N).toNat (n1 - n2 + N).toNat (n2 - n1 + N).toNat (n1 - m1) (n2 + (M - m1))
  rw [show ((n1 + n2 - N).toNat : Int) = n1 + n2 - N by omega, show ((n1 - n2 + N).toNat : Int) = n1 - n2 + N by omega,
    show ((n2 - n1 + N).toNat : Int) = n2 - n1 + N by omega] at h
  have hs : sum n1 n2 N (-M) (-m1) = (-1) ^ (n1 + n2 - N).toNat * sum n1 n2 N M m1 := by
    unfold sum
    rw [← h]
    congr 1 <;> ring
  have hp : prod n1 n2 (-m1) (-M - -m1) = prod n1 n2 m1 (M - m1) := by
    unfold prod
    rw [show n1 + -m1 = n1 - m1 by ring, show n1 - -m1 = n1 + m1 by ring, show n2 + (-M - -m1) = n2 - (M - m1) by ring,
      show n2 - (-M - -m1) = n2 + (M - m1) by ring]
    ring
  rw [hs, hp, show N + -M = N - M by ring, show N - -M = N + M by ring, mul_comm (fac (N - M) : ℝ)]
  push_cast
  ring

/-- the highest vector is annihilated by `J_+` -/
theorem cg_top (T : Triangle n1 n2 N) {m1 : Int} (ha : -n1 ≤ m1) (hb : m1 ≤ n1) (hc : -n2 ≤ N + 1 - m1) (hd : N + 1 - m1 ≤ n2) :
    Real.sqrt (((n1 : ℝ) + m1) * ((n1 : ℝ) - m1 + 1)) * cg n1 n2 N N (m1 - 1)
      + Real.sqrt (((n2 : ℝ) + (N + 1 - m1 : Int)) * ((n2 : ℝ) - (N + 1 - m1 : Int) + 1)) * cg n1 n2 N N m1 = 0 := by
  have h := lower_aux T (M := -N - 1) (m1 := -m1) (by omega) (by omega) (by omega) (by omega)
  rw [sum_zero T (show _ by omega)] at h
  have r1 := cg_reflect T N (m1 - 1)
  have r2 := cg_reflect T N m1
  rw [show -N - 1 + 1 = -N by ring, show -m1 + 1 = -(m1 - 1) by ring, r1, r2] at h
  have hk : ((-1 : ℝ) ^ (n1 + n2 - N).toNat) ≠ 0 := by positivity
  have hh : ((-1 : ℝ) ^ (n1 + n2 - N).toNat) * (Real.sqrt (((n1 : ℝ) + m1) * ((n1 : ℝ) - m1 + 1)) * cg n1 n2 N N (m1 - 1)
      + Real.sqrt (((n2 : ℝ) + (N + 1 - m1 : Int)) * ((n2 : ℝ) - (N + 1 - m1 : Int) + 1)) * cg n1 n2 N N m1) = 0 := by
    have e1 : ((n1 : ℝ) + ((-m1 : Int) : ℝ) + 1) * ((n1 : ℝ) - ((-m1 : Int) : ℝ)) = ((n1 : ℝ) + m1) * ((n1 : ℝ) - m1 + 1) := by
      push_cast; ring
    have e2 : ((n2 : ℝ) + ((-N - 1 - -m1 : Int) : ℝ) + 1) * ((n2 : ℝ) - ((-N - 1 - -m1 : Int) : ℝ))
        = ((n2 : ℝ) + (N + 1 - m1 : Int)) * ((n2 : ℝ) - (N + 1 - m1 : Int) + 1) := by
      push_cast; ring
    rw [e1, e2] at h
    simp only [mul_zero, Int.cast_zero] at h
    rw [← h]
    ring
  exact (mul_eq_zero.mp hh).resolve_left hk

theorem ch_of_le {k a : Nat} : ch k (a : Int) = k.choose a := by
  unfold ch
  rw [if_pos (by omega)]
  simp

/-- the highest vector is normalised -/
theorem cg_norm_top (T : Triangle n1 n2 N) : ∑ m1 ∈ Icc (-n1) n1, cg n1 n2 N N m1 ^ 2 = 1 := by
  have l1 := T.lo; have l2 := T.lo'; have l3 := T.hi; have l4 := T.h1; have l5 := T.h2; have l6 := T.N0
  obtain ⟨k, hk⟩ : ∃ k : Nat, n1 + n2 - N = k := ⟨(n1 + n2 - N).toNat, by omega⟩
  obtain ⟨b, hb⟩ : ∃ b : Nat, n1 - n2 + N = b := ⟨(n1 - n2 + N).toNat, by omega⟩
  obtain ⟨c, hc⟩ : ∃ c : Nat, n2 - n1 + N = c := ⟨(n2 - n1 + N).toNat, by omega⟩
  have hsum : ∑ m1 ∈ Icc (-n1) n1, cg n1 n2 N N m1 ^ 2 = ∑ a ∈ range (k + b + 1), cg n1 n2 N N (n1 - a) ^ 2 := by
    symm
    refine sum_bij (fun a _ => n1 - (a : Int)) ?_ ?_ ?_ ?_
    · intro a ha
      simp only [mem_range] at ha
      simp only [mem_Icc]
      omega
    · intro a _ a' _ h
      omega
    · intro m hm
      simp only [mem_Icc] at hm
      exact ⟨(n1 - m).toNat, by simp only [mem_range]; omega, by omega⟩
    · intro a _; rfl
  have hsub : ∑ a ∈ range (k + b + 1), cg n1 n2 N N (n1 - a) ^ 2 = ∑ a ∈ range (k + 1), cg n1 n2 N N (n1 - a) ^ 2 := by
    symm
    refine sum_subset (by intro a; simp only [mem_range]; omega) ?_
    intro a _ ha
    simp only [mem_range] at ha
    rw [cg_zero T (show _ by omega)]
    simp
  rw [hsum, hsub]
  have hA : amp n1 n2 N * (fac (N + N) * (k.factorial * k.factorial * b.factorial * c.factorial * (b + c + k + 1).choose k)) = 1 := by
    have e1 : (2 * N + 1 : Int) = ((b + c + 1 : Nat) : Int) := by push_cast; omega
    have e1' : (2 * (N : ℝ) + 1) = ((b + c + 1 : Nat) : ℝ) := by exact_mod_cast congrArg (Int.cast : Int → ℝ) e1
    have e2 : N + N = ((b + c : Nat) : Int) := by push_cast; omega
    have e3 : n1 + n2 + N + 1 = ((b + c + k + 1 : Nat) : Int) := by push_cast; omega
    unfold amp
    rw [e1', e2, e3, hk, hb, hc]
    simp only [fac_nat]
    have h1 : (b + c + k + 1).choose k * k.factorial * (b + c + 1).factorial = (b + c + k + 1).factorial := by
      have := Nat.choose_mul_factorial_mul_factorial (show k ≤ b + c + k + 1 by omega)
      rwa [show b + c + k + 1 - k = b + c + 1 by omega] at this
    have h2 : (b + c + 1).factorial = (b + c + 1) * (b + c).factorial := Nat.factorial_succ _
    have h3 : ((b + c + k + 1).factorial : ℝ) = ((b + c + k + 1).choose k : ℝ) * k.factorial * ((b + c + 1 : Nat) * (b + c).factorial) := by
      rw [← h1, h2]; push_cast; ring
    have p1 : (k.factorial : ℝ) ≠ 0 := by exact_mod_cast (Nat.factorial_pos _).ne'
    have p2 : (b.factorial : ℝ) ≠ 0 := by exact_mod_cast (Nat.factorial_pos _).ne'
    have p3 : (c.factorial : ℝ) ≠ 0 := by exact_mod_cast (Nat.factorial_pos _).ne'
    have p4 : ((b + c).factorial : ℝ) ≠ 0 := by exact_mod_cast (Nat.factorial_pos _).ne'
    have p5 : ((b + c + 1 : Nat) : ℝ) ≠ 0 := by exact_mod_cast (Nat.succ_ne_zero (b + c))
    have p6 : ((b + c + k + 1).choose k : ℝ) ≠ 0 := by exact_mod_cast (Nat.choose_pos (by omega)).ne'
    rw [h3]
    field_simp
  rw [← hA, ← vandermonde]
  push_cast
  rw [mul_sum, mul_sum, mul_sum]
  refine sum_congr rfl fun a ha => ?_
  have hak : a ≤ k := by simp only [mem_range] at ha; omega
  rw [cg_eq, mul_pow, Real.sq_sqrt]
  · have hs : (sum n1 n2 N N (n1 - a) : ℝ) ^ 2 = (k.choose a : ℝ) ^ 2 := by
      unfold sum
      rw [hk, hb, hc, show n1 - (n1 - (a : Int)) = a by ring, show n2 + (N - (n1 - (a : Int))) = a + ((c : Nat) : Int) by omega]
      simp only [Int.toNat_natCast]
      rw [S_top, ch_of_le]
      push_cast
      rw [mul_pow, ← pow_mul, mul_comm _ 2, pow_mul]
      norm_num
    rw [hs, show N - N = ((0 : Nat) : Int) by omega]
    unfold prod
    rw [show n1 + (n1 - (a : Int)) = ((b + (k - a) : Nat) : Int) by omega, show n1 - (n1 - (a : Int)) = ((a : Nat) : Int) by ring,
      show n2 + (N - (n1 - (a : Int))) = ((c + a : Nat) : Int) by omega, show n2 - (N - (n1 - (a : Int))) = ((k - a : Nat) : Int) by omega]
    simp only [fac_nat, Nat.factorial_zero, Nat.cast_one, mul_one]
    have h1 := Nat.choose_mul_factorial_mul_factorial hak
    have h2 := Nat.choose_mul_factorial_mul_factorial (show b ≤ b + (k - a) by omega)
    rw [show b + (k - a) - b = k - a by omega] at h2
    have h3 := Nat.choose_mul_factorial_mul_factorial (show c ≤ c + a by omega)
    rw [show c + a - c = a by omega] at h3
    have h1' : (k.choose a : ℝ) * a.factorial * (k - a).factorial = k.factorial := by exact_mod_cast h1
    have h2' : ((b + (k - a)).choose b : ℝ) * b.factorial * (k - a).factorial = (b + (k - a)).factorial := by exact_mod_cast h2
    have h3' : ((c + a).choose c : ℝ) * c.factorial * a.factorial = (c + a).factorial := by exact_mod_cast h3
    rw [← h1', ← h2', ← h3']
    ring
  · have := amp_pos T
    have := fac_pos (N + N)
    have := fac_pos (N - N)
    have := prod_pos n1 n2 (n1 - a) (N - (n1 - a))
    positivity

/-- the convention of Condon and Shortley -/
theorem cg_sign (T : Triangle n1 n2 N) : 0 < cg n1 n2 N N n1 := by
  have l1 := T.lo; have l2 := T.lo'; have l3 := T.hi; have l4 := T.h1; have l5 := T.h2; have l6 := T.N0
  rw [cg_eq]
  have hs : sum n1 n2 N N n1 = 1 := by
    unfold sum
    rw [show n1 - n1 = (0 : Int) by ring, show n2 + (N - n1) = 0 + ((n2 - n1 + N).toNat : Int) by omega, S_top]
    simp [ch]
  rw [hs]
  have := amp_pos T
  have := fac_pos (N + N)
  have := fac_pos (N - N)
  have := prod_pos n1 n2 n1 (N - n1)
  simp only [Int.cast_one, mul_one]
  positivity

end Verif.Clebsch
