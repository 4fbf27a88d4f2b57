import Verif.Proofs.Clebsch
import Mathlib.LinearAlgebra.Matrix.NonsingularInverse
import Mathlib.Tactic.Ring
import Mathlib.Tactic.Linarith
import Mathlib.Tactic.LinearCombination
import Mathlib.Tactic.Positivity

/-! # Clebsch-Gordan coefficients: ladder relations and orthonormality -/
namespace Verif.Clebsch

open Finset

/-- the matrix element of the ladder operator between `m` and `m + 1` -/
noncomputable def lad (n m : Int) : ℝ := Real.sqrt (((n : ℝ) + m + 1) * ((n : ℝ) - m))

theorem lad_top (n : Int) : lad n n = 0 := by simp [lad]

theorem lad_bot (n : Int) : lad n (-n - 1) = 0 := by
  unfold lad
  push_cast
  rw [show (n : ℝ) + (-n - 1) + 1 = 0 by ring]
  simp

theorem lad_neg (n m : Int) : lad n (-m - 1) = lad n m := by
  unfold lad
  push_cast
  congr 1
  ring

theorem lad_pos {n m : Int} (h1 : -n ≤ m) (h2 : m < n) : 0 < lad n m := by
  unfold lad
  have a : (-(n : ℝ)) ≤ m := by exact_mod_cast h1
  have b : (m : ℝ) < n := by exact_mod_cast h2
  apply Real.sqrt_pos.mpr
  apply mul_pos <;> linarith

variable {n1 n2 N : Int}

/-- the lowering operator, for all projections -/
theorem lower_all (T : Triangle n1 n2 N) {M : Int} (h1 : -N ≤ M) (h2 : M < N) (m : Int) :
    lad N M * cg n1 n2 N M m = lad n1 m * cg n1 n2 N (M + 1) (m + 1) + lad n2 (M - m) * cg n1 n2 N (M + 1) m := by
  by_cases ha : -n1 ≤ m ∧ m ≤ n1 ∧ -n2 ≤ M - m ∧ M - m ≤ n2
  · exact cg_lower T h1 h2 ha.1 ha.2.1 ha.2.2.1 ha.2.2.2
  · rw [cg_zero T (M := M) (m1 := m) (by omega), mul_zero]
    have e1 : lad n1 m * cg n1 n2 N (M + 1) (m + 1) = 0 := by
      by_cases h : m = -n1 - 1
      · subst h; rw [lad_bot, zero_mul]
      · rw [cg_zero T (by omega), mul_zero]
    have e2 : lad n2 (M - m) * cg n1 n2 N (M + 1) m = 0 := by
      by_cases h : M - m = -n2 - 1
      · rw [h, lad_bot, zero_mul]
      · rw [cg_zero T (by omega), mul_zero]
    rw [e1, e2, add_zero]

/-- the raising operator, for all projections -/
theorem raise_all (T : Triangle n1 n2 N) {M : Int} (h1 : -N ≤ M) (h2 : M ≤ N) (m : Int) :
    lad N M * cg n1 n2 N (M + 1) m = lad n1 (m - 1) * cg n1 n2 N M (m - 1) + lad n2 (M - m) * cg n1 n2 N M m := by
  rcases lt_or_eq_of_le h2 with h | h
  · have L := lower_all T (M := -(M + 1)) (by omega) (by omega) (-m)
    rw [cg_reflect T, show -(M + 1) + 1 = -M by ring, show -m + 1 = -(m - 1) by ring, cg_reflect T, cg_reflect T,
      show -(M + 1) = -M - 1 by ring, lad_neg, show -M - 1 - -m = -(M - m) - 1 by ring, lad_neg,
      show -m = -(m - 1) - 1 by ring, lad_neg] at L
    have hs : ((-1 : ℝ) ^ (n1 + n2 - N).toNat) * (-1) ^ (n1 + n2 - N).toNat = 1 := by
      rw [← mul_pow]; simp
    generalize (-1 : ℝ) ^ (n1 + n2 - N).toNat = s at L hs
    linear_combination s * L - (lad N M * cg n1 n2 N (M + 1) m - lad n1 (m - 1) * cg n1 n2 N M (m - 1)
      - lad n2 (M - m) * cg n1 n2 N M m) * hs
  · subst h
    rw [lad_top, zero_mul]
    by_cases ha : -n1 ≤ m ∧ m ≤ n1 ∧ -n2 ≤ M + 1 - m ∧ M + 1 - m ≤ n2
    · have := cg_top T ha.1 ha.2.1 ha.2.2.1 ha.2.2.2
      rw [← this]
      unfold lad
      push_cast
      congr 3
      · ring
      · ring
    · have e1 : lad n1 (m - 1) * cg n1 n2 M M (m - 1) = 0 := by
        by_cases h : m = n1 + 1
        · subst h; rw [show n1 + 1 - 1 = n1 by ring, lad_top, zero_mul]
        · by_cases h' : m = -n1 
          · subst h'; rw [lad_bot, zero_mul]
          · rw [cg_zero T (by omega), mul_zero]
      have e2 : lad n2 (M - m) * cg n1 n2 M M m = 0 := by
        by_cases h : M - m = n2
        · rw [h, lad_top, zero_mul]
        · by_cases h' : M - m = -n2 - 1
          · rw [h', lad_bot, zero_mul]
          · rw [cg_zero T (by omega), mul_zero]
      rw [e1, e2, add_zero]

/-- shift of the summation index -/
theorem shift_sum (f : Int → ℝ) {a b : Int} (h : a ≤ b) (ha : f (a - 1) = 0) (hb : f b = 0) :
    ∑ m ∈ Icc a b, f m = ∑ m ∈ Icc a b, f (m - 1) := by
  have e1 : ∑ m ∈ Icc a b, f m = ∑ m ∈ Icc a (b - 1), f m := by
    symm
    apply sum_subset
    · intro x hx; rw [mem_Icc] at hx ⊢; omega
    · intro x hx hx'
      rw [mem_Icc] at hx hx'
      rw [show x = b by omega, hb]
  have e2 : ∑ m ∈ Icc a b, f (m - 1) = ∑ m ∈ Icc (a + 1) b, f (m - 1) := by
    symm
    apply sum_subset
    · intro x hx; rw [mem_Icc] at hx ⊢; omega
    · intro x hx hx'
      rw [mem_Icc] at hx hx'
      rw [show x = a by omega, ha]
  rw [e1, e2]
  refine sum_bij (fun x _ => x + 1) ?_ ?_ ?_ ?_
  · intro x hx; rw [mem_Icc] at hx ⊢; omega
  · intro x _ y _ hxy; omega
  · intro y hy; rw [mem_Icc] at hy
    exact ⟨y - 1, by rw [mem_Icc]; omega, by ring⟩
  · intro x _; rw [show x + 1 - 1 = x by ring]

/-- scalar product of two vectors with the same `M` -/
noncomputable def dot (n1 n2 N N' M : Int) : ℝ := ∑ m ∈ Icc (-n1) n1, cg n1 n2 N M m * cg n1 n2 N' M m

theorem dot_comm (n1 n2 N N' M : Int) : dot n1 n2 N N' M = dot n1 n2 N' N M := by
  unfold dot
  exact sum_congr rfl fun m _ => mul_comm _ _

theorem dot_ladder {N' : Int} (T : Triangle n1 n2 N) (T' : Triangle n1 n2 N') {M : Int} (h1 : -N ≤ M) (h2 : M < N) (h1' : -N' ≤ M) (h2' : M ≤ N') :
    lad N M * dot n1 n2 N N' M = lad N' M * dot n1 n2 N N' (M + 1) := by
  have hh := T.h1
  unfold dot
  rw [mul_sum, mul_sum]
  have e1 : ∀ m ∈ Icc (-n1) n1, lad N M * (cg n1 n2 N M m * cg n1 n2 N' M m)
      = lad n1 m * cg n1 n2 N (M + 1) (m + 1) * cg n1 n2 N' M m + lad n2 (M - m) * cg n1 n2 N (M + 1) m * cg n1 n2 N' M m := by
    intro m _
    rw [← mul_assoc, lower_all T h1 h2]; ring
  have e2 : ∀ m ∈ Icc (-n1) n1, lad N' M * (cg n1 n2 N (M + 1) m * cg n1 n2 N' (M + 1) m)
      = lad n1 (m - 1) * cg n1 n2 N (M + 1) (m - 1 + 1) * cg n1 n2 N' M (m - 1) + lad n2 (M - m) * cg n1 n2 N (M + 1) m * cg n1 n2 N' M m := by
    intro m _
    have := raise_all T' h1' h2' m
    rw [show m - 1 + 1 = m by ring]
    linear_combination cg n1 n2 N (M + 1) m * this
  rw [sum_congr rfl e1, sum_congr rfl e2, sum_add_distrib, sum_add_distrib]
  congr 1
  exact shift_sum (fun m => lad n1 m * cg n1 n2 N (M + 1) (m + 1) * cg n1 n2 N' M m) (by omega)
    (by rw [lad_bot]; ring) (by rw [lad_top]; ring)

/-- going down from `M0` to any smaller projection -/
theorem dot_down {N' : Int} (T : Triangle n1 n2 N) (T' : Triangle n1 n2 N') (hN : N ≤ N') (c : ℝ) (hc : c = 0 ∨ N = N')
    (top : dot n1 n2 N N' N = c) (k : Nat) (hk : -N ≤ N - k) : dot n1 n2 N N' (N - k) = c := by
  induction k with
  | zero => simpa using top
  | succ k ih =>
    have ih := ih (by push_cast at hk; omega)
    push_cast at hk ⊢
    have := dot_ladder T T' (M := N - (k + 1)) (by omega) (by omega) (by omega) (by omega)
    rw [show N - ((k : Int) + 1) + 1 = N - k by ring, ih] at this
    have p := lad_pos (n := N) (m := N - (k + 1)) (by omega) (by omega)
    rcases hc with rfl | rfl
    · rw [mul_zero] at this
      exact (mul_eq_zero.mp this).resolve_left p.ne'
    · exact mul_left_cancel₀ p.ne' this

theorem dot_self (T : Triangle n1 n2 N) {M : Int} (h1 : -N ≤ M) (h2 : M ≤ N) : dot n1 n2 N N M = 1 := by
  have := dot_down T T le_rfl 1 (Or.inr rfl) (by
    rw [← cg_norm_top T]; unfold dot; exact sum_congr rfl fun m _ => by ring) (N - M).toNat (by omega)
  rwa [show N - ((N - M).toNat : Int) = M by omega] at this

theorem dot_lt {N' : Int} (T : Triangle n1 n2 N) (T' : Triangle n1 n2 N') (h : N < N') {M : Int} (h1 : -N ≤ M) (h2 : M ≤ N) :
    dot n1 n2 N N' M = 0 := by
  have hN := T.N0
  have top : dot n1 n2 N N' N = 0 := by
    have := dot_ladder T' T (M := N) (by omega) (by omega) (by omega) le_rfl
    rw [lad_top, zero_mul, dot_comm] at this
    exact (mul_eq_zero.mp this).resolve_left (lad_pos (by omega) h).ne'
  have := dot_down T T' h.le 0 (Or.inl rfl) top (N - M).toNat (by omega)
  rwa [show N - ((N - M).toNat : Int) = M by omega] at this

theorem dot_eq {N' : Int} (T : Triangle n1 n2 N) (T' : Triangle n1 n2 N') {M : Int} (h1 : -N ≤ M) (h2 : M ≤ N) (h1' : -N' ≤ M) (h2' : M ≤ N') :
    dot n1 n2 N N' M = if N = N' then 1 else 0 := by
  rcases lt_trichotomy N N' with h | h | h
  · rw [dot_lt T T' h h1 h2, if_neg (by omega)]
  · subst h; rw [dot_self T h1 h2, if_pos rfl]
  · rw [dot_comm, dot_lt T' T h h1' h2', if_neg (by omega)]

/-- the vectors with `M = 0` are complete -/
theorem complete (h1 : 0 ≤ n1) (h2 : 0 ≤ n2) {m m' : Int} (ha : |m| ≤ min n1 n2) (hb : |m'| ≤ min n1 n2) :
    ∑ N ∈ Icc |n1 - n2| (n1 + n2), cg n1 n2 N 0 m * cg n1 n2 N 0 m' = if m = m' then 1 else 0 := by
  have hm := abs_le.mp ha
  have hm' := abs_le.mp hb
  obtain ⟨q, hq⟩ : ∃ q : Nat, min n1 n2 = q := ⟨(min n1 n2).toNat, by omega⟩
  have hd : |n1 - n2| + 2 * q = n1 + n2 := by
    rcases abs_cases (n1 - n2) with h | h <;> omega
  have Tr : ∀ i : Fin (2 * q + 1), Triangle n1 n2 (|n1 - n2| + (i.1 : Int)) := by
    intro i
    have := i.2
    refine ⟨h1, h2, ?_, ?_, ?_⟩ <;> rcases abs_cases (n1 - n2) with h | h <;> omega
  have ab := abs_nonneg (n1 - n2)
  let U : _root_.Matrix (Fin (2 * q + 1)) (Fin (2 * q + 1)) ℝ :=
    fun i j => cg n1 n2 (|n1 - n2| + (i.1 : Int)) 0 ((j.1 : Int) - q)
  have hU : U * U.transpose = 1 := by
    ext i i'
    rw [_root_.Matrix.mul_apply, _root_.Matrix.one_apply]
    have d := dot_eq (Tr i) (Tr i') (M := 0) (by omega) (by omega) (by omega) (by omega)
    have e : (∑ j, U i j * U.transpose j i') = dot n1 n2 (|n1 - n2| + (i.1 : Int)) (|n1 - n2| + (i'.1 : Int)) 0 := by
      have hz : ∀ x ∈ Icc (-n1) n1, x ∉ Icc (-(q : Int)) q → cg n1 n2 (|n1 - n2| + (i.1 : Int)) 0 x * cg n1 n2 (|n1 - n2| + (i'.1 : Int)) 0 x = 0 := by
        intro x hx hx'
        rw [mem_Icc] at hx hx'
        rw [cg_zero (Tr i) (by omega), zero_mul]
      unfold dot
      rw [← sum_subset (s₁ := Icc (-(q : Int)) q) (by intro x hx; rw [mem_Icc] at hx ⊢; omega) hz]
      refine sum_bij (fun j _ => (j.1 : Int) - q) ?_ ?_ ?_ ?_
      · intro j _; have := j.2; rw [mem_Icc]; omega
      · intro j _ j' _ hj; apply Fin.ext; omega
      · intro y hy; rw [mem_Icc] at hy
        refine ⟨⟨(y + q).toNat, by omega⟩, mem_univ _, ?_⟩
        dsimp only; omega
      · intro j _; rfl
    rw [e, d]
    apply if_congr _ rfl rfl
    rw [Fin.ext_iff]
    omega
  have hV : U.transpose * U = 1 := mul_eq_one_comm.mp hU
  have hj := congrFun (congrFun hV ⟨(m + q).toNat, by omega⟩) ⟨(m' + q).toNat, by omega⟩
  rw [_root_.Matrix.mul_apply, _root_.Matrix.one_apply] at hj
  rw [if_congr (P := m = m') (Q := (⟨(m + q).toNat, by omega⟩ : Fin (2 * q + 1)) = ⟨(m' + q).toNat, by omega⟩)
    (by rw [Fin.mk.injEq]; omega) rfl rfl, ← hj]
  symm
  refine sum_bij (fun j _ => |n1 - n2| + (j.1 : Int)) ?_ ?_ ?_ ?_
  · intro j _; have := j.2; rw [mem_Icc]; omega
  · intro j _ j' _ hj; apply Fin.ext; omega
  · intro y hy; rw [mem_Icc] at hy
    refine ⟨⟨(y - |n1 - n2|).toNat, by omega⟩, mem_univ _, ?_⟩
    dsimp only; omega
  · intro j _
    change cg n1 n2 _ 0 (((m + q).toNat : Int) - q) * cg n1 n2 _ 0 (((m' + q).toNat : Int) - q) = _
    rw [show ((m + q).toNat : Int) - q = m by omega, show ((m' + q).toNat : Int) - q = m' by omega]

end Verif.Clebsch
