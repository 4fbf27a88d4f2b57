import Verif.Spec.Clebsch
import Mathlib.Tactic.Ring
import Mathlib.Tactic.LinearCombination
import Mathlib.Tactic.Linarith
import Mathlib.Tactic.Push

/-!
# The alternating sum of the Clebsch-Gordan coefficients
-/
namespace Verif.Clebsch

open Finset

theorem ch_succ (n : Nat) (a : Int) : ch (n + 1) a = ch n a + ch n (a - 1) := by
  unfold ch
  by_cases h : 0 ≤ a
  · by_cases h1 : 0 ≤ a - 1
    · rw [if_pos h, if_pos h, if_pos h1]
      obtain ⟨j, rfl⟩ : ∃ j : Nat, a = j + 1 := ⟨(a - 1).toNat, by omega⟩
      rw [show ((j : Int) + 1).toNat = j + 1 by omega, show ((j : Int) + 1 - 1).toNat = j by omega, Nat.choose_succ_succ]
      push_cast
      ring
    · have : a = 0 := by omega
      subst this
      simp
  · rw [if_neg h, if_neg h, if_neg (by omega)]
    simp

theorem ch_zero (a : Int) : ch 0 a = if a = 0 then 1 else 0 := by
  unfold ch
  by_cases h : a = 0
  · subst h; simp
  · rw [if_neg h]
    split
    · rw [Nat.choose_eq_zero_of_lt (by omega)]; rfl
    · rfl

theorem S_zero (α β : Int) : S 0 0 0 α β = if α = 0 ∧ β = 0 then 1 else 0 := by
  unfold S
  simp only [zero_add, range_one, sum_singleton, pow_zero, Nat.choose_self, Nat.cast_one, Nat.cast_zero, sub_zero, one_mul, ch_zero]
  by_cases h : α = 0 <;> by_cases h' : β = 0 <;> simp [h, h']

theorem S_c (k b c : Nat) (α β : Int) : S k b (c + 1) α β = S k b c α β + S k b c α (β - 1) := by
  unfold S
  rw [← sum_add_distrib]
  refine sum_congr rfl fun i _ => ?_
  rw [ch_succ, show β - (i : Int) - 1 = β - 1 - i by ring]
  ring

theorem S_b (k b c : Nat) (α β : Int) : S k (b + 1) c α β = S k b c α β + S k b c (α - 1) β := by
  unfold S
  rw [← sum_add_distrib]
  refine sum_congr rfl fun i _ => ?_
  rw [ch_succ, show α - (i : Int) - 1 = α - 1 - i by ring]
  ring

theorem alt_sum (k : Nat) (g : Nat → Int) :
    ∑ i ∈ range (k + 1 + 1), (-1) ^ i * ((k + 1).choose i : Int) * g i
      = ∑ i ∈ range (k + 1), (-1) ^ i * (k.choose i : Int) * (g i - g (i + 1)) := by
  have h1 : ∑ i ∈ range (k + 1), (-1) ^ i * (k.choose i : Int) * g i
      = ∑ i ∈ range (k + 1), (-1) ^ (i + 1) * (k.choose (i + 1) : Int) * g (i + 1) + g 0 := by
    have := sum_range_succ' (fun i => (-1) ^ i * (k.choose i : Int) * g i) (k + 1)
    rw [sum_range_succ, Nat.choose_succ_self] at this
    simpa using this
  rw [sum_range_succ']
  simp only [mul_sub, sum_sub_distrib]
  rw [h1]
  simp only [Nat.choose_succ_succ, Nat.cast_add, pow_zero, Nat.choose_zero_right, Nat.cast_one, one_mul]
  have : ∀ i, (-1 : Int) ^ (i + 1) * ((k.choose i : Int) + (k.choose (i + 1) : Int)) * g (i + 1)
      = (-1) ^ (i + 1) * (k.choose (i + 1) : Int) * g (i + 1) - (-1) ^ i * (k.choose i : Int) * g (i + 1) := by
    intro i; ring
  simp only [Nat.succ_eq_add_one, this, sum_sub_distrib]
  ring

theorem S_k (k b c : Nat) (α β : Int) : S (k + 1) b c α β = S k b c α β - S k b c (α - 1) (β - 1) := by
  unfold S
  rw [alt_sum k fun i => ch b (α - i) * ch c (β - i), ← sum_sub_distrib]
  refine sum_congr rfl fun i _ => ?_
  rw [show α - ((i + 1 : Nat) : Int) = α - 1 - i by push_cast; ring, show β - ((i + 1 : Nat) : Int) = β - 1 - i by push_cast; ring]
  ring

/-- induction over the three parameters -/
theorem S_induction {P : Nat → Nat → Nat → Prop} (h0 : P 0 0 0) (hc : ∀ c, P 0 0 c → P 0 0 (c + 1))
    (hb : ∀ b c, P 0 b c → P 0 (b + 1) c) (hk : ∀ k b c, P k b c → P (k + 1) b c) (k b c : Nat) : P k b c := by
  induction k with
  | succ k ih => exact hk k b c ih
  | zero =>
    induction b with
    | succ b ih => exact hb b c ih
    | zero =>
      induction c with
      | succ c ih => exact hc c ih
      | zero => exact h0

/-- lowering -/
theorem S_lower (k b c : Nat) (α β : Int) :
    ((k : Int) + b - α + 1) * S k b c (α - 1) β + (β + 1) * S k b c α (β + 1) = ((c : Int) + α - β) * S k b c α β := by
  revert α β
  refine S_induction (P := fun k b c => ∀ α β : Int, ((k : Int) + b - α + 1) * S k b c (α - 1) β
    + (β + 1) * S k b c α (β + 1) = ((c : Int) + α - β) * S k b c α β) ?_ ?_ ?_ ?_ k b c
  · intro α β
    simp only [S_zero]
    by_cases h1 : α - 1 = 0 ∧ β = 0
    · obtain ⟨a, rfl⟩ := h1
      have : α = 1 := by omega
      subst this; simp
    · by_cases h2 : α = 0 ∧ β + 1 = 0
      · obtain ⟨rfl, b⟩ := h2
        have : β = -1 := by omega
        subst this; simp
      · by_cases h3 : α = 0 ∧ β = 0
        · obtain ⟨rfl, rfl⟩ := h3; simp
        · rw [if_neg h1, if_neg h2, if_neg h3]; simp
  · intro c ih α β
    simp only [S_c]
    have a1 := ih α β
    have a2 := ih α (β - 1)
    rw [show β - 1 + 1 = β by ring] at a2
    rw [show β + 1 - 1 = β by ring]
    push_cast at *
    linear_combination a1 + a2
  · intro b c ih α β
    simp only [S_b]
    have a1 := ih α β
    have a2 := ih (α - 1) β
    push_cast at *
    linear_combination a1 + a2
  · intro k b c ih α β
    simp only [S_k]
    have a1 := ih α β
    have a2 := ih (α - 1) (β - 1)
    rw [show β - 1 + 1 = β by ring] at a2
    rw [show β + 1 - 1 = β by ring]
    push_cast at *
    linear_combination a1 - a2

/-- reflection -/
theorem S_reflect (k b c : Nat) (α β : Int) : S k b c (k + b - α) (k + c - β) = (-1) ^ k * S k b c α β := by
  revert α β
  refine S_induction (P := fun k b c => ∀ α β : Int, S k b c (k + b - α) (k + c - β) = (-1) ^ k * S k b c α β) ?_ ?_ ?_ ?_ k b c
  · intro α β
    simp only [S_zero, pow_zero, one_mul, Nat.cast_zero, add_zero, zero_sub, neg_eq_zero]
  · intro c ih α β
    simp only [S_c]
    rw [show ((0 : Nat) : Int) + ((c + 1 : Nat) : Int) - β = ((0 : Nat) : Int) + c - (β - 1) by push_cast; ring, ih,
      show ((0 : Nat) : Int) + (c : Int) - (β - 1) - 1 = ((0 : Nat) : Int) + c - β by ring, ih]
    ring
  · intro b c ih α β
    simp only [S_b]
    rw [show ((0 : Nat) : Int) + ((b + 1 : Nat) : Int) - α = ((0 : Nat) : Int) + b - (α - 1) by push_cast; ring, ih,
      show ((0 : Nat) : Int) + (b : Int) - (α - 1) - 1 = ((0 : Nat) : Int) + b - α by ring, ih]
    ring
  · intro k b c ih α β
    simp only [S_k]
    rw [show ((k + 1 : Nat) : Int) + b - α = k + b - (α - 1) by push_cast; ring,
      show ((k + 1 : Nat) : Int) + c - β = k + c - (β - 1) by push_cast; ring, ih,
      show (k : Int) + b - (α - 1) - 1 = k + b - α by ring, show (k : Int) + c - (β - 1) - 1 = k + c - β by ring, ih, pow_succ]
    ring

theorem S_vanish (k b c : Nat) (α β : Int) (h : α < 0 ∨ β < 0 ∨ α + c < β) : S k b c α β = 0 := by
  revert α β
  refine S_induction (P := fun k b c => ∀ α β : Int, (α < 0 ∨ β < 0 ∨ α + c < β) → S k b c α β = 0) ?_ ?_ ?_ ?_ k b c
  · intro α β h
    rw [S_zero, if_neg]
    push_cast at h
    omega
  · intro c ih α β h
    rw [S_c, ih _ _ (by push_cast at h; omega), ih _ _ (by push_cast at h; omega), add_zero]
  · intro b c ih α β h
    rw [S_b, ih _ _ (by omega), ih _ _ (by omega), add_zero]
  · intro k b c ih α β h
    rw [S_k, ih _ _ (by omega), ih _ _ (by omega), sub_zero]

theorem S_vanish' (k b c : Nat) (α β : Int) (h : (k : Int) + b < α ∨ (k : Int) + c < β ∨ β + b < α) : S k b c α β = 0 := by
  have := S_reflect k b c (k + b - α) (k + c - β)
  rw [show (k : Int) + b - (k + b - α) = α by ring, show (k : Int) + c - (k + c - β) = β by ring] at this
  rw [this, S_vanish k b c _ _ (by omega), mul_zero]

/-- the upper row -/
theorem S_top (k b c : Nat) (α : Int) : S k b c α (α + c) = (-1) ^ α.natAbs * ch k α := by
  revert α
  refine S_induction (P := fun k b c => ∀ α : Int, S k b c α (α + c) = (-1) ^ α.natAbs * ch k α) ?_ ?_ ?_ ?_ k b c
  · intro α
    rw [S_zero, ch_zero]
    by_cases h : α = 0
    · subst h; simp
    · rw [if_neg (by omega), if_neg h, mul_zero]
  · intro c ih α
    rw [S_c, S_vanish 0 0 c _ _ (by push_cast; omega), ← ih]
    push_cast
    rw [zero_add]
    congr 1
    ring
  · intro b c ih α
    rw [S_b, ih, S_vanish 0 b c (α - 1) _ (by omega), add_zero]
  · intro k b c ih α
    rw [S_k, ih, show α + (c : Int) - 1 = α - 1 + c by ring, ih, ch_succ]
    by_cases h : 1 ≤ α
    · rw [show α.natAbs = (α - 1).natAbs + 1 by omega, pow_succ]
      ring
    · have : ch k (α - 1) = 0 := by unfold ch; rw [if_neg (by omega)]
      rw [this]; ring

/-- `Σ C(b + k - a, b) C(c + a, c) = C(b + c + k + 1, k)` -/
theorem vandermonde (k b c : Nat) :
    ∑ a ∈ range (k + 1), (b + (k - a)).choose b * (c + a).choose c = (b + c + k + 1).choose k := by
  induction b generalizing k with
  | zero =>
    simp only [Nat.choose_zero_right, one_mul]
    induction k with
    | zero => simp
    | succ k ih =>
      rw [sum_range_succ, ih]
      rw [show 0 + c + (k + 1) + 1 = (0 + c + k + 1) + 1 by ring, Nat.choose_succ_succ]
      congr 1
      rw [show 0 + c + k + 1 = c + (k + 1) by ring]
      exact Nat.choose_symm_add
  | succ b ih =>
    induction k with
    | zero => simp
    | succ k ihk =>
      have h : ∀ a ∈ range (k + 1), (b + 1 + (k + 1 - a)).choose (b + 1) * (c + a).choose c
          = (b + 1 + (k - a)).choose (b + 1) * (c + a).choose c + (b + (k + 1 - a)).choose b * (c + a).choose c := by
        intro a ha
        have : a ≤ k := by simp at ha; omega
        rw [← add_mul]
        congr 1
        rw [show b + 1 + (k + 1 - a) = (b + (k + 1 - a)) + 1 by ring, Nat.choose_succ_succ, add_comm,
          show b + 1 + (k - a) = b + (k + 1 - a) by omega]
      rw [sum_range_succ, sum_congr rfl h, sum_add_distrib, ihk]
      have h2 := ih (k + 1)
      rw [sum_range_succ] at h2
      rw [show b + 1 + c + (k + 1) + 1 = (b + c + (k + 1) + 1) + 1 by ring, Nat.choose_succ_succ, ← h2,
        show b + 1 + c + k + 1 = b + c + (k + 1) + 1 by ring]
      simp only [Nat.sub_self, add_zero, Nat.choose_self]
      ring

end Verif.Clebsch
