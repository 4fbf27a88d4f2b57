import Verif.Model.RandomNumbers
import Verif.Spec.RandomNumbers
import Mathlib.Order.Interval.Finset.Nat
import Mathlib.Algebra.Order.Floor.Div
import Mathlib.Tactic.Push
import Mathlib.Tactic.FieldSimp

/-!
# C111: random numbers
-/
namespace Verif.RandomNumbers

open Verif.Text (Failure)

set_option autoImplicit false

variable {fl : ℚ → ℚ}

theorem Rounding.int (h : Rounding fl) (n : ℤ) (hn : |n| ≤ 2 ^ 53) : fl n = n := by
  have := h.exact n 0 hn (by norm_num)
  simpa using this

theorem truncate_le {x : ℚ} {b : ℤ} (h : x ≤ b) : truncate x ≤ b := by
  unfold truncate
  split
  · have := (Int.floor_le x).trans h
    exact_mod_cast this
  · exact Int.ceil_le.2 h

theorem le_truncate {x : ℚ} {b : ℤ} (h : (b : ℚ) ≤ x) : b ≤ truncate x := by
  unfold truncate
  split
  · exact Int.le_floor.2 h
  · have := h.trans (Int.le_ceil x)
    exact_mod_cast this

/-- `random_double` returns a number from 0 to 1, and 1 only if `rand` returns `RAND_MAX` -/
theorem c111_double (h : Rounding fl) (R r : ℕ) (hR : 0 < R) (hR2 : R ≤ 2 ^ 52) (hr : r ≤ R) :
    0 ≤ randomDouble fl R r ∧ randomDouble fl R r ≤ 1 ∧ (randomDouble fl R r = 1 ↔ r = R) := by
  have e1 : fl (r : ℚ) = r := by
    have := h.int (r : ℤ) (by rw [abs_of_nonneg (by positivity)]; norm_num at *; omega)
    simpa using this
  have e2 : fl (R : ℚ) = R := by
    have := h.int (R : ℤ) (by rw [abs_of_nonneg (by positivity)]; norm_num at *; omega)
    simpa using this
  have z : fl 0 = 0 := by simpa using h.int 0 (by norm_num)
  have o : fl 1 = 1 := by simpa using h.int 1 (by norm_num)
  have hR' : (0 : ℚ) < R := by exact_mod_cast hR
  have hr' : (r : ℚ) ≤ R := by exact_mod_cast hr
  unfold randomDouble
  rw [e1, e2]
  refine ⟨?_, ?_, ?_, ?_⟩
  · rw [← z]; exact h.mono _ _ (by positivity)
  · rw [← o]; exact h.mono _ _ ((div_le_one hR').2 hr')
  · intro e
    by_contra hne
    have hlt : r + 1 ≤ R := by omega
    have hlt' : (r : ℚ) + 1 ≤ R := by exact_mod_cast hlt
    have h1 : (r : ℚ) / R ≤ ((2 ^ 53 - 1 : ℤ) : ℚ) / 2 ^ 53 := by
      rw [div_le_iff₀ hR']
      have hR3 : (R : ℚ) ≤ 4503599627370496 := by norm_num at hR2; exact_mod_cast hR2
      push_cast
      norm_num
      linarith
    have h2 := h.mono _ _ h1
    rw [h.exact (2 ^ 53 - 1) 53 (by norm_num) (by norm_num), e] at h2
    norm_num at h2
  · intro e
    rw [e, div_self hR'.ne', o]

/-- what `random_int` truncates: a number from `min` to `max` -/
theorem randomInt_eq (h : Rounding fl) (R r : ℕ) (hR : 0 < R) (hR2 : R ≤ 2 ^ 52) (hr : r ≤ R) (min max : ℤ) (hmin : |min| ≤ 2 ^ 52) (hmax : |max| ≤ 2 ^ 52)
    (hle : min ≤ max) : ∃ x : ℚ, randomInt fl R r min max = .ok (truncate x) ∧ (min : ℚ) ≤ x ∧ x ≤ max ∧
      x = fl (min + fl (randomDouble fl R r * (max - min))) := by
  obtain ⟨q0, q1, -⟩ := c111_double h R r hR hR2 hr
  rw [abs_le] at hmin hmax
  norm_num at hmin hmax
  have eD : fl ((max - min : ℤ) : ℚ) = max - min := by
    rw [h.int (max - min) (by rw [abs_of_nonneg (by omega)]; norm_num; omega)]; push_cast; ring
  have em : fl (min : ℚ) = min := h.int min (by rw [abs_le]; norm_num; omega)
  have eM : fl (max : ℚ) = max := h.int max (by rw [abs_le]; norm_num; omega)
  have z : fl 0 = 0 := by simpa using h.int 0 (by norm_num)
  have hle' : (min : ℚ) ≤ max := by exact_mod_cast hle
  have hD : (0 : ℚ) ≤ max - min := by linarith
  have p0 : 0 ≤ fl (randomDouble fl R r * (max - min)) := by
    rw [← z]; exact h.mono _ _ (mul_nonneg q0 hD)
  have p1 : fl (randomDouble fl R r * (max - min)) ≤ max - min := by
    rw [← eD]
    have : fl (randomDouble fl R r * fl ((max - min : ℤ) : ℚ)) ≤ fl ((max - min : ℤ) : ℚ) := by
      refine h.mono _ _ ?_
      rw [eD]; push_cast; nlinarith
    exact this
  have s0 : (min : ℚ) ≤ fl (min + fl (randomDouble fl R r * (max - min))) := by
    conv_lhs => rw [← em]
    exact h.mono _ _ (by linarith)
  have s1 : fl (min + fl (randomDouble fl R r * (max - min))) ≤ (max : ℚ) := by
    conv_rhs => rw [← eM]
    exact h.mono _ _ (by linarith)
  refine ⟨_, ?_, s0, s1, rfl⟩
  have t0 := le_truncate s0
  have t1 := truncate_le s1
  unfold randomInt
  simp only [em, eD]
  rw [if_pos (by constructor <;> norm_num <;> omega), if_pos (by constructor <;> norm_num <;> omega)]

/-- the result is defined and is never outside the two bounds -/
theorem c111_within (h : Rounding fl) (R r : ℕ) (hR : 0 < R) (hR2 : R ≤ 2 ^ 52) (hr : r ≤ R) (min max : ℤ) (hmin : |min| ≤ 2 ^ 52) (hmax : |max| ≤ 2 ^ 52)
    (hle : min ≤ max) : ∃ v, randomInt fl R r min max = .ok v ∧ min ≤ v ∧ v ≤ max := by
  obtain ⟨x, e, h0, h1, -⟩ := randomInt_eq h R r hR hR2 hr min max hmin hmax hle
  exact ⟨_, e, le_truncate h0, truncate_le h1⟩

/-- if the bounds are not negative and not large, the upper bound is returned only if `rand` returns `RAND_MAX` -/
theorem c111_exclusive_partial (h : Rounding fl) (R r : ℕ) (hR2 : R ≤ 2 ^ 31) (hr : r < R) (min max : ℤ) (hmin : 0 ≤ min) (hmax : max ≤ 2 ^ 21)
    (hlt : min < max) : ∃ v, randomInt fl R r min max = .ok v ∧ min ≤ v ∧ v < max := by
  norm_num at hmax
  obtain ⟨x, e, h0, h1, ex⟩ := randomInt_eq h R r (by omega) (by norm_num at *; omega) hr.le min max (by rw [abs_le]; norm_num; omega) (by rw [abs_le]; norm_num; omega) hlt.le
  refine ⟨_, e, le_truncate h0, ?_⟩
  have hR' : (0 : ℚ) < R := by exact_mod_cast (by omega : 0 < R)
  have hr' : (r : ℚ) + 1 ≤ R := by exact_mod_cast hr
  have hD : (0 : ℚ) < max - min := by
    have : (min : ℚ) < max := by exact_mod_cast hlt
    linarith
  have e1 : fl (r : ℚ) = r := by
    have := h.int (r : ℤ) (by rw [abs_of_nonneg (by positivity)]; norm_num at *; omega)
    simpa using this
  have e2 : fl (R : ℚ) = R := by
    have := h.int (R : ℤ) (by rw [abs_of_nonneg (by positivity)]; norm_num at *; omega)
    simpa using this
  have q : randomDouble fl R r ≤ ((2 ^ 31 - 1 : ℤ) : ℚ) / 2 ^ 31 := by
    rw [← h.exact (2 ^ 31 - 1) 31 (by norm_num) (by norm_num)]
    unfold randomDouble
    rw [e1, e2]
    refine h.mono _ _ ?_
    rw [div_le_iff₀ hR']
    have hR3 : (R : ℚ) ≤ 2147483648 := by norm_num at hR2; exact_mod_cast hR2
    push_cast
    norm_num
    linarith
  have p : fl (randomDouble fl R r * (max - min)) ≤ (((max - min) * (2 ^ 31 - 1) : ℤ) : ℚ) / 2 ^ 31 := by
    rw [← h.exact ((max - min) * (2 ^ 31 - 1)) 31 (by rw [abs_of_nonneg (by norm_num; omega)]; norm_num; omega) (by norm_num)]
    refine h.mono _ _ ?_
    have := mul_le_mul_of_nonneg_right q hD.le
    push_cast at this ⊢
    linarith
  have s : x ≤ ((max * 2 ^ 31 - (max - min) : ℤ) : ℚ) / 2 ^ 31 := by
    rw [ex, ← h.exact (max * 2 ^ 31 - (max - min)) 31 (by rw [abs_of_nonneg (by norm_num; omega)]; norm_num; omega) (by norm_num)]
    refine h.mono _ _ ?_
    push_cast at p ⊢
    linarith
  have x0 : 0 ≤ x := le_trans (by exact_mod_cast hmin) h0
  unfold truncate
  rw [if_pos x0, Int.floor_lt]
  push_cast at s
  linarith

theorem rounding_id : Rounding id := ⟨fun _ _ h => h, fun _ _ _ _ => rfl⟩

/-- in exact arithmetic every value of the range is returned for the same number of values of `rand`, up to rounding, if the bounds are not negative -/
theorem c111_uniform_partial (R : ℕ) (hR2 : R ≤ 2 ^ 52) (min max v : ℤ) (hmin : 0 ≤ min) (hmax : max ≤ 2 ^ 52) (hv : min ≤ v) (hv2 : v < max) :
    |((((Finset.range R).filter fun r => randomInt id R r min max = .ok v).card : ℤ) * (max - min) - R)| < max - min := by
  norm_num at hmax
  obtain ⟨D, hD⟩ : ∃ D : ℕ, max - min = D := ⟨(max - min).toNat, by omega⟩
  obtain ⟨k, hk⟩ : ∃ k : ℕ, v - min = k := ⟨(v - min).toNat, by omega⟩
  have D0 : 0 < D := by omega
  have kD : k + 1 ≤ D := by omega
  have key : ((Finset.range R).filter fun r => randomInt id R r min max = .ok v) = Finset.Ico ((k * R) ⌈/⌉ D) (((k + 1) * R) ⌈/⌉ D) := by
    ext r
    have lt : ∀ a : ℕ, r < a ⌈/⌉ D ↔ D * r < a := fun a => by
      rw [← not_le, ceilDiv_le_iff_le_mul D0, not_le]
    rw [Finset.mem_filter, Finset.mem_Ico, Finset.mem_range, ceilDiv_le_iff_le_mul D0, lt]
    by_cases hr : r < R
    · have R0 : (0 : ℚ) < R := by exact_mod_cast (by omega : 0 < R)
      obtain ⟨x, e, h0, h1, ex⟩ := randomInt_eq rounding_id R r (by omega) hR2 hr.le min max (by rw [abs_le]; norm_num; omega) (by rw [abs_le]; norm_num; omega) (by omega)
      have x0 : 0 ≤ x := le_trans (by exact_mod_cast hmin) h0
      have hD' : (max : ℚ) - min = D := by exact_mod_cast hD
      have hk' : (v : ℚ) = min + k := by
        have : (v : ℚ) - min = k := by exact_mod_cast hk
        linarith
      have ex' : x = min + r * D / R := by
        rw [ex]; simp only [id, randomDouble, hD']; ring
      rw [e]
      have : (Except.ok (truncate x) : Except Failure ℤ) = .ok v ↔ truncate x = v := by simp
      rw [this]
      unfold truncate
      rw [if_pos x0, Int.floor_eq_iff, ex', hk', add_le_add_iff_left, add_assoc, add_lt_add_iff_left, le_div_iff₀ R0, div_lt_iff₀ R0]
      constructor
      · rintro ⟨-, a, b⟩
        refine ⟨?_, ?_⟩
        · have a' : k * R ≤ r * D := by exact_mod_cast a
          linarith
        · have b' : r * D < (k + 1) * R := by exact_mod_cast b
          linarith
      · rintro ⟨a, b⟩
        refine ⟨hr, ?_, ?_⟩
        · have a' : k * R ≤ r * D := by linarith
          exact_mod_cast a'
        · have b' : r * D < (k + 1) * R := by linarith
          exact_mod_cast b'
    · constructor
      · rintro ⟨a, -⟩; exact absurd a hr
      · rintro ⟨-, b⟩
        exfalso
        have : (k + 1) * R ≤ D * r := Nat.mul_le_mul kD (by omega)
        omega
  rw [key, Nat.card_Ico, hD]
  have a1 : k * R ≤ D * ((k * R) ⌈/⌉ D) := (ceilDiv_le_iff_le_mul D0).1 le_rfl
  have b1 : (k + 1) * R ≤ D * (((k + 1) * R) ⌈/⌉ D) := (ceilDiv_le_iff_le_mul D0).1 le_rfl
  have up : ∀ a : ℕ, D * (a ⌈/⌉ D) < a + D := by
    intro a
    rw [Nat.ceilDiv_eq_add_pred_div]
    have := Nat.mul_div_le (a + D - 1) D
    omega
  have a2 := up (k * R)
  have b2 := up ((k + 1) * R)
  generalize (k * R) ⌈/⌉ D = A at *
  generalize ((k + 1) * R) ⌈/⌉ D = B at *
  have e : (k + 1) * R = k * R + R := by ring
  rw [e] at b1 b2
  have hAB : A ≤ B := by
    by_contra hc
    have h3 : D * (B + 1) ≤ D * A := Nat.mul_le_mul le_rfl (by omega)
    rw [mul_add] at h3
    omega
  rw [Nat.cast_sub hAB, abs_lt]
  zify at a1 a2 b1 b2
  constructor <;> nlinarith

/-- the upper bound, which should be excluded, is returned if `rand` returns `RAND_MAX` -/
theorem c111_maximum_violation (h : Rounding fl) (R : ℕ) (hR : 0 < R) (hR2 : R ≤ 2 ^ 52) (min max : ℤ) (hmin : |min| ≤ 2 ^ 51) (hmax : |max| ≤ 2 ^ 51)
    (hlt : min < max) : randomInt fl R R min max = .ok max := by
  rw [abs_le] at hmin hmax
  norm_num at hmin hmax
  obtain ⟨x, e, h0, h1, ex⟩ := randomInt_eq h R R hR hR2 le_rfl min max (by rw [abs_le]; norm_num; omega) (by rw [abs_le]; norm_num; omega) hlt.le
  have q := (c111_double h R R hR hR2 le_rfl).2.2.2 rfl
  have eD := h.int (max - min) (by rw [abs_le]; norm_num; omega)
  have eM := h.int max (by rw [abs_le]; norm_num; omega)
  push_cast at eD
  have : x = max := by
    rw [ex, q, one_mul, eD, add_sub_cancel, eM]
  rw [e, this]
  congr 1
  exact le_antisymm (truncate_le le_rfl) (le_truncate le_rfl)

/-- if the upper bound is not positive, it is returned for all but one of the values of `rand` in the range from -1 (inclusive) to 0 (exclusive), which contains no other number than -1 -/
theorem c111_negative_violation (h : Rounding fl) (R r : ℕ) (hR2 : R ≤ 2 ^ 31) (hr0 : 0 < r) (hr : r ≤ R) : randomInt fl R r (-1) 0 = .ok 0 := by
  obtain ⟨x, e, h0, h1, ex⟩ := randomInt_eq h R r (by omega) (by norm_num at *; omega) hr (-1) 0 (by norm_num) (by norm_num) (by norm_num)
  have e1 : fl (r : ℚ) = r := by
    have := h.int (r : ℤ) (by rw [abs_of_nonneg (by positivity)]; norm_num at *; omega)
    simpa using this
  have e2 : fl (R : ℚ) = R := by
    have := h.int (R : ℤ) (by rw [abs_of_nonneg (by positivity)]; norm_num at *; omega)
    simpa using this
  have R0 : (0 : ℚ) < R := by exact_mod_cast (by omega : 0 < R)
  have q : ((1 : ℤ) : ℚ) / 2 ^ 31 ≤ randomDouble fl R r := by
    rw [← h.exact 1 31 (by norm_num) (by norm_num)]
    unfold randomDouble
    rw [e1, e2]
    refine h.mono _ _ ?_
    have hR3 : (R : ℚ) ≤ 2147483648 := by norm_num at hR2; exact_mod_cast hR2
    have r1 : (1 : ℚ) ≤ r := by exact_mod_cast hr0
    rw [div_le_div_iff₀ (by norm_num) R0]
    push_cast
    nlinarith
  have p : ((1 : ℤ) : ℚ) / 2 ^ 31 ≤ fl (randomDouble fl R r * (((0 : ℤ) : ℚ) - ((-1 : ℤ) : ℚ))) := by
    rw [← h.exact 1 31 (by norm_num) (by norm_num)]
    refine h.mono _ _ ?_
    push_cast at q ⊢
    linarith
  have s : ((1 - 2 ^ 31 : ℤ) : ℚ) / 2 ^ 31 ≤ x := by
    rw [ex, ← h.exact (1 - 2 ^ 31) 31 (by norm_num) (by norm_num)]
    refine h.mono _ _ ?_
    push_cast at p ⊢
    linarith
  rw [e]
  congr 1
  have t1 := truncate_le h1
  have : truncate x ≠ -1 := by
    unfold truncate
    split
    · rename_i hx
      have := Int.floor_nonneg.2 hx
      omega
    · have : (0 : ℤ) ≤ ⌈x⌉ := by
        have : (-1 : ℤ) < ⌈x⌉ := Int.lt_ceil.2 (by push_cast at s ⊢; norm_num at s ⊢; linarith)
        omega
      omega
  have t0 := le_truncate h0
  omega

/-- in exact arithmetic, if the upper bound is not positive: how often the upper and the lower bound are returned -/
theorem c111_negative_values (R r : ℕ) (hR : 0 < R) (hR2 : R ≤ 2 ^ 52) (hr : r ≤ R) (min max : ℤ) (hmin : -2 ^ 52 ≤ min) (hmax : max ≤ 0) (hlt : min < max) :
    (randomInt id R r min max = .ok max ↔ (R : ℤ) * (max - min - 1) < r * (max - min)) ∧ (randomInt id R r min max = .ok min ↔ r = 0) := by
  norm_num at hmin
  obtain ⟨x, e, h0, h1, ex⟩ := randomInt_eq rounding_id R r hR hR2 hr min max (by rw [abs_le]; norm_num; omega) (by rw [abs_le]; norm_num; omega) hlt.le
  have R0 : (0 : ℚ) < R := by exact_mod_cast hR
  have hlt' : (min : ℚ) < max := by exact_mod_cast hlt
  have ex' : x = min + r * (max - min) / R := by
    rw [ex]; simp only [id, randomDouble]; ring
  have t : truncate x = ⌈x⌉ := by
    unfold truncate
    split
    · rename_i hx
      have : (max : ℚ) ≤ 0 := by exact_mod_cast hmax
      have : x = 0 := by linarith
      rw [this]; simp
    · rfl
  rw [e, t]
  have c : ∀ w : ℤ, (Except.ok ⌈x⌉ : Except Failure ℤ) = .ok w ↔ ⌈x⌉ = w := by simp
  rw [c, c, Int.ceil_eq_iff, Int.ceil_eq_iff, ex']
  constructor
  · constructor
    · rintro ⟨a, -⟩
      have a' : (max : ℚ) - min - 1 < r * (max - min) / R := by linarith
      rw [lt_div_iff₀ R0] at a'
      have : (((R : ℤ) * (max - min - 1) : ℤ) : ℚ) < ((r * (max - min) : ℤ) : ℚ) := by push_cast; linarith
      exact_mod_cast this
    · intro a
      have a' : (((R : ℤ) * (max - min - 1) : ℤ) : ℚ) < ((r * (max - min) : ℤ) : ℚ) := by exact_mod_cast a
      push_cast at a'
      have : (max : ℚ) - min - 1 < r * (max - min) / R := by
        rw [lt_div_iff₀ R0]; linarith
      exact ⟨by linarith, by rw [← ex']; exact h1⟩
  · constructor
    · rintro ⟨-, b⟩
      by_contra hne
      have r0 : (0 : ℚ) < r := by exact_mod_cast Nat.pos_of_ne_zero hne
      have : 0 < (r : ℚ) * (max - min) / R := div_pos (mul_pos r0 (by linarith)) R0
      linarith
    · rintro rfl
      constructor <;> simp

/-- of the range from -1 (inclusive) to 1 (exclusive) only 0 is returned, apart from the two extreme values of `rand` -/
theorem c111_zero_violation (R r : ℕ) (hR2 : R ≤ 2 ^ 52) (hr0 : 0 < r) (hr : r < R) : randomInt id R r (-1) 1 = .ok 0 := by
  obtain ⟨x, e, h0, h1, ex⟩ := randomInt_eq rounding_id R r (by omega) hR2 hr.le (-1) 1 (by norm_num) (by norm_num) (by norm_num)
  have R0 : (0 : ℚ) < R := by exact_mod_cast (by omega : 0 < R)
  have r0 : (0 : ℚ) < r := by exact_mod_cast hr0
  have r1 : (r : ℚ) < R := by exact_mod_cast hr
  have ex' : x = 2 * (r / R) - 1 := by
    rw [ex]; simp only [id, randomDouble]; push_cast; ring
  have a : (r : ℚ) / R < 1 := (div_lt_one R0).2 r1
  have b : 0 < (r : ℚ) / R := div_pos r0 R0
  rw [e]
  congr 1
  unfold truncate
  split
  · rw [Int.floor_eq_iff]; constructor <;> push_cast <;> linarith
  · rw [Int.ceil_eq_iff]; constructor <;> push_cast <;> linarith

/-! ## examples -/

example : ∃ v, randomInt id (2 ^ 31 - 1) 1000000000 3 10 = .ok v ∧ 3 ≤ v ∧ v < 10 :=
  c111_exclusive_partial rounding_id _ _ (by norm_num) (by norm_num) _ _ (by norm_num) (by norm_num) (by norm_num)

example : randomInt id 9 9 3 10 = .ok 10 := c111_maximum_violation rounding_id 9 (by norm_num) (by norm_num) 3 10 (by norm_num) (by norm_num) (by norm_num)

example : randomInt id 9 5 (-1) 0 = .ok 0 := c111_negative_violation rounding_id 9 5 (by norm_num) (by norm_num) (by norm_num)

end Verif.RandomNumbers
