import Verif.Properties.TMatrix
import Verif.Spec.Symmetry
import Mathlib.Tactic.LinearCombination

/-!
# Symmetries of the transition matrix: C74
-/
namespace Verif.TMatrix

open Finset Verif.Matrix Verif.TMatrix.Spec

variable {K : Type} [Field K] (im : K)

theorem sgn_sq (a : Nat) : ((-1 : K) ^ a) * (-1) ^ a = 1 := by rw [← mul_pow]; simp

/-- the integrals of a surface with a mirror plane -/
theorem J_mirror {S : Surface K} {npts : Nat} (γ : Nat → Nat → K) {Z Z' : Radial K} (hM : Mirror S npts [Z, Z']) {κ κ' m n n' : Nat}
    (h1 : 1 ≤ n) (h2 : m ≤ n) (h3 : 1 ≤ n') (h4 : m ≤ n') (hκ : κ < 2) (hκ' : κ' < 2) :
    Spec.J im S npts γ Z Z' κ κ' m n n' = (-1) ^ (n + n' + κ + κ' + 1) * Spec.J im S npts γ Z Z' κ κ' m n n' := by
  unfold Spec.J
  rw [mul_sum]
  conv_lhs => rw [← sum_range_reflect]
  refine sum_congr rfl fun ig hig => ?_
  rw [mem_range] at hig
  have m1 := hM.weight ig hig
  have m2 := hM.sinInv ig hig
  have m3 := hM.r2 ig hig
  have m4 := hM.slope ig hig
  have m5 := hM.d ig hig m n h2 h1
  have m5' := hM.d ig hig m n' h4 h3
  have m6 := hM.τ ig hig m n h2 h1
  have m6' := hM.τ ig hig m n' h4 h3
  have m7 := hM.z Z (by simp) ig hig n h1
  have m7' := hM.z Z' (by simp) ig hig n' h3
  have m8 := hM.dz Z (by simp) ig hig n h1
  have m8' := hM.dz Z' (by simp) ig hig n' h3
  have m9 := hM.xinv Z (by simp) ig hig
  have m9' := hM.xinv Z' (by simp) ig hig
  have e : (-1 : K) ^ (n + n') = (-1) ^ (n + m) * (-1) ^ (n' + m) := by
    rw [← pow_add, show n + m + (n' + m) = n + n' + (m + m) by omega, pow_add _ (n + n'), pow_add _ m m, sgn_sq, mul_one]
  have p1 := sgn_sq (K := K) (n + m)
  have p2 := sgn_sq (K := K) (n' + m)
  rw [show n + n' + κ + κ' + 1 = n + n' + (κ + κ' + 1) by omega, pow_add, e]
  interval_cases κ <;> interval_cases κ' <;>
    (simp only [wave, waveM, waveN, πf, cross, dot, normal, m1, m2, m3, m4, m5, m5', m6, m6', m7, m7', m8, m8', m9, m9',
      if_pos, if_neg, one_ne_zero, not_false_eq_true]
     ring)

theorem Q_mirror {S : Surface K} {npts : Nat} (γ : Nat → Nat → K) {Z Z' : Radial K} (hM : Mirror S npts [Z, Z']) (a b : K) {m i n i' n' : Nat}
    (h1 : 1 ≤ n) (h2 : m ≤ n) (h3 : 1 ≤ n') (h4 : m ≤ n') (hi : i < 2) (hi' : i' < 2) :
    Spec.Q im S npts γ a b Z Z' m i n i' n' = (-1) ^ (n + n' + i + i') * Spec.Q im S npts γ a b Z Z' m i n i' n' := by
  have e := fun κ κ' hκ hκ' => J_mirror im γ hM (κ := κ) (κ' := κ') h1 h2 h3 h4 hκ hκ'
  unfold Spec.Q
  have e00 := e 0 0 (by omega) (by omega)
  have e01 := e 0 1 (by omega) (by omega)
  have e10 := e 1 0 (by omega) (by omega)
  have e11 := e 1 1 (by omega) (by omega)
  simp only [add_zero] at e00 e01 e10 e11
  rw [pow_succ] at e00 e01 e10 e11
  rw [pow_succ] at e01 e10 e11
  rw [pow_succ] at e11
  interval_cases i <;> interval_cases i' <;> simp only [if_pos, if_neg, one_ne_zero, and_self, not_false_eq_true, and_false, false_and, add_zero,
    pow_succ]
  · linear_combination a * e01 + b * e10
  · linear_combination a * e00 + b * e11
  · linear_combination a * e11 + b * e00
  · linear_combination a * e10 + b * e01

/-- **C74** selection rule: for a surface with a mirror plane the elements for which the sum of orders and kinds is odd are zero. -/
theorem c74_parity (h2 : (2 : K) ≠ 0) {S : Surface K} {npts : Nat} {γ : Nat → Nat → K} {a b : K} {h j j' : Radial K} {m nmax : Nat}
    (hM : Mirror S npts [h, j, j']) (hdet : (QMatrix im S npts γ a b h j' m nmax).det ≠ 0) {T : Nat → Nat → Nat → Nat → K}
    (hT : IsTransition im S npts γ a b h j j' m nmax T)
    {i n i' n' : Nat} (hi : i < 2) (hi' : i' < 2) (hn : max 1 m ≤ n) (hn2 : n ≤ nmax) (hn' : max 1 m ≤ n') (hn2' : n' ≤ nmax)
    (hodd : (i + n + i' + n') % 2 = 1) : T i n i' n' = 0 := by
  have hM1 : Mirror S npts [h, j'] := mirror_mono hM (by simp)
  have hM2 : Mirror S npts [j, j'] := mirror_mono hM (by simp)
  have hT' : IsTransition im S npts γ a b h j j' m nmax (fun i n i' n' => (-1) ^ (i + n + i' + n') * T i n i' n') := by
    intro i n i' n' b1 b2 b3 b4 b5 b6
    rw [Q_mirror im γ hM2 a b (by omega) (by omega) (by omega) (by omega) b1 b2, ← mul_neg, ← hT i n i' n' b1 b2 b3 b4 b5 b6, mul_sum]
    refine sum_congr rfl fun i'' hi'' => ?_
    rw [mul_sum]
    refine sum_congr rfl fun n'' hn'' => ?_
    rw [mem_range] at hi''
    rw [mem_Ico] at hn''
    have q := Q_mirror im γ hM1 a b (show 1 ≤ n'' by omega) (show m ≤ n'' by omega) (show 1 ≤ n' by omega) (show m ≤ n' by omega) hi'' b2
    have p := sgn_sq (K := K) (i'' + n'')
    have e : (-1 : K) ^ (i + n + i'' + n'') * (-1) ^ (n'' + n' + i'' + i') = (-1) ^ (n + n' + i + i') := by
      rw [← pow_add, show i + n + i'' + n'' + (n'' + n' + i'' + i') = n + n' + i + i' + ((i'' + n'') + (i'' + n'')) by omega, pow_add,
        pow_add _ (i'' + n''), p, mul_one]
    dsimp only
    linear_combination ((-1) ^ (i + n + i'' + n'') * T i n i'' n'') * q + (T i n i'' n'' * Spec.Q im S npts γ a b h j' m i'' n'' i' n') * e
  have := transition_unique im hdet hT hT' hi hi' hn hn2 hn' hn2'
  rw [Odd.neg_one_pow (Nat.odd_iff.mpr hodd)] at this
  have e : 2 * T i n i' n' = 0 := by linear_combination this
  exact (mul_eq_zero.mp e).resolve_left h2

theorem Q_neg {S : Surface K} {npts : Nat} (γ : Nat → Nat → K) (Z Z' : Radial K) (a b : K) {m i n i' n' : Nat} (hi : i < 2) (hi' : i' < 2) :
    QNeg im S npts γ a b Z Z' m i n i' n' = (-1) ^ (i + i') * Spec.Q im S npts γ a b Z Z' m i n i' n' := by
  have e : ∀ κ κ', κ < 2 → κ' < 2 → JNeg im S npts γ Z Z' κ κ' m n n' = (-1) ^ (κ + κ' + 1) * Spec.J im S npts γ Z Z' κ κ' m n n' := by
    intro κ κ' hκ hκ'
    unfold JNeg Spec.J
    rw [mul_sum]
    refine sum_congr rfl fun ig hig => ?_
    interval_cases κ <;> interval_cases κ' <;>
      (simp only [wave, waveM, waveN, πf, cross, dot, normal, if_pos, if_neg, one_ne_zero, not_false_eq_true]
       ring)
  unfold QNeg Spec.Q
  simp only [e 0 0 (by omega) (by omega), e 0 1 (by omega) (by omega), e 1 0 (by omega) (by omega), e 1 1 (by omega) (by omega)]
  interval_cases i <;> interval_cases i' <;>
    (simp only [if_pos, if_neg, one_ne_zero, and_self, not_false_eq_true, and_false, false_and]; ring)

/-- **C74** negative degrees: the elements for the degree `-m` are those for `m`, with the opposite sign in the off-diagonal blocks. This
is the symmetry the storage (only `m ≥ 0`) and all sums over degrees rely on. -/
theorem c74_negative {S : Surface K} {npts : Nat} {γ : Nat → Nat → K} {a b : K} {h j j' : Radial K} {m nmax : Nat}
    {T : Nat → Nat → Nat → Nat → K} (hT : IsTransition im S npts γ a b h j j' m nmax T) :
    IsTransitionNeg im S npts γ a b h j j' m nmax (fun i n i' n' => (-1) ^ (i + i') * T i n i' n') := by
  intro i n i' n' b1 b2 b3 b4 b5 b6
  rw [Q_neg im γ j j' a b b1 b2, ← mul_neg, ← hT i n i' n' b1 b2 b3 b4 b5 b6, mul_sum]
  refine sum_congr rfl fun i'' hi'' => ?_
  rw [mul_sum]
  refine sum_congr rfl fun n'' hn'' => ?_
  rw [mem_range] at hi''
  rw [Q_neg im γ h j' a b hi'' b2]
  have e : (-1 : K) ^ (i + i'') * (-1) ^ (i'' + i') = (-1) ^ (i + i') := by
    rw [← pow_add, show i + i'' + (i'' + i') = i + i' + (i'' + i'') by omega, pow_add, pow_add _ i'', sgn_sq, mul_one]
  dsimp only
  rw [← e]
  ring

/-- **C74** for degree 0 the off-diagonal blocks are zero. -/
theorem c74_zero (h2 : (2 : K) ≠ 0) {S : Surface K} {npts : Nat} {γ : Nat → Nat → K} {a b : K} {h j j' : Radial K} {nmax : Nat}
    (hdet : (QMatrix im S npts γ a b h j' 0 nmax).det ≠ 0) {T : Nat → Nat → Nat → Nat → K}
    (hT : IsTransition im S npts γ a b h j j' 0 nmax T)
    {i n i' n' : Nat} (hi : i < 2) (hi' : i' < 2) (hn : 1 ≤ n) (hn2 : n ≤ nmax) (hn' : 1 ≤ n') (hn2' : n' ≤ nmax)
    (hne : i ≠ i') : T i n i' n' = 0 := by
  have hq : ∀ (Z Z' : Radial K) i n i' n', QNeg im S npts γ a b Z Z' 0 i n i' n' = Spec.Q im S npts γ a b Z Z' 0 i n i' n' := by
    intro Z Z' i n i' n'
    have e : ∀ κ κ', JNeg im S npts γ Z Z' κ κ' 0 n n' = Spec.J im S npts γ Z Z' κ κ' 0 n n' := by
      intro κ κ'
      unfold JNeg Spec.J
      refine sum_congr rfl fun ig hig => ?_
      by_cases h1 : κ = 0 <;> by_cases h2 : κ' = 0 <;> simp [h1, h2, wave, waveM, waveN, πf]
    unfold QNeg Spec.Q
    simp only [e]
  have hN := c74_negative im hT
  have hT' : IsTransition im S npts γ a b h j j' 0 nmax (fun i n i' n' => (-1) ^ (i + i') * T i n i' n') := by
    intro i n i' n' b1 b2 b3 b4 b5 b6
    have := hN i n i' n' b1 b2 b3 b4 b5 b6
    simp only [hq] at this
    exact this
  have := transition_unique im hdet hT hT' hi hi' (by simpa using hn) hn2 (by simpa using hn') hn2'
  rw [Odd.neg_one_pow (by rw [Nat.odd_iff]; omega)] at this
  have e : 2 * T i n i' n' = 0 := by linear_combination this
  exact (mul_eq_zero.mp e).resolve_left h2

end Verif.TMatrix
