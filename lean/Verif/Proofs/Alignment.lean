import Verif.Model.Alignment
import Verif.Spec.Alignment
import Verif.Properties.TMatrix
import Verif.Properties.Clebsch
import Mathlib.Tactic.IntervalCases

/-! # Averaging a T-matrix: lemmas -/
namespace Verif.Alignment

open Finset Verif.Matrix Verif.Clebsch Verif.TMatrix

variable {K : Type} [Field K]

/-- element of a block -/
def Block.at {K} (b : Block K) (i j : Nat) : K :=
  if i = 0 then (if j = 0 then b.t00 else b.t01) else (if j = 0 then b.t10 else b.t11)

/-! ### the four elements written together -/

section store
variable {R : Type}

/-- the four stores at the end of the loop bodies -/
def set4 (t : TRes K R) (m n1 n2 : Nat) (b : Block K) : TRes K R :=
  (((t.setElement 0 n1 m 0 n2 b.t00).setElement 0 n1 m 1 n2 b.t01).setElement 1 n1 m 0 n2 b.t10).setElement 1 n1 m 1 n2 b.t11

theorem set4_spec {maxOrder : Nat} (t : TRes K R) (hs : t.Shape maxOrder) (ho : t.nmax ≤ maxOrder) {n1 n2 m : Nat}
    (h1 : max m 1 ≤ n1) (h1' : n1 ≤ t.nmax) (h2 : max m 1 ≤ n2) (h2' : n2 ≤ t.nmax) (b : Block K) :
    (set4 t m n1 n2 b).Shape maxOrder ∧ (set4 t m n1 n2 b).nmax = t.nmax
    ∧ (∀ i j, i < 2 → j < 2 → (set4 t m n1 n2 b).get i n1 m j n2 = b.at i j)
    ∧ ∀ i k j k' l, Valid t.nmax i k l → Valid t.nmax j k' l → (l, k, k') ≠ (m, n1, n2) →
      (set4 t m n1 n2 b).get i k l j k' = t.get i k l j k' := by
  have V : ∀ i, i < 2 → Valid t.nmax i n1 m := fun i hi => ⟨hi, by omega, by omega, by omega⟩
  have V' : ∀ i, i < 2 → Valid t.nmax i n2 m := fun i hi => ⟨hi, by omega, by omega, by omega⟩
  have h0 : (0 : Nat) < 2 := by omega
  have h1 : (1 : Nat) < 2 := by omega
  obtain ⟨a1, s1, q1, u1⟩ := c29_get_set t hs ho (V 0 h0) (V' 0 h0) b.t00
  unfold set4
  generalize t.setElement 0 n1 m 0 n2 b.t00 = x1 at a1 s1 q1 u1
  obtain ⟨a2, s2, q2, u2⟩ := c29_get_set x1 s1 (by rw [q1]; exact ho) (by rw [q1]; exact V 0 h0) (by rw [q1]; exact V' 1 h1) b.t01
  generalize x1.setElement 0 n1 m 1 n2 b.t01 = x2 at a2 s2 q2 u2
  rw [q1] at q2 u2
  obtain ⟨a3, s3, q3, u3⟩ := c29_get_set x2 s2 (by rw [q2]; exact ho) (by rw [q2]; exact V 1 h1) (by rw [q2]; exact V' 0 h0) b.t10
  generalize x2.setElement 1 n1 m 0 n2 b.t10 = x3 at a3 s3 q3 u3
  rw [q2] at q3 u3
  obtain ⟨a4, s4, q4, u4⟩ := c29_get_set x3 s3 (by rw [q3]; exact ho) (by rw [q3]; exact V 1 h1) (by rw [q3]; exact V' 1 h1) b.t11
  generalize x3.setElement 1 n1 m 1 n2 b.t11 = x4 at a4 s4 q4 u4
  rw [q3] at q4 u4
  refine ⟨s4, q4, ?_, ?_⟩
  · intro i j hi hj
    interval_cases i <;> interval_cases j
    · rw [u4 _ _ _ _ _ (V 0 h0) (V' 0 h0) (by simp), u3 _ _ _ _ _ (V 0 h0) (V' 0 h0) (by simp), u2 _ _ _ _ _ (V 0 h0) (V' 0 h0) (by simp), a1]
      simp [Block.at]
    · rw [u4 _ _ _ _ _ (V 0 h0) (V' 1 h1) (by simp), u3 _ _ _ _ _ (V 0 h0) (V' 1 h1) (by simp), a2]
      simp [Block.at]
    · rw [u4 _ _ _ _ _ (V 1 h1) (V' 0 h0) (by simp), a3]
      simp [Block.at]
    · rw [a4]
      simp [Block.at]
  · intro i k j k' l v v' hne
    have ne : ∀ a a', (i, k, j, k', l) ≠ (a, n1, a', n2, m) := by
      intro a a' e
      apply hne
      simp only [Prod.mk.injEq] at e ⊢
      exact ⟨e.2.2.2.2, e.2.1, e.2.2.2.1⟩
    rw [u4 _ _ _ _ _ v v' (ne _ _), u3 _ _ _ _ _ v v' (ne _ _), u2 _ _ _ _ _ v v' (ne _ _), u1 _ _ _ _ _ v v' (ne _ _)]

/-- elements that already have their final value -/
def Done (I : State K R → Prop) (maxOrder nmax : Nat) (V : Nat → Nat → Nat → Nat → Nat → K) (D : Nat → Nat → Nat → Prop) (s : State K R) : Prop :=
  (s.out.Shape maxOrder ∧ I s) ∧ s.out.nmax = nmax
  ∧ ∀ i n1 m j n2, Valid nmax i n1 m → Valid nmax j n2 m → D m n1 n2 → s.out.get i n1 m j n2 = V i n1 m j n2

theorem Done.mono {I : State K R → Prop} {maxOrder nmax : Nat} {V : Nat → Nat → Nat → Nat → Nat → K} {D D' : Nat → Nat → Nat → Prop} {s : State K R}
    (h : Done I maxOrder nmax V D s)
    (hD : ∀ m n1 n2, max m 1 ≤ n1 → n1 ≤ nmax → max m 1 ≤ n2 → n2 ≤ nmax → D' m n1 n2 → D m n1 n2) : Done I maxOrder nmax V D' s := by
  refine ⟨h.1, h.2.1, fun i n1 m j n2 v v' hd => h.2.2 i n1 m j n2 v v' (hD _ _ _ ?_ v.n ?_ v'.n hd)⟩
  · have := v.max; omega
  · have := v'.max; omega

theorem elements_spec (I : State K R → Prop) {maxOrder nmax : Nat} (ho : nmax ≤ maxOrder) (V : Nat → Nat → Nat → Nat → Nat → K)
    (f : Nat → Nat → Nat → State K R → State K R) (s : State K R) (hs : s.out.Shape maxOrder) (hI : I s) (hn : s.out.nmax = nmax)
    (hf : ∀ m n1 n2 s, max m 1 ≤ n1 → n1 ≤ nmax → max m 1 ≤ n2 → n2 ≤ nmax → I s → I (f m n1 n2 s) ∧
      ∃ b : Block K, (f m n1 n2 s).out = set4 s.out m n1 n2 b ∧ ∀ i j, i < 2 → j < 2 → b.at i j = V i n1 m j n2) :
    Done I maxOrder nmax V (fun _ _ _ => True) (elements nmax f s) := by
  have step : ∀ (D : Nat → Nat → Nat → Prop) m n1 n2 s, max m 1 ≤ n1 → n1 ≤ nmax → max m 1 ≤ n2 → n2 ≤ nmax → Done I maxOrder nmax V D s →
      Done I maxOrder nmax V (fun m' n1' n2' => D m' n1' n2' ∨ (m', n1', n2') = (m, n1, n2)) (f m n1 n2 s) := by
    intro D m n1 n2 s h1 h2 h3 h4 ⟨⟨d1, d0⟩, d2, d3⟩
    obtain ⟨f0, b, hb, hv⟩ := hf m n1 n2 s h1 h2 h3 h4 d0
    obtain ⟨e1, e2, e3, e4⟩ := set4_spec s.out d1 (by omega) h1 (by omega) h3 (by omega) b
    rw [d2] at e2 e4
    refine ⟨⟨by rw [hb]; exact e1, f0⟩, by rw [hb, e2], ?_⟩
    intro i k l j k' v v' hd
    rw [hb]
    by_cases he : (l, k, k') = (m, n1, n2)
    · simp only [Prod.mk.injEq] at he
      obtain ⟨rfl, rfl, rfl⟩ := he
      rw [e3 i j v.i v'.i, hv i j v.i v'.i]
    · rw [e4 _ _ _ _ _ v v' he]
      exact d3 _ _ _ _ _ v v' (hd.resolve_right he)
  unfold elements
  have A := loop_inv (σ := State K R) (fun k s => Done I maxOrder nmax V (fun m _ _ => m < k) s) (Nat.zero_le (nmax + 1))
    (fun m s => loop (max m 1) (nmax + 1) (fun n1 s => loop (max m 1) (nmax + 1) (fun n2 s => f m n1 n2 s) s) s) s
    ⟨⟨hs, hI⟩, hn, fun i n1 m j n2 _ _ h => by omega⟩ (by
    intro m s _ hm hd
    have B := loop_inv (σ := State K R) (fun k s => Done I maxOrder nmax V (fun m' n1' _ => m' < m ∨ m' = m ∧ n1' < k) s)
      (show max m 1 ≤ nmax + 1 by omega)
      (fun n1 s => loop (max m 1) (nmax + 1) (fun n2 s => f m n1 n2 s) s) s
      (hd.mono (by intro m' n1' n2' _ _ _ _ h; omega)) (by
      intro n1 s h1 h2 hd
      have C := loop_inv (σ := State K R)
        (fun k s => Done I maxOrder nmax V (fun m' n1' n2' => m' < m ∨ m' = m ∧ n1' < n1 ∨ m' = m ∧ n1' = n1 ∧ n2' < k) s)
        (show max m 1 ≤ nmax + 1 by omega)
        (fun n2 s => f m n1 n2 s) s
        (hd.mono (by intro m' n1' n2' _ _ _ _ h; omega)) (by
        intro n2 s h3 h4 hd
        refine (step _ m n1 n2 s h1 (by omega) h3 (by omega) hd).mono ?_
        intro m' n1' n2' _ _ _ _ h
        rw [Prod.mk.injEq, Prod.mk.injEq]
        omega)
      exact C.mono (by intro m' n1' n2' _ _ _ _ h; omega))
    exact B.mono (by intro m' n1' n2' _ _ _ _ h; omega))
  exact A.mono (by intro m' n1' n2' _ _ _ _ _; omega)

end store

/-! ### the sums -/

theorem fold_sum (g : Int → K) (M : Nat) :
    ∑ m ∈ Icc (-(M : Int)) M, g m = g 0 + ∑ m ∈ range M, (g ((m : Int) + 1) + g (-((m : Int) + 1))) := by
  induction M with
  | zero => simp
  | succ M ih =>
    rw [sum_range_succ, ← add_assoc, ← ih]
    have e : Icc (-((M + 1 : Nat) : Int)) ((M + 1 : Nat) : Int)
        = insert ((M : Int) + 1) (insert (-((M : Int) + 1)) (Icc (-(M : Int)) M)) := by
      ext x
      simp only [mem_insert, mem_Icc]
      push_cast
      omega
    rw [e, sum_insert, sum_insert]
    · ring
    · simp only [mem_Icc]; omega
    · simp only [mem_insert, mem_Icc]; omega

/-- a sum whose terms are even -/
theorem fold_even (g : Int → K) (M : Nat) (h : ∀ m, g (-m) = g m) :
    ∑ m ∈ Icc (-(M : Int)) M, g m = ∑ m ∈ range (M + 1), (if m = 0 then 1 else 2) * g (m : Int) := by
  rw [fold_sum, sum_range_succ', add_comm]
  congr 1
  · apply sum_congr rfl
    intro m _
    rw [h, if_neg (by omega)]
    push_cast
    ring
  · simp

/-- a sum whose terms are odd -/
theorem fold_odd (g : Int → K) (M : Nat) (h2 : (2 : K) ≠ 0) (h : ∀ m, g (-m) = -g m) :
    ∑ m ∈ Icc (-(M : Int)) M, g m = 0 := by
  have h0 : g 0 = 0 := by
    have := h 0
    rw [neg_zero] at this
    have : 2 * g 0 = 0 := by linear_combination this
    exact (mul_eq_zero.mp this).resolve_left h2
  rw [fold_sum, h0, sum_eq_zero]
  · simp
  · intro m _
    rw [h]; ring

theorem sign_eq (m : Nat) : (if m % 2 = 0 then (1 : ℝ) else -1) = (-1) ^ m := by
  rcases Nat.even_or_odd' m with ⟨k, hk | hk⟩
  · rw [if_pos (by omega), Even.neg_one_pow ⟨k, by omega⟩]
  · rw [if_neg (by omega), Odd.neg_one_pow ⟨k, by omega⟩]

theorem neg_natAbs (m m1 : Int) : (-1 : ℝ) ^ (m + -m1).natAbs = (-1) ^ (m + m1).natAbs := by
  rcases Int.even_or_odd' (m + m1) with ⟨k, hk | hk⟩
  · rw [Even.neg_one_pow ⟨(k - m1).natAbs, by omega⟩, Even.neg_one_pow ⟨k.natAbs, by omega⟩]
  · rw [Odd.neg_one_pow (Int.natAbs_odd.mpr ⟨k - m1, by omega⟩), Odd.neg_one_pow (Int.natAbs_odd.mpr ⟨k, by omega⟩)]

theorem triangle {n1 n2 N : Nat} (h1 : n1 ≤ n2 + N) (h2 : n2 ≤ n1 + N) (h3 : N ≤ n1 + n2) : Triangle n1 n2 N :=
  ⟨by omega, by omega, by omega, by omega, by omega⟩

/-- the term of the code -/
noncomputable def term (ι : ℝ →+* K) (pN : ℝ) (inp : TRes K ℝ) (i n1 j n2 N m m1 : Nat) : K :=
  if (N + (n1 + n2)) % 2 = (i + j) % 2 then
    ι ((if m1 % 2 = 0 then 1 else -1) * (if m % 2 = 0 then 1 else -1) * (if m1 = 0 then 1 else 2) * pN * cg n1 n2 N 0 m * cg n1 n2 N 0 m1)
      * inp.get i n1 m1 j n2
  else 0

theorem term_sum (ι : ℝ →+* K) (pN : ℝ) (inp : TRes K ℝ) (T : Nat → Nat → Int → Nat → Nat → K) (hA : Axisymmetric T)
    {i n1 j n2 N m : Nat} (hT : ∀ m1 : Nat, m1 ≤ min n1 n2 → inp.get i n1 m1 j n2 = T i n1 m1 j n2)
    (Tr : Triangle n1 n2 N) :
    ∑ m1 ∈ range (min n1 n2 + 1), term ι pN inp i n1 j n2 N m m1
      = ∑ m1 ∈ Icc (-((min n1 n2 : Nat) : Int)) ((min n1 n2 : Nat) : Int),
        ι ((-1) ^ ((m : Int) + m1).natAbs * pN * cg n1 n2 N 0 m * cg n1 n2 N 0 m1) * T i n1 m1 j n2 := by
  have h2 : (2 : K) ≠ 0 := by
    have : ι 2 ≠ 0 := (map_ne_zero_iff ι ι.injective).mpr two_ne_zero
    rwa [map_ofNat] at this
  have hN := Tr.hi
  have href : ∀ m1 : Int, cg n1 n2 N 0 (-m1) = (-1) ^ (N + (n1 + n2)) * cg n1 n2 N 0 m1 := by
    intro m1
    have := cg_reflect Tr 0 m1
    rw [neg_zero] at this
    rw [this]
    congr 1
    rcases Nat.even_or_odd' (N + (n1 + n2)) with ⟨k, hk | hk⟩
    · rw [Even.neg_one_pow (n := N + (n1 + n2)) ⟨k, by omega⟩, Even.neg_one_pow ⟨k - N, by omega⟩]
    · rw [Odd.neg_one_pow (n := N + (n1 + n2)) ⟨k, by omega⟩, Odd.neg_one_pow ⟨k - N, by omega⟩]
  by_cases h : (N + (n1 + n2)) % 2 = (i + j) % 2
  · rw [fold_even]
    · apply sum_congr rfl
      intro m1 hm1
      rw [mem_range] at hm1
      unfold term
      rw [if_pos h, hT m1 (by omega), sign_eq, sign_eq, ← mul_assoc, show ((m : Int) + m1).natAbs = m + m1 by omega]
      congr 1
      have e : (if m1 = 0 then (1 : K) else 2) = ι (if m1 = 0 then 1 else 2) := by
        split
        · rw [map_one]
        · rw [map_ofNat]
      rw [e, ← map_mul]
      congr 1
      rw [pow_add]
      ring
    · intro m1
      rw [href, hA, neg_natAbs]
      have e : ((-1 : K) ^ (i + j)) = ι ((-1) ^ (N + (n1 + n2))) := by
        rw [map_pow, map_neg, map_one, neg_one_pow_eq_pow_mod_two, ← h, ← neg_one_pow_eq_pow_mod_two]
      rw [e, ← mul_assoc, ← map_mul]
      congr 2
      have : ((-1 : ℝ) ^ (N + (n1 + n2))) * (-1) ^ (N + (n1 + n2)) = 1 := by rw [← mul_pow]; simp
      linear_combination ((-1) ^ ((m : Int) + m1).natAbs * pN * cg n1 n2 N 0 m * cg n1 n2 N 0 m1) * this
  · rw [fold_odd _ _ h2]
    · apply sum_eq_zero
      intro m1 _
      unfold term
      rw [if_neg h]
    · intro m1
      rw [href, hA, neg_natAbs]
      have e : ((-1 : K) ^ (i + j)) = ι (-(-1) ^ (N + (n1 + n2))) := by
        rw [map_neg, map_pow, map_neg, map_one]
        rcases Nat.even_or_odd' (i + j) with ⟨k, hk | hk⟩ <;> rcases Nat.even_or_odd' (N + (n1 + n2)) with ⟨l, hl | hl⟩
        · omega
        · rw [Even.neg_one_pow ⟨k, by omega⟩, Odd.neg_one_pow ⟨l, by omega⟩]; ring
        · rw [Odd.neg_one_pow ⟨k, by omega⟩, Even.neg_one_pow ⟨l, by omega⟩]
        · omega
      rw [e, ← mul_assoc, ← map_mul, ← neg_mul, ← map_neg]
      congr 2
      have : ((-1 : ℝ) ^ (N + (n1 + n2))) * (-1) ^ (N + (n1 + n2)) = 1 := by rw [← mul_pow]; simp
      linear_combination -((-1) ^ ((m : Int) + m1).natAbs * pN * cg n1 n2 N 0 m * cg n1 n2 N 0 m1) * this

end Verif.Alignment
