import Verif.Proofs.Alignment

/-!
# C57, C61: averaging a T-matrix over the orientations

* C57: without alignment the output T-matrix equals the input; with alignment every element is the sum of Mishchenko (1991),
  eq. 3.27 over all orders `N` and all projections `-min n1 n2 ≤ m1 ≤ min n1 n2`. Perfect alignment (all expansion
  coefficients 1) leaves the T-matrix as it is, random orientations give the mean over the projections.
* C61: the workspace for the Clebsch-Gordan coefficients has `(max + 1) (2 max + 1)` elements, but `(2 nmax + 1)^2` elements
  are accessed: too few whenever the order reached is large compared to the maximum order.
-/
namespace Verif.Alignment

open Finset Verif.Matrix Verif.Clebsch Verif.TMatrix

variable {K : Type} [Field K]

theorem terms_spec (ι : ℝ →+* K) (inp : TRes K ℝ) {m n1 n2 N : Nat} (pN : ℝ) (C0 C : Vec ℝ) {B : Int} (hacc : Acc C0 B C)
    (hB : 2 * min (n1 : Int) n2 + 1 ≤ B) (hm : m ≤ min n1 n2)
    (hC : ∀ m : Int, |m| ≤ min (n1 : Int) n2 → C.v (min (n1 : Int) n2 + m) = cg n1 n2 N 0 m) (b : Block K) :
    Acc C0 B (loop 0 (min n1 n2 + 1) (fun m1 => addTerm (⇑ι) inp m n1 n2 N m1 pN) (C, b)).1
    ∧ (loop 0 (min n1 n2 + 1) (fun m1 => addTerm (⇑ι) inp m n1 n2 N m1 pN) (C, b)).1.v = C.v
    ∧ ∀ i j, i < 2 → j < 2 → (loop 0 (min n1 n2 + 1) (fun m1 => addTerm (⇑ι) inp m n1 n2 N m1 pN) (C, b)).2.at i j
      = b.at i j + ∑ m1 ∈ range (min n1 n2 + 1), term ι pN inp i n1 j n2 N m m1 := by
  refine loop_inv (σ := Vec ℝ × Block K) (fun k r => Acc C0 B r.1 ∧ r.1.v = C.v
    ∧ ∀ i j, i < 2 → j < 2 → r.2.at i j = b.at i j + ∑ m1 ∈ range k, term ι pN inp i n1 j n2 N m m1)
    (Nat.zero_le _) _ (C, b) ⟨hacc, rfl, fun i j _ _ => by simp⟩ ?_
  rintro k ⟨D, d⟩ _ hk ⟨e1, e2, e3⟩
  dsimp only at e1 e2 e3
  have t := (e1.touch (i := min (n1 : Int) n2 + m) (by omega) (by omega)).touch (i := min (n1 : Int) n2 + k) (by omega) (by omega)
  have v1 := hC m (by rw [abs_of_nonneg (by omega)]; omega)
  have v2 := hC k (by rw [abs_of_nonneg (by omega)]; omega)
  unfold addTerm
  dsimp only
  rw [Vec.touch_v, Vec.touch_v, Vec.touch_v, Vec.touch_v, e2, v1, v2]
  by_cases h : (N + (n1 + n2)) % 2 = 0
  · rw [if_pos h]
    refine ⟨t, e2, ?_⟩
    intro i j hi hj
    have q := e3 i j hi hj
    rw [sum_range_succ, ← add_assoc, ← q]
    unfold term Block.at
    interval_cases i <;> interval_cases j <;> simp [h]
  · rw [if_neg h]
    refine ⟨t, e2, ?_⟩
    intro i j hi hj
    have q := e3 i j hi hj
    rw [sum_range_succ, ← add_assoc, ← q]
    have h' : (N + (n1 + n2)) % 2 = 1 := by omega
    unfold term Block.at
    interval_cases i <;> interval_cases j <;> simp [h']

/-- the body of the loop over the elements: bounds, and the new elements -/
theorem average_spec (ι : ℝ →+* K) (inp : TRes K ℝ) {m n1 n2 : Nat} (hm : m ≤ min n1 n2) (s : State K ℝ) :
    ∃ b : Block K, (average Real.sqrt (⇑ι) inp m n1 n2 s).out = set4 s.out m n1 n2 b
    ∧ (average Real.sqrt (⇑ι) inp m n1 n2 s).C.size = s.C.size
    ∧ (average Real.sqrt (⇑ι) inp m n1 n2 s).C.ok = (s.C.ok && decide (((n1 : Int) + n2 + 1) * (2 * n1 + 1) ≤ s.C.size))
    ∧ (average Real.sqrt (⇑ι) inp m n1 n2 s).p.size = s.p.size ∧ (average Real.sqrt (⇑ι) inp m n1 n2 s).p.v = s.p.v
    ∧ (average Real.sqrt (⇑ι) inp m n1 n2 s).p.ok = (s.p.ok && decide ((n1 : Int) + n2 < s.p.size))
    ∧ ∀ i j, i < 2 → j < 2 → b.at i j = ∑ N ∈ Icc (if n1 > n2 then n1 - n2 else n2 - n1) (n1 + n2),
        ∑ m1 ∈ range (min n1 n2 + 1), term ι (s.p.v N) inp i n1 j n2 N m m1 := by
  generalize hlo : (if n1 > n2 then n1 - n2 else n2 - n1) = lo
  have hlo1 : n1 ≤ n2 + lo ∧ n2 ≤ n1 + lo ∧ lo ≤ n1 + n2 := by
    rw [← hlo]; split <;> omega
  have L := loop_inv (σ := Vec ℝ × Vec ℝ × Block K)
    (fun k r => r.1.size = s.C.size
      ∧ (lo < k → r.1.ok = (s.C.ok && decide ((k : Int) * (2 * n1 + 1) ≤ s.C.size))) ∧ (k ≤ lo → r.1.ok = s.C.ok)
      ∧ r.2.1.size = s.p.size ∧ r.2.1.v = s.p.v
      ∧ (lo < k → r.2.1.ok = (s.p.ok && decide ((k : Int) ≤ s.p.size))) ∧ (k ≤ lo → r.2.1.ok = s.p.ok)
      ∧ ∀ i j, i < 2 → j < 2 → r.2.2.at i j = ∑ N ∈ Ico lo k,
        ∑ m1 ∈ range (min n1 n2 + 1), term ι (s.p.v N) inp i n1 j n2 N m m1)
    (show lo ≤ n1 + n2 + 1 by omega) (fun N => addOrder Real.sqrt (⇑ι) inp m n1 n2 N) (s.C, s.p, (⟨0, 0, 0, 0⟩ : Block K))
    ⟨rfl, fun h => by omega, fun _ => rfl, rfl, rfl, fun h => by omega, fun _ => rfl, fun i j _ _ => by simp [Block.at]⟩ (by
    rintro N ⟨C, p, b⟩ hN1 hN2 ⟨c1, c2, c3, c4, c5, c6, c7, c8⟩
    dsimp only at c1 c2 c3 c4 c5 c6 c7 c8
    have Tr : Triangle n1 n2 N := triangle (by omega) (by omega) (by omega)
    obtain ⟨q1, q2, q3⟩ := c65_coefficients Tr C
    have hB : 2 * min (n1 : Int) n2 + 1 ≤ ((N : Int) + 1) * (2 * n1 + 1) := by
      have : (0 : Int) ≤ N * (2 * n1 + 1) := by positivity
      have e : ((N : Int) + 1) * (2 * n1 + 1) = N * (2 * n1 + 1) + (2 * n1 + 1) := by ring
      omega
    obtain ⟨t1, t2, t3⟩ := terms_spec ι inp (m := m) (s.p.v N) C _ ⟨q2, q1⟩ hB hm q3 b
    have hmono : ((N : Int)) * (2 * n1 + 1) ≤ ((N : Int) + 1) * (2 * n1 + 1) := mul_le_mul_of_nonneg_right (by omega) (by omega)
    unfold addOrder
    dsimp only
    rw [show (p.touch N).v N = s.p.v N by rw [Vec.touch_v, c5]]
    refine ⟨t1.1.trans c1, fun _ => ?_, fun h => by omega, c4, c5, fun _ => ?_, fun h => by omega, ?_⟩
    · rw [t1.2, c1]
      push_cast
      by_cases h : lo < N
      · rw [c2 h, Bool.and_assoc]
        congr 1
        by_cases h' : ((N : Int) + 1) * (2 * n1 + 1) ≤ s.C.size
        · have : (N : Int) * (2 * n1 + 1) ≤ s.C.size := by omega
          simp [h', this]
        · simp [h']
      · rw [c3 (by omega)]
    · change (p.ok && decide (0 ≤ (N : Int) ∧ (N : Int) < p.size)) = _
      rw [c4]
      push_cast
      by_cases h : lo < N
      · rw [c6 h, Bool.and_assoc]
        congr 1
        by_cases h' : (N : Int) + 1 ≤ s.p.size
        · have h1 : (N : Int) ≤ s.p.size := by omega
          have h2 : (0 ≤ (N : Int) ∧ (N : Int) < s.p.size) := by omega
          simp [h1, h', h2]
        · have h2 : ¬ (N : Int) < s.p.size := by omega
          simp [h', h2]
      · rw [c7 (by omega)]
        congr 1
        apply decide_eq_decide.mpr
        omega
    · intro i j hi hj
      rw [t3 i j hi hj, c8 i j hi hj, sum_Ico_succ_top hN1])
  unfold average
  rw [hlo]
  dsimp only
  generalize loop lo (n1 + n2 + 1) (fun N => addOrder Real.sqrt (⇑ι) inp m n1 n2 N) (s.C, s.p, (⟨0, 0, 0, 0⟩ : Block K)) = r at L ⊢
  obtain ⟨c1, c2, c3, c4, c5, c6, c7, c8⟩ := L
  refine ⟨r.2.2, rfl, c1, ?_, c4, c5, ?_, ?_⟩
  · rw [c2 (by omega)]
    push_cast
    try rfl
  · rw [c6 (by omega)]
    congr 1
  · intro i j hi hj
    rw [c8 i j hi hj]
    apply sum_congr _ fun _ _ => rfl
    ext x
    simp only [mem_Ico, mem_Icc]
    omega

/-- the stored T-matrix holds the elements with `m ≥ 0` of `T` -/
def Stores (inp : TRes K ℝ) (T : Nat → Nat → Int → Nat → Nat → K) : Prop :=
  ∀ i n1 m j n2, Valid inp.nmax i n1 m → Valid inp.nmax j n2 m → inp.get i n1 m j n2 = T i n1 m j n2

theorem averaged_eq (ι : ℝ →+* K) (p : Int → ℝ) (inp : TRes K ℝ) (T : Nat → Nat → Int → Nat → Nat → K) (hA : Axisymmetric T)
    (hS : Stores inp T) {i n1 m j n2 : Nat} (hv : Valid inp.nmax i n1 m) (hv' : Valid inp.nmax j n2 m) :
    ∑ N ∈ Icc (if n1 > n2 then n1 - n2 else n2 - n1) (n1 + n2), ∑ m1 ∈ range (min n1 n2 + 1), term ι (p N) inp i n1 j n2 N m m1
      = averaged (⇑ι) p T i n1 m j n2 := by
  have h1 := hv.one; have h2 := hv'.one
  have hT : ∀ m1 : Nat, m1 ≤ min n1 n2 → inp.get i n1 m1 j n2 = T i n1 m1 j n2 := fun m1 hm1 =>
    hS i n1 m1 j n2 ⟨hv.i, hv.one, by omega, hv.n⟩ ⟨hv'.i, hv'.one, by omega, hv'.n⟩
  unfold averaged
  have habs : |(n1 : Int) - n2| = ((if n1 > n2 then n1 - n2 else n2 - n1 : Nat) : Int) := by
    split
    · rw [abs_of_nonneg (by omega)]; omega
    · rw [abs_of_nonpos (by omega)]; omega
  have hlo1 : ∀ N : Nat, (if n1 > n2 then n1 - n2 else n2 - n1) ≤ N → n1 ≤ n2 + N ∧ n2 ≤ n1 + N := by
    intro N; split <;> omega
  rw [habs]
  generalize (if n1 > n2 then n1 - n2 else n2 - n1) = lo at hlo1 ⊢
  refine sum_bij (fun N _ => (N : Int)) ?_ ?_ ?_ ?_
  · intro N hN; rw [mem_Icc] at hN ⊢; omega
  · intro a _ b _ h; omega
  · intro N hN
    rw [mem_Icc] at hN
    exact ⟨N.toNat, by rw [mem_Icc]; omega, by omega⟩
  · intro N hN
    rw [mem_Icc] at hN
    have := term_sum ι (p N) inp T hA (m := m) hT (triangle (hlo1 N hN.1).1 (hlo1 N hN.1).2 hN.2)
    rw [this]
    push_cast
    rfl

/-- **C57** alignment: every element of the output T-matrix is the average of Mishchenko (1991), eq. 3.27, for every order,
every distribution of orientations, every axisymmetric T-matrix, and whatever workspace and output matrix contained before. -/
theorem c57_average (ι : ℝ →+* K) (inp : TRes K ℝ) (s : State K ℝ) {maxOrder : Nat} (hs : s.out.Shape maxOrder)
    (ho : inp.nmax ≤ maxOrder) (T : Nat → Nat → Int → Nat → Nat → K) (hA : Axisymmetric T) (hS : Stores inp T)
    {i n1 m j n2 : Nat} (hv : Valid inp.nmax i n1 m) (hv' : Valid inp.nmax j n2 m) :
    (execute Real.sqrt (⇑ι) true inp s).out.nmax = inp.nmax
    ∧ (execute Real.sqrt (⇑ι) true inp s).out.get i n1 m j n2 = averaged (⇑ι) s.p.v T i n1 m j n2 := by
  have key := elements_spec (fun s1 : State K ℝ => s1.p.v = s.p.v) ho
    (fun i n1 m j n2 => ∑ N ∈ Icc (if n1 > n2 then n1 - n2 else n2 - n1) (n1 + n2),
        ∑ m1 ∈ range (min n1 n2 + 1), term ι (s.p.v N) inp i n1 j n2 N m m1)
    (average Real.sqrt (⇑ι) inp) { s with out := { s.out with nmax := inp.nmax } } hs rfl rfl (by
    intro m n1 n2 s1 a1 a2 a3 a4 hI
    obtain ⟨b, b1, _, _, _, b5, _, b7⟩ := average_spec ι inp (m := m) (n1 := n1) (n2 := n2) (by omega) s1
    rw [hI] at b5 b7
    exact ⟨b5, b, b1, b7⟩)
  unfold execute
  dsimp only
  rw [if_pos rfl]
  refine ⟨key.2.1, ?_⟩
  rw [key.2.2 i n1 m j n2 hv hv' trivial]
  exact averaged_eq ι s.p.v inp T hA hS hv hv'

/-- **C57** no alignment: the output T-matrix equals the input T-matrix, for every order and every content of the output -/
theorem c57_copy (ι : ℝ →+* K) (inp : TRes K ℝ) (s : State K ℝ) {maxOrder : Nat} (hs : s.out.Shape maxOrder)
    (ho : inp.nmax ≤ maxOrder) {i n1 m j n2 : Nat} (hv : Valid inp.nmax i n1 m) (hv' : Valid inp.nmax j n2 m) :
    (execute Real.sqrt (⇑ι) false inp s).out.nmax = inp.nmax
    ∧ (execute Real.sqrt (⇑ι) false inp s).out.get i n1 m j n2 = inp.get i n1 m j n2 := by
  unfold execute
  dsimp only
  rw [if_neg (by simp)]
  have := elements_spec (fun _ => True) ho (fun i n1 m j n2 => inp.get i n1 m j n2) (copy inp) { s with out := { s.out with nmax := inp.nmax } } hs trivial rfl (by
    intro m n1 n2 s1 _ _ _ _ _
    refine ⟨trivial, ⟨inp.get 0 n1 m 0 n2, inp.get 0 n1 m 1 n2, inp.get 1 n1 m 0 n2, inp.get 1 n1 m 1 n2⟩, rfl, ?_⟩
    intro i j hi hj
    interval_cases i <;> interval_cases j <;> simp [Block.at])
  exact ⟨this.2.1, this.2.2 i n1 m j n2 hv hv' trivial⟩

/-! ### the two extreme distributions -/

/-- **C57** perfect alignment: if all expansion coefficients are 1, the average is the T-matrix itself -/
theorem c57_perfect (ι : ℝ →+* K) (T : Nat → Nat → Int → Nat → Nat → K) {i n1 j n2 : Nat} {m : Int} (hm : |m| ≤ min (n1 : Int) n2) :
    averaged (⇑ι) (fun _ => 1) T i n1 m j n2 = T i n1 m j n2 := by
  have ab := abs_le.mp hm
  unfold averaged
  rw [sum_comm, sum_eq_single m]
  · rw [← sum_mul, ← map_sum]
    have e : ∀ N ∈ Icc |(n1 : Int) - n2| (n1 + n2), (-1 : ℝ) ^ (m + m).natAbs * 1 * cg n1 n2 N 0 m * cg n1 n2 N 0 m
        = cg n1 n2 N 0 m * cg n1 n2 N 0 m := by
      intro N _
      rw [Even.neg_one_pow (Int.natAbs_even.mpr ⟨m, rfl⟩)]; ring
    rw [sum_congr rfl e, c65_complete (by omega) (by omega) hm hm, if_pos rfl, map_one, one_mul]
  · intro m1 hm1 hne
    rw [mem_Icc] at hm1
    rw [← sum_mul, ← map_sum]
    have e : ∀ N ∈ Icc |(n1 : Int) - n2| (n1 + n2), (-1 : ℝ) ^ (m + m1).natAbs * 1 * cg n1 n2 N 0 m * cg n1 n2 N 0 m1
        = (-1 : ℝ) ^ (m + m1).natAbs * (cg n1 n2 N 0 m * cg n1 n2 N 0 m1) := fun N _ => by ring
    rw [sum_congr rfl e, ← mul_sum, c65_complete (by omega) (by omega) hm (abs_le.mpr ⟨hm1.1, hm1.2⟩), if_neg (fun h => hne h.symm), mul_zero,
      map_zero, zero_mul]
  · intro h
    exact absurd (mem_Icc.mpr ⟨ab.1, ab.2⟩) h

theorem fac_ne (a : Int) : (fac a : ℝ) ≠ 0 := (fac_pos a).ne'

/-- `C^{00}_{n m n -m} = (-1)^{n-m} / √(2n+1)` -/
theorem cg_scalar {n : Nat} {m : Int} (hm : |m| ≤ n) : cg n n 0 0 m = (-1) ^ ((n : Int) - m).natAbs / Real.sqrt (2 * n + 1) := by
  have ab := abs_le.mp hm
  obtain ⟨a, ha⟩ : ∃ a : Nat, (n : Int) - m = a := ⟨((n : Int) - m).toNat, by omega⟩
  obtain ⟨b, hb⟩ : ∃ b : Nat, (n : Int) + m = b := ⟨((n : Int) + m).toNat, by omega⟩
  have hab : a + b = 2 * n := by omega
  have hsum : S ((n : Int) + n - 0).toNat ((n : Int) - n + 0).toNat ((n : Int) - n + 0).toNat ((n : Int) - m) ((n : Int) + (0 - m))
      = (-1) ^ a * ((2 * n).choose a : Int) := by
    unfold S
    rw [show ((n : Int) + n - 0).toNat = 2 * n by omega, show ((n : Int) - n + 0).toNat = 0 by omega,
      show (n : Int) + (0 - m) = a by omega, ha, sum_eq_single a]
    · simp [ch]
    · intro i _ hne
      have : ch 0 ((a : Int) - i) = 0 := by
        unfold ch
        split
        · rw [Nat.choose_eq_zero_of_lt (by omega)]; rfl
        · rfl
      rw [this]; ring
    · intro h
      rw [mem_range] at h
      omega
  unfold cg
  rw [hsum, show (0 : Int) + 0 = 0 by rfl, show (0 : Int) - 0 = 0 by rfl, ha, hb, show (n : Int) + (0 - m) = a by omega,
    show (n : Int) - (0 - m) = b by omega, show (n : Int) + n - 0 = ((2 * n : Nat) : Int) by omega, show (n : Int) - n + 0 = 0 by omega,
    show (n : Int) + n + 0 + 1 = ((2 * n + 1 : Nat) : Int) by omega, Int.natAbs_natCast]
  rw [fac_nat, fac_nat, fac_nat, fac_nat, show fac 0 = 1 from rfl, Nat.factorial_succ]
  have hc := Nat.choose_mul_factorial_mul_factorial (show a ≤ 2 * n by omega)
  rw [show 2 * n - a = b by omega] at hc
  have hcr : ((2 * n).choose a : ℝ) * a.factorial * b.factorial = (2 * n).factorial := by exact_mod_cast hc
  have pa : (0 : ℝ) < a.factorial := by exact_mod_cast a.factorial_pos
  have pb : (0 : ℝ) < b.factorial := by exact_mod_cast b.factorial_pos
  have pc : (0 : ℝ) < (2 * n).choose a := by exact_mod_cast Nat.choose_pos (by omega)
  push_cast
  rw [← hcr]
  have e : ((2 * 0 + 1) * (1 * 1 * ((b.factorial : ℝ) * a.factorial * a.factorial * b.factorial))
      / (((2 * n).choose a : ℝ) * a.factorial * b.factorial * 1 * 1 * ((2 * n + 1) * (((2 * n).choose a : ℝ) * a.factorial * b.factorial))))
      = (1 / ((2 * n).choose a : ℝ)) ^ 2 * (1 / (2 * n + 1)) := by
    have : (0 : ℝ) < 2 * n + 1 := by positivity
    field_simp
    ring
  rw [e, Real.sqrt_mul (by positivity), Real.sqrt_sq (by positivity), Real.sqrt_div (by norm_num), Real.sqrt_one]
  field_simp

/-- **C57** random orientations: if all expansion coefficients but the first are 0, the average is diagonal in `n` and the
mean over the projections, the same for all `m` -/
theorem c57_random (ι : ℝ →+* K) (T : Nat → Nat → Int → Nat → Nat → K) {i n1 j n2 : Nat} {m : Int} (hm : |m| ≤ min (n1 : Int) n2) :
    averaged (⇑ι) (fun N => if N = 0 then 1 else 0) T i n1 m j n2
      = if n1 = n2 then ι (1 / (2 * n1 + 1)) * ∑ m1 ∈ Icc (-(n1 : Int)) n1, T i n1 m1 j n2 else 0 := by
  have ab := abs_le.mp hm
  unfold averaged
  by_cases h : n1 = n2
  · subst h
    rw [if_pos rfl, sum_eq_single 0]
    · rw [min_self, mul_sum]
      apply sum_congr rfl
      intro m1 hm1
      rw [mem_Icc] at hm1
      congr 2
      rw [cg_scalar (by omega), cg_scalar (abs_le.mpr hm1)]
      dsimp only
      rw [if_pos rfl]
      have hs : Real.sqrt (2 * n1 + 1) * Real.sqrt (2 * n1 + 1) = 2 * n1 + 1 := Real.mul_self_sqrt (by positivity)
      have hp : ((-1 : ℝ)) ^ (m + m1).natAbs * ((-1) ^ ((n1 : Int) - m).natAbs * (-1) ^ ((n1 : Int) - m1).natAbs) = 1 := by
        rw [← pow_add, ← pow_add, Even.neg_one_pow]
        rw [Nat.even_add, Nat.even_add, Int.natAbs_even, Int.natAbs_even, Int.natAbs_even, Int.even_add, Int.even_sub, Int.even_sub]
        tauto
      calc _ = ((-1 : ℝ)) ^ (m + m1).natAbs * ((-1) ^ ((n1 : Int) - m).natAbs * (-1) ^ ((n1 : Int) - m1).natAbs)
          / (Real.sqrt (2 * n1 + 1) * Real.sqrt (2 * n1 + 1)) := by
            have := Real.sqrt_pos.mpr (show (0 : ℝ) < 2 * n1 + 1 by positivity)
            field_simp
        _ = _ := by rw [hp, hs]
    · intro N _ hN
      apply sum_eq_zero
      intro m1 _
      dsimp only
      rw [if_neg hN]
      simp
    · intro h
      rw [mem_Icc, sub_self, abs_zero] at h
      omega
  · rw [if_neg h]
    apply sum_eq_zero
    intro N hN
    rw [mem_Icc] at hN
    apply sum_eq_zero
    intro m1 _
    have : 0 < |(n1 : Int) - n2| := abs_pos.mpr (by omega)
    dsimp only
    rw [if_neg (by omega)]
    simp

/-! ### C61 -/

theorem elements_and {R : Type} {nmax : Nat} (h1 : 1 ≤ nmax) (okf : State K R → Bool) (I : State K R → Prop) (g : Nat → Nat → Bool)
    (f : Nat → Nat → Nat → State K R → State K R) (s : State K R) (hI : I s)
    (hf : ∀ m n1 n2 s, max m 1 ≤ n1 → n1 ≤ nmax → max m 1 ≤ n2 → n2 ≤ nmax → I s →
      I (f m n1 n2 s) ∧ okf (f m n1 n2 s) = (okf s && g n1 n2))
    (hg : g nmax nmax = true → ∀ n1 n2, n1 ≤ nmax → n2 ≤ nmax → g n1 n2 = true) :
    okf (elements nmax f s) = (okf s && g nmax nmax) := by
  unfold elements
  by_cases h : g nmax nmax = true
  · rw [h, Bool.and_true]
    refine (loop_inv (σ := State K R) (fun _ s' => I s' ∧ okf s' = okf s) (Nat.zero_le _) _ s ⟨hI, rfl⟩ ?_).2
    intro m x _ hm hx
    refine loop_inv (σ := State K R) (fun _ s' => I s' ∧ okf s' = okf s) (by omega) _ x hx ?_
    intro n1 x h1 h2 hx
    refine loop_inv (σ := State K R) (fun _ s' => I s' ∧ okf s' = okf s) (by omega) _ x hx ?_
    intro n2 x h3 h4 hx
    have := hf m n1 n2 x h1 (by omega) h3 (by omega) hx.1
    refine ⟨this.1, ?_⟩
    rw [this.2, hg h n1 n2 (by omega) (by omega), Bool.and_true, hx.2]
  · rw [Bool.not_eq_true] at h
    rw [h, Bool.and_false]
    refine (loop_inv (σ := State K R) (fun k s' => I s' ∧ (0 < k → okf s' = false)) (Nat.zero_le _) _ s ⟨hI, fun h => by omega⟩ ?_).2
      (by omega)
    intro m x _ hm hx
    have A := loop_inv (σ := State K R) (fun k s' => I s' ∧ (0 < m ∨ nmax < k → okf s' = false)) (show max m 1 ≤ nmax + 1 by omega)
      (fun n1 s => loop (max m 1) (nmax + 1) (fun n2 s => f m n1 n2 s) s) x
      ⟨hx.1, fun h => hx.2 (by omega)⟩ ?_
    · exact ⟨A.1, fun _ => A.2 (by omega)⟩
    intro n1 x h1 h2 hx
    have A := loop_inv (σ := State K R) (fun k s' => I s' ∧ (0 < m ∨ n1 = nmax ∧ nmax < k → okf s' = false)) (show max m 1 ≤ nmax + 1 by omega)
      (fun n2 s => f m n1 n2 s) x
      ⟨hx.1, fun h => hx.2 (by omega)⟩ ?_
    · exact ⟨A.1, fun _ => A.2 (by omega)⟩
    intro n2 x h3 h4 hx
    have := hf m n1 n2 x h1 (by omega) h3 (by omega) hx.1
    refine ⟨this.1, fun hd => ?_⟩
    rw [this.2]
    rcases hd with hd | ⟨hd, hd'⟩
    · rw [hx.2 (Or.inl hd), Bool.false_and]
    · rw [hd, show n2 = nmax by omega, h, Bool.and_false]

/-- **C61** all accesses to the workspace and to the expansion coefficients are in bounds exactly if the workspace has
`(2 nmax + 1)^2` elements and the expansion has order `2 nmax` or more -/
theorem c61_bounds (ι : ℝ →+* K) (inp : TRes K ℝ) (s : State K ℝ) (h1 : 1 ≤ inp.nmax) :
    (execute Real.sqrt (⇑ι) true inp s).C.ok = (s.C.ok && decide ((2 * (inp.nmax : Int) + 1) * (2 * inp.nmax + 1) ≤ s.C.size))
    ∧ (execute Real.sqrt (⇑ι) true inp s).p.ok = (s.p.ok && decide (2 * (inp.nmax : Int) < s.p.size)) := by
  unfold execute
  dsimp only
  rw [if_pos rfl]
  constructor
  · have := elements_and (nmax := inp.nmax) h1 (fun s' => s'.C.ok) (fun s' => s'.C.size = s.C.size)
      (fun n1 n2 => decide (((n1 : Int) + n2 + 1) * (2 * n1 + 1) ≤ s.C.size))
      (average Real.sqrt (⇑ι) inp) { s with out := { s.out with nmax := inp.nmax } } rfl (by
      intro m n1 n2 s1 a1 a2 a3 a4 hI
      obtain ⟨b, _, b2, b3, _⟩ := average_spec ι inp (m := m) (n1 := n1) (n2 := n2) (by omega) s1
      rw [hI] at b2 b3
      exact ⟨b2, b3⟩) (by
      intro h n1 n2 a1 a2
      rw [decide_eq_true_eq] at h ⊢
      refine le_trans ?_ h
      have x1 : (n1 : Int) ≤ inp.nmax := by omega
      have x2 : (n2 : Int) ≤ inp.nmax := by omega
      apply mul_le_mul <;> omega)
    rw [this]
    congr 2
    rw [show (inp.nmax : Int) + inp.nmax = 2 * inp.nmax by ring]
  · have := elements_and (nmax := inp.nmax) h1 (fun s' => s'.p.ok) (fun s' => s'.p.size = s.p.size)
      (fun n1 n2 => decide ((n1 : Int) + n2 < s.p.size))
      (average Real.sqrt (⇑ι) inp) { s with out := { s.out with nmax := inp.nmax } } rfl (by
      intro m n1 n2 s1 a1 a2 a3 a4 hI
      obtain ⟨b, _, _, _, b4, _, b6, _⟩ := average_spec ι inp (m := m) (n1 := n1) (n2 := n2) (by omega) s1
      rw [hI] at b4 b6
      exact ⟨b4, b6⟩) (by
      intro h n1 n2 a1 a2
      rw [decide_eq_true_eq] at h ⊢
      omega)
    rw [this]
    congr 2
    rw [show (inp.nmax : Int) + inp.nmax = 2 * inp.nmax by ring]

/-- **C61** the workspace the program allocates is too small for a T-matrix that uses the maximum order: for every maximum
order there is an access outside its bounds as soon as `(2 nmax + 1)^2 > (max + 1)(2 max + 1)`, in particular for `nmax = max` -/
theorem c61_violation (ι : ℝ →+* K) (inp : TRes K ℝ) (s : State K ℝ) {maxOrder : Nat} (h1 : 1 ≤ inp.nmax)
    (hC : s.C = workspace maxOrder) :
    ((execute Real.sqrt (⇑ι) true inp s).C.ok = true
      ↔ (2 * inp.nmax + 1) * (2 * inp.nmax + 1) ≤ (maxOrder + 1) * (2 * maxOrder + 1))
    ∧ (inp.nmax = maxOrder → (execute Real.sqrt (⇑ι) true inp s).C.ok = false) := by
  have h := (c61_bounds ι inp s h1).1
  have e : (execute Real.sqrt (⇑ι) true inp s).C.ok = true
      ↔ (2 * inp.nmax + 1) * (2 * inp.nmax + 1) ≤ (maxOrder + 1) * (2 * maxOrder + 1) := by
    rw [h, hC]
    unfold workspace
    simp only [Bool.true_and, decide_eq_true_eq]
    constructor <;> intro a <;> exact_mod_cast a
  refine ⟨e, ?_⟩
  intro hn
  rw [← Bool.not_eq_true, e, hn]
  rw [hn] at h1
  nlinarith

/-- **C61** a smaller order is safe: `nmax ≤ max / √2 - 1`, for instance half the maximum order -/
theorem c61_workspace_partial (ι : ℝ →+* K) (inp : TRes K ℝ) (s : State K ℝ) {maxOrder : Nat} (h1 : 1 ≤ inp.nmax)
    (hC : s.C = workspace maxOrder) (h2 : 2 * inp.nmax ≤ maxOrder) :
    (execute Real.sqrt (⇑ι) true inp s).C.ok = true := by
  rw [(c61_violation ι inp s h1 hC).1]
  apply Nat.mul_le_mul <;> omega

/-! ### concrete cases -/

/-- the elements of order 1 of an axisymmetric particle -/
def Tex (i n1 : Nat) (m : Int) (j n2 : Nat) : ℂ := if (i + j) % 2 = 0 then n1 + 2 * n2 + (m * m : Int) + i else (m : Int) * n1 * n2

theorem Tex_axisymmetric : Axisymmetric Tex := by
  intro i n1 m j n2
  unfold Tex
  by_cases h : (i + j) % 2 = 0
  · rw [if_pos h, if_pos h, Even.neg_one_pow ⟨(i + j) / 2, by omega⟩]
    push_cast
    ring
  · rw [if_neg h, if_neg h, Odd.neg_one_pow ⟨(i + j) / 2, by omega⟩]
    push_cast
    ring

/-- a T-matrix of order 1 that holds them -/
def Rex : TRes ℂ ℝ := ⟨1, 0, fun m => ⟨2, 2, fun k => Tex (k / 2) 1 m (k % 2) 1⟩, 0, 0, 0, 0⟩

theorem Rex_stores : Stores Rex Tex := by
  intro i n1 m j n2 h h'
  have a1 := h.one; have a2 : n1 ≤ 1 := h.n
  have b1 := h'.one; have b2 : n2 ≤ 1 := h'.n
  have c1 := h.i; have c2 := h'.i; have c3 := h.m
  obtain rfl : n1 = 1 := by omega
  obtain rfl : n2 = 1 := by omega
  interval_cases i <;> interval_cases j <;> interval_cases m <;> rfl

/-- random orientations of that particle: the `m = 1` element becomes the mean `(T_{-1} + T_0 + T_1) / 3` -/
example (s : State ℂ ℝ) (hs : s.out.Shape 2) (hp : s.p.v = fun N => if N = 0 then 1 else 0) :
    (execute Real.sqrt (⇑Complex.ofRealHom) true Rex s).out.get 1 1 1 1 1 = 14 / 3 := by
  have v : Valid Rex.nmax 1 1 1 := ⟨by decide, by decide, by decide, by decide⟩
  rw [(c57_average Complex.ofRealHom Rex s hs (by decide) Tex Tex_axisymmetric Rex_stores v v).2, hp]
  have := c57_random Complex.ofRealHom Tex (i := 1) (n1 := 1) (j := 1) (n2 := 1) (m := 1) (by norm_num)
  rw [show ((1 : Nat) : Int) = 1 from rfl] at *
  rw [this, if_pos rfl, show Icc (-(1 : Int)) 1 = {-1, 0, 1} from rfl]
  unfold Tex
  norm_num
  try ring

/-- such a state exists -/
example : ∃ s : State ℂ ℝ, s.out.Shape 2 ∧ (s.p.v = fun N => if N = 0 then 1 else 0) ∧ s.C = workspace 2 :=
  ⟨⟨workspace 2, ⟨5, fun N => if N = 0 then 1 else 0, true⟩, TRes.new 2⟩, shape_new 2, rfl, rfl⟩

end Verif.Alignment
