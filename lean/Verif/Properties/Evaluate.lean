import Verif.Model.Evaluate
import Verif.Spec.Evaluate
import Verif.Properties.Python
import Verif.Properties.PythonInit

/-!
# C89: values of an orientation distribution
-/
namespace Verif.Python

open Verif.Table
open Verif.Special Verif.Orientation
open Verif.Matrix
open Verif.Legendre (P)
open Polynomial

/-- the functions for degree 0 are the Legendre polynomials, at every angle -/
theorem wignerD_zero (x : ℝ) (nmax : Nat) (s : (Nat → ℝ) × (Nat → ℝ)) : ∀ n, n < nmax → (wignerD realOps x nmax 0 s).1 n = (P (n + 1)).eval x := by
  have key := loop_inv (fun k (t : WState ℝ) => t.d1 = (P k).eval x ∧ t.d2 = (P (k + 1)).eval x ∧ ∀ n, n < k → t.y n = (P (n + 1)).eval x)
    (Nat.zero_le nmax) (wignerBody0 x (1 / realOps.sqrt ((1 - x) * (1 + x))) 1) ⟨1, x, s.1, s.2⟩
    ⟨by simp [Legendre.P_zero], by simp [Legendre.P_one], fun n hn => absurd hn (by omega)⟩
    (fun k t _ _ ⟨h1, h2, h3⟩ => by
      refine ⟨by simpa [wignerBody0] using h2, ?_, fun n hn => ?_⟩
      · have hb := congrArg (Polynomial.eval x) (Legendre.bonnet k)
        simp only [eval_mul, eval_sub, eval_C, eval_X] at hb
        simp only [wignerBody0, h1, h2]
        have : ((k : ℝ) + 2) ≠ 0 := by positivity
        rw [div_eq_iff this]
        push_cast
        linear_combination -hb
      · simp only [wignerBody0]
        by_cases e : n = k
        · subst e; simp [h2]
        · rw [Function.update_of_ne e]; exact h3 n (by omega))
  intro n hn
  have := key.2.2 n hn
  simpa [wignerD, wignerArrays] using this

theorem evaluateAt_spec {d : Orientation.Dist ℝ} {N : Nat} (hd : maximumOrder d = N + 1) (θ : ℝ) :
    evaluateAt d θ = some (series d.coef N (Real.cos θ)) := by
  unfold evaluateAt
  dsimp only
  rw [hd, if_neg (by omega)]
  congr 1
  rw [Direct.loop_sum _ (Nat.zero_le _) _ _ (fun _ _ => rfl)]
  unfold series
  rw [zero_add]
  refine Finset.sum_congr (by rw [Finset.range_eq_Ico]) fun n hn => ?_
  have hn' : n < N + 1 := Finset.mem_range.1 hn
  rcases Nat.eq_zero_or_pos n with rfl | h
  · rw [if_pos rfl, Legendre.P_zero, eval_one]; ring
  · rw [if_neg (by omega)]
    have : (wignerD realOps (realOps.cos θ) (N + 1 - 1) 0 (fun _ => 0, fun _ => 0)).1 (n - 1) = (P n).eval (Real.cos θ) := by
      have := wignerD_zero (Real.cos θ) N (fun _ => 0, fun _ => 0) (n - 1) (by omega)
      rw [show n - 1 + 1 = n by omega] at this
      exact this
    rw [this]; ring

/-- **C89** the values that `evaluate` returns are the Legendre series of the distribution up to one order less than its maximum order, for scalars and
arrays (axes of length 1 are dropped).  Missing: the term of the maximum order (`c89_violated_last`), and distributions of order 0 (`c89_violated_zero`). -/
theorem c89_evaluate_partial {d : Orientation.Dist ℝ} {N : Nat} (hd : maximumOrder d = N + 1) (theta : Input) :
    ∃ a, evaluate d theta = some a ∧ a.dims = [theta.vals.length].filter (· ≠ 1)
      ∧ ∀ i, ∀ th ∈ theta.vals[i]?, a.get (Table.sq [theta.vals.length] [i]) = some (series d.coef N (Real.cos th)) := by
  unfold evaluate
  dsimp only
  generalize hws : (List.range theta.vals.length).map _ = ws
  let V : List Nat → ℝ := fun l => series d.coef N (Real.cos (theta.vals[l.headD 0]?.getD 0))
  have hw : ∀ w ∈ ws, InB [theta.vals.length] w.1 ∧ w.2 = some (V w.1) := by
    intro w hw
    rw [← hws] at hw
    simp only [List.mem_map, List.mem_range] at hw
    obtain ⟨i, h1, rfl⟩ := hw
    refine ⟨.cons h1 .nil, ?_⟩
    simp [V, List.getElem?_eq_getElem h1, evaluateAt_spec hd]
  obtain ⟨a, h1, h2, h3⟩ := exec_spec ws (Arr.new [theta.vals.length]) hw
  have h2' : a.dims = [theta.vals.length] := h2
  refine ⟨a.squeeze, by rw [h1]; rfl, by unfold Arr.squeeze; rw [h2'], ?_⟩
  intro i th ht
  have b1 : i < theta.vals.length := (List.getElem?_eq_some_iff.1 ht).1
  have hB : InB [theta.vals.length] [i] := .cons b1 .nil
  have hg := get_squeeze (a := a) (by rw [h2']; exact hB)
  rw [h2'] at hg
  rw [hg, h3 _ hB (.inl ?_)]
  · simp only [Option.mem_def] at ht
    simp [V, ht]
  · rw [← hws]
    simp only [List.mem_map, List.mem_range]
    exact ⟨_, ⟨i, b1, rfl⟩, rfl⟩

theorem natDegree_P (n : Nat) : (P n).natDegree = n := by
  refine le_antisymm (Legendre.natDegree_P_le n) (not_lt.1 fun h => ?_)
  have h1 := Legendre.orthogonal_lower n (P n) h
  have h2 := Legendre.norm_sq n
  rw [h1] at h2
  have : (0 : ℝ) < 2 / (2 * n + 1) := by positivity
  linarith

/-- a polynomial is the sum of its Legendre series -/
theorem series_poly : ∀ (N : Nat) (f : ℝ[X]), f.natDegree ≤ N → ∀ x, series (fun n => Legendre.integral (f * P n)) N x = f.eval x := by
  intro N
  induction N with
  | zero =>
    intro f hf x
    obtain ⟨c, rfl⟩ := natDegree_eq_zero.1 (Nat.le_zero.1 hf)
    simp only [series, zero_add, Finset.range_one, Finset.sum_singleton, Legendre.P_zero, mul_one, eval_one, eval_C]
    have := Legendre.norm_sq 0
    rw [Legendre.P_zero, mul_one] at this
    rw [show (C c : ℝ[X]) = C c * 1 by rw [mul_one], Legendre.integral_C_mul, this]
    push_cast
    ring
  | succ N ih =>
    intro f hf x
    have hl : (P (N + 1)).coeff (N + 1) ≠ 0 := by
      have := leadingCoeff_ne_zero.2 (Legendre.P_ne_zero (N + 1))
      rwa [leadingCoeff, natDegree_P] at this
    set a := f.coeff (N + 1) / (P (N + 1)).coeff (N + 1) with ha
    set r := f - C a * P (N + 1) with hr
    have hdr : r.natDegree ≤ N := by
      rw [natDegree_le_iff_coeff_eq_zero]
      intro k hk
      rcases Nat.lt_or_ge (N + 1) k with h | h
      · rw [hr, coeff_sub, coeff_C_mul, coeff_eq_zero_of_natDegree_lt (lt_of_le_of_lt hf h),
          coeff_eq_zero_of_natDegree_lt (p := P (N + 1)) (by rw [natDegree_P]; exact h)]
        ring
      · obtain rfl : k = N + 1 := by omega
        rw [hr, coeff_sub, coeff_C_mul, ha, div_mul_cancel₀ _ hl, sub_self]
    have hf' : f = r + C a * P (N + 1) := by rw [hr]; ring
    have hlow : ∀ n, n < N + 1 → Legendre.integral (f * P n) = Legendre.integral (r * P n) := by
      intro n hn
      rw [hf', add_mul, Legendre.integral_add, mul_assoc, Legendre.integral_C_mul, Legendre.orthogonal (by omega)]
      ring
    have htop : Legendre.integral (f * P (N + 1)) = a * (2 / (2 * ((N + 1 : ℕ) : ℝ) + 1)) := by
      rw [hf', add_mul, Legendre.integral_add, mul_assoc, Legendre.integral_C_mul, Legendre.norm_sq, mul_comm r,
        Legendre.orthogonal_lower (N + 1) r (by omega)]
      ring
    have hi := ih r hdr x
    unfold series at hi ⊢
    rw [Finset.sum_range_succ]
    dsimp only at hi ⊢
    rw [htop]
    have e : ∑ n ∈ Finset.range (N + 1), (2 * (n : ℝ) + 1) / 2 * Legendre.integral (f * P n) * eval x (P n) = eval x r := by
      rw [← hi]
      exact Finset.sum_congr rfl fun n hn => by rw [hlow n (by simpa using hn)]
    rw [e]
    conv_rhs => rw [hf']
    rw [eval_add, eval_mul, eval_C]
    have : (2 * ((N + 1 : ℕ) : ℝ) + 1) ≠ 0 := by positivity
    field_simp

theorem expansion_poly (f : ℝ[X]) (n : Nat) : expansion (fun β => f.eval (Real.cos β)) n = Legendre.integral (f * P n) := by
  unfold expansion
  rw [← subst_cos]
  simp [eval_mul]

/-- **C89** a distribution whose density is a polynomial in `cos β` of a degree below the order is evaluated exactly -/
theorem c89_density_partial {d : Orientation.Dist ℝ} {N : Nat} (hd : maximumOrder d = N + 1) (f : ℝ[X]) (hf : f.natDegree ≤ N)
    (hc : ∀ n ≤ N, getCoefficient d n = .ok (expansion (fun β => f.eval (Real.cos β)) n)) (theta : Input) :
    ∃ a, evaluate d theta = some a ∧ a.dims = [theta.vals.length].filter (· ≠ 1)
      ∧ ∀ i, ∀ th ∈ theta.vals[i]?, a.get (Table.sq [theta.vals.length] [i]) = some (f.eval (Real.cos th)) := by
  obtain ⟨a, h1, h2, h3⟩ := c89_evaluate_partial hd theta
  refine ⟨a, h1, h2, fun i th ht => ?_⟩
  rw [h3 i th ht, ← series_poly N f hf]
  congr 1
  refine Finset.sum_congr rfl fun n hn => ?_
  rw [coef_of (hc n (by have := Finset.mem_range.1 hn; omega)), expansion_poly]

/-- **C89** `MishchenkoOrientationDistribution` of an order of at least 3: the value is its density -/
theorem c89_mishchenko {order : Nat} (ho : 3 ≤ order) (c : ℝ) (theta : Input) :
    ∃ d a, mishchenko order c = .ok d ∧ evaluate d theta = some a ∧ a.dims = [theta.vals.length].filter (· ≠ 1)
      ∧ ∀ i, ∀ th ∈ theta.vals[i]?, a.get (Table.sq [theta.vals.length] [i]) = some (mishchenkoP c th (Real.cos th) (Real.sin th)) := by
  obtain ⟨d, h1, -, h2, h3⟩ := (c39_mishchenko_coefficients order c).1 (by omega)
  let f : ℝ[X] := C (1 / 2 - 5 / 4 * p2 c) + C (15 / 4 * p2 c) * X ^ 2
  have hf : ∀ β : ℝ, f.eval (Real.cos β) = mishchenkoP c β (Real.cos β) (Real.sin β) := by
    intro β
    simp only [f, mishchenkoP, eval_add, eval_mul, eval_C, eval_pow, eval_X]
    ring
  have hdeg : f.natDegree ≤ order - 1 := by
    have : f.natDegree ≤ 2 := by
      refine (natDegree_add_le _ _).trans (max_le (by rw [natDegree_C]; omega) ?_)
      exact (natDegree_C_mul_le _ _).trans (by simp)
    omega
  obtain ⟨a, h4, h5, h6⟩ := c89_density_partial (N := order - 1) (d := d) (by omega) f hdeg
    (fun n hn => by rw [h3 n (by omega)]; simp only [hf]) theta
  exact ⟨d, a, h1, h4, h5, fun i th ht => by rw [h6 i th ht, hf]⟩

/-- **C89** the returned values, as a function of the angle, have the same expansion coefficients as the distribution, up to one order less than its maximum order.
In particular they integrate to 1. -/
theorem c89_coefficients {d : Orientation.Dist ℝ} {N : Nat} (hd : maximumOrder d = N + 1) (v : ℝ → ℝ) (hv : ∀ θ, evaluateAt d θ = some (v θ)) (n : Nat) :
    expansion v n = if n ≤ N then d.coef n else 0 := by
  have e : v = fun θ => (∑ k ∈ Finset.range (N + 1), C ((2 * (k : ℝ) + 1) / 2 * d.coef k) * P k).eval (Real.cos θ) := by
    funext θ
    have h := hv θ
    rw [evaluateAt_spec hd] at h
    rw [← Option.some.inj h]
    simp only [series, eval_finsetSum, eval_mul, eval_C]
  rw [e, expansion_poly, Finset.sum_mul, Legendre.integral_sum]
  simp only [mul_assoc, Legendre.integral_C_mul]
  split_ifs with hn
  · rw [Finset.sum_eq_single n (fun k _ hk => by rw [Legendre.orthogonal hk, mul_zero, mul_zero])
      (fun h => absurd (Finset.mem_range.2 (by omega)) h), Legendre.norm_sq]
    have : (2 * (n : ℝ) + 1) ≠ 0 := by positivity
    field_simp
  · exact Finset.sum_eq_zero fun k hk => by
      rw [Legendre.orthogonal (by have := Finset.mem_range.1 hk; omega), mul_zero, mul_zero]

/-- **C89 is violated**: the term of the maximum order is left out.  Whenever that coefficient is not zero, the value for the direction of the axis is wrong. -/
theorem c89_violated_last {d : Orientation.Dist ℝ} {N : Nat} (hd : maximumOrder d = N + 1) (hc : d.coef (N + 1) ≠ 0) :
    ∃ v, evaluateAt d 0 = some v ∧ v ≠ series d.coef (maximumOrder d) (Real.cos 0) := by
  refine ⟨_, evaluateAt_spec hd 0, ?_⟩
  rw [hd]
  unfold series
  rw [Finset.sum_range_succ _ (N + 1), Real.cos_zero, Legendre.P_eval_one]
  have : (2 * ((N + 1 : ℕ) : ℝ) + 1) / 2 * d.coef (N + 1) ≠ 0 := mul_ne_zero (by positivity) hc
  intro h
  apply this
  linarith

/-- **C89 is violated** by a distribution of Mishchenko of order 2, which is shown as a distribution without any alignment -/
theorem c89_violated_mishchenko (c : ℝ) (h : c ≠ 1 / 3) :
    ∃ d, mishchenko 2 c = .ok d ∧ (∀ θ, evaluateAt d θ = some (1 / 2)) ∧ mishchenkoP c 0 (Real.cos 0) (Real.sin 0) ≠ 1 / 2 := by
  obtain ⟨d, h1, -, h2, h3⟩ := (c39_mishchenko_coefficients 2 c).1 le_rfl
  have c0 := coef_of (h3 0 (by omega))
  have c1 := coef_of (h3 1 (by omega))
  rw [expansion_mishchenko] at c0 c1
  refine ⟨d, h1, fun θ => ?_, ?_⟩
  · rw [evaluateAt_spec (N := 1) (by rw [h2])]
    simp [series, Finset.sum_range_succ, c0, c1, Legendre.P_zero]
  · simp only [mishchenkoP, p2, Real.cos_zero]
    intro h'
    apply h
    linarith

/-- **C89 is violated** by every distribution of order 0 (which can be created): undefined behaviour -/
theorem c89_violated_zero {d : Orientation.Dist ℝ} (hd : maximumOrder d = 0) (θ : ℝ) : evaluateAt d θ = none := by
  unfold evaluateAt
  dsimp only
  rw [if_pos hd]

example (axisRatio : ℝ) : maximumOrder (davisGreenstein 0 axisRatio) = 0 := by
  unfold davisGreenstein maximumOrder base
  dsimp only
  split_ifs <;> rfl

example : maximumOrder (davisGreenstein 100 (2 : ℝ)) = 99 + 1 := by
  unfold davisGreenstein maximumOrder base
  dsimp only
  split_ifs <;> rfl

/-- a distribution of perfectly aligned oblate grains, of any order that is not 0 -/
example (N : Nat) : ∃ v, evaluateAt (davisGreenstein (N + 1) 2) 0 = some v
    ∧ v ≠ series (davisGreenstein (N + 1) 2).coef (maximumOrder (davisGreenstein (N + 1) (2 : ℝ))) (Real.cos 0) := by
  obtain ⟨-, h, -, h2⟩ := c39_davis_greenstein (N + 1) 2
  refine c89_violated_last h ?_
  rw [coef_of (h2 (by norm_num) (N + 1) le_rfl), Legendre.P_eval_one]
  exact one_ne_zero

end Verif.Python
