import Verif.Model.Calculator
import Verif.Spec.Calculator
import Verif.Properties.Alignment
import Mathlib.Tactic.Linarith
import Mathlib.Tactic.Positivity

/-!
# C38, C57: the stand-alone T-matrix calculation

* C38: with a first guess below the maximum order and a tolerance below 1, the order of the result is the first one that meets
  the tolerance, and then the number of quadrature points is the first one that meets it. But an order (a number of points)
  that meets the tolerance as the last one tried is reported as a failure, a first guess above the maximum order is accepted
  without any check, and if both loops are skipped a null pointer is followed.
* C57: the stand-alone average over the orientations is the same as that of the tasks, and all its accesses are in bounds.
-/
namespace Verif.Calculator

open Finset Verif.Matrix
open Verif.TMatrix (TRes)
open Verif.Quadrature (relExceeds)
open Spec

theorem factors_eq (nmax : Nat) (T : TRes ℂ ℝ) : factors nmax T = (scaFactor nmax T, extFactor nmax T) := by
  unfold factors
  refine (loop_inv (σ := ℝ × ℝ) (fun k q => q = (scaFactor (k - 1) T, extFactor (k - 1) T)) (show 1 ≤ nmax + 1 by omega) _ (0, 0) ?_ ?_).trans ?_
  · simp [scaFactor, extFactor]
  · rintro k q h1 _ rfl
    obtain ⟨k, rfl⟩ : ∃ j, k = j + 1 := ⟨k - 1, by omega⟩
    simp only [Nat.add_sub_cancel]
    unfold scaFactor extFactor
    rw [sum_Icc_succ_top (by omega), sum_Icc_succ_top (by omega)]
    simp only [Complex.normSq_eq_norm_sq]
    try push_cast
    try rfl
  · rw [Nat.add_sub_cancel]

theorem exceeds_iff (tol old new : ℝ) : relExceeds |old - new| new tol = false ↔ |old - new| ≤ tol * |new| := by
  unfold relExceeds
  by_cases h : new = 0
  · rw [if_pos h, h]
    simp
  · rw [if_neg h, decide_eq_false_iff_not, not_lt, div_le_iff₀ (abs_pos.mpr h)]

/-- one pass of a loop: the new factors, and whether they are close to the old ones -/
theorem step_spec (tol : ℝ) (n : Nat) (T : TRes ℂ ℝ) (s : St) :
    (step tol n T s).T = some T ∧ (step tol n T s).qsca = scaFactor n T ∧ (step tol n T s).qext = extFactor n T
    ∧ ((step tol n T s).go = false ↔ Close tol (s.qsca, s.qext) (scaFactor n T, extFactor n T)) := by
  unfold step
  rw [factors_eq]
  refine ⟨rfl, rfl, rfl, ?_⟩
  dsimp only
  rw [Bool.or_eq_false_iff, exceeds_iff, exceeds_iff, and_comm]
  rfl

/-- the state after `k` passes -/
def passes (body : Nat → St → St) (i : Nat) (s : St) : Nat → St
  | 0 => s
  | k + 1 => body (i + k) (passes body i s k)

theorem passes_succ (body : Nat → St → St) (i : Nat) (s : St) (k : Nat) :
    passes body (i + 1) (body i s) k = passes body i s (k + 1) := by
  induction k with
  | zero => rfl
  | succ k ih =>
    rw [passes, ih]
    conv_rhs => rw [passes]
    rw [show i + 1 + k = i + (k + 1) by omega]

/-- a loop ends after the first pass that clears the flag, or at its limit -/
theorem search_spec (body : Nat → St → St) (left i : Nat) (s : St) :
    ∃ k, k ≤ left ∧ search body left i s = (i + k, passes body i s k) ∧ (∀ j, j < k → (passes body i s j).go = true)
      ∧ (k < left → (passes body i s k).go = false) := by
  induction left generalizing i s with
  | zero => exact ⟨0, le_rfl, rfl, fun j hj => by omega, fun h => by omega⟩
  | succ left ih =>
    unfold search
    by_cases h : s.go = true
    · rw [if_pos h]
      obtain ⟨k, h1, h2, h3, h4⟩ := ih (i + 1) (body i s)
      refine ⟨k + 1, by omega, ?_, ?_, ?_⟩
      · rw [h2, passes_succ, show i + 1 + k = i + (k + 1) by omega]
      · intro j hj
        cases j with
        | zero => exact h
        | succ j =>
          rw [← passes_succ]
          exact h3 j (by omega)
      · intro hk
        rw [← passes_succ]
        exact h4 (by omega)
    · rw [if_neg h]
      refine ⟨0, by omega, rfl, fun j hj => by omega, fun _ => ?_⟩
      simpa [passes] using h

section
variable (make : Nat → Nat → TRes ℂ ℝ) (complete : TRes ℂ ℝ → TRes ℂ ℝ) (n0 maxOrder ndgs maxGauss : Nat) (tol : ℝ)

/-- the first loop -/
noncomputable abbrev body1 : Nat → St → St := fun nmax s => step tol nmax (make nmax (ndgs * nmax)) s

/-- the second loop -/
noncomputable abbrev body2 (n : Nat) : Nat → St → St := fun g s => step tol n (make n g) s

noncomputable abbrev s0 : St := { T := none, qsca := 0, qext := 0, go := decide (1 > tol) }

theorem passes1 (k : Nat) :
    (passes (body1 make ndgs tol) n0 (s0 tol) (k + 1)).T = some (make (n0 + k) (ndgs * (n0 + k)))
    ∧ ((passes (body1 make ndgs tol) n0 (s0 tol) (k + 1)).qsca, (passes (body1 make ndgs tol) n0 (s0 tol) (k + 1)).qext)
        = orderFactors make ndgs (n0 + k)
    ∧ ((passes (body1 make ndgs tol) n0 (s0 tol) (k + 1)).go = false ↔ OrderMeets make ndgs n0 tol (n0 + k)) := by
  obtain ⟨a, b, c, d⟩ := step_spec tol (n0 + k) (make (n0 + k) (ndgs * (n0 + k))) (passes (body1 make ndgs tol) n0 (s0 tol) k)
  have e : ((passes (body1 make ndgs tol) n0 (s0 tol) k).qsca, (passes (body1 make ndgs tol) n0 (s0 tol) k).qext) = before make ndgs n0 (n0 + k) := by
    unfold before
    cases k with
    | zero =>
      rw [if_pos (by omega)]
      rfl
    | succ k =>
      obtain ⟨_, b, c, _⟩ := step_spec tol (n0 + k) (make (n0 + k) (ndgs * (n0 + k))) (passes (body1 make ndgs tol) n0 (s0 tol) k)
      rw [if_neg (by omega), show n0 + (k + 1) - 1 = n0 + k by omega]
      exact Prod.ext b c
  rw [e] at d
  exact ⟨a, Prod.ext b c, d⟩

theorem passes2 (n : Nat) (s : St) (hs : (s.qsca, s.qext) = orderFactors make ndgs n) (k : Nat) :
    (passes (body2 make tol n) (n * ndgs + 1) s (k + 1)).T = some (make n (n * ndgs + 1 + k))
    ∧ ((passes (body2 make tol n) (n * ndgs + 1) s (k + 1)).go = false ↔ PointsMeet make tol n (n * ndgs + 1 + k)) := by
  obtain ⟨a, b, c, d⟩ := step_spec tol n (make n (n * ndgs + 1 + k)) (passes (body2 make tol n) (n * ndgs + 1) s k)
  refine ⟨a, d.trans ?_⟩
  unfold PointsMeet
  have e : ((passes (body2 make tol n) (n * ndgs + 1) s k).qsca, (passes (body2 make tol n) (n * ndgs + 1) s k).qext)
      = (scaFactor n (make n (n * ndgs + 1 + k - 1)), extFactor n (make n (n * ndgs + 1 + k - 1))) := by
    cases k with
    | zero =>
      rw [show n * ndgs + 1 + 0 - 1 = ndgs * n by rw [Nat.mul_comm]; omega]
      exact hs
    | succ k =>
      obtain ⟨_, b, c, _⟩ := step_spec tol n (make n (n * ndgs + 1 + k)) (passes (body2 make tol n) (n * ndgs + 1) s k)
      exact Prod.ext b c
  rw [e]

/-- the second part of the function, after the first loop -/
noncomputable def second (n : Nat) (s : St) : Outcome :=
  let r := search (body2 make tol n) (maxGauss - (n * ndgs + 1)) (n * ndgs + 1) { s with go := decide (tol + 1 > tol) }
  if r.1 = maxGauss then .error
  else
    match r.2.T with
    | none => .null
    | some T => .ok (complete T)

theorem second_spec (n : Nat) (s : St) (hs : (s.qsca, s.qext) = orderFactors make ndgs n) :
    (∃ g, First (PointsMeet make tol n) (n * ndgs + 1) g ∧ g + 1 < maxGauss
        ∧ second make complete ndgs maxGauss tol n s = .ok (complete (make n g)))
    ∨ ((∀ g, n * ndgs + 1 ≤ g → g + 1 < maxGauss → ¬ PointsMeet make tol n g) ∧ n * ndgs + 1 ≤ maxGauss
        ∧ second make complete ndgs maxGauss tol n s = .error)
    ∨ (maxGauss < n * ndgs + 1
        ∧ second make complete ndgs maxGauss tol n s = match s.T with | none => .null | some T => .ok (complete T)) := by
  obtain ⟨k, h1, h2, h3, h4⟩ := search_spec (body2 make tol n) (maxGauss - (n * ndgs + 1)) (n * ndgs + 1)
    { s with go := decide (tol + 1 > tol) }
  have hgo : decide (tol + 1 > tol) = true := by simp
  unfold second
  dsimp only
  rw [h2]
  dsimp only
  have P := passes2 make ndgs tol n { s with go := decide (tol + 1 > tol) } hs
  by_cases hm : maxGauss < n * ndgs + 1
  · refine Or.inr (Or.inr ⟨hm, ?_⟩)
    obtain rfl : k = 0 := by omega
    rw [if_neg (by omega)]
    rfl
  · by_cases he : n * ndgs + 1 + k = maxGauss
    · refine Or.inr (Or.inl ⟨?_, by omega, if_pos he⟩)
      intro g hg1 hg2 hc
      obtain ⟨j, rfl⟩ : ∃ j, g = n * ndgs + 1 + j := ⟨g - (n * ndgs + 1), by omega⟩
      have := h3 (j + 1) (by omega)
      rw [(P j).2.mpr hc] at this
      exact Bool.noConfusion this
    · have hk : k < maxGauss - (n * ndgs + 1) := by omega
      have h4 := h4 hk
      cases k with
      | zero =>
        exfalso
        change decide (tol + 1 > tol) = false at h4
        rw [hgo] at h4
        exact Bool.noConfusion h4
      | succ k =>
        refine Or.inl ⟨n * ndgs + 1 + k, ⟨by omega, (P k).2.mp h4, ?_⟩, by omega, ?_⟩
        · intro g hg1 hg2 hc
          obtain ⟨j, rfl⟩ : ∃ j, g = n * ndgs + 1 + j := ⟨g - (n * ndgs + 1), by omega⟩
          have := h3 (j + 1) (by omega)
          rw [(P j).2.mpr hc] at this
          exact Bool.noConfusion this
        · rw [if_neg he, (P k).1]

theorem calculate_eq :
    calculate make complete n0 maxOrder ndgs maxGauss tol
      = if (search (body1 make ndgs tol) (maxOrder - n0) n0 (s0 tol)).1 = maxOrder then .error
        else second make complete ndgs maxGauss tol ((search (body1 make ndgs tol) (maxOrder - n0) n0 (s0 tol)).1 - 1)
          (search (body1 make ndgs tol) (maxOrder - n0) n0 (s0 tol)).2 := rfl

theorem first_spec (htol : tol < 1) (hn : n0 ≤ maxOrder) :
    (∃ n s, First (OrderMeets make ndgs n0 tol) n0 n ∧ n + 1 < maxOrder ∧ (s.qsca, s.qext) = orderFactors make ndgs n
        ∧ s.T = some (make n (ndgs * n))
        ∧ calculate make complete n0 maxOrder ndgs maxGauss tol = second make complete ndgs maxGauss tol n s)
    ∨ ((∀ n, n0 ≤ n → n + 1 < maxOrder → ¬ OrderMeets make ndgs n0 tol n)
        ∧ calculate make complete n0 maxOrder ndgs maxGauss tol = .error) := by
  rw [calculate_eq]
  obtain ⟨k, h1, h2, h3, h4⟩ := search_spec (body1 make ndgs tol) (maxOrder - n0) n0 (s0 tol)
  rw [h2]
  dsimp only
  by_cases he : n0 + k = maxOrder
  · refine Or.inr ⟨?_, if_pos he⟩
    intro n hn1 hn2 hc
    obtain ⟨j, rfl⟩ : ∃ j, n = n0 + j := ⟨n - n0, by omega⟩
    have := h3 (j + 1) (by omega)
    rw [(passes1 make n0 ndgs tol j).2.2.mpr hc] at this
    exact Bool.noConfusion this
  · rw [if_neg he]
    have h4 := h4 (by omega)
    cases k with
    | zero =>
      exfalso
      change decide (1 > tol) = false at h4
      rw [decide_eq_true htol] at h4
      exact Bool.noConfusion h4
    | succ k =>
      obtain ⟨p1, p2, p3⟩ := passes1 make n0 ndgs tol k
      refine Or.inl ⟨n0 + k, _, ⟨by omega, p3.mp h4, ?_⟩, by omega, p2, p1, rfl⟩
      intro n hn1 hn2 hc
      obtain ⟨j, rfl⟩ : ∃ j, n = n0 + j := ⟨n - n0, by omega⟩
      have := h3 (j + 1) (by omega)
      rw [(passes1 make n0 ndgs tol j).2.2.mpr hc] at this
      exact Bool.noConfusion this

/-- **C38** (partial: for first guesses up to the maximum order and tolerances below 1; the negations are below) For every
way the matrices depend on order and number of points: if a T-matrix is returned, its order is the first one that meets the
tolerance, and its number of quadrature points is the first one that meets the tolerance, or, when there is no room for a
single additional point, `ndgs` per order. If the error is reported, then no order below the last one tried meets the
tolerance, or no number of points below the last one tried does. No null pointer is followed. -/
theorem c38_partial (htol : tol < 1) (hn : n0 ≤ maxOrder) :
    (∃ n, First (OrderMeets make ndgs n0 tol) n0 n ∧ n + 1 < maxOrder ∧
      ((∃ g, First (PointsMeet make tol n) (n * ndgs + 1) g ∧ g + 1 < maxGauss
          ∧ calculate make complete n0 maxOrder ndgs maxGauss tol = .ok (complete (make n g)))
      ∨ (maxGauss ≤ n * ndgs ∧ calculate make complete n0 maxOrder ndgs maxGauss tol = .ok (complete (make n (n * ndgs))))
      ∨ ((∀ g, n * ndgs < g → g + 1 < maxGauss → ¬ PointsMeet make tol n g) ∧ n * ndgs < maxGauss
          ∧ calculate make complete n0 maxOrder ndgs maxGauss tol = .error)))
    ∨ ((∀ n, n0 ≤ n → n + 1 < maxOrder → ¬ OrderMeets make ndgs n0 tol n)
        ∧ calculate make complete n0 maxOrder ndgs maxGauss tol = .error) := by
  rcases first_spec make complete n0 maxOrder ndgs maxGauss tol htol hn with ⟨n, s, h1, h2, h3, h4, h5⟩ | h
  · refine Or.inl ⟨n, h1, h2, ?_⟩
    rw [h5]
    rcases second_spec make complete ndgs maxGauss tol n s h3 with ⟨g, g1, g2, g3⟩ | ⟨g1, g2, g3⟩ | ⟨g1, g2⟩
    · exact Or.inl ⟨g, g1, g2, g3⟩
    · exact Or.inr (Or.inr ⟨fun g hg => g1 g hg, by omega, g3⟩)
    · refine Or.inr (Or.inl ⟨by omega, ?_⟩)
      rw [g2, h4, Nat.mul_comm n ndgs]
  · exact Or.inr h

/-- **C38** success, exactly: with room for additional points, a T-matrix is returned if and only if an order meets the
tolerance before the last one that is tried, and then a number of points does -/
theorem c38_success (htol : tol < 1) (hn : n0 ≤ maxOrder) (hg : ∀ n, n < maxOrder → n * ndgs < maxGauss) (T : TRes ℂ ℝ) :
    calculate make complete n0 maxOrder ndgs maxGauss tol = .ok T
      ↔ ∃ n g, First (OrderMeets make ndgs n0 tol) n0 n ∧ n + 1 < maxOrder
        ∧ First (PointsMeet make tol n) (n * ndgs + 1) g ∧ g + 1 < maxGauss ∧ T = complete (make n g) := by
  have uniq : ∀ {P : Nat → Prop} {lo a b : Nat}, First P lo a → First P lo b → a = b := by
    intro P lo a b ha hb
    rcases lt_trichotomy a b with h | h | h
    · exact absurd ha.2.1 (hb.2.2 a ha.1 h)
    · exact h
    · exact absurd hb.2.1 (ha.2.2 b hb.1 h)
  rcases c38_partial make complete n0 maxOrder ndgs maxGauss tol htol hn with ⟨n, h1, h2, h⟩ | ⟨h1, h2⟩
  · rcases h with ⟨g, g1, g2, g3⟩ | ⟨g1, g2⟩ | ⟨g1, g2, g3⟩
    · rw [g3]
      constructor
      · intro e
        cases e
        exact ⟨n, g, h1, h2, g1, g2, rfl⟩
      · rintro ⟨n', g', a1, a2, a3, a4, a5⟩
        obtain rfl := uniq h1 a1
        obtain rfl := uniq g1 a3
        rw [a5]
    · exact absurd (hg n (by omega)) (by omega)
    · rw [g3]
      constructor
      · intro e; cases e
      · rintro ⟨n', g', a1, a2, a3, a4, a5⟩
        obtain rfl := uniq h1 a1
        exact absurd a3.2.1 (g1 g' a3.1 a4)
  · rw [h2]
    constructor
    · intro e; cases e
    · rintro ⟨n', g', a1, a2, a3, a4, a5⟩
      exact absurd a1.2.1 (h1 n' a1.1 a2)

/-- **C38** (negation 1) if the last order that is tried is the first one that meets the tolerance, the calculation is
reported as not converged -/
theorem c38_violated_last (htol : tol < 1) (h : First (OrderMeets make ndgs n0 tol) n0 (maxOrder - 1)) (hn : n0 < maxOrder) :
    calculate make complete n0 maxOrder ndgs maxGauss tol = .error := by
  rcases first_spec make complete n0 maxOrder ndgs maxGauss tol htol (by omega) with ⟨n, s, h1, h2, _⟩ | h'
  · exact absurd h1.2.1 (h.2.2 n h1.1 (by omega))
  · exact h'.2

/-- **C38** (negation 2) a first guess above the maximum order is never compared with anything: no T-matrix of that order is
computed, and the result has one order less than the first guess, which exceeds or equals the maximum -/
theorem c38_violated_above (hn : maxOrder < n0) :
    calculate make complete n0 maxOrder ndgs maxGauss tol
        = second make complete ndgs maxGauss tol (n0 - 1) (s0 tol) := by
  rw [calculate_eq, show maxOrder - n0 = 0 by omega]
  rw [show search (body1 make ndgs tol) 0 n0 (s0 tol) = (n0, s0 tol) from rfl]
  dsimp only
  rw [if_neg (by omega)]

/-- **C38** (negation 3) with a first guess above the maximum order and too few points, a null pointer is followed -/
theorem c38_violated_null (hn : maxOrder < n0) (hg : maxGauss ≤ (n0 - 1) * ndgs) :
    calculate make complete n0 maxOrder ndgs maxGauss tol = .null := by
  rw [c38_violated_above make complete n0 maxOrder ndgs maxGauss tol hn]
  unfold second
  rw [show maxGauss - ((n0 - 1) * ndgs + 1) = 0 by omega]
  dsimp only [search]
  rw [if_neg (by omega)]

/-- **C38** (negation 4) a tolerance of 1 or more: no order is compared with the tolerance, and the result is not of the first
guess for the order but of one less -/
theorem c38_violated_tolerance (htol : 1 ≤ tol) (hn : n0 ≠ maxOrder) :
    calculate make complete n0 maxOrder ndgs maxGauss tol = second make complete ndgs maxGauss tol (n0 - 1) (s0 tol) := by
  rw [calculate_eq]
  have : search (body1 make ndgs tol) (maxOrder - n0) n0 (s0 tol) = (n0, s0 tol) := by
    have hf : (s0 tol).go = false := by
      change decide (1 > tol) = false
      rw [decide_eq_false_iff_not, not_lt]
      exact htol
    cases maxOrder - n0 with
    | zero => rfl
    | succ l =>
      unfold search
      rw [hf]
      rfl
  rw [this]
  dsimp only
  rw [if_neg hn]

end

/-- the first guess is 4 or more, and grows with the size of the particle relative to the wavelength -/
theorem c38_start (ratioOf : ℝ → ℝ) (ratio axisRatio axi wavelength : ℝ) : 4 ≤ startOrder ratioOf ratio axisRatio axi wavelength := by
  unfold startOrder
  apply Nat.le_floor
  simp

/-- the first guess: the radius of the sphere of equal volume is the given radius if the given ratio is 1, else it is computed
from the radius of the sphere of equal surface area -/
theorem c38_start_ratio (ratioOf : ℝ → ℝ) (axisRatio axi wavelength : ℝ) (h : 0 ≤ axi) (hw : 0 < wavelength) :
    2 * Real.pi * axi / wavelength < startOrder ratioOf 1 axisRatio axi wavelength + 1
    ∧ ∀ ratio, 1 / 10 ^ 8 < |ratio - 1| → 0 ≤ ratioOf axisRatio →
        2 * Real.pi * (ratioOf axisRatio * axi) / wavelength < startOrder ratioOf ratio axisRatio axi wavelength + 1 := by
  have key : ∀ x : ℝ, 0 ≤ x → x < (⌊max 4 (x + 405 / 100 * x ^ ((1 : ℝ) / 3))⌋₊ : ℝ) + 1 := by
    intro x hx
    refine lt_of_le_of_lt ?_ (Nat.lt_floor_add_one _)
    refine le_trans ?_ (le_max_right _ _)
    have := Real.rpow_nonneg hx (1 / 3 : ℝ)
    linarith
  have pi := Real.pi_pos
  refine ⟨?_, ?_⟩
  · unfold startOrder
    dsimp only
    rw [if_neg (by norm_num), one_mul]
    exact key _ (by positivity)
  · intro ratio hr h0
    unfold startOrder
    dsimp only
    rw [if_pos hr]
    exact key _ (by positivity)

/-! ### the average over the orientations -/

section
open Verif.Clebsch Verif.TMatrix Verif.Alignment

variable {K : Type} [Field K]

/-- body of the loop over the elements: bounds, and the new elements -/
theorem average_spec (ι : ℝ →+* K) (inp : TRes K ℝ) {m n1 n2 : Nat} (hm : m ≤ min n1 n2) (s : State K ℝ) :
    ∃ b : Block K, (average Real.sqrt (⇑ι) inp m n1 n2 s).out = set4 s.out m n1 n2 b
    ∧ (average Real.sqrt (⇑ι) inp m n1 n2 s).C.ok = s.C.ok
    ∧ (average Real.sqrt (⇑ι) inp m n1 n2 s).p.size = s.p.size ∧ (average Real.sqrt (⇑ι) inp m n1 n2 s).p.v = s.p.v
    ∧ (average Real.sqrt (⇑ι) inp m n1 n2 s).p.ok = (s.p.ok && decide ((n1 : Int) + n2 < s.p.size))
    ∧ ∀ i j, i < 2 → j < 2 → b.at i j = ∑ N ∈ Icc (if n1 > n2 then n1 - n2 else n2 - n1) (n1 + n2),
        ∑ m1 ∈ range (min n1 n2 + 1), term ι (s.p.v N) inp i n1 j n2 N m m1 := by
  generalize hlo : (if n1 > n2 then n1 - n2 else n2 - n1) = lo
  have hlo1 : n1 ≤ n2 + lo ∧ n2 ≤ n1 + lo ∧ lo ≤ n1 + n2 := by
    rw [← hlo]; split <;> omega
  have L := loop_inv (σ := Vec ℝ × Vec ℝ × Block K)
    (fun k r => r.1.ok = s.C.ok
      ∧ r.2.1.size = s.p.size ∧ r.2.1.v = s.p.v
      ∧ (lo < k → r.2.1.ok = (s.p.ok && decide ((k : Int) ≤ s.p.size))) ∧ (k ≤ lo → r.2.1.ok = s.p.ok)
      ∧ ∀ i j, i < 2 → j < 2 → r.2.2.at i j = ∑ N ∈ Ico lo k,
        ∑ m1 ∈ range (min n1 n2 + 1), term ι (s.p.v N) inp i n1 j n2 N m m1)
    (show lo ≤ n1 + n2 + 1 by omega) (fun N => addOrder Real.sqrt (⇑ι) inp m n1 n2 N) (s.C, s.p, (⟨0, 0, 0, 0⟩ : Block K))
    ⟨rfl, rfl, rfl, fun h => by omega, fun _ => rfl, fun i j _ _ => by simp [Block.at]⟩ (by
    rintro N ⟨C, p, b⟩ hN1 hN2 ⟨c1, c4, c5, c6, c7, c8⟩
    dsimp only at c1 c4 c5 c6 c7 c8
    have Tr : Triangle n1 n2 N := triangle (by omega) (by omega) (by omega)
    obtain ⟨q1, q2, q3⟩ := c65_coefficients Tr ⟨((N + 1) * (2 * n1 + 1) : Nat), fun _ => 0, C.ok⟩
    have hB : 2 * min (n1 : Int) n2 + 1 ≤ ((N : Int) + 1) * (2 * n1 + 1) := by
      have : (0 : Int) ≤ N * (2 * n1 + 1) := by positivity
      have e : ((N : Int) + 1) * (2 * n1 + 1) = N * (2 * n1 + 1) + (2 * n1 + 1) := by ring
      omega
    obtain ⟨t1, t2, t3⟩ := terms_spec ι inp (m := m) (s.p.v N) ⟨((N + 1) * (2 * n1 + 1) : Nat), fun _ => 0, C.ok⟩ _ ⟨q2, q1⟩ hB hm q3 b
    unfold addOrder Alignment.addOrder
    dsimp only
    rw [show (p.touch N).v N = s.p.v N by rw [Vec.touch_v, c5]]
    refine ⟨?_, c4, c5, fun _ => ?_, fun h => by omega, ?_⟩
    · rw [t1.2, ← c1]
      dsimp only
      push_cast
      simp
    · change (p.ok && decide (0 ≤ (N : Int) ∧ (N : Int) < p.size)) = _
      rw [c4]
      push_cast
      by_cases h : lo < N
      · rw [c6 h, Bool.and_assoc]
        congr 1
        by_cases h' : (N : Int) + 1 ≤ s.p.size
        · have h1 : (N : Int) ≤ s.p.size := by omega
          have h2 : (0 ≤ (N : Int) ∧ (N : Int) < s.p.size) := by omega
          simp [h1, h', h2]
        · have h2 : ¬ (N : Int) < s.p.size := by omega
          simp [h', h2]
      · rw [c7 (by omega)]
        congr 1
        apply decide_eq_decide.mpr
        omega
    · intro i j hi hj
      rw [t3 i j hi hj, c8 i j hi hj, sum_Ico_succ_top hN1])
  unfold average
  rw [hlo]
  dsimp only
  generalize loop lo (n1 + n2 + 1) (fun N => addOrder Real.sqrt (⇑ι) inp m n1 n2 N) (s.C, s.p, (⟨0, 0, 0, 0⟩ : Block K)) = r at L ⊢
  obtain ⟨c1, c4, c5, c6, c7, c8⟩ := L
  refine ⟨r.2.2, rfl, c1, c4, c5, ?_, ?_⟩
  · rw [c6 (by omega)]
    congr 1
  · intro i j hi hj
    rw [c8 i j hi hj]
    apply sum_congr _ fun _ _ => rfl
    ext x
    simp only [mem_Ico, mem_Icc]
    omega

/-- **C57** stand-alone: every element of the ensemble T-matrix is the average of Mishchenko (1991), eq. 3.27, the same as
that of the tasks; the vectors for the Clebsch-Gordan coefficients are never accessed outside their bounds, and the expansion
coefficients are not if there are `2 nmax + 1` of them. -/
theorem c57_standalone (ι : ℝ →+* K) (inp : TRes K ℝ) {maxOrder : Nat} (hs : inp.Shape maxOrder) (ho : inp.nmax ≤ maxOrder)
    (p : Vec ℝ) (T : Nat → Nat → Int → Nat → Nat → K) (hA : Axisymmetric T) (hS : Stores inp T) :
    (∀ {i n1 m j n2 : Nat}, Valid inp.nmax i n1 m → Valid inp.nmax j n2 m →
      (applyOrientation Real.sqrt (⇑ι) inp p).out.get i n1 m j n2 = averaged (⇑ι) p.v T i n1 m j n2)
    ∧ (applyOrientation Real.sqrt (⇑ι) inp p).out.nmax = inp.nmax
    ∧ (applyOrientation Real.sqrt (⇑ι) inp p).C.ok = true
    ∧ (1 ≤ inp.nmax → (applyOrientation Real.sqrt (⇑ι) inp p).p.ok = (p.ok && decide (2 * (inp.nmax : Int) < p.size))) := by
  have key := elements_spec (fun s1 => s1.p.v = p.v ∧ s1.C.ok = true) ho
    (fun i n1 m j n2 => ∑ N ∈ Icc (if n1 > n2 then n1 - n2 else n2 - n1) (n1 + n2),
        ∑ m1 ∈ range (min n1 n2 + 1), term ι (p.v N) inp i n1 j n2 N m m1)
    (average Real.sqrt (⇑ι) inp) { C := ⟨0, fun _ => 0, true⟩, p := p, out := inp } hs ⟨rfl, rfl⟩ rfl (by
    intro m n1 n2 s1 a1 a2 a3 a4 hI
    obtain ⟨b, b1, b2, _, b5, _, b7⟩ := average_spec ι inp (m := m) (n1 := n1) (n2 := n2) (by omega) s1
    rw [hI.1] at b5 b7
    exact ⟨⟨b5, b2.trans hI.2⟩, b, b1, b7⟩)
  refine ⟨?_, key.2.1, key.1.2.2, ?_⟩
  · intro i n1 m j n2 hv hv'
    unfold applyOrientation
    rw [key.2.2 i n1 m j n2 hv hv' trivial]
    exact averaged_eq ι p.v inp T hA hS hv hv'
  · intro h1
    have := elements_and (nmax := inp.nmax) h1 (fun s' => s'.p.ok) (fun s' => s'.p.size = p.size)
      (fun n1 n2 => decide ((n1 : Int) + n2 < p.size))
      (average Real.sqrt (⇑ι) inp) { C := ⟨0, fun _ => 0, true⟩, p := p, out := inp } rfl (by
      intro m n1 n2 s1 a1 a2 a3 a4 hI
      obtain ⟨b, _, _, b4, _, b6, _⟩ := average_spec ι inp (m := m) (n1 := n1) (n2 := n2) (by omega) s1
      rw [hI] at b4 b6
      exact ⟨b4, b6⟩) (by
      intro h n1 n2 a1 a2
      rw [decide_eq_true_eq] at h ⊢
      omega)
    unfold applyOrientation
    rw [this]
    congr 2
    rw [show (inp.nmax : Int) + inp.nmax = 2 * inp.nmax by ring]

/-- the T-matrix of order 1 of `Verif.Alignment`, stored in matrices of the shape the program uses -/
def Rex1 : TRes ℂ ℝ :=
  ⟨1, 0, fun m => ⟨2 * (1 + 1 - m), 2 * (1 + 1 - m), fun k => Tex (k / (2 * (1 + 1 - m))) 1 m (k % (2 * (1 + 1 - m))) 1⟩, 0, 0, 0, 0⟩

theorem Rex1_stores : Stores Rex1 Tex := by
  intro i n1 m j n2 h h'
  have a1 := h.one; have a2 : n1 ≤ 1 := h.n
  have b1 := h'.one; have b2 : n2 ≤ 1 := h'.n
  have c1 := h.i; have c2 := h'.i; have c3 := h.m
  obtain rfl : n1 = 1 := by omega
  obtain rfl : n2 = 1 := by omega
  interval_cases i <;> interval_cases j <;> interval_cases m <;> rfl

/-- random orientations of that particle -/
example : (applyOrientation Real.sqrt (⇑Complex.ofRealHom) Rex1 ⟨3, fun N => if N = 0 then 1 else 0, true⟩).out.get 1 1 1 1 1 = 14 / 3 := by
  have v : Valid Rex1.nmax 1 1 1 := ⟨by decide, by decide, by decide, by decide⟩
  have sh : Rex1.Shape 1 := fun m hm => ⟨rfl, rfl⟩
  rw [(c57_standalone Complex.ofRealHom Rex1 sh (by decide) _ Tex Tex_axisymmetric Rex1_stores).1 v v]
  have := c57_random Complex.ofRealHom Tex (i := 1) (n1 := 1) (j := 1) (n2 := 1) (m := 1) (by norm_num)
  rw [show ((1 : Nat) : Int) = 1 from rfl] at *
  rw [this, if_pos rfl, show Icc (-(1 : Int)) 1 = {-1, 0, 1} from rfl]
  unfold Tex
  norm_num
  try ring

end

/-! ### concrete cases -/

/-- matrices whose factors do not depend on order and number of points -/
def constant (n g : Nat) : TRes ℂ ℝ := ⟨n, g, fun _ => ⟨2 * n, 2 * n, fun k => if k = 0 then 1 else 0⟩, 0, 0, 0, 0⟩

theorem constant_get {n g k : Nat} (hn : 1 ≤ n) (hk : 1 ≤ k) :
    (constant n g).get 0 k 0 0 k = (if k = 1 then 1 else 0) ∧ (constant n g).get 1 k 0 1 k = 0 := by
  have e0 : TRes.index n 0 0 k = k - 1 := by simp [TRes.index]
  have e1 : TRes.index n 0 1 k = n + k - 1 := by simp [TRes.index]
  unfold TRes.get constant Mat.get Verif.Matrix.pos
  dsimp only
  rw [e0, e1]
  constructor
  · by_cases h : k = 1
    · subst h; simp
    · rw [if_neg (by have : 0 < k - 1 := by omega
                     positivity), if_neg h]
  · rw [if_neg]
    have : 0 < n + k - 1 := by omega
    positivity

theorem constant_factors {n g : Nat} (hn : 1 ≤ n) : scaFactor n (constant n g) = 3 ∧ extFactor n (constant n g) = 3 := by
  unfold scaFactor extFactor
  constructor
  · rw [sum_eq_single 1]
    · rw [(constant_get hn le_rfl).1, (constant_get hn le_rfl).2]
      norm_num
    · intro k hk hne
      rw [mem_Icc] at hk
      rw [(constant_get hn hk.1).1, (constant_get hn hk.1).2, if_neg hne]
      norm_num
    · intro h
      exact absurd (mem_Icc.mpr ⟨le_rfl, hn⟩) h
  · rw [sum_eq_single 1]
    · rw [(constant_get hn le_rfl).1, (constant_get hn le_rfl).2]
      norm_num
    · intro k hk hne
      rw [mem_Icc] at hk
      rw [(constant_get hn hk.1).1, (constant_get hn hk.1).2, if_neg hne]
      norm_num
    · intro h
      exact absurd (mem_Icc.mpr ⟨le_rfl, hn⟩) h

theorem constant_meets {n : Nat} (hn : 4 ≤ n) : OrderMeets constant 2 4 (1 / 10) n ↔ n ≠ 4 := by
  unfold OrderMeets before orderFactors
  rw [(constant_factors (g := 2 * n) (show 1 ≤ n by omega)).1, (constant_factors (g := 2 * n) (show 1 ≤ n by omega)).2]
  by_cases h : n = 4
  · rw [if_pos h]
    unfold Close
    norm_num [h]
  · rw [if_neg h, (constant_factors (show 1 ≤ n - 1 by omega)).1, (constant_factors (show 1 ≤ n - 1 by omega)).2]
    unfold Close
    norm_num [h]

theorem constant_first : First (OrderMeets constant 2 4 (1 / 10)) 4 5 :=
  ⟨by omega, (constant_meets (by omega)).mpr (by omega), fun k h1 h2 => by rw [constant_meets h1]; omega⟩

theorem constant_points {n g : Nat} (hn : 1 ≤ n) : PointsMeet constant (1 / 10) n g := by
  unfold PointsMeet
  rw [(constant_factors hn).1, (constant_factors hn).2, (constant_factors hn).1, (constant_factors hn).2]
  unfold Close
  norm_num

/-- order 5, 11 quadrature points -/
example : calculate constant id 4 100 2 500 (1 / 10) = .ok (constant 5 11) :=
  (c38_success constant id 4 100 2 500 (1 / 10) (by norm_num) (by omega) (by omega) _).mpr
    ⟨5, 11, constant_first, by omega, ⟨by omega, constant_points (by omega), by omega⟩, by omega, rfl⟩

/-- with 6 as the maximum order: order 5 is tried and meets the tolerance, but the calculation fails -/
example : calculate constant id 4 6 2 500 (1 / 10) = .error :=
  c38_violated_last constant id 4 6 2 500 (1 / 10) (by norm_num) constant_first (by omega)

end Verif.Calculator
