import Verif.Properties.TMatrix
import Mathlib.Analysis.Complex.Basic
import Mathlib.Analysis.SpecialFunctions.Pow.Real
import Mathlib.Tactic.FieldSimp

/-!
# C56: the factors that depend on the order only
-/
namespace Verif.TMatrix

open Verif.Matrix

section

variable {K : Type} [Field K] (sqrt : K → K) (im : K)

/-- `√((2n+1)/(n(n+1)))`, with the square root as a parameter -/
def rootFactor (n : Nat) : K := sqrt ((2 * ((n : K) + 1) + 1) / (((n : K) + 2) * ((n : K) + 1)))

/-- what the loops of `NBasedResources::execute` compute, with the square root function as a parameter -/
theorem nbased_spec (him : im * im = -1) (s : NFac K) (hc : s.ann.cols = s.ann.rows) (hr : s.cnn.rows = s.ann.rows)
    (hd : s.cnn.cols = s.ann.rows) :
    (nbased sqrt im s).ann.rows = s.ann.rows ∧ (nbased sqrt im s).ann.cols = s.ann.rows
    ∧ (nbased sqrt im s).cnn.rows = s.ann.rows ∧ (nbased sqrt im s).cnn.cols = s.ann.rows
    ∧ ∀ a b, a < s.ann.rows → b < s.ann.rows →
      (nbased sqrt im s).ann.get a b = rootFactor sqrt a * rootFactor sqrt b
      ∧ (nbased sqrt im s).cnn.get a b = im ^ ((a : Int) - (b : Int) - 1) * (rootFactor sqrt a * rootFactor sqrt b) := by
  have hi0 : im ≠ 0 := by
    rintro rfl
    simp at him
  generalize hN : s.ann.rows = N at *
  have key := loop_inv (σ := K × NFac K)
    (fun k p => p.1 = im ^ ((k : Int) + 1)
      ∧ p.2.ann.rows = N ∧ p.2.ann.cols = N ∧ p.2.cnn.rows = N ∧ p.2.cnn.cols = N
      ∧ ∀ a b, a < k → b < N →
        p.2.ann.get a b = rootFactor sqrt a * rootFactor sqrt b
        ∧ p.2.cnn.get a b = im ^ ((a : Int) - (b : Int) - 1) * (rootFactor sqrt a * rootFactor sqrt b))
    (Nat.zero_le N)
    (fun ni (p : K × NFac K) =>
      let nni : K := ((ni : K) + 2) * ((ni : K) + 1)
      let sqrtni := sqrt ((2 * ((ni : K) + 1) + 1) / nni)
      let r := loop 0 N (fun nj (q : K × NFac K) =>
        let nnj : K := ((nj : K) + 2) * ((nj : K) + 1)
        let sqrtnj := sqrt ((2 * ((nj : K) + 1) + 1) / nnj)
        let ann := q.2.ann.set ni nj (sqrtni * sqrtnj)
        let cnn := q.2.cnn.set ni nj (q.1 * p.1 * ann.get ni nj)
        (q.1 / im, ⟨ann, cnn⟩)) (-1, p.2)
      (p.1 * im, r.2)) (im, s)
    ⟨by simp, hN, hc, hr, hd, fun a b h => absurd h (by omega)⟩
    (by
      rintro ni p _ hni ⟨h1, h2, h3, h4, h5, h6⟩
      have inner := loop_inv (σ := K × NFac K)
        (fun k q => q.1 = im ^ (-(k : Int) - 2)
          ∧ q.2.ann.rows = N ∧ q.2.ann.cols = N ∧ q.2.cnn.rows = N ∧ q.2.cnn.cols = N
          ∧ (∀ a b, a < ni → b < N → q.2.ann.get a b = p.2.ann.get a b ∧ q.2.cnn.get a b = p.2.cnn.get a b)
          ∧ ∀ b, b < k →
            q.2.ann.get ni b = rootFactor sqrt ni * rootFactor sqrt b
            ∧ q.2.cnn.get ni b = im ^ ((ni : Int) - (b : Int) - 1) * (rootFactor sqrt ni * rootFactor sqrt b))
        (Nat.zero_le N)
        (fun nj (q : K × NFac K) =>
          let nnj : K := ((nj : K) + 2) * ((nj : K) + 1)
          let sqrtnj := sqrt ((2 * ((nj : K) + 1) + 1) / nnj)
          let ann := q.2.ann.set ni nj (sqrt ((2 * ((ni : K) + 1) + 1) / (((ni : K) + 2) * ((ni : K) + 1))) * sqrtnj)
          let cnn := q.2.cnn.set ni nj (q.1 * p.1 * ann.get ni nj)
          (q.1 / im, ⟨ann, cnn⟩)) (-1, p.2)
        ⟨by
            have : im ^ (2 : Int) = -1 := by rw [← him]; exact zpow_two im
            rw [show (-((0 : Nat) : Int) - 2) = -2 by omega, zpow_neg, this]; norm_num,
          h2, h3, h4, h5, fun _ _ _ _ => ⟨rfl, rfl⟩, fun b h => absurd h (by omega)⟩
        (by
          rintro nj q _ hnj ⟨g1, g2, g3, g4, g5, g6, g7⟩
          refine ⟨?_, g2, g3, g4, g5, ?_, ?_⟩
          · dsimp only
            rw [g1, div_eq_mul_inv, ← zpow_sub_one₀ hi0]
            congr 1
            push_cast
            ring
          · intro a b ha hb
            obtain ⟨e1, e2⟩ := g6 a b ha hb
            dsimp only
            rw [get_set _ _ (by omega) (by omega), get_set _ _ (by omega) (by omega), if_neg (by omega), if_neg (by omega)]
            exact ⟨e1, e2⟩
          · intro b hb
            dsimp only
            rw [get_set _ _ (by omega) (by omega), get_set _ _ (by omega) (by omega), get_set _ _ (by omega) (by omega)]
            by_cases hbj : b = nj
            · subst hbj
              simp only [and_self, if_true]
              refine ⟨rfl, ?_⟩
              rw [g1, h1, ← zpow_add₀ hi0]
              congr 2
              ring
            · rw [if_neg (by omega), if_neg (by omega)]
              exact g7 b (by omega))
      obtain ⟨g1, g2, g3, g4, g5, g6, g7⟩ := inner
      refine ⟨?_, g2, g3, g4, g5, ?_⟩
      · dsimp only
        rw [h1, ← zpow_add_one₀ hi0]
        push_cast
        rfl
      · intro a b ha hb
        by_cases ha' : a = ni
        · subst ha'
          exact g7 b hb
        · obtain ⟨e1, e2⟩ := g6 a b (by omega) hb
          obtain ⟨f1, f2⟩ := h6 a b (by omega) hb
          exact ⟨e1.trans f1, e2.trans f2⟩)
  unfold nbased
  rw [hN]
  exact ⟨key.2.1, key.2.2.1, key.2.2.2.1, key.2.2.2.2.1, key.2.2.2.2.2⟩

end

/-- the square root of the code, for non-negative real values -/
noncomputable def sqrtC (z : ℂ) : ℂ := ((Real.sqrt z.re : ℝ) : ℂ)

/-- the documented prefactor `√((2n+1)(2n'+1) / (n(n+1)n'(n'+1)))` -/
noncomputable def prefactor (n n' : Nat) : ℝ :=
  Real.sqrt ((2 * n + 1) * (2 * n' + 1) / (n * (n + 1) * (n' * (n' + 1))))

/-- **C56** For every number of orders and all previous contents: `get_ann(n, n')` is the documented prefactor, and
`get_cnn(n', n)`, with the argument order of the three tasks that use it, is `i^(n'-n-1)` times that prefactor. What is
missing: `get_cnn` is documented with the opposite order of its arguments, see `c56_violated_order`. -/
theorem c56_factors_partial (nmax : Nat) (s : NFac ℂ) (h1 : s.ann.rows = nmax) (h2 : s.ann.cols = nmax) (h3 : s.cnn.rows = nmax)
    (h4 : s.cnn.cols = nmax) (n n' : Nat) (hn : 1 ≤ n ∧ n ≤ nmax) (hn' : 1 ≤ n' ∧ n' ≤ nmax) :
    getAnn (nbased sqrtC Complex.I s) n n' = prefactor n n'
    ∧ getCnn (nbased sqrtC Complex.I s) n' n = Complex.I ^ ((n' : Int) - (n : Int) - 1) * prefactor n n' := by
  obtain ⟨_, _, _, _, h⟩ := nbased_spec sqrtC Complex.I Complex.I_mul_I s (h2.trans h1.symm) (h3.trans h1.symm) (h4.trans h1.symm)
  rw [h1] at h
  have hroot : ∀ k : Nat, 1 ≤ k → rootFactor sqrtC (k - 1) = ((Real.sqrt ((2 * k + 1) / (k * (k + 1))) : ℝ) : ℂ) := by
    intro k hk
    obtain ⟨j, rfl⟩ : ∃ j, k = j + 1 := ⟨k - 1, by omega⟩
    simp only [rootFactor, Nat.add_sub_cancel]
    have : (2 * ((j : ℂ) + 1) + 1) / (((j : ℂ) + 2) * ((j : ℂ) + 1)) = (((2 * (j + 1 : ℕ) + 1) / ((j + 1 : ℕ) * ((j + 1 : ℕ) + 1)) : ℝ) : ℂ) := by
      push_cast
      congr 1
      ring
    rw [this, sqrtC, Complex.ofReal_re]
  have hpre : ∀ a b : Nat, 1 ≤ a → 1 ≤ b → rootFactor sqrtC (a - 1) * rootFactor sqrtC (b - 1) = (prefactor a b : ℂ) := by
    intro a b ha hb
    rw [hroot a ha, hroot b hb, prefactor, ← Complex.ofReal_mul, ← Real.sqrt_mul (by positivity)]
    congr 2
    rw [div_mul_div_comm]
  refine ⟨?_, ?_⟩
  · rw [getAnn, (h (n - 1) (n' - 1) (by omega) (by omega)).1]
    exact hpre n n' hn.1 hn'.1
  · rw [getCnn, (h (n' - 1) (n - 1) (by omega) (by omega)).2, hpre n' n hn'.1 hn.1]
    have e : prefactor n' n = prefactor n n' := by
      unfold prefactor
      congr 1
      ring
    rw [e]
    congr 2
    omega

/-- **C56** (violated) as documented, `get_cnn(n, n')` is `i^(n'-n-1)` times the prefactor; for the orders 1 and 2 it is
the opposite of that -/
theorem c56_violated_order : ∃ s : NFac ℂ, s.ann.rows = 2 ∧ s.ann.cols = 2 ∧ s.cnn.rows = 2 ∧ s.cnn.cols = 2
    ∧ getCnn (nbased sqrtC Complex.I s) 1 2 = -(Complex.I ^ ((2 : Int) - 1 - 1) * prefactor 1 2) ∧ prefactor 1 2 ≠ 0 := by
  refine ⟨⟨Mat.new 2 2, Mat.new 2 2⟩, rfl, rfl, rfl, rfl, ?_, ?_⟩
  · have := (c56_factors_partial 2 ⟨Mat.new 2 2, Mat.new 2 2⟩ rfl rfl rfl rfl 2 1 (by omega) (by omega)).2
    rw [this]
    have e : prefactor 2 1 = prefactor 1 2 := by
      unfold prefactor
      congr 1
      push_cast
      ring
    have hI : Complex.I ^ (2 : Int) = -1 := by rw [zpow_two, Complex.I_mul_I]
    rw [e, show ((1 : Nat) : Int) - ((2 : Nat) : Int) - 1 = -2 by norm_num, show ((2 : Int) - 1 - 1) = 0 by norm_num, zpow_neg, hI]
    norm_num
  · unfold prefactor
    exact (Real.sqrt_pos.mpr (by norm_num)).ne'

end Verif.TMatrix
