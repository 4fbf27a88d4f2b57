import Verif.Model.Scatter
import Verif.Spec.Scatter
import Verif.Properties.Wigner
import Verif.Properties.TMatrix
import Verif.Properties.Alignment
import Mathlib.Tactic.Ring
import Mathlib.Tactic.FinCases

/-!
# C30, C53, C66, C67: Wigner tables, amplitude matrix, scattering matrices, extinction and absorption coefficients
-/
namespace Verif.Scatter

open Verif.Legendre (wigner)
open Finset Verif.Matrix Verif.TMatrix Verif.Special Verif.WignerTable Verif.Alignment

/-! ### C30: the triangular tables -/

theorem triSize_succ (n : Nat) : triSize (n + 1) = triSize n + (n + 2) := by
  unfold triSize
  have : (2 + (n + 1) + 1) * (n + 1) = (2 + n + 1) * n + 2 * (n + 2) := by ring
  omega

theorem tri_eq {n m : Nat} (h : 1 ≤ n) : tri n m = triSize (n - 1) + m := by
  obtain ⟨k, rfl⟩ : ∃ k, n = k + 1 := ⟨n - 1, by omega⟩
  unfold tri triSize
  rw [show k + 1 - 1 = k by omega, show 2 + (k + 1) = 2 + k + 1 by omega]

theorem triSize_mono {a b : Nat} (h : a ≤ b) : triSize a ≤ triSize b := by
  induction b, h using Nat.le_induction with
  | base => exact le_rfl
  | succ b _ ih => rw [triSize_succ]; omega

/-- **C30** the index of an order and degree lies inside the table ... -/
theorem c30_in_range {nmax n m : Nat} (h1 : 1 ≤ n) (h2 : n ≤ nmax) (hm : m ≤ n) : tri n m < triSize nmax := by
  rw [tri_eq h1]
  have := triSize_mono h2
  have e := triSize_succ (n - 1)
  rw [show n - 1 + 1 = n by omega] at e
  omega

/-- ... no two pairs share an index ... -/
theorem c30_injective {n m n' m' : Nat} (h1 : 1 ≤ n) (hm : m ≤ n) (h1' : 1 ≤ n') (hm' : m' ≤ n') (h : tri n m = tri n' m') :
    n = n' ∧ m = m' := by
  rw [tri_eq h1, tri_eq h1'] at h
  have e := triSize_succ (n - 1)
  have e' := triSize_succ (n' - 1)
  rw [show n - 1 + 1 = n by omega] at e
  rw [show n' - 1 + 1 = n' by omega] at e'
  rcases lt_trichotomy n n' with g | g | g
  · have := triSize_mono (show n ≤ n' - 1 by omega); omega
  · subst g; omega
  · have := triSize_mono (show n' ≤ n - 1 by omega); omega

/-- ... and the matrix pushed at that index has as many columns as the order needs; there are exactly `number_of_elements`
matrices -/
theorem c30_shapes (rows nmax : Nat) :
    (shapes rows nmax).length = triSize nmax
    ∧ ∀ n m, 1 ≤ n → n ≤ nmax → m ≤ n → (shapes rows nmax)[tri n m]? = some (rows, n) := by
  unfold shapes
  have A := loop_inv (σ := List (Nat × Nat)) (fun k l => l.length = triSize (k - 1)
    ∧ ∀ n m, 1 ≤ n → n < k → m ≤ n → l[tri n m]? = some (rows, n))
    (show 1 ≤ nmax + 1 by omega) (fun n l => loop 0 (n + 1) (fun _ l => l ++ [(rows, n)]) l) []
    ⟨rfl, fun n m h1 h2 => by omega⟩ (by
    intro n l h1 h2 ⟨l1, l2⟩
    have B := loop_inv (σ := List (Nat × Nat)) (fun k l' => l'.length = triSize (n - 1) + k
      ∧ (∀ n' m, 1 ≤ n' → n' < n → m ≤ n' → l'[tri n' m]? = some (rows, n')) ∧ ∀ m, m < k → l'[tri n m]? = some (rows, n))
      (Nat.zero_le (n + 1)) (fun _ l => l ++ [(rows, n)]) l ⟨by rw [l1, Nat.add_zero], l2, fun m h => by omega⟩ (by
      intro k l' _ hk ⟨b1, b2, b3⟩
      refine ⟨by rw [List.length_append, b1]; rfl, ?_, ?_⟩
      · intro n' m g1 g2 g3
        have := b2 n' m g1 g2 g3
        rw [List.getElem?_append_left]
        · exact this
        · exact (List.getElem?_eq_some_iff.mp this).1
      · intro m hm
        by_cases h : m = k
        · subst h
          rw [tri_eq h1, ← b1, List.getElem?_append_right (le_refl _)]
          simp
        · have := b3 m (by omega)
          rw [List.getElem?_append_left]
          · exact this
          · exact (List.getElem?_eq_some_iff.mp this).1)
    obtain ⟨b1, b2, b3⟩ := B
    refine ⟨?_, ?_⟩
    · rw [b1, show n + 1 - 1 = n - 1 + 1 by omega, triSize_succ]; omega
    · intro n' m g1 g2 g3
      by_cases h : n' = n
      · subst h; exact b3 m (by omega)
      · exact b2 n' m g1 (by omega) g3)
  exact ⟨A.1, fun n m h1 h2 h3 => A.2 n m h1 (by omega) h3⟩

section fill
variable {K : Type} [Field K] [LinearOrder K] (o : Ops K)

/-- rows that are filled, and rows that are not yet -/
def Filled (g : Angles K) (t0 : Tab K) (D : Nat → Nat → Nat → Prop) (t : Tab K) : Prop :=
  ∀ n m it, 1 ≤ n → m ≤ n →
    (D n m it → t.w (tri n m) it = (wignerDsinx o (g.c it) (g.s it) (g.inv it) n m (t0.w (tri n m) it, t0.dw (tri n m) it)).1
      ∧ t.dw (tri n m) it = (wignerDsinx o (g.c it) (g.s it) (g.inv it) n m (t0.w (tri n m) it, t0.dw (tri n m) it)).2)
    ∧ (¬ D n m it → t.w (tri n m) it = t0.w (tri n m) it ∧ t.dw (tri n m) it = t0.dw (tri n m) it)

theorem Filled.congr {g : Angles K} {t0 t : Tab K} {D D' : Nat → Nat → Nat → Prop} (h : Filled o g t0 D t)
    (hD : ∀ n m it, 1 ≤ n → m ≤ n → (D n m it ↔ D' n m it)) : Filled o g t0 D' t := by
  intro n m it h1 h2
  have := h n m it h1 h2
  rwa [hD n m it h1 h2] at this

theorem Filled.step {g : Angles K} {t0 t : Tab K} {D : Nat → Nat → Nat → Prop} (h : Filled o g t0 D t) {n m it : Nat}
    (h1 : 1 ≤ n) (h2 : m ≤ n) (hn : ¬ D n m it) :
    Filled o g t0 (fun n' m' it' => D n' m' it' ∨ (n' = n ∧ m' = m ∧ it' = it)) (rowStep o g n m it t) := by
  intro n' m' it' g1 g2
  have a := h n' m' it' g1 g2
  have b := (h n m it h1 h2).2 hn
  unfold rowStep WignerTable.setRow
  dsimp only
  by_cases e : n' = n ∧ m' = m ∧ it' = it
  · obtain ⟨rfl, rfl, rfl⟩ := e
    refine ⟨fun _ => ?_, fun h => absurd (Or.inr ⟨rfl, rfl, rfl⟩) h⟩
    rw [if_pos ⟨rfl, rfl⟩, if_pos ⟨rfl, rfl⟩, b.1, b.2]
    exact ⟨rfl, rfl⟩
  · have ne : ¬ (tri n' m' = tri n m ∧ it' = it) := by
      rintro ⟨x, y⟩
      have := c30_injective g1 g2 h1 h2 x
      exact e ⟨this.1, this.2, y⟩
    rw [if_neg ne, if_neg ne]
    exact ⟨fun hd => a.1 (hd.resolve_right e), fun hd => a.2 fun h => hd (Or.inl h)⟩

/-- **C30** after the tables were filled, the functions that look up order `n` and degree `m` for a T-matrix of order `nmax`
return what `wigner_dn_0m_sinx` computes for that angle, degree and maximum order, for every order up to the one the resource
was made for. -/
theorem c30_lookup (g : Angles K) (t0 : Tab K) {N nmax m it n : Nat} (h1 : 1 ≤ nmax) (h2 : nmax ≤ N) (hm : m ≤ nmax) (hit : it < g.n) :
    getD (fill o g N t0) m it n nmax
      = (wignerDsinx o (g.c it) (g.s it) (g.inv it) nmax m (t0.w (tri nmax m) it, t0.dw (tri nmax m) it)).1 (n - 1)
    ∧ getDD (fill o g N t0) m it n nmax
      = (wignerDsinx o (g.c it) (g.s it) (g.inv it) nmax m (t0.w (tri nmax m) it, t0.dw (tri nmax m) it)).2 (n - 1) := by
  have F : Filled o g t0 (fun n m it => n < N + 1 ∧ it < g.n) (fill o g N t0) := by
    unfold fill
    refine loop_inv (σ := Tab K) (fun k t => Filled o g t0 (fun n m it => n < k ∧ it < g.n) t) (by omega) _ t0 ?_ ?_
    · intro n m it a b
      exact ⟨fun h => by omega, fun _ => ⟨rfl, rfl⟩⟩
    · intro n t a1 a2 hF
      have B := loop_inv (σ := Tab K) (fun k t => Filled o g t0 (fun n' m it => (n' < n ∨ n' = n ∧ m < k) ∧ it < g.n) t)
        (Nat.zero_le (n + 1)) (fun m t => loop 0 g.n (fun it t => rowStep o g n m it t) t) t
        (hF.congr o (by intro n' m' it' _ _; omega)) (by
        intro m t _ b2 hF
        have C := loop_inv (σ := Tab K)
          (fun k t => Filled o g t0 (fun n' m' it => (n' < n ∨ n' = n ∧ m' < m) ∧ it < g.n ∨ n' = n ∧ m' = m ∧ it < k) t)
          (Nat.zero_le g.n) (fun it t => rowStep o g n m it t) t
          (hF.congr o (by intro n' m' it' _ _; omega)) (by
          intro it t _ c2 hF
          refine (hF.step o (n := n) (m := m) (it := it) a1 (by omega) (by omega)).congr o ?_
          intro n' m' it' _ _
          omega)
        exact C.congr o (by intro n' m' it' _ _; omega))
      exact B.congr o (by intro n' m' it' _ _; omega)
  have := (F nmax m it h1 hm).1 ⟨by omega, hit⟩
  unfold getD getDD
  rw [this.1, this.2]
  exact ⟨rfl, rfl⟩

end fill

/-- **C30** the sine and its inverse are right for every angle between 0 and π (at the poles the inverse is the placeholder
9000, which is not used there) -/
theorem c30_sines {θ : ℝ} (h0 : 0 ≤ θ) (h1 : θ ≤ Real.pi) :
    sinOf realOps (Real.cos θ) = Real.sin θ ∧ (Real.sin θ ≠ 0 → invOf (sinOf realOps (Real.cos θ)) = 1 / Real.sin θ) := by
  have e : sinOf realOps (Real.cos θ) = Real.sin θ := by
    unfold sinOf
    change Real.sqrt _ = _
    rw [show (1 - Real.cos θ) * (1 + Real.cos θ) = Real.sin θ ^ 2 by rw [Real.sin_sq]; ring,
      Real.sqrt_sq (Real.sin_nonneg_of_nonneg_of_le_pi h0 h1)]
  refine ⟨e, fun h => ?_⟩
  rw [e]
  unfold invOf
  rw [if_pos h]

/-- the placeholder is not used: at the poles the result does not depend on the inverse -/
theorem pole_inv (c s x y : ℝ) (hc : |1 - abs c| ≤ 1 / 10 ^ 10) (nmax m : Nat) (t : (Nat → ℝ) × (Nat → ℝ)) :
    wignerDsinx realOps c s x nmax m t = wignerDsinx realOps c s y nmax m t := by
  unfold wignerDsinx
  rw [if_pos hc, if_pos hc]

/-- **C30** all together: a grid made from angles between 0 and π, tables filled from it, look-up: the entry for `m ≥ 1` is
`d^n_{0m}/sin` (its limit at the poles), and the derivative. (The strip in which the code switches to the polar values without
being at a pole is excluded, as in C63.) -/
theorem c30_tables (θ : Nat → ℝ) (nθ : Nat) (t0 : Tab ℝ) {N nmax m it n : Nat} (h1 : 1 ≤ n) (hn : n ≤ nmax) (h2 : nmax ≤ N) (hm : m ≤ nmax)
    (hit : it < nθ)
    (hθ : (0 < θ it ∧ θ it < Real.pi ∧ 1 / 10 ^ 10 < abs (1 - abs (Real.cos (θ it)))) ∨ θ it = 0 ∨ θ it = Real.pi) :
    let g : Angles ℝ := ⟨fun i => Real.cos (θ i), fun i => sinOf realOps (Real.cos (θ i)), fun i => invOf (sinOf realOps (Real.cos (θ i))), nθ⟩
    (1 ≤ m → Filter.Tendsto (fun t => wigner m n t / Real.sin t) (nhdsWithin (θ it) {θ it}ᶜ) (nhds (getD (fill realOps g N t0) m it n nmax)))
    ∧ HasDerivAt (wigner m n) (getDD (fill realOps g N t0) m it n nmax) (θ it) := by
  intro g
  obtain ⟨e1, e2⟩ := c30_lookup realOps g t0 (n := n) (show 1 ≤ nmax by omega) h2 hm hit
  rw [e1, e2]
  have hrange : 0 ≤ θ it ∧ θ it ≤ Real.pi := by
    have := Real.pi_pos
    rcases hθ with h | h | h
    · exact ⟨h.1.le, h.2.1.le⟩
    · rw [h]; exact ⟨le_rfl, this.le⟩
    · rw [h]; exact ⟨this.le, le_rfl⟩
  obtain ⟨s1, s2⟩ := c30_sines hrange.1 hrange.2
  have key : wignerDsinx realOps (g.c it) (g.s it) (g.inv it) nmax m (t0.w (tri nmax m) it, t0.dw (tri nmax m) it)
      = wignerDsinx realOps (Real.cos (θ it)) (Real.sin (θ it)) (1 / Real.sin (θ it)) nmax m (t0.w (tri nmax m) it, t0.dw (tri nmax m) it) := by
    change wignerDsinx realOps (Real.cos (θ it)) (sinOf realOps (Real.cos (θ it))) (invOf (sinOf realOps (Real.cos (θ it)))) nmax m _ = _
    rcases hθ with h | h
    · rw [s2 (Real.sin_pos_of_pos_of_lt_pi h.1 h.2.1).ne', s1]
    · rw [s1]
      apply pole_inv
      rcases h with h | h <;> rw [h] <;> norm_num
  rw [key]
  have := (c63_wigner_sinx (θ it) nmax m hm (t0.w (tri nmax m) it, t0.dw (tri nmax m) it) hθ).1 n h1 hn
  exact this

/-! ### C66: the amplitude matrix -/

/-- component of an amplitude matrix -/
def Amp.at (S : Amp) : Fin 4 → ℂ
  | 0 => S.s0
  | 1 => S.s1
  | 2 => S.s2
  | 3 => S.s3

section amplitude

variable (T : TRes ℂ ℝ) (cnn : Nat → Nat → ℂ) (wi dwi wo dwo : Nat → Nat → ℝ)

theorem ampStep_add (m : Nat) (fcos fsin : ℝ) (nn n : Nat) (S : Amp) (j : Fin 4) :
    (ampStep T cnn wi dwi wo dwo m fcos fsin nn n S).at j
      = S.at j + (ampStep T cnn wi dwi wo dwo m fcos fsin nn n ⟨0, 0, 0, 0⟩).at j := by
  unfold ampStep
  dsimp only
  by_cases h : m = 0
  · rw [if_pos h, if_pos h]
    fin_cases j <;> simp [Amp.at]
  · rw [if_neg h, if_neg h]
    fin_cases j <;> simp [Amp.at, sub_eq_add_neg]

theorem loop_at {lo hi : Nat} (h : lo ≤ hi) (body : Nat → Amp → Amp) (d : Nat → Fin 4 → ℂ) (S : Amp)
    (hb : ∀ k S j, lo ≤ k → k < hi → (body k S).at j = S.at j + d k j) (j : Fin 4) :
    (loop lo hi body S).at j = S.at j + ∑ k ∈ Ico lo hi, d k j := by
  refine loop_inv (σ := Amp) (fun q S' => S'.at j = S.at j + ∑ k ∈ Ico lo q, d k j) h body S (by simp) ?_
  intro k S' h1 h2 e
  rw [hb k S' j h1 h2, e, sum_Ico_succ_top h1, add_assoc]

theorem amplitude_at (k : ℝ) (z : ℂ) (j : Fin 4) :
    (amplitude T cnn wi dwi wo dwo k z).at j
      = (∑ m ∈ range (T.nmax + 1), ∑ nn ∈ Icc (max m 1) T.nmax, ∑ n ∈ Icc (max m 1) T.nmax,
          (ampStep T cnn wi dwi wo dwo m (2 * (z ^ m).re) (2 * (z ^ m).im) nn n ⟨0, 0, 0, 0⟩).at j) * ((1 / k : ℝ) : ℂ) := by
  have A := loop_inv (σ := ℂ × Amp) (fun q s => s.1 = z ^ q ∧ ∀ j, s.2.at j
      = ∑ m ∈ range q, ∑ nn ∈ Icc (max m 1) T.nmax, ∑ n ∈ Icc (max m 1) T.nmax,
          (ampStep T cnn wi dwi wo dwo m (2 * (z ^ m).re) (2 * (z ^ m).im) nn n ⟨0, 0, 0, 0⟩).at j)
    (Nat.zero_le (T.nmax + 1)) (fun m (s : ℂ × Amp) =>
      (s.1 * z, loop (max m 1) (T.nmax + 1) (fun nn S =>
        loop (max m 1) (T.nmax + 1) (fun n S => ampStep T cnn wi dwi wo dwo m (2 * s.1.re) (2 * s.1.im) nn n S) S) s.2))
    (1, ⟨0, 0, 0, 0⟩) ⟨by simp, fun j => by fin_cases j <;> simp [Amp.at]⟩ (by
    rintro m ⟨x, S⟩ _ hm ⟨e1, e2⟩
    dsimp only at e1 e2 ⊢
    subst e1
    refine ⟨(pow_succ z m).symm, fun j => ?_⟩
    rw [sum_range_succ, ← e2 j]
    have hI : ∀ a, Icc a T.nmax = Ico a (T.nmax + 1) := fun a => by ext; simp only [mem_Icc, mem_Ico]; omega
    rw [hI]
    apply loop_at (show max m 1 ≤ T.nmax + 1 by omega) _ (fun nn j => ∑ n ∈ Ico (max m 1) (T.nmax + 1),
      (ampStep T cnn wi dwi wo dwo m (2 * (z ^ m).re) (2 * (z ^ m).im) nn n ⟨0, 0, 0, 0⟩).at j)
    intro nn S j _ _
    apply loop_at (show max m 1 ≤ T.nmax + 1 by omega) _ (fun n j =>
      (ampStep T cnn wi dwi wo dwo m (2 * (z ^ m).re) (2 * (z ^ m).im) nn n ⟨0, 0, 0, 0⟩).at j)
    intro n S j _ _
    exact ampStep_add T cnn wi dwi wo dwo _ _ _ _ _ _ _)
  rw [← A.2 j]
  unfold amplitude
  fin_cases j <;> rfl

theorem exp_pow (φ : ℝ) (m : Nat) : Complex.exp (Complex.I * φ) ^ m = ⟨Real.cos (m * φ), Real.sin (m * φ)⟩ := by
  rw [← Complex.exp_nat_mul, show (m : ℂ) * (Complex.I * φ) = ((m * φ : ℝ) : ℂ) * Complex.I by push_cast; ring, Complex.exp_mul_I,
    ← Complex.ofReal_cos, ← Complex.ofReal_sin]
  apply Complex.ext <;> simp only [Complex.add_re, Complex.add_im, Complex.mul_re, Complex.mul_im, Complex.ofReal_re, Complex.ofReal_im,
    Complex.I_re, Complex.I_im] <;> ring

theorem exp_int (φ : ℝ) (m : Nat) :
    Complex.exp (Complex.I * (((m : Int) : ℂ) * φ)) = (Real.cos (m * φ) : ℝ) + (Real.sin (m * φ) : ℝ) * Complex.I
    ∧ Complex.exp (Complex.I * (((-(m : Int) : Int) : ℂ) * φ)) = (Real.cos (m * φ) : ℝ) - (Real.sin (m * φ) : ℝ) * Complex.I := by
  constructor
  · rw [show Complex.I * (((m : Int) : ℂ) * φ) = ((m * φ : ℝ) : ℂ) * Complex.I by push_cast; ring, Complex.exp_mul_I,
      ← Complex.ofReal_cos, ← Complex.ofReal_sin]
  · rw [show Complex.I * (((-(m : Int) : Int) : ℂ) * φ) = ((-(m * φ) : ℝ) : ℂ) * Complex.I by push_cast; ring, Complex.exp_mul_I,
      ← Complex.ofReal_cos, ← Complex.ofReal_sin, Real.cos_neg, Real.sin_neg]
    push_cast
    ring

/-- folding the sum over positive and negative projections: `ε = 1` for even, `ε = -1` for odd coefficients -/
theorem fold_amp (nmax : Nat) (φ : ℝ) (f : Int → Nat → Nat → ℂ) (ε : ℂ)
    (hf : ∀ m n n', f (-m) n n' = ε * f m n n') :
    ampSum nmax φ f = (∑ n' ∈ Icc 1 nmax, ∑ n ∈ Icc 1 nmax, f 0 n n')
      + ∑ m ∈ range nmax, ∑ n' ∈ Icc (max (m + 1) 1) nmax, ∑ n ∈ Icc (max (m + 1) 1) nmax,
        f ((m : Int) + 1) n n' * ((1 + ε) * (Real.cos ((m + 1 : Nat) * φ) : ℝ) + (1 - ε) * ((Real.sin ((m + 1 : Nat) * φ) : ℝ) * Complex.I)) := by
  unfold ampSum
  rw [fold_sum (fun m : Int => ∑ n' ∈ Icc (max m.natAbs 1) nmax, ∑ n ∈ Icc (max m.natAbs 1) nmax, f m n n' * Complex.exp (Complex.I * (m * φ)))]
  congr 1
  · simp
  · apply sum_congr rfl
    intro m _
    rw [show ((m : Int) + 1).natAbs = m + 1 by omega, show (-((m : Int) + 1)).natAbs = m + 1 by omega, ← sum_add_distrib]
    apply sum_congr rfl
    intro n' _
    rw [← sum_add_distrib]
    apply sum_congr rfl
    intro n _
    obtain ⟨e1, e2⟩ := exp_int φ (m + 1)
    rw [show (((m + 1 : Nat) : Int)) = (m : Int) + 1 by push_cast; rfl] at e1 e2
    rw [hf, e1, e2]
    ring

/-- the stored tables are those of the angular functions with `m ≥ 0` -/
def Tabulates (w dw : Nat → Nat → ℝ) (nmax : Nat) (a : Angular) : Prop :=
  ∀ m n : Nat, 1 ≤ n → m ≤ n → n ≤ nmax → a.pi m n = m * w m n ∧ a.tau m n = dw m n

variable {T cnn wi dwi wo dwo}

/-- **C66** the amplitude matrix the three tasks compute is that of the theory: the sum over all orders and over positive and
negative projections. -/
theorem c66_amplitude {Tm : Nat → Nat → Int → Nat → Nat → ℂ} (hA : Axisymmetric Tm) (hS : Stores T Tm) {o i : Angular}
    (ho : Tabulates wo dwo T.nmax o) (hi : Tabulates wi dwi T.nmax i) (k φ : ℝ) :
    let S := amplitude T cnn wi dwi wo dwo k (Complex.exp (Complex.I * φ))
    S.s0 = S11 Tm (fun n n' => cnn n' n) o i k T.nmax φ
    ∧ S.s1 = S12 Tm (fun n n' => cnn n' n) o i k T.nmax φ
    ∧ S.s2 = S21 Tm (fun n n' => cnn n' n) o i k T.nmax φ
    ∧ S.s3 = S22 Tm (fun n n' => cnn n' n) o i k T.nmax φ := by
  have X := amplitude_at T cnn wi dwi wo dwo k (Complex.exp (Complex.I * φ))
  have h00 : ∀ n n', Tm 0 n 0 1 n' = 0 ∧ Tm 1 n 0 0 n' = 0 := by
    intro n n'
    have a := hA 0 n 0 1 n'
    have b := hA 1 n 0 0 n'
    norm_num at a b
    constructor
    · exact self_eq_neg.mp a
    · exact self_eq_neg.mp b
  have p0 : ∀ (a : Angular) n, a.pi 0 n = 0 := by
    intro a n
    have := a.pi_neg 0 n
    norm_num at this
    linarith
  have he : ∀ m : Int, ((-1 : ℝ) ^ m.natAbs) * (-1) ^ m.natAbs = 1 := fun m => by rw [← mul_pow]; simp
  have e00 : ((-1 : ℂ) ^ (0 + 0)) = 1 := by norm_num
  have e01 : ((-1 : ℂ) ^ (0 + 1)) = -1 := by norm_num
  have e10 : ((-1 : ℂ) ^ (1 + 0)) = -1 := by norm_num
  have e11 : ((-1 : ℂ) ^ (1 + 1)) = 1 := by norm_num
  have hz : ∀ m : Nat, (2 * (Complex.exp (Complex.I * φ) ^ m).re = 2 * Real.cos (m * φ)) ∧ 2 * (Complex.exp (Complex.I * φ) ^ m).im = 2 * Real.sin (m * φ) := by
    intro m
    rw [exp_pow]
    exact ⟨rfl, rfl⟩
  have hk : ((1 / k : ℝ) : ℂ) = 1 / (k : ℂ) := by push_cast; rfl
  have hI : Complex.I * Complex.I = -1 := Complex.I_mul_I
  have hval : ∀ {m n nn : Nat}, max m 1 ≤ n → n ≤ T.nmax → max m 1 ≤ nn → nn ≤ T.nmax →
      (∀ a b, a < 2 → b < 2 → T.get a n m b nn = Tm a n m b nn) ∧ (o.pi m n = m * wo m n ∧ o.tau m n = dwo m n)
      ∧ (i.pi m nn = m * wi m nn ∧ i.tau m nn = dwi m nn) := by
    intro m n nn a1 a2 a3 a4
    refine ⟨fun a b ha hb => hS a n m b nn ⟨ha, by omega, by omega, a2⟩ ⟨hb, by omega, by omega, a4⟩,
      ho m n (by omega) (by omega) a2, hi m nn (by omega) (by omega) a4⟩
  intro S
  have hk2 : 1 / (Complex.I * (k : ℂ)) = -Complex.I * (1 / (k : ℂ)) := by
    rw [one_div, mul_inv, Complex.inv_I, one_div]
  have hk3 : Complex.I / (k : ℂ) = Complex.I * (1 / (k : ℂ)) := by rw [mul_one_div]
  refine ⟨(X 0).trans ?_, (X 1).trans ?_, (X 2).trans ?_, (X 3).trans ?_⟩
  · unfold S11
    rw [fold_amp _ _ _ 1, mul_comm, hk]
    · congr 1
      rw [sum_range_succ', add_comm]
      congr 1
      · apply sum_congr rfl; intro nn hnn
        apply sum_congr rfl; intro n hn
        rw [mem_Icc] at hnn hn
        obtain ⟨t, ⟨q1, q2⟩, q3, q4⟩ := hval (m := 0) (n := n) (nn := nn) (by omega) (by omega) (by omega) (by omega)
        have := h00 n nn
        simp only [ampStep, Amp.at, if_true, t 1 1 (by omega) (by omega)]
        rw [p0, p0, ← q2, ← q4]
        push_cast
        ring
      · apply sum_congr rfl; intro m _
        apply sum_congr rfl; intro nn hnn
        apply sum_congr rfl; intro n hn
        rw [mem_Icc] at hnn hn
        obtain ⟨t, ⟨q1, q2⟩, q3, q4⟩ := hval (m := m + 1) (n := n) (nn := nn) (by omega) (by omega) (by omega) (by omega)
        rw [(hz _).1, (hz _).2]
        simp only [ampStep, Amp.at, if_neg (Nat.succ_ne_zero m), t 0 0 (by omega) (by omega), t 0 1 (by omega) (by omega),
          t 1 0 (by omega) (by omega), t 1 1 (by omega) (by omega), ← q1, ← q2, ← q3, ← q4]
        push_cast
        ring
    · intro m n n'
      rw [hA, hA, hA, hA, o.pi_neg, o.tau_neg, i.pi_neg, i.tau_neg, e00, e01, e11]
      have h := congrArg (fun x : ℝ => (x : ℂ)) (he m)
      push_cast at h ⊢
      linear_combination (cnn n' n * (Tm 0 n m 0 n' * o.pi m n * i.pi m n' + Tm 1 n m 0 n' * o.tau m n * i.pi m n'
        + Tm 0 n m 1 n' * o.pi m n * i.tau m n' + Tm 1 n m 1 n' * o.tau m n * i.tau m n')) * h
  · unfold S12
    rw [fold_amp _ _ _ (-1), mul_comm, hk, hk2, mul_comm (-Complex.I), mul_assoc]
    · congr 1
      rw [sum_range_succ', add_comm, mul_add]
      congr 1
      · rw [mul_sum]
        apply sum_congr rfl; intro nn hnn
        rw [mul_sum]
        apply sum_congr rfl; intro n hn
        rw [mem_Icc] at hnn hn
        have := h00 n nn
        simp only [ampStep, Amp.at, if_true]
        rw [p0, p0, this.1, this.2]
        push_cast
        ring
      · rw [mul_sum]
        apply sum_congr rfl; intro m _
        rw [mul_sum]
        apply sum_congr rfl; intro nn hnn
        rw [mul_sum]
        apply sum_congr rfl; intro n hn
        rw [mem_Icc] at hnn hn
        obtain ⟨t, ⟨q1, q2⟩, q3, q4⟩ := hval (m := m + 1) (n := n) (nn := nn) (by omega) (by omega) (by omega) (by omega)
        rw [(hz _).1, (hz _).2]
        simp only [ampStep, Amp.at, if_neg (Nat.succ_ne_zero m), t 0 0 (by omega) (by omega), t 0 1 (by omega) (by omega),
          t 1 0 (by omega) (by omega), t 1 1 (by omega) (by omega), ← q1, ← q2, ← q3, ← q4]
        push_cast
        ring_nf
        rw [Complex.I_sq]
        ring
    · intro m n n'
      rw [hA, hA, hA, hA, o.pi_neg, o.tau_neg, i.pi_neg, i.tau_neg, e00, e01, e11]
      have h := congrArg (fun x : ℝ => (x : ℂ)) (he m)
      push_cast at h ⊢
      linear_combination -(cnn n' n * (Tm 0 n m 0 n' * o.pi m n * i.tau m n' + Tm 1 n m 0 n' * o.tau m n * i.tau m n'
        + Tm 0 n m 1 n' * o.pi m n * i.pi m n' + Tm 1 n m 1 n' * o.tau m n * i.pi m n')) * h
  · unfold S21
    rw [fold_amp _ _ _ (-1), mul_comm, hk, hk3, show Complex.I * (1 / (k : ℂ)) = 1 / (k : ℂ) * Complex.I from mul_comm _ _, mul_assoc]
    · congr 1
      rw [sum_range_succ', add_comm, mul_add]
      congr 1
      · rw [mul_sum]
        apply sum_congr rfl; intro nn hnn
        rw [mul_sum]
        apply sum_congr rfl; intro n hn
        rw [mem_Icc] at hnn hn
        have := h00 n nn
        simp only [ampStep, Amp.at, if_true]
        rw [p0, p0, this.1, this.2]
        push_cast
        ring
      · rw [mul_sum]
        apply sum_congr rfl; intro m _
        rw [mul_sum]
        apply sum_congr rfl; intro nn hnn
        rw [mul_sum]
        apply sum_congr rfl; intro n hn
        rw [mem_Icc] at hnn hn
        obtain ⟨t, ⟨q1, q2⟩, q3, q4⟩ := hval (m := m + 1) (n := n) (nn := nn) (by omega) (by omega) (by omega) (by omega)
        rw [(hz _).1, (hz _).2]
        simp only [ampStep, Amp.at, if_neg (Nat.succ_ne_zero m), t 0 0 (by omega) (by omega), t 0 1 (by omega) (by omega),
          t 1 0 (by omega) (by omega), t 1 1 (by omega) (by omega), ← q1, ← q2, ← q3, ← q4]
        push_cast
        ring_nf
        rw [Complex.I_sq]
        ring
    · intro m n n'
      rw [hA, hA, hA, hA, o.pi_neg, o.tau_neg, i.pi_neg, i.tau_neg, e00, e01, e11]
      have h := congrArg (fun x : ℝ => (x : ℂ)) (he m)
      push_cast at h ⊢
      linear_combination -(cnn n' n * (Tm 0 n m 0 n' * o.tau m n * i.pi m n' + Tm 1 n m 0 n' * o.pi m n * i.pi m n'
        + Tm 0 n m 1 n' * o.tau m n * i.tau m n' + Tm 1 n m 1 n' * o.pi m n * i.tau m n')) * h
  · unfold S22
    rw [fold_amp _ _ _ 1, mul_comm, hk]
    · congr 1
      rw [sum_range_succ', add_comm]
      congr 1
      · apply sum_congr rfl; intro nn hnn
        apply sum_congr rfl; intro n hn
        rw [mem_Icc] at hnn hn
        obtain ⟨t, ⟨q1, q2⟩, q3, q4⟩ := hval (m := 0) (n := n) (nn := nn) (by omega) (by omega) (by omega) (by omega)
        have := h00 n nn
        simp only [ampStep, Amp.at, if_true, t 0 0 (by omega) (by omega)]
        rw [p0, p0, ← q2, ← q4]
        push_cast
        ring
      · apply sum_congr rfl; intro m _
        apply sum_congr rfl; intro nn hnn
        apply sum_congr rfl; intro n hn
        rw [mem_Icc] at hnn hn
        obtain ⟨t, ⟨q1, q2⟩, q3, q4⟩ := hval (m := m + 1) (n := n) (nn := nn) (by omega) (by omega) (by omega) (by omega)
        rw [(hz _).1, (hz _).2]
        simp only [ampStep, Amp.at, if_neg (Nat.succ_ne_zero m), t 0 0 (by omega) (by omega), t 0 1 (by omega) (by omega),
          t 1 0 (by omega) (by omega), t 1 1 (by omega) (by omega), ← q1, ← q2, ← q3, ← q4]
        push_cast
        ring
    · intro m n n'
      rw [hA, hA, hA, hA, o.pi_neg, o.tau_neg, i.pi_neg, i.tau_neg, e00, e01, e11]
      have h := congrArg (fun x : ℝ => (x : ℂ)) (he m)
      push_cast at h ⊢
      linear_combination (cnn n' n * (Tm 0 n m 0 n' * o.tau m n * i.tau m n' + Tm 1 n m 0 n' * o.pi m n * i.tau m n'
        + Tm 0 n m 1 n' * o.tau m n * i.pi m n' + Tm 1 n m 1 n' * o.pi m n * i.pi m n')) * h

end amplitude

/-- angles the tables are good for: not in the strip around a pole in which the code takes the polar values without being at
the pole (see C63) -/
def Regular (θ : ℝ) : Prop :=
  (0 < θ ∧ θ < Real.pi ∧ 1 / 10 ^ 10 < abs (1 - abs (Real.cos θ))) ∨ θ = 0 ∨ θ = Real.pi

/-- the grid the code makes from angles -/
noncomputable def gridOf (θ : Nat → ℝ) (nθ : Nat) : Angles ℝ :=
  ⟨fun i => Real.cos (θ i), fun i => sinOf realOps (Real.cos (θ i)), fun i => invOf (sinOf realOps (Real.cos (θ i))), nθ⟩

/-- the tables filled from the grid hold the angular functions -/
theorem tabulates_fill (θ : Nat → ℝ) (nθ : Nat) (t0 : Tab ℝ) {N nmax it : Nat} (h2 : nmax ≤ N) (hit : it < nθ) (hθ : Regular (θ it))
    {a : Angular} (ha : a.IsOf (θ it)) :
    Tabulates (fun m n => getD (fill realOps (gridOf θ nθ) N t0) m it n nmax) (fun m n => getDD (fill realOps (gridOf θ nθ) N t0) m it n nmax) nmax a := by
  intro m n h1 hm hn
  obtain ⟨e1, e2⟩ := c30_tables θ nθ t0 h1 hn h2 (show m ≤ nmax by omega) hit hθ
  obtain ⟨a1, a2⟩ := ha m n h1 hm
  refine ⟨?_, a2.unique e2⟩
  rcases Nat.eq_zero_or_pos m with h | h
  · subst h
    have := a.pi_neg 0 n
    norm_num at this ⊢
    linarith
  · exact tendsto_nhds_unique (a1 h) ((e1 h).const_mul (m : ℝ))

/-- angular functions from tables for `m ≥ 0` -/
def Angular.of (w dw : Nat → Nat → ℝ) : Angular where
  pi m n := (if 0 ≤ m then 1 else (-1) ^ m.natAbs) * (m * w m.natAbs n)
  tau m n := (if 0 ≤ m then 1 else (-1) ^ m.natAbs) * dw m.natAbs n
  pi_neg m n := by
    have he : ((-1 : ℝ) ^ m.natAbs) * (-1) ^ m.natAbs = 1 := by rw [← mul_pow]; simp
    rw [Int.natAbs_neg]
    rcases lt_trichotomy m 0 with h | h | h
    · rw [if_pos (by omega), if_neg (by omega)]
      push_cast
      linear_combination ((m : ℝ) * w m.natAbs n) * he
    · subst h; simp
    · rw [if_neg (by omega), if_pos (by omega)]
      push_cast
      ring
  tau_neg m n := by
    have he : ((-1 : ℝ) ^ m.natAbs) * (-1) ^ m.natAbs = 1 := by rw [← mul_pow]; simp
    rw [Int.natAbs_neg]
    rcases lt_trichotomy m 0 with h | h | h
    · rw [if_pos (by omega), if_neg (by omega)]
      linear_combination -(dw m.natAbs n) * he
    · subst h; simp
    · rw [if_neg (by omega), if_pos (by omega)]
      ring

/-- every regular angle has angular functions -/
theorem exists_angular {θ : ℝ} (h : Regular θ) : ∃ a : Angular, a.IsOf θ := by
  refine ⟨Angular.of (fun m n => getD (fill realOps (gridOf (fun _ => θ) 1) n ⟨fun _ _ _ => 0, fun _ _ _ => 0⟩) m 0 n n)
    (fun m n => getDD (fill realOps (gridOf (fun _ => θ) 1) n ⟨fun _ _ _ => 0, fun _ _ _ => 0⟩) m 0 n n), ?_⟩
  intro m n h1 hm
  obtain ⟨e1, e2⟩ := c30_tables (fun _ => θ) 1 ⟨fun _ _ _ => 0, fun _ _ _ => 0⟩ h1 le_rfl le_rfl hm (Nat.lt_succ_self 0) h
  constructor
  · intro h'
    have := (e1 h').const_mul (m : ℝ)
    convert this using 2
    unfold Angular.of gridOf
    simp
  · convert e2 using 1
    unfold Angular.of gridOf
    simp

/-- **C66** with tables filled from grids of angles: the amplitude matrix of the pair of directions. -/
theorem c66_directions {T : TRes ℂ ℝ} {cnn : Nat → Nat → ℂ} {Tm : Nat → Nat → Int → Nat → Nat → ℂ} (hA : Axisymmetric Tm) (hS : Stores T Tm)
    {θi θo : Nat → ℝ} {ni no N N' it jt : Nat} (t0 t1 : Tab ℝ) (hN : T.nmax ≤ N) (hN' : T.nmax ≤ N') (hit : it < no) (hjt : jt < ni)
    (hri : Regular (θi jt)) (hro : Regular (θo it)) {i o : Angular} (hi : i.IsOf (θi jt)) (ho : o.IsOf (θo it)) (k φ : ℝ) :
    amplitudeAt T cnn (fill realOps (gridOf θi ni) N t0) jt (fill realOps (gridOf θo no) N' t1) it k ⟨Real.cos φ, Real.sin φ⟩
      = ⟨S11 Tm (fun n n' => cnn n' n) o i k T.nmax φ, S12 Tm (fun n n' => cnn n' n) o i k T.nmax φ,
        S21 Tm (fun n n' => cnn n' n) o i k T.nmax φ, S22 Tm (fun n n' => cnn n' n) o i k T.nmax φ⟩ := by
  have e : (⟨Real.cos φ, Real.sin φ⟩ : ℂ) = Complex.exp (Complex.I * φ) := by
    have := exp_pow φ 1
    rw [pow_one, Nat.cast_one, one_mul] at this
    exact this.symm
  unfold amplitudeAt
  rw [e]
  obtain ⟨a, b, c, d⟩ := c66_amplitude (cnn := cnn) hA hS (tabulates_fill θo no t1 hN' hit hro ho) (tabulates_fill θi ni t0 hN hjt hri hi) k φ
  rw [← a, ← b, ← c, ← d]

/-! ### C53: the scattering matrix -/

/-- **C53** the matrix computed from the amplitude matrix maps the Stokes vector of the incoming wave to the Stokes vector of the
scattered wave, for all amplitudes of the incoming wave. -/
theorem c53_stokes (S : Amp) (Ev Eh : ℂ) (r : Fin 4) :
    stokes (S.s0 * Ev + S.s1 * Eh) (S.s2 * Ev + S.s3 * Eh) r = ∑ c : Fin 4, mueller S r c * stokes Ev Eh c := by
  obtain ⟨⟨a0, b0⟩, ⟨a1, b1⟩, ⟨a2, b2⟩, ⟨a3, b3⟩⟩ := S
  obtain ⟨v, v'⟩ := Ev
  obtain ⟨h, h'⟩ := Eh
  rw [Fin.sum_univ_four]
  fin_cases r <;>
  · simp [stokes, mueller, Complex.normSq_apply, Complex.mul_re, Complex.mul_im]
    ring

/-- ... and it is the only matrix that does. -/
theorem c53_unique (S : Amp) (Z : Fin 4 → Fin 4 → ℝ)
    (hZ : ∀ (Ev Eh : ℂ) (r : Fin 4), stokes (S.s0 * Ev + S.s1 * Eh) (S.s2 * Ev + S.s3 * Eh) r = ∑ c : Fin 4, Z r c * stokes Ev Eh c)
    (r c : Fin 4) : Z r c = mueller S r c := by
  have h : ∀ Ev Eh : ℂ, ∑ c : Fin 4, Z r c * stokes Ev Eh c = ∑ c : Fin 4, mueller S r c * stokes Ev Eh c :=
    fun Ev Eh => (hZ Ev Eh r).symm.trans (c53_stokes S Ev Eh r)
  have h1 := h 1 0
  have h2 := h 0 1
  have h3 := h 1 1
  have h4 := h 1 Complex.I
  have s0 : ∀ a b : ℂ, stokes a b 0 = Complex.normSq a + Complex.normSq b := fun _ _ => rfl
  have s1 : ∀ a b : ℂ, stokes a b 1 = Complex.normSq a - Complex.normSq b := fun _ _ => rfl
  have s2 : ∀ a b : ℂ, stokes a b 2 = -2 * (a * star b).re := fun _ _ => rfl
  have s3 : ∀ a b : ℂ, stokes a b 3 = 2 * (a * star b).im := fun _ _ => rfl
  rw [Fin.sum_univ_four, Fin.sum_univ_four, s0, s1, s2, s3] at h1 h2 h3 h4
  norm_num at h1 h2 h3 h4
  fin_cases c <;> dsimp <;> linarith

/-- **C53** after the task every pair of outgoing angles has its matrix in its place, and nothing else is changed. -/
theorem c53_execute (amp : Nat → Nat → Amp) (ntheta nphi : Nat) (result : Nat → Nat → Nat → ℝ) :
    (∀ it ip, it < ntheta → ip < nphi → scattering amp ntheta nphi result (it * nphi + ip) = mueller (amp it ip))
    ∧ ∀ j, ntheta * nphi ≤ j → scattering amp ntheta nphi result j = result j := by
  have key : ∀ {a b c : Nat}, a < c → ∀ {i}, i < b → a * b + i < c * b := by
    intro a b c h i hi
    calc a * b + i < a * b + b := by omega
      _ = (a + 1) * b := by ring
      _ ≤ c * b := Nat.mul_le_mul_right _ h
  unfold scattering
  have A := loop_inv (σ := Nat → Nat → Nat → ℝ) (fun q r => (∀ it ip, it < q → ip < nphi → r (it * nphi + ip) = mueller (amp it ip))
    ∧ ∀ j, q * nphi ≤ j → r j = result j) (Nat.zero_le ntheta)
    (fun it r => loop 0 nphi (fun ip r => Function.update r (it * nphi + ip) (mueller (amp it ip))) r) result
    ⟨fun it ip h => by omega, fun j _ => rfl⟩ (by
    intro it r _ hit ⟨a1, a2⟩
    have B := loop_inv (σ := Nat → Nat → Nat → ℝ) (fun q r' => (∀ ip, ip < q → r' (it * nphi + ip) = mueller (amp it ip))
      ∧ ∀ j, (j < it * nphi ∨ it * nphi + q ≤ j) → r' j = r j) (Nat.zero_le nphi)
      (fun ip r => Function.update r (it * nphi + ip) (mueller (amp it ip))) r
      ⟨fun ip h => by omega, fun j _ => rfl⟩ (by
      intro ip r' _ hip ⟨b1, b2⟩
      constructor
      · intro ip' h
        by_cases e : ip' = ip
        · subst e; exact Function.update_self _ _ _
        · rw [Function.update_of_ne (by omega)]; exact b1 ip' (by omega)
      · intro j hj
        rw [Function.update_of_ne (by omega)]; exact b2 j (by omega))
    obtain ⟨b1, b2⟩ := B
    constructor
    · intro it' ip' h h'
      by_cases e : it' = it
      · subst e; exact b1 ip' h'
      · rw [b2 _ (Or.inl (key (show it' < it by omega) h'))]; exact a1 it' ip' (by omega) h'
    · intro j hj
      have : (it + 1) * nphi = it * nphi + nphi := by ring
      rw [b2 j (Or.inr (by omega)), a2 j (by omega)])
  exact A

/-- **C53** the scattering task from the T-matrix to the result: the matrix stored for a pair of outgoing angles maps the Stokes
vector of every wave coming in from the given zenith angle to that of the wave scattered by the amplitude matrix of the theory. -/
theorem c53_scattering {T : TRes ℂ ℝ} {cnn : Nat → Nat → ℂ} {Tm : Nat → Nat → Int → Nat → Nat → ℂ} (hA : Axisymmetric Tm) (hS : Stores T Tm)
    {θi θo φ : Nat → ℝ} {ntheta nphi N it ip : Nat} (t0 t1 : Tab ℝ) (hN : T.nmax ≤ N) (hit : it < ntheta) (hip : ip < nphi)
    (hri : Regular (θi 0)) (hro : Regular (θo it)) {i o : Angular} (hi : i.IsOf (θi 0)) (ho : o.IsOf (θo it)) (k : ℝ)
    (result : Nat → Nat → Nat → ℝ) (Ev Eh : ℂ) (r : Fin 4) :
    ∑ c : Fin 4, scatteringTask T cnn (fill realOps (gridOf θi 1) N t0) (fill realOps (gridOf θo ntheta) N t1)
        (fun j => Real.cos (φ j)) (fun j => Real.sin (φ j)) k ntheta nphi result (it * nphi + ip) r c * stokes Ev Eh c
      = stokes (S11 Tm (fun n n' => cnn n' n) o i k T.nmax (φ ip) * Ev + S12 Tm (fun n n' => cnn n' n) o i k T.nmax (φ ip) * Eh)
          (S21 Tm (fun n n' => cnn n' n) o i k T.nmax (φ ip) * Ev + S22 Tm (fun n n' => cnn n' n) o i k T.nmax (φ ip) * Eh) r := by
  unfold scatteringTask
  rw [(c53_execute _ ntheta nphi result).1 it ip hit hip, c66_directions hA hS t0 t1 hN hN hit Nat.one_pos hri hro hi ho]
  exact (c53_stokes _ Ev Eh r).symm

/-! ### C67: extinction and absorption coefficients -/

/-- the cross sections of the theory divided by `π a²`: the optical theorem -/
noncomputable def opticalI (k a : ℝ) (s11 s22 : ℂ) : ℝ := 2 * Real.pi / k * (s11 + s22).im / (Real.pi * a ^ 2)
noncomputable def opticalQ (k a : ℝ) (s11 s22 : ℂ) : ℝ := 2 * Real.pi / k * (s11 - s22).im / (Real.pi * a ^ 2)
noncomputable def opticalV (k a : ℝ) (s11 s22 : ℂ) : ℝ := 2 * Real.pi / k * (s22 - s11).re / (Real.pi * a ^ 2)

theorem extinction_spec (amp : Nat → Amp) (π k a : ℝ) (ntheta : Nat) (r : Ext) :
    (∀ it, it < ntheta →
      (extinction amp π k a ntheta r).Qext it = 2 * π / k * ((amp it).s0 + (amp it).s3).im / (π * a * a)
      ∧ (extinction amp π k a ntheta r).Qextpol it = 2 * π / k * ((amp it).s0 - (amp it).s3).im / (π * a * a)
      ∧ (extinction amp π k a ntheta r).Qextcpol it = 2 * π / k * ((amp it).s3 - (amp it).s0).re / (π * a * a))
    ∧ ∀ it, ntheta ≤ it → (extinction amp π k a ntheta r).Qext it = r.Qext it ∧ (extinction amp π k a ntheta r).Qextpol it = r.Qextpol it
      ∧ (extinction amp π k a ntheta r).Qextcpol it = r.Qextcpol it := by
  unfold extinction
  refine loop_inv (σ := Ext) (fun q r' => (∀ it, it < q →
      r'.Qext it = 2 * π / k * ((amp it).s0 + (amp it).s3).im / (π * a * a)
      ∧ r'.Qextpol it = 2 * π / k * ((amp it).s0 - (amp it).s3).im / (π * a * a)
      ∧ r'.Qextcpol it = 2 * π / k * ((amp it).s3 - (amp it).s0).re / (π * a * a))
    ∧ ∀ it, q ≤ it → r'.Qext it = r.Qext it ∧ r'.Qextpol it = r.Qextpol it ∧ r'.Qextcpol it = r.Qextcpol it)
    (Nat.zero_le ntheta) _ r ⟨fun it h => by omega, fun it _ => ⟨rfl, rfl, rfl⟩⟩ ?_
  intro q r' _ hq ⟨a1, a2⟩
  dsimp only
  constructor
  · intro it h
    by_cases e : it = q
    · subst e; simp only [Function.update_self]; exact ⟨trivial, trivial, trivial⟩
    · simp only [Function.update_of_ne e]; exact a1 it (by omega)
  · intro it h
    have e : it ≠ q := by omega
    simp only [Function.update_of_ne e]
    exact a2 it (by omega)

/-- **C67** the extinction coefficients the task stores are those of the optical theorem, for every angle of the grid, divided by
the geometric cross section; nothing else is written. -/
theorem c67_extinction {T : TRes ℂ ℝ} {cnn : Nat → Nat → ℂ} {Tm : Nat → Nat → Int → Nat → Nat → ℂ} (hA : Axisymmetric Tm) (hS : Stores T Tm)
    {θ : Nat → ℝ} {ntheta N it : Nat} (t0 : Tab ℝ) (hN : T.nmax ≤ N) (hit : it < ntheta)
    (hr : Regular (θ it)) {o : Angular} (ho : o.IsOf (θ it)) (k a : ℝ) (r : Ext) :
    let α := fun n n' => cnn n' n
    let s11 := S11 Tm α o o k T.nmax 0
    let s22 := S22 Tm α o o k T.nmax 0
    let res := extinctionTask T cnn (fill realOps (gridOf θ ntheta) N t0) Real.pi k a ntheta r
    res.Qext it = opticalI k a s11 s22 ∧ res.Qextpol it = opticalQ k a s11 s22 ∧ res.Qextcpol it = opticalV k a s11 s22
    ∧ ∀ j, ntheta ≤ j → res.Qext j = r.Qext j ∧ res.Qextpol j = r.Qextpol j ∧ res.Qextcpol j = r.Qextcpol j := by
  intro α s11 s22 res
  have X := c66_directions (cnn := cnn) hA hS t0 t0 hN hN hit hit hr hr ho ho k 0
  rw [Real.cos_zero, Real.sin_zero] at X
  obtain ⟨a1, a2⟩ := extinction_spec (fun it => amplitudeAt T cnn (fill realOps (gridOf θ ntheta) N t0) it
    (fill realOps (gridOf θ ntheta) N t0) it k ⟨1, 0⟩) Real.pi k a ntheta r
  obtain ⟨b1, b2, b3⟩ := a1 it hit
  rw [X] at b1 b2 b3
  unfold opticalI opticalQ opticalV
  rw [pow_two, ← mul_assoc]
  exact ⟨b1, b2, b3, a2⟩

theorem absorption_spec (fwd : Nat → Amp) (amp : Nat → Nat → Nat → Amp) (wt wp : Nat → ℝ) (π k a : ℝ) (ntheta ngauss : Nat) (acc : Bool) (r : Abs) :
    (∀ it, it < ntheta →
      (absorption fwd amp wt wp π k a ntheta ngauss acc r).Qabs it = (2 * π / k * ((fwd it).s0 + (fwd it).s3).im
        - if acc then ∑ jt ∈ range ngauss, ∑ jp ∈ range ngauss, mueller (amp it jt jp) 0 0 * (wt jt * wp jp) else 0) / (π * a * a)
      ∧ (absorption fwd amp wt wp π k a ntheta ngauss acc r).Qabspol it = (2 * π / k * ((fwd it).s0 - (fwd it).s3).im
        - if acc then ∑ jt ∈ range ngauss, ∑ jp ∈ range ngauss, mueller (amp it jt jp) 1 0 * (wt jt * wp jp) else 0) / (π * a * a))
    ∧ ∀ it, ntheta ≤ it → (absorption fwd amp wt wp π k a ntheta ngauss acc r).Qabs it = r.Qabs it
      ∧ (absorption fwd amp wt wp π k a ntheta ngauss acc r).Qabspol it = r.Qabspol it := by
  unfold absorption
  refine loop_inv (σ := Abs) (fun q r' => (∀ it, it < q →
      r'.Qabs it = (2 * π / k * ((fwd it).s0 + (fwd it).s3).im
        - if acc then ∑ jt ∈ range ngauss, ∑ jp ∈ range ngauss, mueller (amp it jt jp) 0 0 * (wt jt * wp jp) else 0) / (π * a * a)
      ∧ r'.Qabspol it = (2 * π / k * ((fwd it).s0 - (fwd it).s3).im
        - if acc then ∑ jt ∈ range ngauss, ∑ jp ∈ range ngauss, mueller (amp it jt jp) 1 0 * (wt jt * wp jp) else 0) / (π * a * a))
    ∧ ∀ it, q ≤ it → r'.Qabs it = r.Qabs it ∧ r'.Qabspol it = r.Qabspol it)
    (Nat.zero_le ntheta) _ r ⟨fun it h => by omega, fun it _ => ⟨rfl, rfl⟩⟩ ?_
  intro q r' _ hq ⟨a1, a2⟩
  dsimp only
  have L : ∀ r0 : Abs, let r1 := loop 0 ngauss (fun jt r => loop 0 ngauss (fun jp (r : Abs) =>
          (⟨Function.update r.Qabs q (r.Qabs q - mueller (amp q jt jp) 0 0 * (wt jt * wp jp)),
            Function.update r.Qabspol q (r.Qabspol q - mueller (amp q jt jp) 1 0 * (wt jt * wp jp))⟩ : Abs)) r) r0
      (r1.Qabs q = r0.Qabs q - ∑ jt ∈ range ngauss, ∑ jp ∈ range ngauss, mueller (amp q jt jp) 0 0 * (wt jt * wp jp)
      ∧ r1.Qabspol q = r0.Qabspol q - ∑ jt ∈ range ngauss, ∑ jp ∈ range ngauss, mueller (amp q jt jp) 1 0 * (wt jt * wp jp))
      ∧ ∀ it, it ≠ q → r1.Qabs it = r0.Qabs it ∧ r1.Qabspol it = r0.Qabspol it := by
    intro r0
    refine loop_inv (σ := Abs) (fun u r1 =>
      (r1.Qabs q = r0.Qabs q - ∑ jt ∈ range u, ∑ jp ∈ range ngauss, mueller (amp q jt jp) 0 0 * (wt jt * wp jp)
      ∧ r1.Qabspol q = r0.Qabspol q - ∑ jt ∈ range u, ∑ jp ∈ range ngauss, mueller (amp q jt jp) 1 0 * (wt jt * wp jp))
      ∧ ∀ it, it ≠ q → r1.Qabs it = r0.Qabs it ∧ r1.Qabspol it = r0.Qabspol it) (Nat.zero_le ngauss) _ r0 (by simp) ?_
    intro jt r1 _ _ ⟨⟨c1, c2⟩, c3⟩
    have M := loop_inv (σ := Abs) (fun u r2 =>
      (r2.Qabs q = r1.Qabs q - ∑ jp ∈ range u, mueller (amp q jt jp) 0 0 * (wt jt * wp jp)
      ∧ r2.Qabspol q = r1.Qabspol q - ∑ jp ∈ range u, mueller (amp q jt jp) 1 0 * (wt jt * wp jp))
      ∧ ∀ it, it ≠ q → r2.Qabs it = r1.Qabs it ∧ r2.Qabspol it = r1.Qabspol it) (Nat.zero_le ngauss)
      (fun jp (r : Abs) =>
          (⟨Function.update r.Qabs q (r.Qabs q - mueller (amp q jt jp) 0 0 * (wt jt * wp jp)),
            Function.update r.Qabspol q (r.Qabspol q - mueller (amp q jt jp) 1 0 * (wt jt * wp jp))⟩ : Abs)) r1 (by simp) (by
      intro jp r2 _ _ ⟨⟨d1, d2⟩, d3⟩
      dsimp only
      refine ⟨⟨?_, ?_⟩, fun it h => ?_⟩
      · rw [Function.update_self, d1, sum_range_succ]; ring
      · rw [Function.update_self, d2, sum_range_succ]; ring
      · rw [Function.update_of_ne h, Function.update_of_ne h]; exact d3 it h)
    obtain ⟨⟨d1, d2⟩, d3⟩ := M
    refine ⟨⟨?_, ?_⟩, fun it h => ?_⟩
    · rw [d1, c1, sum_range_succ]; ring
    · rw [d2, c2, sum_range_succ]; ring
    · rw [(d3 it h).1, (d3 it h).2]; exact c3 it h
  cases acc with
  | false =>
    simp only [Bool.false_eq_true, if_false, sub_zero]
    simp only [Bool.false_eq_true, if_false, sub_zero] at a1
    constructor
    · intro it h
      by_cases e : it = q
      · subst e; simp only [Function.update_self]; exact ⟨trivial, trivial⟩
      · simp only [Function.update_of_ne e]; exact a1 it (by omega)
    · intro it h
      have e : it ≠ q := by omega
      simp only [Function.update_of_ne e]
      exact a2 it (by omega)
  | true =>
    simp only [if_true] at a1 ⊢
    obtain ⟨⟨l1, l2⟩, l3⟩ := L ⟨Function.update r'.Qabs q (2 * π / k * ((fwd q).s0 + (fwd q).s3).im),
      Function.update r'.Qabspol q (2 * π / k * ((fwd q).s0 - (fwd q).s3).im)⟩
    dsimp only at l1 l2 l3 ⊢
    rw [Function.update_self] at l1 l2
    constructor
    · intro it h
      by_cases e : it = q
      · subst e
        rw [Function.update_self, Function.update_self]
        exact ⟨congrArg (· / (π * a * a)) l1, congrArg (· / (π * a * a)) l2⟩
      · obtain ⟨x, y⟩ := l3 it e
        rw [Function.update_of_ne e] at x y
        rw [Function.update_of_ne e, Function.update_of_ne e]
        exact ⟨x.trans (a1 it (by omega)).1, y.trans (a1 it (by omega)).2⟩
    · intro it h
      have e : it ≠ q := by omega
      obtain ⟨x, y⟩ := l3 it e
      rw [Function.update_of_ne e] at x y
      rw [Function.update_of_ne e, Function.update_of_ne e]
      exact ⟨x.trans (a2 it (by omega)).1, y.trans (a2 it (by omega)).2⟩

/-- **C67** the absorption coefficients: the extinction coefficients minus the scattered intensity (polarised intensity),
integrated over the incoming directions with the weights of the grid; without the correction, just the extinction coefficients. -/
theorem c67_absorption {T : TRes ℂ ℝ} {cnn : Nat → Nat → ℂ} {Tm : Nat → Nat → Int → Nat → Nat → ℂ} (hA : Axisymmetric Tm) (hS : Stores T Tm)
    {θo θi φ wt wp : Nat → ℝ} {ntheta ngauss N it : Nat} (t0 t1 : Tab ℝ) (hN : T.nmax ≤ N) (hit : it < ntheta)
    (hr : Regular (θo it)) (hri : ∀ j, j < ngauss → Regular (θi j)) {o : Angular} (ho : o.IsOf (θo it)) {i : Nat → Angular}
    (hi : ∀ j, j < ngauss → (i j).IsOf (θi j)) (k a : ℝ) (acc : Bool) (r : Abs) :
    let α := fun n n' => cnn n' n
    let P : Nat → Nat → Amp := fun jt jp => ⟨S11 Tm α o (i jt) k T.nmax (-φ jp), S12 Tm α o (i jt) k T.nmax (-φ jp),
      S21 Tm α o (i jt) k T.nmax (-φ jp), S22 Tm α o (i jt) k T.nmax (-φ jp)⟩
    let s11 := S11 Tm α o o k T.nmax 0
    let s22 := S22 Tm α o o k T.nmax 0
    let res := absorptionTask T cnn (fill realOps (gridOf θo ntheta) N t0) (fill realOps (gridOf θi ngauss) N t1) (fun j => Real.cos (φ j))
      (fun j => Real.sin (φ j)) wt wp Real.pi k a ntheta ngauss acc r
    res.Qabs it = opticalI k a s11 s22
        - (if acc then (∑ jt ∈ range ngauss, ∑ jp ∈ range ngauss, wt jt * wp jp * mueller (P jt jp) 0 0) / (Real.pi * a ^ 2) else 0)
    ∧ res.Qabspol it = opticalQ k a s11 s22
        - (if acc then (∑ jt ∈ range ngauss, ∑ jp ∈ range ngauss, wt jt * wp jp * mueller (P jt jp) 1 0) / (Real.pi * a ^ 2) else 0)
    ∧ ∀ j, ntheta ≤ j → res.Qabs j = r.Qabs j ∧ res.Qabspol j = r.Qabspol j := by
  intro α P s11 s22 res
  have X := c66_directions (cnn := cnn) hA hS t0 t0 hN hN hit hit hr hr ho ho k 0
  rw [Real.cos_zero, Real.sin_zero] at X
  have Y : ∀ jt jp, jt < ngauss → amplitudeAt T cnn (fill realOps (gridOf θi ngauss) N t1) jt (fill realOps (gridOf θo ntheta) N t0) it k
      ⟨Real.cos (φ jp), -Real.sin (φ jp)⟩ = P jt jp := by
    intro jt jp h
    have := c66_directions (cnn := cnn) hA hS t1 t0 hN hN hit h (hri jt h) hr (hi jt h) ho k (-φ jp)
    rw [Real.cos_neg, Real.sin_neg] at this
    exact this
  obtain ⟨a1, a2⟩ := absorption_spec (fun it => amplitudeAt T cnn (fill realOps (gridOf θo ntheta) N t0) it
      (fill realOps (gridOf θo ntheta) N t0) it k ⟨1, -0⟩)
    (fun it jt jp => amplitudeAt T cnn (fill realOps (gridOf θi ngauss) N t1) jt (fill realOps (gridOf θo ntheta) N t0) it k
      ⟨Real.cos (φ jp), -Real.sin (φ jp)⟩) wt wp Real.pi k a ntheta ngauss acc r
  have X : amplitudeAt T cnn (fill realOps (gridOf θo ntheta) N t0) it (fill realOps (gridOf θo ntheta) N t0) it k ⟨1, -0⟩
      = ⟨s11, S12 Tm α o o k T.nmax 0, S21 Tm α o o k T.nmax 0, s22⟩ := by rw [neg_zero]; exact X
  obtain ⟨b1, b2⟩ := a1 it hit
  have Z : ∀ c, ∑ jt ∈ range ngauss, ∑ jp ∈ range ngauss, mueller (amplitudeAt T cnn (fill realOps (gridOf θi ngauss) N t1) jt
        (fill realOps (gridOf θo ntheta) N t0) it k ⟨Real.cos (φ jp), -Real.sin (φ jp)⟩) c 0 * (wt jt * wp jp)
      = ∑ jt ∈ range ngauss, ∑ jp ∈ range ngauss, wt jt * wp jp * mueller (P jt jp) c 0 := by
    intro c
    apply sum_congr rfl; intro jt hjt
    apply sum_congr rfl; intro jp _
    rw [Y jt jp (mem_range.mp hjt), mul_comm]
  beta_reduce at b1 b2
  rw [X, Z] at b1 b2
  unfold opticalI opticalQ
  rw [pow_two, ← mul_assoc]
  refine ⟨b1.trans ?_, b2.trans ?_, a2⟩
  · cases acc <;> simp [sub_div, s11, s22, α]
  · cases acc <;> simp [sub_div, s11, s22, α]

/-! ### concrete cases -/

example : tri 3 2 = 7 ∧ triSize 3 = 9 ∧ shapes 5 3 = [(5, 1), (5, 1), (5, 2), (5, 2), (5, 2), (5, 3), (5, 3), (5, 3), (5, 3)] := by decide

/-- the equator and the poles are regular, so angular functions exist there -/
theorem regular_examples : Regular 0 ∧ Regular Real.pi ∧ Regular (Real.pi / 2) := by
  have := Real.pi_pos
  refine ⟨Or.inr (Or.inl rfl), Or.inr (Or.inr rfl), Or.inl ⟨by linarith, by linarith, ?_⟩⟩
  rw [Real.cos_pi_div_two]
  norm_num

/-- the hypotheses of C66, C53 and C67 hold for a stored T-matrix of order 1 and a grid of a pole and the equator -/
example : Axisymmetric Tex ∧ Stores Rex Tex ∧ (∃ a : Angular, a.IsOf 0) ∧ (∃ a : Angular, a.IsOf (Real.pi / 2)) :=
  ⟨Tex_axisymmetric, Rex_stores, exists_angular regular_examples.1, exists_angular regular_examples.2.2⟩

/-- a particle that only scatters vertically polarised waves -/
example : stokes (1 * 1 + 0 * 0 : ℂ) (0 * 1 + 0 * 0) 0 = 1 ∧ mueller ⟨1, 0, 0, 0⟩ 0 0 = 1 / 2 := by
  constructor
  · simp [stokes]
  · simp [mueller]

end Verif.Scatter
