import Verif.Properties.Cross
import Verif.Properties.Content
import Mathlib.LinearAlgebra.Matrix.NonsingularInverse

/-!
# C96: grains without preferred orientation
-/
namespace Verif.Rotation

open Finset MeasureTheory Verif.Scatter Verif.Frame
open Verif.Direct (theory alphaF)
open Verif.Alignment (Axisymmetric Stores averaged)
open Verif.Python (AngleDist)
open Verif.Legendre (G N)

/-! ### sums over the projections -/

/-- the rows of Wigner's matrix are orthonormal -/
theorem d_row (n : Nat) {m m' : Int} (hm : |m| ≤ n) (hm' : |m'| ≤ n) (β : ℝ) :
    ∑ l ∈ Icc (-(n : Int)) n, d n m l β * d n m' l β = if m = m' then 1 else 0 := by
  let M : _root_.Matrix (Icc (-(n : Int)) n) (Icc (-(n : Int)) n) ℝ := _root_.Matrix.of fun a b => d n a b β
  have h : M.transpose * M = 1 := by
    ext a b
    rw [_root_.Matrix.mul_apply, _root_.Matrix.one_apply]
    have := d_orth n (l := a) (l' := b) (abs_le.2 (Finset.mem_Icc.1 a.2)) β
    rw [← Finset.sum_coe_sort] at this
    simp only [_root_.Matrix.transpose_apply, M, _root_.Matrix.of_apply]
    rw [this]
    simp only [Subtype.ext_iff]
  have h' := mul_eq_one_comm.1 h
  have := congrFun (congrFun h' ⟨m, Finset.mem_Icc.2 (abs_le.1 hm)⟩) ⟨m', Finset.mem_Icc.2 (abs_le.1 hm')⟩
  rw [_root_.Matrix.mul_apply, _root_.Matrix.one_apply] at this
  rw [← Finset.sum_coe_sort]
  simp only [_root_.Matrix.transpose_apply, M, Subtype.mk.injEq, _root_.Matrix.of_apply] at this
  exact this

theorem D_row (n : Nat) {m m' : Int} (hm : |m| ≤ n) (hm' : |m'| ≤ n) (α β : ℝ) :
    ∑ l ∈ Icc (-(n : Int)) n, D n m l α β * (starRingEnd ℂ) (D n m' l α β) = if m = m' then 1 else 0 := by
  have h := d_row n hm hm' β
  have e : ∀ l : Int, D n m l α β * (starRingEnd ℂ) (D n m' l α β)
      = Complex.exp (-(Complex.I * (m * α))) * (starRingEnd ℂ) (Complex.exp (-(Complex.I * (m' * α)))) * ((d n m l β * d n m' l β : ℝ) : ℂ) := by
    intro l
    unfold D
    rw [map_mul, Complex.conj_ofReal]
    push_cast
    ring
  simp only [e]
  rw [← Finset.mul_sum, ← Complex.ofReal_sum, h]
  by_cases hmm : m = m'
  · subst hmm
    rw [← Complex.exp_conj, ← Complex.exp_add]
    simp
  · simp [hmm]

theorem turn_pole (θ : ℝ) : dir θ 0 = Matrix.mulVec (rot 0 (-θ)) (dir 0 0) ∧ ∀ Ev Eh, Matrix.mulVec (rotC 0 (-θ)) (field 0 0 Ev Eh) = field θ 0 Ev Eh := by
  constructor
  · ext c
    fin_cases c <;> simp [rot, dir, aboutY, aboutZ, Matrix.mulVec, dotProduct, Fin.sum_univ_three]
  · intro Ev Eh
    obtain ⟨h0, h1, h2⟩ := rot_entries 0 (-θ) (field 0 0 Ev Eh)
    ext c
    fin_cases c
    · refine h0.trans ?_
      simp [field, eTheta, ePhi]
      ring
    · refine h1.trans ?_
      simp [field, eTheta, ePhi]
    · refine h2.trans ?_
      simp [field, eTheta, ePhi]
      ring

theorem from_pole {a p : Angular} {θ : ℝ} (ha : a.IsOf θ) (hp : p.IsOf 0) {n : Nat} (hn : 1 ≤ n) {m : Int} (hm : |m| ≤ n) :
    a.pi m n = ∑ k ∈ Icc (-(n : Int)) n, d n k m θ * p.pi k n ∧ a.tau m n = ∑ k ∈ Icc (-(n : Int)) n, d n k m θ * p.tau k n := by
  obtain ⟨h1, h2⟩ := turn_pole θ
  have hD : ∀ k, D n k m 0 (- -θ) = (d n k m θ : ℂ) := by
    intro k
    unfold D
    simp
  constructor
  · have := lin_rot hn hm hp ha h1 (h2 0 1) 1
    simp only [hD] at this
    simp [lin, wave] at this
    have e : ∀ k : Int, (d n k m θ : ℂ) * (Complex.I * (p.pi k n : ℂ)) = Complex.I * ((d n k m θ : ℂ) * (p.pi k n : ℂ)) := fun k => by ring
    simp only [e] at this
    rw [← Finset.mul_sum] at this
    exact_mod_cast mul_left_cancel₀ Complex.I_ne_zero this
  · have := lin_rot hn hm hp ha h1 (h2 1 0) 1
    simp only [hD] at this
    simp [lin, wave] at this
    exact_mod_cast this

theorem N_one_sq {n : Nat} (hn : 1 ≤ n) : (N 1 n * ((n : ℝ) * (n + 1) / 2)) ^ 2 = n * (n + 1) / 4 := by
  rw [Special.N_one n hn, mul_pow, Real.sq_sqrt (by positivity)]
  ring

theorem pole_nat {p : Angular} (hp : p.IsOf 0) {n : Nat} (hn : 1 ≤ n) {m : Nat} (hm : m ≤ n) :
    p.pi m n ^ 2 = (if m = 1 then (n : ℝ) * (n + 1) / 4 else 0) ∧ p.tau m n ^ 2 = if m = 1 then (n : ℝ) * (n + 1) / 4 else 0 := by
  rw [pi_eq hp hn hm, tau_eq hp hn hm]
  simp only [Real.sin_zero, Real.cos_zero]
  by_cases h : m = 1
  · subst h
    rw [if_pos rfl, Special.G_one_at_one, ← N_one_sq hn]
    constructor
    · simp
    · simp
  · rw [if_neg h]
    rcases Nat.eq_zero_or_pos m with rfl | h0
    · simp
    · obtain ⟨k, rfl⟩ := Nat.exists_eq_add_of_le' (show 2 ≤ m by omega)
      simp

theorem pole_int {p : Angular} (hp : p.IsOf 0) {n : Nat} (hn : 1 ≤ n) {k : Int} (hk : |k| ≤ n) :
    p.pi k n ^ 2 = (if k = 1 ∨ k = -1 then (n : ℝ) * (n + 1) / 4 else 0) ∧ p.tau k n ^ 2 = if k = 1 ∨ k = -1 then (n : ℝ) * (n + 1) / 4 else 0 := by
  have h1 : ((-1 : ℝ) ^ k.natAbs) ^ 2 = 1 := by rw [← pow_mul, mul_comm, pow_mul]; simp
  have hb := abs_le.1 hk
  have h := pole_nat hp hn (m := k.natAbs) (by omega)
  rw [if_congr (show k.natAbs = 1 ↔ k = 1 ∨ k = -1 by omega) rfl rfl] at h
  refine ⟨?_, ?_⟩
  · rw [← h.1]
    rcases Int.natAbs_eq k with e | e
    · rw [← e]
    · have := p.pi_neg (k.natAbs : Int) n
      rw [← e] at this
      rw [this, neg_sq, mul_pow, Int.natAbs_natCast, h1, one_mul]
  · rw [← h.2]
    rcases Int.natAbs_eq k with e | e
    · rw [← e]
    · have := p.tau_neg (k.natAbs : Int) n
      rw [← e] at this
      rw [this, mul_pow, Int.natAbs_natCast, h1, one_mul]

theorem at_pole {p : Angular} (hp : p.IsOf 0) {n : Nat} (hn : 1 ≤ n) :
    ∑ k ∈ Icc (-(n : Int)) n, p.pi k n ^ 2 = n * (n + 1) / 2 ∧ ∑ k ∈ Icc (-(n : Int)) n, p.tau k n ^ 2 = n * (n + 1) / 2 := by
  have e : ∑ k ∈ Icc (-(n : Int)) n, (if k = 1 ∨ k = -1 then (n : ℝ) * (n + 1) / 4 else 0) = n * (n + 1) / 2 := by
    rw [← Finset.sum_filter, show (Icc (-(n : Int)) n).filter (fun k => k = 1 ∨ k = -1) = {1, -1} by
      ext k
      simp only [Finset.mem_filter, Finset.mem_Icc, Finset.mem_insert, Finset.mem_singleton]
      omega]
    rw [Finset.sum_pair (by decide)]
    ring
  constructor
  · rw [← e]
    exact Finset.sum_congr rfl fun k hk => (pole_int hp hn (abs_le.2 (Finset.mem_Icc.1 hk))).1
  · rw [← e]
    exact Finset.sum_congr rfl fun k hk => (pole_int hp hn (abs_le.2 (Finset.mem_Icc.1 hk))).2

theorem sum_sq {f g : Int → ℝ} {n : Nat} {θ : ℝ} (h : ∀ m : Int, |m| ≤ n → f m = ∑ k ∈ Icc (-(n : Int)) n, d n k m θ * g k) :
    ∑ m ∈ Icc (-(n : Int)) n, f m ^ 2 = ∑ k ∈ Icc (-(n : Int)) n, g k ^ 2 := by
  have e : ∀ m ∈ Icc (-(n : Int)) n, f m ^ 2 = ∑ k ∈ Icc (-(n : Int)) n, ∑ k' ∈ Icc (-(n : Int)) n, g k * g k' * (d n k m θ * d n k' m θ) := by
    intro m hm
    rw [h m (abs_le.2 (Finset.mem_Icc.1 hm)), sq, Finset.sum_mul_sum]
    refine Finset.sum_congr rfl fun k _ => Finset.sum_congr rfl fun k' _ => ?_
    ring
  rw [Finset.sum_congr rfl e, Finset.sum_comm]
  refine Finset.sum_congr rfl fun k hk => ?_
  rw [Finset.sum_comm]
  have e2 : ∀ k' ∈ Icc (-(n : Int)) n, ∑ m ∈ Icc (-(n : Int)) n, g k * g k' * (d n k m θ * d n k' m θ) = if k = k' then g k ^ 2 else 0 := by
    intro k' hk'
    rw [← Finset.mul_sum, d_row n (abs_le.2 (Finset.mem_Icc.1 hk)) (abs_le.2 (Finset.mem_Icc.1 hk'))]
    by_cases hkk : k = k'
    · subst hkk
      simp [sq]
    · simp [hkk]
  rw [Finset.sum_congr rfl e2, Finset.sum_ite_eq, if_pos hk]

/-- `Σ π² = Σ τ² = n (n + 1) / 2`, `Σ π τ = 0` -/
theorem projections {a : Angular} {θ : ℝ} (ha : a.IsOf θ) {n : Nat} (hn : 1 ≤ n) :
    ∑ m ∈ Icc (-(n : Int)) n, a.pi m n ^ 2 = n * (n + 1) / 2 ∧ ∑ m ∈ Icc (-(n : Int)) n, a.tau m n ^ 2 = n * (n + 1) / 2
    ∧ ∑ m ∈ Icc (-(n : Int)) n, a.pi m n * a.tau m n = 0 := by
  obtain ⟨p, hp⟩ := angular_all 0
  refine ⟨?_, ?_, ?_⟩
  · rw [← (at_pole hp hn).1]
    exact sum_sq fun m hm => (from_pole ha hp hn hm).1
  · rw [← (at_pole hp hn).2]
    exact sum_sq fun m hm => (from_pole ha hp hn hm).2
  · have h : ∑ m ∈ Icc (-(n : Int)) n, a.pi m n * a.tau m n = ∑ m ∈ Icc (-(n : Int)) n, a.pi (-m) n * a.tau (-m) n := by
      refine Finset.sum_bij (fun m _ => -m) (fun m hm => ?_) (fun m _ m' _ h => by omega) (fun m hm => ⟨-m, ?_, by simp⟩) (fun m _ => by simp)
      · rw [Finset.mem_Icc] at hm ⊢
        omega
      · rw [Finset.mem_Icc] at hm ⊢
        omega
    have e : ∀ m, a.pi (-m) n * a.tau (-m) n = -(a.pi m n * a.tau m n) := by
      intro m
      have h : ((-1 : ℝ) ^ m.natAbs) ^ 2 = 1 := by rw [← pow_mul, mul_comm, pow_mul]; simp
      rw [Angular.pi_neg, Angular.tau_neg]
      linear_combination -(a.pi m n * a.tau m n) * h
    simp only [e, Finset.sum_neg_distrib] at h
    linarith

/-! ### the forward amplitude matrix -/

/-- sum over the projections of the diagonal blocks of a T-matrix -/
noncomputable def blockTrace (T : Nat → Nat → Int → Nat → Nat → ℂ) (a b n : Nat) : ℂ := ∑ m ∈ Icc (-(n : Int)) n, T a n m b n

/-- the elements do not depend on the projection and connect equal orders only -/
def Scalar (nmax : Nat) (t : Nat → Nat → Nat → ℂ) (T : Nat → Nat → Int → Nat → Nat → ℂ) : Prop :=
  ∀ a n (m : Int) b n', 1 ≤ n → n ≤ nmax → 1 ≤ n' → n' ≤ nmax → |m| ≤ min (n : Int) n' → T a n m b n' = if n = n' then t a b n else 0

theorem averaged_scalar (T : Nat → Nat → Int → Nat → Nat → ℂ) (nmax : Nat) :
    Scalar nmax (fun a b n => 1 / (2 * n + 1) * blockTrace T a b n) (averaged (fun x : ℝ => (x : ℂ)) (fun N => if N = 0 then 1 else 0) T) := by
  intro a n m b n' _ _ _ _ hm
  have := Alignment.c57_random Complex.ofRealHom T (i := a) (j := b) hm
  refine Eq.trans this ?_
  by_cases h : n = n'
  · subst h
    simp only [if_true, blockTrace]
    simp
  · simp [h]

theorem alphaF_self {n : Nat} (hn : 1 ≤ n) : alphaF n n = -Complex.I * ((2 * n + 1) / (n * (n + 1))) := by
  unfold alphaF
  rw [prefactor_mul, ← sq, Real.sq_sqrt (by positivity)]
  simp

theorem scalar_sum {nmax : Nat} {t : Nat → Nat → Nat → ℂ} {T : Nat → Nat → Int → Nat → Nat → ℂ} (h : Scalar nmax t T)
    (f00 f10 f01 f11 : Int → Nat → Nat → ℂ) :
    ampSum nmax 0 (fun m n n' => alphaF n n' * (T 0 n m 0 n' * f00 m n n' + T 1 n m 0 n' * f10 m n n' + T 0 n m 1 n' * f01 m n n' + T 1 n m 1 n' * f11 m n n'))
      = ∑ n ∈ Icc 1 nmax, -Complex.I * ((2 * n + 1) / (n * (n + 1))) * (t 0 0 n * ∑ m ∈ Icc (-(n : Int)) n, f00 m n n + t 1 0 n * ∑ m ∈ Icc (-(n : Int)) n, f10 m n n
        + t 0 1 n * ∑ m ∈ Icc (-(n : Int)) n, f01 m n n + t 1 1 n * ∑ m ∈ Icc (-(n : Int)) n, f11 m n n) := by
  rw [reorder]
  refine Finset.sum_congr rfl fun n hn => ?_
  rw [Finset.mem_Icc] at hn
  rw [Finset.sum_eq_single n]
  · rw [min_self, ← alphaF_self hn.1]
    simp only [Finset.mul_sum, ← Finset.sum_add_distrib]
    refine Finset.sum_congr rfl fun m hm => ?_
    have hm' : |m| ≤ min (n : Int) n := by
      rw [min_self]
      exact abs_le.2 (Finset.mem_Icc.1 hm)
    simp only [h _ n m _ n hn.1 hn.2 hn.1 hn.2 hm', if_true, Complex.ofReal_zero, mul_zero, Complex.exp_zero, mul_one]
    try ring
  · intro n' hn' hne
    rw [Finset.mem_Icc] at hn'
    refine Finset.sum_eq_zero fun m hm => ?_
    have hm' : |m| ≤ min (n : Int) n' := abs_le.2 (Finset.mem_Icc.1 hm)
    simp only [h _ n m _ n' hn.1 hn.2 hn'.1 hn'.2 hm', if_neg (Ne.symm hne)]
    ring
  · intro hne
    exact absurd (Finset.mem_Icc.2 hn) hne

/-- forward scattering by an ensemble without preferred orientation -/
theorem scalar_forward {nmax : Nat} {t : Nat → Nat → Nat → ℂ} {T : Nat → Nat → Int → Nat → Nat → ℂ} (h : Scalar nmax t T) (k : ℝ)
    {a : Angular} {θ : ℝ} (ha : a.IsOf θ) :
    theory T k nmax a a 0 = ⟨-Complex.I / (2 * k) * ∑ n ∈ Icc 1 nmax, (2 * n + 1) * (t 0 0 n + t 1 1 n),
      -1 / (2 * k) * ∑ n ∈ Icc 1 nmax, (2 * n + 1) * (t 1 0 n + t 0 1 n), 1 / (2 * k) * ∑ n ∈ Icc 1 nmax, (2 * n + 1) * (t 1 0 n + t 0 1 n),
      -Complex.I / (2 * k) * ∑ n ∈ Icc 1 nmax, (2 * n + 1) * (t 0 0 n + t 1 1 n)⟩ := by
  have hp : ∀ n : Nat, 1 ≤ n → (∑ m ∈ Icc (-(n : Int)) n, (a.pi m n : ℂ) * (a.pi m n : ℂ) = n * (n + 1) / 2)
      ∧ (∑ m ∈ Icc (-(n : Int)) n, (a.tau m n : ℂ) * (a.tau m n : ℂ) = n * (n + 1) / 2)
      ∧ (∑ m ∈ Icc (-(n : Int)) n, (a.pi m n : ℂ) * (a.tau m n : ℂ) = 0) ∧ (∑ m ∈ Icc (-(n : Int)) n, (a.tau m n : ℂ) * (a.pi m n : ℂ) = 0) := by
    intro n hn
    obtain ⟨h1, h2, h3⟩ := projections ha hn
    refine ⟨?_, ?_, ?_, ?_⟩
    · have := congrArg (fun r : ℝ => (r : ℂ)) h1
      push_cast [sq] at this
      exact this
    · have := congrArg (fun r : ℝ => (r : ℂ)) h2
      push_cast [sq] at this
      exact this
    · have := congrArg (fun r : ℝ => (r : ℂ)) h3
      push_cast at this
      exact this
    · have := congrArg (fun r : ℝ => (r : ℂ)) h3
      push_cast at this
      simpa only [mul_comm (a.pi _ _ : ℂ)] using this
  have hI := Complex.I_ne_zero
  have hI2 := Complex.I_sq
  have go : ∀ (f00 f10 f01 f11 : Int → Nat → Nat → ℂ) (c : ℂ) (r : Nat → ℂ),
      (∀ n : Nat, 1 ≤ n → -Complex.I * ((2 * n + 1) / (n * (n + 1))) * (t 0 0 n * ∑ m ∈ Icc (-(n : Int)) n, f00 m n n + t 1 0 n * ∑ m ∈ Icc (-(n : Int)) n, f10 m n n
        + t 0 1 n * ∑ m ∈ Icc (-(n : Int)) n, f01 m n n + t 1 1 n * ∑ m ∈ Icc (-(n : Int)) n, f11 m n n) = c * r n) →
      ampSum nmax 0 (fun m n n' => alphaF n n' * (T 0 n m 0 n' * f00 m n n' + T 1 n m 0 n' * f10 m n n' + T 0 n m 1 n' * f01 m n n' + T 1 n m 1 n' * f11 m n n'))
        = c * ∑ n ∈ Icc 1 nmax, r n := by
    intro f00 f10 f01 f11 c r hf
    rw [scalar_sum h, Finset.mul_sum]
    exact Finset.sum_congr rfl fun n hn => hf n (Finset.mem_Icc.1 hn).1
  have nz : ∀ n : Nat, 1 ≤ n → (n : ℂ) ≠ 0 ∧ (n : ℂ) + 1 ≠ 0 := fun n hn => ⟨by exact_mod_cast (by omega : n ≠ 0), by exact_mod_cast (by omega : n + 1 ≠ 0)⟩
  unfold theory
  congr 1
  · have := go (fun m n n' => (a.pi m n : ℂ) * a.pi m n') (fun m n n' => (a.tau m n : ℂ) * a.pi m n')
      (fun m n n' => (a.pi m n : ℂ) * a.tau m n') (fun m n n' => (a.tau m n : ℂ) * a.tau m n') (-Complex.I / 2)
      (fun n => (2 * n + 1) * (t 0 0 n + t 1 1 n)) (by
        intro n hn
        obtain ⟨h1, h2, h3, h4⟩ := hp n hn
        obtain ⟨z1, z2⟩ := nz n hn
        simp only [h1, h2, h3, h4, mul_zero, add_zero, zero_add]
        field_simp
        try ring)
    simp only [← mul_assoc] at this
    unfold S11
    rw [this]
    ring
  · have := go (fun m n n' => (a.pi m n : ℂ) * a.tau m n') (fun m n n' => (a.tau m n : ℂ) * a.tau m n')
      (fun m n n' => (a.pi m n : ℂ) * a.pi m n') (fun m n n' => (a.tau m n : ℂ) * a.pi m n') (-Complex.I / 2)
      (fun n => (2 * n + 1) * (t 1 0 n + t 0 1 n)) (by
        intro n hn
        obtain ⟨h1, h2, h3, h4⟩ := hp n hn
        obtain ⟨z1, z2⟩ := nz n hn
        simp only [h1, h2, h3, h4, mul_zero, add_zero, zero_add]
        field_simp
        try ring)
    simp only [← mul_assoc] at this
    unfold S12
    rw [this, one_div, mul_inv, Complex.inv_I]
    linear_combination (1 / (2 * k) * ∑ n ∈ Icc 1 nmax, (2 * (n : ℂ) + 1) * (t 1 0 n + t 0 1 n)) * hI2
  · have := go (fun m n n' => (a.tau m n : ℂ) * a.pi m n') (fun m n n' => (a.pi m n : ℂ) * a.pi m n')
      (fun m n n' => (a.tau m n : ℂ) * a.tau m n') (fun m n n' => (a.pi m n : ℂ) * a.tau m n') (-Complex.I / 2)
      (fun n => (2 * n + 1) * (t 1 0 n + t 0 1 n)) (by
        intro n hn
        obtain ⟨h1, h2, h3, h4⟩ := hp n hn
        obtain ⟨z1, z2⟩ := nz n hn
        simp only [h1, h2, h3, h4, mul_zero, add_zero, zero_add]
        field_simp
        try ring)
    simp only [← mul_assoc] at this
    unfold S21
    rw [this]
    linear_combination (-(1 / (2 * k) * ∑ n ∈ Icc 1 nmax, (2 * (n : ℂ) + 1) * (t 1 0 n + t 0 1 n))) * hI2
  · have := go (fun m n n' => (a.tau m n : ℂ) * a.tau m n') (fun m n n' => (a.pi m n : ℂ) * a.tau m n')
      (fun m n n' => (a.tau m n : ℂ) * a.pi m n') (fun m n n' => (a.pi m n : ℂ) * a.pi m n') (-Complex.I / 2)
      (fun n => (2 * n + 1) * (t 0 0 n + t 1 1 n)) (by
        intro n hn
        obtain ⟨h1, h2, h3, h4⟩ := hp n hn
        obtain ⟨z1, z2⟩ := nz n hn
        simp only [h1, h2, h3, h4, mul_zero, add_zero, zero_add]
        field_simp
        try ring)
    simp only [← mul_assoc] at this
    unfold S22
    rw [this]
    ring

/-! ### all orientations equally likely -/

/-- the polar angle of a direction, when all directions are equally likely: density `sin β / 2` -/
noncomputable def uniform : Measure ℝ := Python.withDensity fun _ => 1 / 2

theorem uniform_integral (f : Polynomial ℝ) : ∫ β, f.eval (Real.cos β) ∂uniform = 1 / 2 * Legendre.integral f := by
  unfold uniform
  rw [Python.integral_density continuous_const (fun _ _ => by norm_num), ← cos_subst, ← intervalIntegral.integral_const_mul]
  congr 1
  funext β
  ring

theorem uniform_dist : AngleDist uniform := by
  refine Python.density_dist continuous_const (fun _ _ => by norm_num) ?_
  rw [intervalIntegral.integral_const_mul, integral_sin]
  simp
  norm_num

theorem uniform_coefficients (N : Nat) : coefficients uniform N = if N = 0 then 1 else 0 := by
  unfold coefficients
  rw [Int.toNat_natCast, uniform_integral]
  rcases Nat.eq_zero_or_pos N with rfl | h
  · have : Legendre.integral (Legendre.P 0) = 2 := by
      have := Legendre.integral_derivative Polynomial.X
      simp at this
      rw [show Legendre.P 0 = 1 by simp [Legendre.P], this]
      norm_num
    rw [this]
    simp
  · have := Legendre.orthogonal_lower N 1 (by simpa using h)
    rw [mul_one] at this
    rw [this, if_neg (by omega), mul_zero]

theorem averaged_uniform (T : Nat → Nat → Int → Nat → Nat → ℂ) :
    averaged (fun x : ℝ => (x : ℂ)) (coefficients uniform) T = averaged (fun x : ℝ => (x : ℂ)) (fun N => if N = 0 then 1 else 0) T := by
  funext i n1 m j n2
  refine averaged_congr T i n1 m j n2 fun N _ => ?_
  rw [uniform_coefficients]
  simp

/-- trace of the T-matrix up to an order -/
noncomputable def trace (T : Nat → Nat → Int → Nat → Nat → ℂ) (nmax : Nat) : ℂ := ∑ n ∈ Icc 1 nmax, ∑ m ∈ Icc (-(n : Int)) n, (T 0 n m 0 n + T 1 n m 1 n)

theorem cross_trace {T : Nat → Nat → Int → Nat → Nat → ℂ} (hA : Axisymmetric T) {a b : Nat} (hab : (a + b) % 2 = 1) (n : Nat) : blockTrace T a b n = 0 := by
  have h : blockTrace T a b n = ∑ m ∈ Icc (-(n : Int)) n, T a n (-m) b n := by
    refine Finset.sum_bij (fun m _ => -m) (fun m hm => ?_) (fun m _ m' _ h => by omega) (fun m hm => ⟨-m, ?_, by simp⟩) (fun m _ => by simp)
    · rw [Finset.mem_Icc] at hm ⊢
      omega
    · rw [Finset.mem_Icc] at hm ⊢
      omega
  have e : ∀ m, T a n (-m) b n = -T a n m b n := by
    intro m
    rw [hA, Odd.neg_one_pow (Nat.odd_iff.2 hab)]
    ring
  simp only [e, Finset.sum_neg_distrib] at h
  have h2 : blockTrace T a b n = -blockTrace T a b n := h
  exact self_eq_neg.1 h2

theorem random_forward {T : Nat → Nat → Int → Nat → Nat → ℂ} (hA : Axisymmetric T) (k : ℝ) (nmax : Nat) {a : Angular} {θ : ℝ} (ha : a.IsOf θ) :
    theory (averaged (fun x : ℝ => (x : ℂ)) (coefficients uniform) T) k nmax a a 0
      = ⟨-Complex.I / (2 * k) * trace T nmax, 0, 0, -Complex.I / (2 * k) * trace T nmax⟩ := by
  rw [averaged_uniform, scalar_forward (averaged_scalar T nmax) k ha]
  have h1 : ∑ n ∈ Icc 1 nmax, (2 * (n : ℂ) + 1) * (1 / (2 * n + 1) * blockTrace T 0 0 n + 1 / (2 * n + 1) * blockTrace T 1 1 n) = trace T nmax := by
    unfold trace
    refine Finset.sum_congr rfl fun n _ => ?_
    have hz : (2 * (n : ℂ) + 1) ≠ 0 := by exact_mod_cast (by omega : 2 * n + 1 ≠ 0)
    rw [Finset.sum_add_distrib, ← mul_add, ← mul_assoc, mul_one_div_cancel hz, one_mul]
    rfl
  have h2 : ∑ n ∈ Icc 1 nmax, (2 * (n : ℂ) + 1) * (1 / (2 * n + 1) * blockTrace T 1 0 n + 1 / (2 * n + 1) * blockTrace T 0 1 n) = 0 := by
    refine Finset.sum_eq_zero fun n _ => ?_
    rw [cross_trace hA (by norm_num), cross_trace hA (by norm_num)]
    ring
  simp only [h1, h2, mul_zero]

/-- **C96**: an object with the T-matrix of an ensemble of grains in all orientations: the forward amplitude is `-i/(2k)` times the trace of the T-matrix of one
grain, for every direction and for every polarisation, and the polarisation of the light does not change -/
theorem c96_forward (o : Direct.Obj ℝ ℂ) {T : Nat → Nat → Int → Nat → Nat → ℂ} (hA : Axisymmetric T)
    (hS : Stores o.res (averaged (fun x : ℝ => (x : ℂ)) (coefficients uniform) T)) {θ : ℝ} (hr : Regular θ) (φ : ℝ) :
    Direct.forwardAngles o θ φ θ φ = ⟨-Complex.I / (2 * o.k) * trace T o.nmax, 0, 0, -Complex.I / (2 * o.k) * trace T o.nmax⟩ := by
  obtain ⟨i, hi⟩ := angular_all θ
  rw [Direct.c75_forward o (Content.averaged_axisymmetric (algebraMap ℝ ℂ) (coefficients uniform) hA) hS θ φ θ φ hr hr hi hi, sub_self]
  exact random_forward hA o.k o.nmax hi

/-- **C96**: the mean over all orientations of the extinction cross section of a grain is `-2π/k²` times the real part of the trace of its T-matrix; that of the
dichroism and the birefringence vanishes -/
theorem c96_mean {T : Nat → Nat → Int → Nat → Nat → ℂ} (hA : Axisymmetric T) (k : ℝ) (nmax : Nat) {θ φ : ℝ}
    {S : ℝ → ℝ → Amp} (h : ∀ α β, Oriented T k nmax α β θ φ θ φ (S α β)) :
    mean uniform (fun α β => 2 * Real.pi / k * ((S α β).s0 + (S α β).s3).im) = -(2 * Real.pi / k ^ 2 * (trace T nmax).re)
    ∧ mean uniform (fun α β => 2 * Real.pi / k * ((S α β).s0 - (S α β).s3).im) = 0
    ∧ mean uniform (fun α β => 2 * Real.pi / k * ((S α β).s3 - (S α β).s0).re) = 0 := by
  obtain ⟨o, ho⟩ := angular_all θ
  have Lim : ∀ r : ℝ, ∃ L : ℂ →L[ℝ] ℂ, ∀ z, L z = ((r * z.im : ℝ) : ℂ) := fun r => ⟨(r • Complex.imCLM).smulRight (1 : ℂ), fun z => by simp⟩
  have Lre : ∀ r : ℝ, ∃ L : ℂ →L[ℝ] ℂ, ∀ z, L z = ((r * z.re : ℝ) : ℂ) := fun r => ⟨(r • Complex.reCLM).smulRight (1 : ℂ), fun z => by simp⟩
  have hf := random_forward hA k nmax ho
  refine ⟨Complex.ofReal_injective ?_, Complex.ofReal_injective ?_, Complex.ofReal_injective ?_⟩
  · rw [← mean_average]
    obtain ⟨L, hL⟩ := Lim (2 * Real.pi / k)
    have := extinction_mean uniform_dist h ho ho L 1
    rw [sub_self, hf] at this
    simp only [hL, one_mul, entry, if_true, one_ne_zero, if_false] at this
    rw [this]
    congr 1
    rw [Complex.add_im, show -Complex.I / (2 * (k : ℂ)) * trace T nmax = ((1 / (2 * k) : ℝ) : ℂ) * (-Complex.I * trace T nmax) by push_cast; ring, Complex.im_ofReal_mul]
    simp
    ring
  · rw [← mean_average]
    obtain ⟨L, hL⟩ := Lim (2 * Real.pi / k)
    have := extinction_mean uniform_dist h ho ho L (-1)
    rw [sub_self, hf] at this
    simp only [hL, neg_mul, one_mul, ← sub_eq_add_neg, entry, if_true, one_ne_zero, if_false] at this
    rw [this, sub_self]
    simp
  · rw [← mean_average]
    obtain ⟨L, hL⟩ := Lre (-(2 * Real.pi / k))
    have := extinction_mean uniform_dist h ho ho L (-1)
    rw [sub_self, hf] at this
    simp only [hL, neg_mul, one_mul, ← sub_eq_add_neg, entry, if_true, one_ne_zero, if_false] at this
    rw [sub_self] at this
    refine Eq.trans ?_ (this.trans (by simp))
    congr 1
    funext α β
    congr 1
    rw [Complex.sub_re, Complex.sub_re]
    ring

/-! ### coefficients that are almost those of the uniform distribution -/

theorem averaged_lin (c : ℝ) (p q : Int → ℝ) (T : Nat → Nat → Int → Nat → Nat → ℂ) (i n1 : Nat) (m : Int) (j n2 : Nat) :
    averaged (fun x : ℝ => (x : ℂ)) (fun N => c * p N + q N) T i n1 m j n2
      = c * averaged (fun x : ℝ => (x : ℂ)) p T i n1 m j n2 + averaged (fun x : ℝ => (x : ℂ)) q T i n1 m j n2 := by
  unfold averaged
  simp only [Finset.mul_sum, ← Finset.sum_add_distrib]
  refine Finset.sum_congr rfl fun N _ => Finset.sum_congr rfl fun m1 _ => ?_
  push_cast
  ring

theorem ampSum_lin (nmax : Nat) (φ : ℝ) (c : ℂ) (f g : Int → Nat → Nat → ℂ) :
    ampSum nmax φ (fun m n n' => c * f m n n' + g m n n') = c * ampSum nmax φ f + ampSum nmax φ g := by
  unfold ampSum
  simp only [Finset.mul_sum, ← Finset.sum_add_distrib]
  refine Finset.sum_congr rfl fun m _ => Finset.sum_congr rfl fun n' _ => Finset.sum_congr rfl fun n _ => ?_
  ring

theorem theory_lin (c : ℂ) {T X Y : Nat → Nat → Int → Nat → Nat → ℂ} (h : ∀ a n m b n', T a n m b n' = c * X a n m b n' + Y a n m b n')
    (k : ℝ) (nmax : Nat) (i s : Angular) (φ : ℝ) (p q : Fin 2) :
    entry (theory T k nmax i s φ) p q = c * entry (theory X k nmax i s φ) p q + entry (theory Y k nmax i s φ) p q := by
  have go : ∀ (z : ℂ) {f g h : Int → Nat → Nat → ℂ}, (∀ m n n', f m n n' = c * g m n n' + h m n n') →
      z * ampSum nmax φ f = c * (z * ampSum nmax φ g) + z * ampSum nmax φ h := by
    intro z f g h e
    rw [show f = fun m n n' => c * g m n n' + h m n n' from funext fun m => funext fun n => funext fun n' => e m n n', ampSum_lin]
    ring
  have e11 : S11 T alphaF s i k nmax φ = c * S11 X alphaF s i k nmax φ + S11 Y alphaF s i k nmax φ := by
    refine go _ fun m n n' => ?_
    rw [h, h, h, h]
    ring
  have e12 : S12 T alphaF s i k nmax φ = c * S12 X alphaF s i k nmax φ + S12 Y alphaF s i k nmax φ := by
    refine go _ fun m n n' => ?_
    rw [h, h, h, h]
    ring
  have e21 : S21 T alphaF s i k nmax φ = c * S21 X alphaF s i k nmax φ + S21 Y alphaF s i k nmax φ := by
    refine go _ fun m n n' => ?_
    rw [h, h, h, h]
    ring
  have e22 : S22 T alphaF s i k nmax φ = c * S22 X alphaF s i k nmax φ + S22 Y alphaF s i k nmax φ := by
    refine go _ fun m n n' => ?_
    rw [h, h, h, h]
    ring
  unfold theory entry
  split
  · split
    · exact e11
    · exact e12
  · split
    · exact e21
    · exact e22

/-- the amplitude matrix depends linearly on the coefficients of the distribution -/
theorem theory_coefficients (T : Nat → Nat → Int → Nat → Nat → ℂ) (k : ℝ) (nmax : Nat) (i s : Angular) (φ : ℝ) (u v : Fin 2) (p : Int → ℝ) :
    entry (theory (averaged (fun x : ℝ => (x : ℂ)) p T) k nmax i s φ) u v
      = ∑ N ∈ range (2 * nmax + 1), p N * entry (theory (averaged (fun x : ℝ => (x : ℂ)) (fun M => if M = N then 1 else 0) T) k nmax i s φ) u v := by
  have hz : ∀ a n m b n', averaged (fun x : ℝ => (x : ℂ)) (fun _ => 0) T a n m b n' = 0 := by
    intro a n m b n'
    unfold averaged
    simp
  have main : ∀ S : Finset Nat, entry (theory (averaged (fun x : ℝ => (x : ℂ)) (fun M => ∑ N ∈ S, p N * (if M = (N : Int) then 1 else 0)) T) k nmax i s φ) u v
      = ∑ N ∈ S, p N * entry (theory (averaged (fun x : ℝ => (x : ℂ)) (fun M => if M = N then 1 else 0) T) k nmax i s φ) u v := by
    intro S
    induction S using Finset.induction_on with
    | empty =>
      simp only [Finset.sum_empty]
      have := theory_lin (T := averaged (fun x : ℝ => (x : ℂ)) (fun _ => 0) T) (X := T) (Y := averaged (fun x : ℝ => (x : ℂ)) (fun _ => 0) T) (-0) (by
        intro a n m b n'
        rw [hz]
        ring) k nmax i s φ u v
      have h2 := theory_lin (T := averaged (fun x : ℝ => (x : ℂ)) (fun _ => 0) T) (X := averaged (fun x : ℝ => (x : ℂ)) (fun _ => 0) T)
        (Y := averaged (fun x : ℝ => (x : ℂ)) (fun _ => 0) T) 1 (by
        intro a n m b n'
        rw [hz]
        ring) k nmax i s φ u v
      linear_combination -h2
    | insert x S hx ih =>
      rw [Finset.sum_insert hx, ← ih]
      refine theory_lin _ (fun a n m b n' => ?_) k nmax i s φ u v
      rw [← averaged_lin]
      congr 1
      funext M
      rw [Finset.sum_insert hx]
  rw [← main, theory_congr k i s φ (T' := averaged (fun x : ℝ => (x : ℂ)) (fun M => ∑ N ∈ range (2 * nmax + 1), p N * (if M = (N : Int) then 1 else 0)) T)]
  intro a n m b n' hn hn'
  refine averaged_congr T a n m b n' fun M hM => ?_
  rw [Finset.sum_eq_single M]
  · simp
  · intro N _ hne
    rw [if_neg (by omega), mul_zero]
  · intro hM'
    exact absurd (Finset.mem_range.2 (by omega)) hM'

/-- how strongly an element of the forward amplitude matrix depends on the coefficients -/
noncomputable def sensitivity (T : Nat → Nat → Int → Nat → Nat → ℂ) (k : ℝ) (nmax : Nat) (a : Angular) (u v : Fin 2) : ℝ :=
  ∑ N ∈ Icc 1 (2 * nmax), ‖entry (theory (averaged (fun x : ℝ => (x : ℂ)) (fun M => if M = N then 1 else 0) T) k nmax a a 0) u v‖

theorem near_uniform {T : Nat → Nat → Int → Nat → Nat → ℂ} (hA : Axisymmetric T) (k : ℝ) (nmax : Nat) {a : Angular} {θ : ℝ} (ha : a.IsOf θ) {p : Int → ℝ} {ε : ℝ}
    (h0 : p 0 = 1) (hp : ∀ n : Nat, 1 ≤ n → n ≤ 2 * nmax → |p n| ≤ ε) (u v : Fin 2) :
    ‖entry (theory (averaged (fun x : ℝ => (x : ℂ)) p T) k nmax a a 0) u v - (if u = v then -Complex.I / (2 * k) * trace T nmax else 0)‖
      ≤ ε * sensitivity T k nmax a u v := by
  have hf := random_forward hA k nmax ha
  rw [averaged_uniform] at hf
  have he : entry (theory (averaged (fun x : ℝ => (x : ℂ)) (fun N => if N = 0 then 1 else 0) T) k nmax a a 0) u v
      = if u = v then -Complex.I / (2 * k) * trace T nmax else 0 := by
    rw [hf]
    fin_cases u <;> fin_cases v <;> simp [entry]
  rw [theory_coefficients, ← he, Finset.range_eq_Ico, Finset.sum_eq_sum_Ico_succ_bot (by omega)]
  simp only [Nat.cast_zero, h0, Complex.ofReal_one, one_mul, add_sub_cancel_left, zero_add]
  refine (norm_sum_le _ _).trans ?_
  unfold sensitivity
  rw [Finset.mul_sum, show Ico 1 (2 * nmax + 1) = Icc 1 (2 * nmax) by ext x; simp]
  refine Finset.sum_le_sum fun N hN => ?_
  rw [Finset.mem_Icc] at hN
  rw [norm_mul]
  refine mul_le_mul_of_nonneg_right ?_ (norm_nonneg _)
  rw [Complex.norm_real]
  exact hp N hN.1 hN.2

/-- **C96**: the extinction coefficients in a table, for a distribution of orientations whose coefficients differ from those of the uniform distribution by no more
than `ε` (the code integrates them numerically): the extinction is that of the trace of the T-matrix, linear and circular dichroism vanish, up to a multiple of `ε` -/
theorem c96_table (H : Content.Problem) (c : Graph.Cell) (g : Nat) {T : Nat → Nat → Int → Nat → Nat → ℂ} (hA : Axisymmetric T) (ha : H.aligned c = true)
    {ε : ℝ} (h0 : (H.coeff c).v 0 = 1) (hp : ∀ n : Nat, 1 ≤ n → n ≤ 2 * Content.orderAt H g → |(H.coeff c).v n| ≤ ε) {θ : ℝ} {o : Angular} (ho : o.IsOf θ) :
    let k := Content.waveK H c.par
    let N := Content.orderAt H g
    let K := |2 * Real.pi / k / Content.disc H c.par| * (sensitivity T k N o 0 0 + sensitivity T k N o 1 1)
    |Content.extI H c g T o - -(2 * Real.pi / k ^ 2 * (trace T N).re) / Content.disc H c.par| ≤ ε * K
    ∧ |Content.extQ H c g T o| ≤ ε * K ∧ |Content.extV H c g T o| ≤ ε * K := by
  intro k N K
  have hth : theory (Content.ensemble H c T) k N o o 0 = theory (averaged (fun x : ℝ => (x : ℂ)) (H.coeff c).v T) k N o o 0 := by
    unfold Content.ensemble
    rw [if_pos ha]
  have hE : Content.ensemble H c T = averaged (fun x : ℝ => (x : ℂ)) (H.coeff c).v T := by
    unfold Content.ensemble
    rw [if_pos ha]
  have n0 := near_uniform hA k N ho h0 hp 0 0
  have n1 := near_uniform hA k N ho h0 hp 1 1
  rw [if_pos rfl, ← hE] at n0 n1
  have h11 : Content.amp11 H c g T o o 0 = entry (theory (Content.ensemble H c T) k N o o 0) 0 0 := rfl
  have h22 : Content.amp22 H c g T o o 0 = entry (theory (Content.ensemble H c T) k N o o 0) 1 1 := rfl
  rw [← h11] at n0
  rw [← h22] at n1
  set s := -Complex.I / (2 * (k : ℂ)) * trace T N with hs
  set a := Content.amp11 H c g T o o 0
  set b := Content.amp22 H c g T o o 0
  have him : s.im = -(1 / (2 * k) * (trace T N).re) := by
    rw [hs, show -Complex.I / (2 * (k : ℂ)) * trace T N = ((1 / (2 * k) : ℝ) : ℂ) * (-Complex.I * trace T N) by push_cast; ring, Complex.im_ofReal_mul]
    simp
  have hb : ∀ r x : ℝ, |x| ≤ ε * sensitivity T k N o 0 0 + ε * sensitivity T k N o 1 1 → r = 2 * Real.pi / k / Content.disc H c.par * x → |r| ≤ ε * K := by
    intro r x hx hr
    rw [hr, abs_mul]
    calc _ ≤ |2 * Real.pi / k / Content.disc H c.par| * (ε * sensitivity T k N o 0 0 + ε * sensitivity T k N o 1 1) := mul_le_mul_of_nonneg_left hx (abs_nonneg _)
      _ = _ := by ring
  have t0 : ‖(a - s) + (b - s)‖ ≤ ε * sensitivity T k N o 0 0 + ε * sensitivity T k N o 1 1 := (norm_add_le _ _).trans (add_le_add n0 n1)
  have t1 : ‖(a - s) - (b - s)‖ ≤ ε * sensitivity T k N o 0 0 + ε * sensitivity T k N o 1 1 := (norm_sub_le _ _).trans (add_le_add n0 n1)
  refine ⟨hb _ ((a - s) + (b - s)).im ((Complex.abs_im_le_norm _).trans t0) ?_, hb _ ((a - s) - (b - s)).im ((Complex.abs_im_le_norm _).trans t1) ?_,
    hb _ (-((a - s) - (b - s)).re) ?_ ?_⟩
  · unfold Content.extI
    simp only [Complex.add_im, Complex.sub_im, him]
    ring
  · unfold Content.extQ
    simp only [Complex.sub_im]
    ring
  · rw [abs_neg]
    exact (Complex.abs_re_le_norm _).trans t1
  · unfold Content.extV
    simp only [Complex.sub_re]
    ring

/-! ### the response does not depend on the frame -/

theorem rotated_scalar {nmax : Nat} {t : Nat → Nat → Nat → ℂ} {T : Nat → Nat → Int → Nat → Nat → ℂ} (h : Scalar nmax t T) (α β : ℝ) {a n b n' : Nat} {m m' : Int}
    (hn : 1 ≤ n) (hn2 : n ≤ nmax) (hn' : 1 ≤ n') (hn2' : n' ≤ nmax) (hm : |m| ≤ n) (hm' : |m'| ≤ n') :
    rotated T α β a n m b n' m' = if m = m' then T a n m b n' else 0 := by
  unfold rotated
  have e : ∀ m1 ∈ Icc (-(min n n' : Int)) (min n n'), D n m m1 α β * T a n m1 b n' * (starRingEnd ℂ) (D n' m' m1 α β)
      = (if n = n' then t a b n else 0) * (D n m m1 α β * (starRingEnd ℂ) (D n' m' m1 α β)) := by
    intro m1 hm1
    rw [h a n m1 b n' hn hn2 hn' hn2' (abs_le.2 (Finset.mem_Icc.1 hm1))]
    ring
  rw [Finset.sum_congr rfl e, ← Finset.mul_sum]
  by_cases hnn : n = n'
  · subst hnn
    rw [min_self, D_row n hm hm', if_pos rfl]
    by_cases hmm : m = m'
    · subst hmm
      rw [if_pos rfl, if_pos rfl, h a n m b n hn hn2 hn hn2 (by rwa [min_self]), if_pos rfl, mul_one]
    · rw [if_neg hmm, if_neg hmm, mul_zero]
  · rw [if_neg hnn, zero_mul]
    by_cases hmm : m = m'
    · subst hmm
      rw [if_pos rfl, h a n m b n' hn hn2 hn' hn2' (le_min hm hm'), if_neg hnn]
    · rw [if_neg hmm]

theorem general_congr {T T' : Nat → Nat → Int → Nat → Nat → Int → ℂ} (k : ℝ) {nmax : Nat} (s : Angular) (φo : ℝ) (i : Angular) (φi : ℝ) (p q : Fin 2)
    (h : ∀ a n m b n' m', 1 ≤ n → n ≤ nmax → 1 ≤ n' → n' ≤ nmax → |m| ≤ (n : Int) → |m'| ≤ (n' : Int) → T a n m b n' m' = T' a n m b n' m') :
    general T k nmax s φo i φi p q = general T' k nmax s φo i φi p q := by
  unfold general
  refine congrArg (1 / (k : ℂ) * ·) ?_
  refine Finset.sum_congr rfl fun n hn => Finset.sum_congr rfl fun n' hn' => Finset.sum_congr rfl fun m hm => Finset.sum_congr rfl fun m' hm' =>
    Finset.sum_congr rfl fun a _ => Finset.sum_congr rfl fun b _ => ?_
  rw [Finset.mem_Icc] at hn hn'
  rw [h a n m b n' m' hn.1 hn.2 hn'.1 hn'.2 (abs_le.2 (Finset.mem_Icc.1 hm)) (abs_le.2 (Finset.mem_Icc.1 hm'))]

theorem amp_ext {A B : Amp} (h : ∀ p q, entry A p q = entry B p q) : A = B := by
  have k00 := h 0 0
  have k01 := h 0 1
  have k10 := h 1 0
  have k11 := h 1 1
  simp only [entry, if_true, one_ne_zero, if_false] at k00 k01 k10 k11
  cases A
  cases B
  simp only at k00 k01 k10 k11
  rw [k00, k01, k10, k11]

/-- **C96**: turning an ensemble of grains in all orientations changes nothing: the amplitude matrix that the object gives for particles turned by any angles is the
one for the directions themselves -/
theorem c96_isotropic (o : Direct.Obj ℝ ℂ) {T : Nat → Nat → Int → Nat → Nat → ℂ} (hA : Axisymmetric T)
    (hS : Stores o.res (averaged (fun x : ℝ => (x : ℂ)) (coefficients uniform) T)) (α β θi φi θo φo : ℝ) {θi' φi' θo' φo' : ℝ}
    (ni : dir θi' φi' = Matrix.mulVec (rot α β) (dir θi φi)) (no : dir θo' φo' = Matrix.mulVec (rot α β) (dir θo φo))
    (hri' : Regular θi') (hro' : Regular θo') (hri : Regular θi) (hro : Regular θo) :
    Direct.forwardOriented o α β θi φi θo φo = Direct.forwardAngles o θi φi θo φo := by
  have hA' := Content.averaged_axisymmetric (algebraMap ℝ ℂ) (coefficients uniform) hA
  obtain ⟨i, hi⟩ := angular_all θi
  obtain ⟨s, hs⟩ := angular_all θo
  have h1 := c93_oriented (c93_code o hA' hS α β θi φi θo φo ni no hri' hro') hi hs
  have h2 := Direct.c75_forward o hA' hS θi φi θo φo hri hro hi hs
  have hsc : Scalar o.nmax (fun a b n => 1 / (2 * n + 1) * blockTrace T a b n) (averaged (⇑(algebraMap ℝ ℂ)) (coefficients uniform) T) := by
    have := averaged_scalar T o.nmax
    rw [← averaged_uniform] at this
    exact this
  have key : ∀ p q, entry (Direct.forwardOriented o α β θi φi θo φo) p q = entry (Direct.forwardAngles o θi φi θo φo) p q := by
    intro p q
    rw [h1, h2, ← general_diagonal]
    refine general_congr o.k s φo i φi p q fun a n m b n' m' a1 a2 a3 a4 a5 a6 => ?_
    exact rotated_scalar hsc α β a1 a2 a3 a4 a5 a6
  exact amp_ext key

/-! ### the hypotheses are met -/

/-- a dipole along the axis of the grain: the extinction of grains in all orientations, in the direction of the equator and for particles turned by 0 -/
example : Direct.forwardAngles (object (averaged (fun x : ℝ => (x : ℂ)) (coefficients uniform) Tn)) (Real.pi / 2) 0 (Real.pi / 2) 0
      = ⟨Complex.I / 2, 0, 0, Complex.I / 2⟩
    ∧ Direct.forwardOriented (object (averaged (fun x : ℝ => (x : ℂ)) (coefficients uniform) Tn)) 0 0 (Real.pi / 2) 0 (Real.pi / 2) 0
      = ⟨Complex.I / 2, 0, 0, Complex.I / 2⟩ := by
  have hr := regular_examples.2.2
  have h1 := c96_forward (object (averaged (fun x : ℝ => (x : ℂ)) (coefficients uniform) Tn)) Tn_axisymmetric (object_stores _) hr 0
  have ht : trace Tn 1 = -1 := by
    unfold trace
    rw [show Icc 1 1 = {1} from rfl, Finset.sum_singleton, show Icc (-((1 : Nat) : Int)) (1 : Nat) = {-1, 0, 1} by decide]
    simp [Tn]
  have hk : (object (averaged (fun x : ℝ => (x : ℂ)) (coefficients uniform) Tn)).k = 1 := rfl
  have hn : (object (averaged (fun x : ℝ => (x : ℂ)) (coefficients uniform) Tn)).nmax = 1 := rfl
  rw [hk, hn, ht] at h1
  have e : -Complex.I / (2 * ((1 : ℝ) : ℂ)) * -1 = Complex.I / 2 := by
    push_cast
    ring
  rw [e] at h1
  refine ⟨h1, ?_⟩
  have hd : dir (Real.pi / 2) 0 = Matrix.mulVec (rot 0 0) (dir (Real.pi / 2) 0) := by
    ext c
    fin_cases c <;> simp [rot, dir, aboutY, aboutZ, Matrix.mulVec, dotProduct, Fin.sum_univ_three]
  rw [c96_isotropic _ Tn_axisymmetric (object_stores _) 0 0 _ 0 _ 0 hd hd hr hr hr hr, h1]

/-- a table (that of the example of C84, coefficients `1, 0, 1/2`) -/
example (p : Graph.Par) {o : Angular} (ho : o.IsOf 0) :
    |Content.extQ Content.exH ⟨p, 1⟩ 0 Tn o| ≤ 1 / 2 * (|2 * Real.pi / Content.waveK Content.exH p / Content.disc Content.exH p|
      * (sensitivity Tn (Content.waveK Content.exH p) 1 o 0 0 + sensitivity Tn (Content.waveK Content.exH p) 1 o 1 1)) := by
  refine (c96_table Content.exH ⟨p, 1⟩ 0 Tn_axisymmetric (by simp [Content.exH]) (ε := 1 / 2) (by simp [Content.exH]) (fun n h1 _ => ?_) ho).2.1
  simp only [Content.exH]
  rw [if_neg (by omega)]
  split
  · rw [abs_of_nonneg (by norm_num)]
  · rw [abs_zero]
    norm_num

end Verif.Rotation
