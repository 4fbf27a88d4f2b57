import Verif.Proofs.MieGauss
import Verif.Properties.Refine
import Verif.Spec.Mie

/-!
# The surface integrals for a sphere
-/
namespace Verif.Mie

open Finset Verif.Scatter Verif.Refine Verif.Rotation Verif.TMatrix.Spec Verif.Content
open Verif.Legendre (wigner)

/-- the radial function is the same at all points -/
structure Const (Z : Radial ℂ) (z dz : Nat → ℂ) : Prop where
  z : ∀ i n, Z.z i n = z n
  dz : ∀ i n, Z.dz i n = dz n

section sphere

variable {H : Problem} {c : Graph.Cell} {g : Nat} (hs : H.axisRatio c.ish = 1)
include hs

theorem spheroid_one (θ : ℝ) : spheroid 1 θ = 1 := by
  unfold spheroid
  simp

theorem r2_one (i : Nat) : (surfaceAt H c g).r2 i = 1 := by
  change ((spheroid (H.axisRatio c.ish) _ ^ 2 : ℝ) : ℂ) = 1
  rw [hs, spheroid_one hs]
  simp

theorem slope_zero (i : Nat) : (surfaceAt H c g).slope i = 0 := by
  change ((deriv (spheroid (H.axisRatio c.ish)) _ / _ : ℝ) : ℂ) = 0
  rw [hs, show spheroid 1 = fun _ => 1 from funext (spheroid_one hs)]
  simp

theorem xAt_size (i : Nat) : xAt H c g i = (size H c.par : ℂ) := by
  unfold xAt size
  rw [hs, spheroid_one hs, mul_one]

variable (hG : Gauss (2 * halfPts H g) (H.gl (2 * halfPts H g))) {m n n' : Nat} (hn : 1 ≤ n) (hn' : 1 ≤ n') (hm : m ≤ n) (hm' : m ≤ n')
  (hdeg : n + n' < 2 * (2 * halfPts H g))
include hG hn hn' hm hm' hdeg

omit hs in
theorem sums :
    ∑ i ∈ range (2 * halfPts H g), (surfaceAt H c g).weight i * (((m : ℂ) * (surfaceAt H c g).d m i n * (surfaceAt H c g).sinInv i)
      * ((m : ℂ) * (surfaceAt H c g).d m i n' * (surfaceAt H c g).sinInv i) + (surfaceAt H c g).τ m i n * (surfaceAt H c g).τ m i n')
      = (if n = n' then 2 * (n : ℂ) * (n + 1) / (2 * n + 1) else 0)
    ∧ ∑ i ∈ range (2 * halfPts H g), (surfaceAt H c g).weight i * (((m : ℂ) * (surfaceAt H c g).d m i n * (surfaceAt H c g).sinInv i)
      * (surfaceAt H c g).τ m i n' + (surfaceAt H c g).τ m i n * ((m : ℂ) * (surfaceAt H c g).d m i n' * (surfaceAt H c g).sinInv i)) = 0 := by
  choose A hA using angular_all
  have ha : ∀ i < 2 * halfPts H g, (A (polar H g i)).IsOf (Real.arccos ((H.gl (2 * halfPts H g)).1 i)) := fun i _ => hA _
  have hpi : ∀ i < 2 * halfPts H g, ∀ {k : Nat}, 1 ≤ k → m ≤ k → (m : ℝ) * wigner m k (polar H g i) * (1 / Real.sin (polar H g i)) = (A (polar H g i)).pi m k := by
    intro i hi k hk hmk
    have hsin : Real.sin (polar H g i) ≠ 0 := by
      obtain ⟨h1, h2⟩ := hG.interior hi
      unfold polar
      rw [Real.sin_arccos]
      refine (Real.sqrt_pos.2 ?_).ne'
      nlinarith
    rw [pi_eq (hA _) hk hmk, Legendre.wigner_eq _ _ hmk]
    rcases m with _ | m
    · simp
    · rw [Nat.add_sub_cancel, pow_succ]
      field_simp
  have htau : ∀ i, ∀ {k : Nat}, 1 ≤ k → m ≤ k → deriv (wigner m k) (polar H g i) = (A (polar H g i)).tau m k := fun i k hk hmk => ((hA _) m k hk hmk).2.deriv
  constructor
  · have := congrArg (fun z : ℝ => (z : ℂ)) (parallel_gauss hG hn hn' hm hm' hdeg ha)
    rw [show (if n = n' then 2 * (n : ℂ) * (n + 1) / (2 * n + 1) else 0) = ((if n = n' then 2 * (n : ℝ) * (n + 1) / (2 * n + 1) else 0 : ℝ) : ℂ) by
      split_ifs <;> push_cast <;> rfl]
    refine Eq.trans ?_ this
    rw [Complex.ofReal_sum]
    refine sum_congr rfl fun i hi => ?_
    have hi := mem_range.1 hi
    rw [← hpi i hi hn hm, ← hpi i hi hn' hm', ← htau i hn hm, ← htau i hn' hm']
    simp only [surfaceAt]
    push_cast
    rfl
  · have := congrArg (fun z : ℝ => (z : ℂ)) (crossed_gauss hG hn hn' hm hm' hdeg ha)
    rw [Complex.ofReal_zero] at this
    refine Eq.trans ?_ this
    rw [Complex.ofReal_sum]
    refine sum_congr rfl fun i hi => ?_
    have hi := mem_range.1 hi
    rw [← hpi i hi hn hm, ← hpi i hi hn' hm', ← htau i hn hm, ← htau i hn' hm']
    simp only [surfaceAt]
    push_cast
    rfl

variable {Z Z' : Radial ℂ} {z dz z' dz' : Nat → ℂ} (hZ : Const Z z dz) (hZ' : Const Z' z' dz')
include hZ hZ'

theorem J_sphere (κ κ' : Nat) (hκ : κ < 2) (hκ' : κ' < 2) :
    J Complex.I (surfaceAt H c g) (2 * halfPts H g) γ Z Z' κ κ' m n n'
      = if κ = κ' then 0 else if n = n' then (if κ = 0 then 2 * (z n * dz' n) else -2 * (dz n * z' n)) else 0 := by
  obtain ⟨s1, s2⟩ := sums (c := c) hG hn hn' hm hm' hdeg
  have hγ : γ n n * (2 * (n : ℂ) * (n + 1) / (2 * n + 1)) = 2 := by
    unfold γ norm2
    have h1 : (n : ℝ) ≠ 0 := by positivity
    rw [show (2 * (n : ℝ) + 1) * (2 * n + 1) / (n * (n + 1) * (n * (n + 1))) = ((2 * n + 1) / (n * (n + 1))) ^ 2 by rw [div_pow]; ring_nf, Real.sqrt_sq (by positivity)]
    rw [show (2 * (n : ℂ) * (n + 1) / (2 * n + 1)) = ((2 * (n : ℝ) * (n + 1) / (2 * n + 1) : ℝ) : ℂ) by push_cast; rfl, ← Complex.ofReal_mul]
    rw [show (2 * (n : ℝ) + 1) / (n * (n + 1)) * (2 * n * (n + 1) / (2 * n + 1)) = 2 by
      have h2 : (n : ℝ) + 1 ≠ 0 := by positivity
      have h3 : 2 * (n : ℝ) + 1 ≠ 0 := by positivity
      field_simp]
    norm_num
  have hI : Complex.I * Complex.I = -1 := Complex.I_mul_I
  unfold J
  interval_cases κ <;> interval_cases κ'
  · rw [if_pos rfl]
    refine Eq.trans (sum_congr rfl fun i _ => ?_) ((mul_sum _ _ (-Complex.I * -1 * γ n n' * z n * z' n')).symm.trans (by rw [s2, mul_zero]))
    simp only [dot, normal, cross, TMatrix.Spec.wave, waveM, waveN, πf, r2_one hs, slope_zero hs, hZ.z, hZ.dz, hZ'.z, hZ'.dz, if_true]
    ring
  · rw [if_neg (by decide), if_pos rfl]
    refine Eq.trans (sum_congr rfl fun i _ => ?_) ((mul_sum _ (fun i => (surfaceAt H c g).weight i * (((m : ℂ) * (surfaceAt H c g).d m i n * (surfaceAt H c g).sinInv i)
      * ((m : ℂ) * (surfaceAt H c g).d m i n' * (surfaceAt H c g).sinInv i) + (surfaceAt H c g).τ m i n * (surfaceAt H c g).τ m i n')) (γ n n' * z n * dz' n')).symm.trans ?_)
    · simp only [dot, normal, cross, TMatrix.Spec.wave, waveM, waveN, πf, r2_one hs, slope_zero hs, hZ.z, hZ.dz, hZ'.z, hZ'.dz, if_true, if_neg one_ne_zero]
      linear_combination (-(surfaceAt H c g).weight i * γ n n' * z n * dz' n' * ((m : ℂ) * (surfaceAt H c g).d m i n * (surfaceAt H c g).sinInv i)
      * ((m : ℂ) * (surfaceAt H c g).d m i n' * (surfaceAt H c g).sinInv i)) * hI
    · rw [s1]
      split_ifs with e
      · subst e
        linear_combination (z n * dz' n) * hγ
      · ring
  · rw [if_neg (show ¬ (1 : Nat) = 0 by decide), if_neg (show ¬ (1 : Nat) = 0 by decide)]
    refine Eq.trans (sum_congr rfl fun i _ => ?_) ((mul_sum _ (fun i => (surfaceAt H c g).weight i * (((m : ℂ) * (surfaceAt H c g).d m i n * (surfaceAt H c g).sinInv i)
      * ((m : ℂ) * (surfaceAt H c g).d m i n' * (surfaceAt H c g).sinInv i) + (surfaceAt H c g).τ m i n * (surfaceAt H c g).τ m i n')) (-(γ n n' * dz n * z' n'))).symm.trans ?_)
    · simp only [dot, normal, cross, TMatrix.Spec.wave, waveM, waveN, πf, r2_one hs, slope_zero hs, hZ.z, hZ.dz, hZ'.z, hZ'.dz, if_true, if_neg one_ne_zero]
      linear_combination ((surfaceAt H c g).weight i * γ n n' * dz n * z' n' * ((m : ℂ) * (surfaceAt H c g).d m i n * (surfaceAt H c g).sinInv i)
      * ((m : ℂ) * (surfaceAt H c g).d m i n' * (surfaceAt H c g).sinInv i)) * hI
    · rw [s1]
      split_ifs with e
      · subst e
        linear_combination (-(dz n * z' n)) * hγ
      · ring
  · rw [if_pos rfl]
    refine Eq.trans (sum_congr rfl fun i _ => ?_) ((mul_sum _ _ (Complex.I * γ n n' * dz n * dz' n')).symm.trans (by rw [s2, mul_zero]))
    simp only [dot, normal, cross, TMatrix.Spec.wave, waveM, waveN, πf, r2_one hs, slope_zero hs, hZ.z, hZ.dz, hZ'.z, hZ'.dz, if_neg one_ne_zero]
    ring

/-- diagonal elements of `Q` for a sphere -/
def diag (a b : ℂ) (z dz z' dz' : Nat → ℂ) (i n : Nat) : ℂ := if i = 0 then 2 * (a * (z n * dz' n) - b * (dz n * z' n)) else 2 * (b * (z n * dz' n) - a * (dz n * z' n))

theorem Q_sphere (a b : ℂ) {i i' : Nat} (hi : i < 2) (hi' : i' < 2) :
    Q Complex.I (surfaceAt H c g) (2 * halfPts H g) γ a b Z Z' m i n i' n' = if i = i' ∧ n = n' then diag a b z dz z' dz' i n else 0 := by
  have hJ := J_sphere hs hG hn hn' hm hm' hdeg hZ hZ'
  unfold Q diag
  interval_cases i <;> interval_cases i' <;> simp [hJ] <;> split_ifs <;> ring

end sphere

end Verif.Mie
