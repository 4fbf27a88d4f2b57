import Verif.Model.DirectScatter
import Verif.Spec.Frame
import Verif.Properties.Scatter
import Verif.Properties.NBased
import Verif.Proofs.Direct
import Verif.Proofs.DirectFrame
import Mathlib.Tactic.LinearCombination

/-!
# The stand-alone `TMatrix` class: amplitude matrix, orientation, scattering and extinction: C75, C76, C77
-/
namespace Verif.Direct

open Finset Verif.Matrix Verif.TMatrix Verif.Scatter Verif.Frame
open Verif.Alignment (Stores Axisymmetric)
open Verif.Special (realOps wignerDsinx)
open Verif.Legendre (wigner)

/-! ## the factors -/

/-- the factors of the theory (Mishchenko 2000, eq. 5.15) -/
noncomputable def alphaF (n n' : Nat) : ℂ := Complex.I ^ ((n' : Int) - (n : Int) - 1) * prefactor n n'

theorem cFill_spec (nmax : Nat) (c0 : Mat ℂ) (hc0 : nmax ≤ c0.cols) {n n' : Nat} (h1 : 1 ≤ n) (h2 : n ≤ nmax) (h3 : 1 ≤ n')
    (h4 : n' ≤ nmax) : (cFill nmax c0).get (n - 1) (n' - 1) = alphaF n n' := by
  have hI := Complex.I_ne_zero
  have hp : ∀ a b : Nat, (Real.sqrt ((2 * (a : ℝ) + 1) * (2 * (b : ℝ) + 1) / ((a : ℝ) * (b : ℝ) * ((a : ℝ) + 1) * ((b : ℝ) + 1)))) = prefactor a b := by
    intro a b
    unfold prefactor
    congr 2
    ring
  unfold cFill
  refine (loop_inv (fun q (s : ℂ × Mat ℂ) => s.1 = Complex.I ^ (q : Int) ∧ nmax ≤ s.2.cols
      ∧ ∀ n n', 1 ≤ n → n ≤ nmax → 1 ≤ n' → n' ≤ nmax → n' < q → s.2.get (n - 1) (n' - 1) = alphaF n n')
    (show 1 ≤ nmax + 1 by omega) _ _ ⟨by simp, hc0, fun n n' _ _ _ _ _ => by omega⟩ ?_).2.2 n n' h1 h2 h3 h4 (by omega)
  rintro nn ⟨x, c⟩ g1 g2 ⟨e1, e2, e3⟩
  dsimp only at e1 e2 e3 ⊢
  have := loop_inv (fun q (s : ℂ × Mat ℂ) => s.1 = Complex.I ^ (-(q : Int) - 1) ∧ nmax ≤ s.2.cols
      ∧ (∀ n n', 1 ≤ n → n ≤ nmax → 1 ≤ n' → n' ≤ nmax → n' < nn → s.2.get (n - 1) (n' - 1) = alphaF n n')
      ∧ ∀ n, 1 ≤ n → n ≤ nmax → n < q → s.2.get (n - 1) (nn - 1) = alphaF n nn)
    (show 1 ≤ nmax + 1 by omega) (fun n (q : ℂ × Mat ℂ) => (q.1 / Complex.I, q.2.set (n - 1) (nn - 1) (q.1 * x
        * ((Real.sqrt ((2 * (n : ℝ) + 1) * (2 * (nn : ℝ) + 1) / ((n : ℝ) * (nn : ℝ) * ((n : ℝ) + 1) * ((nn : ℝ) + 1))) : ℝ) : ℂ)))) (-1, c)
    ⟨by
      rw [show (-((1 : ℕ) : Int) - 1) = -(2 : ℕ) by norm_num, zpow_neg, zpow_natCast, Complex.I_sq]
      norm_num, e2, e3, fun n _ _ _ => by omega⟩ (by
    rintro k ⟨y, d⟩ k1 k2 ⟨f1, f2, f3, f4⟩
    dsimp only at f1 f2 f3 f4 ⊢
    refine ⟨?_, f2, ?_, ?_⟩
    · rw [f1, div_eq_mul_inv, ← zpow_sub_one₀ hI]
      congr 1
      push_cast
      ring
    · intro n n' b1 b2 b3 b4 b5
      rw [get_set _ _ (by omega) (by omega), if_neg (by omega)]
      exact f3 n n' b1 b2 b3 b4 b5
    · intro n b1 b2 b3
      rw [get_set _ _ (by omega) (by omega)]
      by_cases h : n = k
      · subst h
        rw [if_pos ⟨rfl, rfl⟩, hp, f1, e1, ← zpow_add₀ hI, alphaF]
        congr 2
        ring
      · rw [if_neg (by omega)]
        exact f4 n b1 b2 (by omega))
  obtain ⟨_, f2, f3, f4⟩ := this
  refine ⟨?_, f2, ?_⟩
  · rw [e1, ← zpow_add_one₀ hI]
    push_cast
    rfl
  · intro n n' b1 b2 b3 b4 b5
    rcases Nat.lt_or_ge n' nn with h | h
    · exact f3 n n' b1 b2 b3 b4 h
    · have : n' = nn := by omega
      subst this
      exact f4 n b1 b2 (by omega)

theorem cMat_spec (nmax : Nat) {n n' : Nat} (h1 : 1 ≤ n) (h2 : n ≤ nmax) (h3 : 1 ≤ n') (h4 : n' ≤ nmax) :
    (cMat nmax).get (n - 1) (n' - 1) = alphaF n n' := cFill_spec nmax _ le_rfl h1 h2 h3 h4

/-! ## one pair of directions -/

/-- the cosines and sines are those of the direction `(θ, φ)` -/
structure Represents (d : Direction) (θ φ : ℝ) : Prop where
  cosTheta : d.cosTheta = Real.cos θ
  sinTheta : d.sinTheta = Real.sin θ
  inv : Real.sin θ ≠ 0 → d.sinThetaInv = 1 / Real.sin θ
  cosPhi : d.cosPhi = Real.cos φ
  sinPhi : d.sinPhi = Real.sin φ

/-- the arrays of the angular functions of one degree, whatever they contained before -/
theorem angular_over {d : Direction} {θ φ : ℝ} (hd : Represents d θ φ) (hr : Regular θ) {a : Angular} (ha : a.IsOf θ) (nmax : Nat)
    (old : (Nat → ℝ) × (Nat → ℝ)) {m n : Nat} (h1 : 1 ≤ n) (hm : m ≤ n) (hn : n ≤ nmax) :
    let w := wignerDsinx realOps d.cosTheta d.sinTheta d.sinThetaInv nmax m old
    a.pi m n = m * w.1 (n - 1) ∧ a.tau m n = w.2 (n - 1) := by
  intro w
  have key : w = wignerDsinx realOps (Real.cos θ) (Real.sin θ) (1 / Real.sin θ) nmax m old := by
    dsimp only [w]
    rw [hd.cosTheta, hd.sinTheta]
    rcases hr with h | h
    · rw [hd.inv (Real.sin_pos_of_pos_of_lt_pi h.1 h.2.1).ne']
    · apply pole_inv
      rcases h with h | h <;> rw [h] <;> norm_num
  obtain ⟨e1, e2⟩ := (Special.c63_wigner_sinx θ nmax m (by omega) old hr).1 n h1 hn
  rw [← key] at e1 e2
  obtain ⟨a1, a2⟩ := ha m n h1 hm
  refine ⟨?_, a2.unique e2⟩
  rcases Nat.eq_zero_or_pos m with h | h
  · subst h
    have := a.pi_neg 0 n
    norm_num at this ⊢
    linarith
  · exact tendsto_nhds_unique (a1 h) ((e1 h).const_mul (m : ℝ))

theorem angular_spec {d : Direction} {θ φ : ℝ} (hd : Represents d θ φ) (hr : Regular θ) {a : Angular} (ha : a.IsOf θ) (nmax : Nat) :
    Tabulates (fun m n => (angular d nmax m).1 (n - 1)) (fun m n => (angular d nmax m).2 (n - 1)) nmax a :=
  fun _ _ h1 hm hn => angular_over hd hr ha nmax _ h1 hm hn

/-- the amplitude matrix of the theory, for a particle with its axis along the third axis: from `(θ', φ')` to `(θ, φ)`, where `i` and
`o` are the angular functions of `θ'` and `θ`, and `φ` is the difference of the azimuths -/
noncomputable def theory (Tm : Nat → Nat → Int → Nat → Nat → ℂ) (k : ℝ) (nmax : Nat) (i o : Angular) (φ : ℝ) : Amp :=
  ⟨S11 Tm alphaF o i k nmax φ, S12 Tm alphaF o i k nmax φ, S21 Tm alphaF o i k nmax φ, S22 Tm alphaF o i k nmax φ⟩

theorem ampSum_congr {nmax : Nat} {φ : ℝ} {f g : Int → Nat → Nat → ℂ}
    (h : ∀ m n n', 1 ≤ n → n ≤ nmax → 1 ≤ n' → n' ≤ nmax → f m n n' = g m n n') : ampSum nmax φ f = ampSum nmax φ g := by
  unfold ampSum
  refine sum_congr rfl fun m _ => sum_congr rfl fun n' hn' => sum_congr rfl fun n hn => ?_
  rw [mem_Icc] at hn hn'
  rw [h m n n' (by omega) hn.2 (by omega) hn'.2]

/-- the sum over the elements of the T-matrix, for tables of the angular functions and the factors of the theory -/
theorem amplitude_theory (T : TRes ℂ ℝ) {Tm : Nat → Nat → Int → Nat → Nat → ℂ} (hA : Axisymmetric Tm) (hS : Stores T Tm)
    {c : Nat → Nat → ℂ} (hc : ∀ n n', 1 ≤ n → n ≤ T.nmax → 1 ≤ n' → n' ≤ T.nmax → c n' n = alphaF n n')
    {wi dwi wo dwo : Nat → Nat → ℝ} {i s : Angular} (hs : Tabulates wo dwo T.nmax s) (hi : Tabulates wi dwi T.nmax i) (k φ : ℝ) :
    amplitude T c wi dwi wo dwo k (Complex.exp (Complex.I * φ)) = theory Tm k T.nmax i s φ := by
  obtain ⟨a, b, c', d⟩ := c66_amplitude (T := T) (cnn := c) hA hS hs hi k φ
  have g11 : S11 Tm (fun n n' => c n' n) s i k T.nmax φ = S11 Tm alphaF s i k T.nmax φ := by
    unfold S11
    congr 1
    exact ampSum_congr fun m n n' b1 b2 b3 b4 => by dsimp only; rw [hc n n' b1 b2 b3 b4]
  have g12 : S12 Tm (fun n n' => c n' n) s i k T.nmax φ = S12 Tm alphaF s i k T.nmax φ := by
    unfold S12
    congr 1
    exact ampSum_congr fun m n n' b1 b2 b3 b4 => by dsimp only; rw [hc n n' b1 b2 b3 b4]
  have g21 : S21 Tm (fun n n' => c n' n) s i k T.nmax φ = S21 Tm alphaF s i k T.nmax φ := by
    unfold S21
    congr 1
    exact ampSum_congr fun m n n' b1 b2 b3 b4 => by dsimp only; rw [hc n n' b1 b2 b3 b4]
  have g22 : S22 Tm (fun n n' => c n' n) s i k T.nmax φ = S22 Tm alphaF s i k T.nmax φ := by
    unfold S22
    congr 1
    exact ampSum_congr fun m n n' b1 b2 b3 b4 => by dsimp only; rw [hc n n' b1 b2 b3 b4]
  unfold theory
  rw [← g11, ← g12, ← g21, ← g22, ← a, ← b, ← c', ← d]

theorem expiphi {di ds : Direction} {θi φi θs φs : ℝ} (hdi : Represents di θi φi) (hds : Represents ds θs φs) :
    (⟨ds.cosPhi * di.cosPhi + ds.sinPhi * di.sinPhi, ds.sinPhi * di.cosPhi - ds.cosPhi * di.sinPhi⟩ : ℂ)
      = Complex.exp (Complex.I * ((φs - φi : ℝ) : ℂ)) := by
  have := exp_pow (φs - φi) 1
  rw [pow_one, Nat.cast_one, one_mul] at this
  rw [this, Real.cos_sub, Real.sin_sub, hdi.cosPhi, hdi.sinPhi, hds.cosPhi, hds.sinPhi]

/-- the amplitude matrix for one pair of directions is that of the theory -/
theorem forward_spec (o : Obj ℝ ℂ) {Tm : Nat → Nat → Int → Nat → Nat → ℂ} (hA : Axisymmetric Tm) (hS : Stores o.res Tm)
    {di ds : Direction} {θi φi θs φs : ℝ} (hdi : Represents di θi φi) (hds : Represents ds θs φs) (hri : Regular θi) (hrs : Regular θs)
    {i s : Angular} (hi : i.IsOf θi) (hs : s.IsOf θs) :
    forward o di ds = theory Tm o.k o.nmax i s (φs - φi) := by
  unfold forward
  dsimp only
  rw [expiphi hdi hds]
  exact amplitude_theory o.res hA hS (fun n n' b1 b2 b3 b4 => cMat_spec o.nmax b1 b2 b3 b4) (angular_spec hds hrs hs o.nmax)
    (angular_spec hdi hri hi o.nmax) o.k (φs - φi)

/-! ## the orientation of the particle -/

open _root_.Matrix (mulVec)

theorem matAP_get {d : Direction} {θ φ : ℝ} (hd : Represents d θ φ) (i : Fin 3) :
    (matAP d).get 0 i = eTheta θ φ i ∧ (matAP d).get 1 i = ePhi φ i := by
  unfold matAP eTheta ePhi
  rw [hd.cosTheta, hd.sinTheta, hd.cosPhi, hd.sinPhi]
  fin_cases i <;> simp [Mat.get, Mat.set, Mat.new, pos, Function.update_apply]

/-- in the frame of the particle: the code finds the polar angle, and the azimuth unless the direction is along the axis -/
theorem particle_spec {α β θ φ θ' φ' : ℝ} (h0 : 0 ≤ θ') (h1 : θ' ≤ Real.pi) (hd : dir θ' φ' = mulVec (rot α β) (dir θ φ)) :
    ∃ φ0, Represents (particle α β θ φ) θ' φ0 ∧ (φ0 = φ' ∨ Real.sin θ' = 0) ∧ dir θ' φ0 = mulVec (rot α β) (dir θ φ) := by
  have e : ∀ c : Fin 3, dir θ' φ' c = rot α β c 0 * dir θ φ 0 + rot α β c 1 * dir θ φ 1 + rot α β c 2 * dir θ φ 2 := by
    intro c
    rw [hd]
    simp [mulVec, dotProduct, Fin.sum_univ_three]
  have e0 := e 0
  have e1 := e 1
  have e2 := e 2
  simp [dir, rot, aboutY, aboutZ, Matrix.mul_apply, Fin.sum_univ_three] at e0 e1 e2
  have ct : Real.cos θ * Real.cos β + Real.sin θ * Real.sin β * (Real.cos φ * Real.cos α + Real.sin φ * Real.sin α) = Real.cos θ' := by
    rw [e2]
    ring
  unfold particle
  dsimp only
  rw [ct, Real.arccos_cos h0 h1]
  by_cases hs : Real.sin θ' = 0
  · rw [if_neg (not_not.mpr hs)]
    refine ⟨0, ⟨rfl, rfl, fun h => absurd hs h, by simp, by simp⟩, Or.inr hs, ?_⟩
    rw [← hd]
    simp [dir, hs]
  · rw [if_pos hs]
    refine ⟨φ', ⟨rfl, rfl, fun _ => rfl, ?_, ?_⟩, Or.inl rfl, hd⟩
    · dsimp only
      rw [mul_one_div, div_eq_iff hs, mul_comm (Real.cos φ'), e0]
      ring
    · dsimp only
      rw [mul_one_div, div_eq_iff hs, mul_comm (Real.sin φ'), e1]
      ring

/-- the rotated unit vectors, in terms of those in the frame of the particle -/
theorem basis {α β θ φ θ' φ0 : ℝ} (hn : dir θ' φ0 = mulVec (rot α β) (dir θ φ)) {d : Direction} (hd : Represents d θ' φ0) {C : Mat ℝ}
    (hC : ∀ i : Fin 3, C.get i 0 = mulVec (rot α β) (eTheta θ φ) i ∧ C.get i 1 = mulVec (rot α β) (ePhi φ) i) :
    let R := matR d C
    (∀ c, mulVec (rot α β) (eTheta θ φ) c = R.get 0 0 * eTheta θ' φ0 c + R.get 1 0 * ePhi φ0 c)
    ∧ (∀ c, mulVec (rot α β) (ePhi φ) c = R.get 0 1 * eTheta θ' φ0 c + R.get 1 1 * ePhi φ0 c)
    ∧ R.get 0 0 * R.get 1 1 - R.get 0 1 * R.get 1 0 ≠ 0 ∧ R.cols = 2 := by
  intro R
  have hp := product_spec false (rows := 2) (cols := 2) (matAP d) C (Mat.new 2 2) rfl (Or.inr fun i j _ _ => new_get 2 2 i j)
  have a0 := matAP_get hd 0
  have a1 := matAP_get hd 1
  have a2 := matAP_get hd 2
  have c0 := hC 0
  have c1 := hC 1
  have c2 := hC 2
  simp only [Fin.val_zero, Fin.val_one, Fin.val_two] at a0 a1 a2 c0 c1 c2
  have r00 : R.get 0 0 = eTheta θ' φ0 ⬝ᵥ mulVec (rot α β) (eTheta θ φ) := by
    refine (hp.2 0 0 (by norm_num) (by norm_num)).trans ?_
    rw [dot3, a0.1, a1.1, a2.1, c0.1, c1.1, c2.1]
  have r01 : R.get 0 1 = eTheta θ' φ0 ⬝ᵥ mulVec (rot α β) (ePhi φ) := by
    refine (hp.2 0 1 (by norm_num) (by norm_num)).trans ?_
    rw [dot3, a0.1, a1.1, a2.1, c0.2, c1.2, c2.2]
  have r10 : R.get 1 0 = ePhi φ0 ⬝ᵥ mulVec (rot α β) (eTheta θ φ) := by
    refine (hp.2 1 0 (by norm_num) (by norm_num)).trans ?_
    rw [dot3, a0.2, a1.2, a2.2, c0.1, c1.1, c2.1]
  have r11 : R.get 1 1 = ePhi φ0 ⬝ᵥ mulVec (rot α β) (ePhi φ) := by
    refine (hp.2 1 1 (by norm_num) (by norm_num)).trans ?_
    rw [dot3, a0.2, a1.2, a2.2, c0.2, c1.2, c2.2]
  have A : ∀ c, mulVec (rot α β) (eTheta θ φ) c = R.get 0 0 * eTheta θ' φ0 c + R.get 1 0 * ePhi φ0 c := by
    intro c
    have := frame_complete θ' φ0 (mulVec (rot α β) (eTheta θ φ)) c
    rw [hn, rot_dot, eTheta_dir, ← r00, ← r10] at this
    linarith
  have B : ∀ c, mulVec (rot α β) (ePhi φ) c = R.get 0 1 * eTheta θ' φ0 c + R.get 1 1 * ePhi φ0 c := by
    intro c
    have := frame_complete θ' φ0 (mulVec (rot α β) (ePhi φ)) c
    rw [hn, rot_dot, ePhi_dir, ← r01, ← r11] at this
    linarith
  refine ⟨A, B, ?_, hp.1⟩
  have aa := rot_dot α β (eTheta θ φ) (eTheta θ φ)
  have ab := rot_dot α β (eTheta θ φ) (ePhi φ)
  have bb := rot_dot α β (ePhi φ) (ePhi φ)
  have tt := eTheta_eTheta θ' φ0
  have tp := eTheta_ePhi θ' φ0
  have pp := ePhi_ePhi φ0
  rw [eTheta_eTheta] at aa
  rw [eTheta_ePhi] at ab
  rw [ePhi_ePhi] at bb
  rw [dot3] at aa ab bb tt tp pp
  rw [A 0, A 1, A 2] at aa
  rw [A 0, A 1, A 2, B 0, B 1, B 2] at ab
  rw [B 0, B 1, B 2] at bb
  generalize R.get 0 0 = w00 at *
  generalize R.get 0 1 = w01 at *
  generalize R.get 1 0 = w10 at *
  generalize R.get 1 1 = w11 at *
  generalize eTheta θ' φ0 = t at *
  generalize ePhi φ0 = p at *
  have q1 : w00 ^ 2 + w10 ^ 2 = 1 := by linear_combination aa - w00 ^ 2 * tt - 2 * w00 * w10 * tp - w10 ^ 2 * pp
  have q2 : w01 ^ 2 + w11 ^ 2 = 1 := by linear_combination bb - w01 ^ 2 * tt - 2 * w01 * w11 * tp - w11 ^ 2 * pp
  have q3 : w00 * w01 + w10 * w11 = 0 := by
    linear_combination ab - w00 * w01 * tt - (w00 * w11 + w10 * w01) * tp - w10 * w11 * pp
  intro h
  have : (w00 * w11 - w01 * w10) ^ 2 = 1 := by linear_combination q2 * (w00 ^ 2 + w10 ^ 2) + q1 - (w00 * w01 + w10 * w11) * q3
  rw [h] at this
  norm_num at this

theorem rotC_field (α β θ φ : ℝ) (Ev Eh : ℂ) (c : Fin 3) : mulVec (rotC α β) (field θ φ Ev Eh) c
    = Ev * (mulVec (rot α β) (eTheta θ φ) c : ℝ) + Eh * (mulVec (rot α β) (ePhi φ) c : ℝ) := by
  simp [mulVec, dotProduct, Fin.sum_univ_three, rotC, field]
  ring

theorem invert_spec {R : Mat ℝ} (hc : R.cols = 2) :
    let d := 1 / (R.get 0 0 * R.get 1 1 - R.get 0 1 * R.get 1 0)
    (invert R).get 0 0 = R.get 1 1 * d ∧ (invert R).get 0 1 = -R.get 0 1 * d ∧ (invert R).get 1 0 = -R.get 1 0 * d
    ∧ (invert R).get 1 1 = R.get 0 0 * d := by
  intro d
  unfold invert
  dsimp only
  refine ⟨?_, ?_, ?_, ?_⟩ <;>
    simp [get_set, hc, d]

/-- the amplitude matrix in the laboratory, for the azimuths the code uses in the frame of the particle -/
theorem oriented_code (o : Obj ℝ ℂ) {Tm : Nat → Nat → Int → Nat → Nat → ℂ} (hA : Axisymmetric Tm) (hS : Stores o.res Tm)
    {α β θi φi θo φo θi' φi' θo' φo' : ℝ} (ri : Represents (particle α β θi φi) θi' φi') (ro : Represents (particle α β θo φo) θo' φo')
    (ni : dir θi' φi' = mulVec (rot α β) (dir θi φi)) (no : dir θo' φo' = mulVec (rot α β) (dir θo φo))
    (hri : Regular θi') (hro : Regular θo') {i s : Angular} (hi : i.IsOf θi') (hs : s.IsOf θo') (Ev Eh : ℂ) :
    let S := forwardOriented o α β θi φi θo φo
    let P := theory Tm o.k o.nmax i s (φo' - φi')
    ∃ ev eh, mulVec (rotC α β) (field θi φi Ev Eh) = field θi' φi' ev eh
      ∧ mulVec (rotC α β) (field θo φo (S.s0 * Ev + S.s1 * Eh) (S.s2 * Ev + S.s3 * Eh))
        = field θo' φo' (P.s0 * ev + P.s1 * eh) (P.s2 * ev + P.s3 * eh) := by
  intro S P
  obtain ⟨a1, a2, _, _⟩ := basis ni ri fun c => (matC_spec α β θi φi θo φo c).1
  obtain ⟨b1, b2, b3, b4⟩ := basis no ro fun c => (matC_spec α β θi φi θo φo c).2
  obtain ⟨v1, v2, v3, v4⟩ := invert_spec b4
  have hP : forward o (particle α β θi φi) (particle α β θo φo) = P := forward_spec o hA hS ri ro hri hro hi hs
  have hSe : S = forwardOriented o α β θi φi θo φo := rfl
  unfold forwardOriented at hSe
  dsimp only at hSe
  rw [hP, v1, v2, v3, v4] at hSe
  generalize matR (particle α β θi φi) (matCin α β θi φi) = Rin at *
  generalize matR (particle α β θo φo) (matCout α β θi φi θo φo) = Rout at *
  refine ⟨Rin.get 0 0 * Ev + Rin.get 0 1 * Eh, Rin.get 1 0 * Ev + Rin.get 1 1 * Eh, ?_, ?_⟩
  · funext c
    rw [rotC_field, a1, a2]
    unfold field
    push_cast
    ring
  · funext c
    rw [rotC_field, b1, b2, hSe]
    unfold field
    dsimp only
    generalize hD : Rout.get 0 0 * Rout.get 1 1 - Rout.get 0 1 * Rout.get 1 0 = D at *
    have hD' : (Rout.get 0 0 : ℂ) * (Rout.get 1 1 : ℂ) - (Rout.get 0 1 : ℂ) * (Rout.get 1 0 : ℂ) = (D : ℂ) := by
      rw [← hD]
      push_cast
      ring
    have hD0 : (D : ℂ) ≠ 0 := by exact_mod_cast b3
    have hDD : (D : ℂ) * (1 / (D : ℂ)) = 1 := by
      field_simp
    push_cast
    rw [← hD'] at hDD ⊢
    generalize (1 : ℂ) / ((Rout.get 0 0 : ℂ) * (Rout.get 1 1 : ℂ) - (Rout.get 0 1 : ℂ) * (Rout.get 1 0 : ℂ)) = w at hDD ⊢
    generalize (Rout.get 0 0 : ℂ) = x00 at *
    generalize (Rout.get 0 1 : ℂ) = x01 at *
    generalize (Rout.get 1 0 : ℂ) = x10 at *
    generalize (Rout.get 1 1 : ℂ) = x11 at *
    generalize (Rin.get 0 0 : ℂ) = y00 at *
    generalize (Rin.get 0 1 : ℂ) = y01 at *
    generalize (Rin.get 1 0 : ℂ) = y10 at *
    generalize (Rin.get 1 1 : ℂ) = y11 at *
    linear_combination ((P.s0 * (y00 * Ev + y01 * Eh) + P.s1 * (y10 * Ev + y11 * Eh)) * (eTheta θo' φo' c : ℂ)
      + (P.s2 * (y00 * Ev + y01 * Eh) + P.s3 * (y10 * Ev + y11 * Eh)) * (ePhi φo' c : ℂ)) * hDD

/-! ## directions along the axis of the particle -/

/-- the angular functions at a pole: only the projections `1` and `-1` remain -/
theorem angular_pole {θ : ℝ} (h : θ = 0 ∨ θ = Real.pi) {a : Angular} (ha : a.IsOf θ) (m : Int) (n : Nat) (hn : 1 ≤ n) (hm : m.natAbs ≤ n) :
    (m ^ 2 = 1 ∧ a.tau m n = Real.cos θ * m * a.pi m n) ∨ (a.pi m n = 0 ∧ a.tau m n = 0) := by
  have hr : Regular θ := Or.inr h
  have rep : Represents (directionOf θ 0) θ 0 := ⟨rfl, rfl, fun h => by simp [directionOf, invOf, h], rfl, rfl⟩
  have hc : abs (1 - abs (Real.cos θ)) ≤ 1 / 10 ^ 10 := by
    rcases h with h | h <;> rw [h] <;> norm_num
  have hc' : Real.cos θ = 1 ∨ Real.cos θ = -1 := by
    rcases h with h | h <;> rw [h] <;> norm_num
  have key : ∀ k : Nat, k ≤ n → (k = 1 ∧ a.tau k n = Real.cos θ * a.pi k n) ∨ (a.pi k n = 0 ∧ a.tau k n = 0) := by
    intro k hk
    obtain ⟨e1, e2⟩ := angular_spec rep hr ha n k n hn hk le_rfl
    dsimp only at e1 e2
    rw [e1, e2]
    unfold angular
    obtain ⟨p1, p2⟩ := (Special.pole_spec k n (directionOf θ 0).cosTheta (directionOf θ 0).sinTheta (directionOf θ 0).sinThetaInv hc'
      (fun _ => 0, fun _ => 0)).1 (n - 1) (by omega)
    rw [p1, p2]
    by_cases hk1 : k = 1
    · left
      refine ⟨hk1, ?_⟩
      rw [if_pos hk1, if_pos hk1, hk1]
      have hd : (directionOf θ 0).cosTheta = Real.cos θ := rfl
      rw [hd]
      rcases hc' with q | q <;> rw [q] <;> norm_num
    · right
      rw [if_neg hk1, if_neg hk1]
      simp
  rcases Int.natAbs_eq m with e | e
  · rw [e]
    rcases key m.natAbs hm with ⟨k1, k2⟩ | k
    · left
      rw [k1] at k2 ⊢
      exact ⟨by norm_num, by rw [k2]; push_cast; ring⟩
    · exact Or.inr k
  · rw [e]
    have t1 := a.pi_neg m.natAbs n
    have t2 := a.tau_neg m.natAbs n
    rcases key m.natAbs hm with ⟨k1, k2⟩ | ⟨k1, k2⟩
    · left
      rw [k1] at k2 t1 t2 ⊢
      refine ⟨by norm_num, ?_⟩
      rw [t1, t2, k2]
      push_cast
      norm_num
    · right
      rw [t1, t2, k1, k2]
      simp

theorem ampSum_smul (nmax : Nat) (φ : ℝ) (c : ℂ) (f : Int → Nat → Nat → ℂ) :
    ampSum nmax φ (fun m n n' => c * f m n n') = c * ampSum nmax φ f := by
  unfold ampSum
  simp only [mul_sum, mul_assoc]

/-- another azimuth, when only the projections `1` and `-1` contribute -/
theorem ampSum_shift {nmax : Nat} (φ δ : ℝ) {f g : Int → Nat → Nat → ℂ}
    (h : ∀ (m : Int) (n n' : Nat), 1 ≤ n → 1 ≤ n' → m.natAbs ≤ n → m.natAbs ≤ n' →
      (m ^ 2 = 1 ∧ g m n n' = Complex.I * m * f m n n') ∨ (f m n n' = 0 ∧ g m n n' = 0)) :
    ampSum nmax (φ + δ) f = (Real.cos δ : ℂ) * ampSum nmax φ f + (Real.sin δ : ℂ) * ampSum nmax φ g := by
  unfold ampSum
  simp only [mul_sum, ← sum_add_distrib]
  refine sum_congr rfl fun m _ => sum_congr rfl fun n' hn' => sum_congr rfl fun n hn => ?_
  rw [mem_Icc] at hn hn'
  rcases h m n n' (by omega) (by omega) (by omega) (by omega) with ⟨e, eg⟩ | ⟨e, eg⟩
  · have e1 : Complex.exp (Complex.I * (m * ((φ + δ : ℝ) : ℂ)))
        = Complex.exp (Complex.I * (m * φ)) * (Real.cos δ + Complex.I * m * Real.sin δ) := by
      rw [show Complex.I * (m * ((φ + δ : ℝ) : ℂ)) = Complex.I * (m * φ) + ((m * δ : ℝ) : ℂ) * Complex.I by push_cast; ring,
        Complex.exp_add, Complex.exp_mul_I, ← Complex.ofReal_cos, ← Complex.ofReal_sin]
      congr 1
      have hm : m = 1 ∨ m = -1 := by
        rcases mul_eq_zero.mp (show (m - 1) * (m + 1) = 0 by linear_combination e) with q | q
        · exact Or.inl (by omega)
        · exact Or.inr (by omega)
      rcases hm with q | q
      · rw [q]
        push_cast
        ring_nf
      · rw [q]
        push_cast
        rw [neg_one_mul, Complex.cos_neg, Complex.sin_neg]
        ring
    rw [e1, eg]
    ring
  · rw [e, eg]
    ring

/-- the outgoing direction along the axis: another azimuth -/
theorem theory_shift_out {θ : ℝ} (h : θ = 0 ∨ θ = Real.pi) (Tm : Nat → Nat → Int → Nat → Nat → ℂ) (k : ℝ) (nmax : Nat) (i : Angular)
    {s : Angular} (hs : s.IsOf θ) (φ δ : ℝ) :
    let P := theory Tm k nmax i s φ
    let P' := theory Tm k nmax i s (φ + δ)
    P'.s0 = Real.cos δ * P.s0 + Real.cos θ * Real.sin δ * P.s2 ∧ P'.s2 = Real.cos δ * P.s2 - Real.cos θ * Real.sin δ * P.s0
    ∧ P'.s1 = Real.cos δ * P.s1 + Real.cos θ * Real.sin δ * P.s3 ∧ P'.s3 = Real.cos δ * P.s3 - Real.cos θ * Real.sin δ * P.s1 := by
  intro P P'
  have pole := fun (m : Int) (n : Nat) hn hm => angular_pole h hs m n hn hm
  have hε : (Real.cos θ : ℂ) ^ 2 = 1 := by
    rcases h with h | h <;> rw [h] <;> norm_num
  have II := Complex.I_mul_I
  have hI := Complex.I_ne_zero
  generalize hce : Real.cos θ = ε at *
  have cast : ∀ m n, s.tau m n = ε * m * s.pi m n → ((s.tau m n : ℝ) : ℂ) = ε * m * s.pi m n := by
    intro m n e
    rw [e]
    push_cast
    ring
  refine ⟨?_, ?_, ?_, ?_⟩
  · change S11 _ _ _ _ _ _ _ = _ * S11 _ _ _ _ _ _ _ + _ * S21 _ _ _ _ _ _ _
    unfold S11 S21
    rw [ampSum_shift φ δ (g := fun m n n' => (Complex.I * ε) * (alphaF n n' * (Tm 0 n m 0 n' * s.tau m n * i.pi m n'
      + Tm 1 n m 0 n' * s.pi m n * i.pi m n' + Tm 0 n m 1 n' * s.tau m n * i.tau m n' + Tm 1 n m 1 n' * s.pi m n * i.tau m n'))), ampSum_smul]
    · ring
    · intro m n n' hn _ hm _
      rcases pole m n hn hm with ⟨e, q⟩ | ⟨e, q⟩
      · left
        refine ⟨e, ?_⟩
        have e' : (m : ℂ) ^ 2 = 1 := by exact_mod_cast e
        rw [cast m n q]
        linear_combination Complex.I * alphaF n n' * s.pi m n * ((m * (Tm 0 n m 0 n' * i.pi m n' + Tm 0 n m 1 n' * i.tau m n')) * hε
          - ε * (Tm 1 n m 0 n' * i.pi m n' + Tm 1 n m 1 n' * i.tau m n') * e')
      · right
        rw [e, q]
        constructor <;> push_cast <;> ring
  · change S21 _ _ _ _ _ _ _ = _ * S21 _ _ _ _ _ _ _ - _ * S11 _ _ _ _ _ _ _
    unfold S11 S21
    rw [ampSum_shift φ δ (g := fun m n n' => (Complex.I * ε) * (alphaF n n' * (Tm 0 n m 0 n' * s.pi m n * i.pi m n'
      + Tm 1 n m 0 n' * s.tau m n * i.pi m n' + Tm 0 n m 1 n' * s.pi m n * i.tau m n' + Tm 1 n m 1 n' * s.tau m n * i.tau m n'))), ampSum_smul]
    · linear_combination (ε * Real.sin δ / k * ampSum nmax φ fun m n n' => alphaF n n' * (Tm 0 n m 0 n' * s.pi m n * i.pi m n'
        + Tm 1 n m 0 n' * s.tau m n * i.pi m n' + Tm 0 n m 1 n' * s.pi m n * i.tau m n' + Tm 1 n m 1 n' * s.tau m n * i.tau m n')) * II
    · intro m n n' hn _ hm _
      rcases pole m n hn hm with ⟨e, q⟩ | ⟨e, q⟩
      · left
        refine ⟨e, ?_⟩
        have e' : (m : ℂ) ^ 2 = 1 := by exact_mod_cast e
        rw [cast m n q]
        linear_combination Complex.I * alphaF n n' * s.pi m n * ((m * (Tm 1 n m 0 n' * i.pi m n' + Tm 1 n m 1 n' * i.tau m n')) * hε
          - ε * (Tm 0 n m 0 n' * i.pi m n' + Tm 0 n m 1 n' * i.tau m n') * e')
      · right
        rw [e, q]
        constructor <;> push_cast <;> ring
  · change S12 _ _ _ _ _ _ _ = _ * S12 _ _ _ _ _ _ _ + _ * S22 _ _ _ _ _ _ _
    unfold S12 S22
    rw [ampSum_shift φ δ (g := fun m n n' => (Complex.I * ε) * (alphaF n n' * (Tm 0 n m 0 n' * s.tau m n * i.tau m n'
      + Tm 1 n m 0 n' * s.pi m n * i.tau m n' + Tm 0 n m 1 n' * s.tau m n * i.pi m n' + Tm 1 n m 1 n' * s.pi m n * i.pi m n'))), ampSum_smul]
    · have : 1 / (Complex.I * (k : ℂ)) = -(Complex.I * (1 / k)) := by
        rw [one_div, mul_inv, Complex.inv_I, one_div, neg_mul]
      rw [this]
      linear_combination -(ε * Real.sin δ / k * ampSum nmax φ fun m n n' => alphaF n n' * (Tm 0 n m 0 n' * s.tau m n * i.tau m n'
        + Tm 1 n m 0 n' * s.pi m n * i.tau m n' + Tm 0 n m 1 n' * s.tau m n * i.pi m n' + Tm 1 n m 1 n' * s.pi m n * i.pi m n')) * II
    · intro m n n' hn _ hm _
      rcases pole m n hn hm with ⟨e, q⟩ | ⟨e, q⟩
      · left
        refine ⟨e, ?_⟩
        have e' : (m : ℂ) ^ 2 = 1 := by exact_mod_cast e
        rw [cast m n q]
        linear_combination Complex.I * alphaF n n' * s.pi m n * ((m * (Tm 0 n m 0 n' * i.tau m n' + Tm 0 n m 1 n' * i.pi m n')) * hε
          - ε * (Tm 1 n m 0 n' * i.tau m n' + Tm 1 n m 1 n' * i.pi m n') * e')
      · right
        rw [e, q]
        constructor <;> push_cast <;> ring
  · change S22 _ _ _ _ _ _ _ = _ * S22 _ _ _ _ _ _ _ - _ * S12 _ _ _ _ _ _ _
    unfold S12 S22
    rw [ampSum_shift φ δ (g := fun m n n' => (Complex.I * ε) * (alphaF n n' * (Tm 0 n m 0 n' * s.pi m n * i.tau m n'
      + Tm 1 n m 0 n' * s.tau m n * i.tau m n' + Tm 0 n m 1 n' * s.pi m n * i.pi m n' + Tm 1 n m 1 n' * s.tau m n * i.pi m n'))), ampSum_smul]
    · have : 1 / (Complex.I * (k : ℂ)) = -(Complex.I * (1 / k)) := by
        rw [one_div, mul_inv, Complex.inv_I, one_div, neg_mul]
      rw [this]
      ring
    · intro m n n' hn _ hm _
      rcases pole m n hn hm with ⟨e, q⟩ | ⟨e, q⟩
      · left
        refine ⟨e, ?_⟩
        have e' : (m : ℂ) ^ 2 = 1 := by exact_mod_cast e
        rw [cast m n q]
        linear_combination Complex.I * alphaF n n' * s.pi m n * ((m * (Tm 1 n m 0 n' * i.tau m n' + Tm 1 n m 1 n' * i.pi m n')) * hε
          - ε * (Tm 0 n m 0 n' * i.tau m n' + Tm 0 n m 1 n' * i.pi m n') * e')
      · right
        rw [e, q]
        constructor <;> push_cast <;> ring

/-- the incoming direction along the axis: another azimuth -/
theorem theory_shift_in {θ : ℝ} (h : θ = 0 ∨ θ = Real.pi) (Tm : Nat → Nat → Int → Nat → Nat → ℂ) (k : ℝ) (nmax : Nat) {i : Angular}
    (s : Angular) (hi : i.IsOf θ) (φ δ : ℝ) :
    let P := theory Tm k nmax i s φ
    let P' := theory Tm k nmax i s (φ + δ)
    P'.s0 = Real.cos δ * P.s0 - Real.cos θ * Real.sin δ * P.s1 ∧ P'.s1 = Real.cos δ * P.s1 + Real.cos θ * Real.sin δ * P.s0
    ∧ P'.s2 = Real.cos δ * P.s2 - Real.cos θ * Real.sin δ * P.s3 ∧ P'.s3 = Real.cos δ * P.s3 + Real.cos θ * Real.sin δ * P.s2 := by
  intro P P'
  have pole := fun (m : Int) (n : Nat) hn hm => angular_pole h hi m n hn hm
  have hε : (Real.cos θ : ℂ) ^ 2 = 1 := by
    rcases h with h | h <;> rw [h] <;> norm_num
  have II := Complex.I_mul_I
  have hik : 1 / (Complex.I * (k : ℂ)) = -(Complex.I * (1 / k)) := by
    rw [one_div, mul_inv, Complex.inv_I, one_div, neg_mul]
  generalize hce : Real.cos θ = ε at *
  have cast : ∀ m n, i.tau m n = ε * m * i.pi m n → ((i.tau m n : ℝ) : ℂ) = ε * m * i.pi m n := by
    intro m n e
    rw [e]
    push_cast
    ring
  have step : ∀ (X Y : Int → Nat → Nat → ℂ),
      (ampSum nmax (φ + δ) (fun m n n' => alphaF n n' * (X m n n' * i.pi m n' + Y m n n' * i.tau m n'))
        = (Real.cos δ : ℂ) * ampSum nmax φ (fun m n n' => alphaF n n' * (X m n n' * i.pi m n' + Y m n n' * i.tau m n'))
          + (Real.sin δ : ℂ) * (Complex.I * ε * ampSum nmax φ (fun m n n' => alphaF n n' * (X m n n' * i.tau m n' + Y m n n' * i.pi m n'))))
      ∧ ampSum nmax (φ + δ) (fun m n n' => alphaF n n' * (X m n n' * i.tau m n' + Y m n n' * i.pi m n'))
        = (Real.cos δ : ℂ) * ampSum nmax φ (fun m n n' => alphaF n n' * (X m n n' * i.tau m n' + Y m n n' * i.pi m n'))
          + (Real.sin δ : ℂ) * (Complex.I * ε * ampSum nmax φ (fun m n n' => alphaF n n' * (X m n n' * i.pi m n' + Y m n n' * i.tau m n'))) := by
    intro X Y
    constructor
    · have := ampSum_shift (nmax := nmax) φ δ (f := fun m n n' => alphaF n n' * (X m n n' * i.pi m n' + Y m n n' * i.tau m n'))
        (g := fun m n n' => Complex.I * ε * (alphaF n n' * (X m n n' * i.tau m n' + Y m n n' * i.pi m n'))) (by
        intro m n n' _ hn _ hm
        rcases pole m n' hn hm with ⟨e, q⟩ | ⟨e, q⟩
        · left
          refine ⟨e, ?_⟩
          have e' : (m : ℂ) ^ 2 = 1 := by exact_mod_cast e
          rw [cast m n' q]
          linear_combination Complex.I * alphaF n n' * i.pi m n' * (m * X m n n' * hε - ε * Y m n n' * e')
        · right
          rw [e, q]
          constructor <;> push_cast <;> ring)
      rwa [ampSum_smul] at this
    · have := ampSum_shift (nmax := nmax) φ δ (f := fun m n n' => alphaF n n' * (X m n n' * i.tau m n' + Y m n n' * i.pi m n'))
        (g := fun m n n' => Complex.I * ε * (alphaF n n' * (X m n n' * i.pi m n' + Y m n n' * i.tau m n'))) (by
        intro m n n' _ hn _ hm
        rcases pole m n' hn hm with ⟨e, q⟩ | ⟨e, q⟩
        · left
          refine ⟨e, ?_⟩
          have e' : (m : ℂ) ^ 2 = 1 := by exact_mod_cast e
          rw [cast m n' q]
          linear_combination Complex.I * alphaF n n' * i.pi m n' * (m * Y m n n' * hε - ε * X m n n' * e')
        · right
          rw [e, q]
          constructor <;> push_cast <;> ring)
      rwa [ampSum_smul] at this
  have f11 : ∀ ψ, S11 Tm alphaF s i k nmax ψ = 1 / k * ampSum nmax ψ (fun m n n' => alphaF n n' * ((Tm 0 n m 0 n' * s.pi m n
      + Tm 1 n m 0 n' * s.tau m n) * i.pi m n' + (Tm 0 n m 1 n' * s.pi m n + Tm 1 n m 1 n' * s.tau m n) * i.tau m n')) := by
    intro ψ
    unfold S11
    congr 1
    exact ampSum_congr fun m n n' _ _ _ _ => by ring
  have f12 : ∀ ψ, S12 Tm alphaF s i k nmax ψ = 1 / (Complex.I * k) * ampSum nmax ψ (fun m n n' => alphaF n n' * ((Tm 0 n m 0 n' * s.pi m n
      + Tm 1 n m 0 n' * s.tau m n) * i.tau m n' + (Tm 0 n m 1 n' * s.pi m n + Tm 1 n m 1 n' * s.tau m n) * i.pi m n')) := by
    intro ψ
    unfold S12
    congr 1
    exact ampSum_congr fun m n n' _ _ _ _ => by ring
  have f21 : ∀ ψ, S21 Tm alphaF s i k nmax ψ = Complex.I / k * ampSum nmax ψ (fun m n n' => alphaF n n' * ((Tm 0 n m 0 n' * s.tau m n
      + Tm 1 n m 0 n' * s.pi m n) * i.pi m n' + (Tm 0 n m 1 n' * s.tau m n + Tm 1 n m 1 n' * s.pi m n) * i.tau m n')) := by
    intro ψ
    unfold S21
    congr 1
    exact ampSum_congr fun m n n' _ _ _ _ => by ring
  have f22 : ∀ ψ, S22 Tm alphaF s i k nmax ψ = 1 / k * ampSum nmax ψ (fun m n n' => alphaF n n' * ((Tm 0 n m 0 n' * s.tau m n
      + Tm 1 n m 0 n' * s.pi m n) * i.tau m n' + (Tm 0 n m 1 n' * s.tau m n + Tm 1 n m 1 n' * s.pi m n) * i.pi m n')) := by
    intro ψ
    unfold S22
    congr 1
    exact ampSum_congr fun m n n' _ _ _ _ => by ring
  obtain ⟨u1, u2⟩ := step (fun m n n' => Tm 0 n m 0 n' * s.pi m n + Tm 1 n m 0 n' * s.tau m n)
    (fun m n n' => Tm 0 n m 1 n' * s.pi m n + Tm 1 n m 1 n' * s.tau m n)
  obtain ⟨w1, w2⟩ := step (fun m n n' => Tm 0 n m 0 n' * s.tau m n + Tm 1 n m 0 n' * s.pi m n)
    (fun m n n' => Tm 0 n m 1 n' * s.tau m n + Tm 1 n m 1 n' * s.pi m n)
  refine ⟨?_, ?_, ?_, ?_⟩
  · change S11 _ _ _ _ _ _ _ = _ * S11 _ _ _ _ _ _ _ - _ * S12 _ _ _ _ _ _ _
    rw [f11, f11, f12, u1, hik]
    ring
  · change S12 _ _ _ _ _ _ _ = _ * S12 _ _ _ _ _ _ _ + _ * S11 _ _ _ _ _ _ _
    rw [f11, f12, f12, u2, hik]
    linear_combination (-(Real.sin δ * ε / k : ℂ) * ampSum nmax φ (fun m n n' => alphaF n n' * ((Tm 0 n m 0 n' * s.pi m n
      + Tm 1 n m 0 n' * s.tau m n) * i.pi m n' + (Tm 0 n m 1 n' * s.pi m n + Tm 1 n m 1 n' * s.tau m n) * i.tau m n'))) * II
  · change S21 _ _ _ _ _ _ _ = _ * S21 _ _ _ _ _ _ _ - _ * S22 _ _ _ _ _ _ _
    rw [f21, f21, f22, w1]
    linear_combination ((Real.sin δ * ε / k : ℂ) * ampSum nmax φ (fun m n n' => alphaF n n' * ((Tm 0 n m 0 n' * s.tau m n
      + Tm 1 n m 0 n' * s.pi m n) * i.tau m n' + (Tm 0 n m 1 n' * s.tau m n + Tm 1 n m 1 n' * s.pi m n) * i.pi m n'))) * II
  · change S22 _ _ _ _ _ _ _ = _ * S22 _ _ _ _ _ _ _ + _ * S21 _ _ _ _ _ _ _
    rw [f21, f22, f22, w2]
    ring

/-- the azimuth of a direction along the axis does not matter: outgoing -/
theorem pole_out {θo' : ℝ} (h : θo' = 0 ∨ θo' = Real.pi) (Tm : Nat → Nat → Int → Nat → Nat → ℂ) (k : ℝ) (nmax : Nat) (i : Angular)
    {s : Angular} (hs : s.IsOf θo') (φi φ ψ : ℝ) (ev eh : ℂ) :
    let P := fun φ => theory Tm k nmax i s (φ - φi)
    field θo' φ ((P φ).s0 * ev + (P φ).s1 * eh) ((P φ).s2 * ev + (P φ).s3 * eh)
      = field θo' ψ ((P ψ).s0 * ev + (P ψ).s1 * eh) ((P ψ).s2 * ev + (P ψ).s3 * eh) := by
  intro P
  have hε : (Real.cos θo' : ℂ) ^ 2 = 1 := by
    rcases h with h | h <;> rw [h] <;> norm_num
  have hs0 : Real.sin θo' = 0 := by
    rcases h with h | h <;> rw [h] <;> norm_num
  suffices H : ∀ φ, field θo' φ ((P φ).s0 * ev + (P φ).s1 * eh) ((P φ).s2 * ev + (P φ).s3 * eh)
      = field θo' 0 ((P 0).s0 * ev + (P 0).s1 * eh) ((P 0).s2 * ev + (P 0).s3 * eh) by rw [H φ, H ψ]
  intro φ
  obtain ⟨e0, e2, e1, e3⟩ := theory_shift_out h Tm k nmax i hs (0 - φi) φ
  have hp : theory Tm k nmax i s (0 - φi + φ) = P φ := by
    change _ = theory Tm k nmax i s (φ - φi)
    congr 1
    ring
  have h0 : theory Tm k nmax i s (0 - φi) = P 0 := rfl
  rw [hp, h0] at e0 e1 e2 e3
  rw [e0, e1, e2, e3]
  have q : (Real.sin φ : ℂ) ^ 2 + (Real.cos φ : ℂ) ^ 2 = 1 := by exact_mod_cast Real.sin_sq_add_cos_sq φ
  funext c
  unfold field eTheta ePhi
  rw [hs0]
  generalize (P 0).s0 = a0
  generalize (P 0).s1 = a1
  generalize (P 0).s2 = a2
  generalize (P 0).s3 = a3
  fin_cases c
  · simp only [Fin.zero_eta, Matrix.cons_val_zero, Real.cos_zero, Real.sin_zero, Complex.ofReal_mul, Complex.ofReal_neg, Complex.ofReal_one,
      Complex.ofReal_zero]
    generalize (Real.sin φ : ℂ) = x at *
    generalize (Real.cos φ : ℂ) = y at *
    generalize (Real.cos θo' : ℂ) = ε at *
    linear_combination (a0 * ev + a1 * eh) * ε * q + (a2 * ev + a3 * eh) * x * y * hε
  · simp only [Fin.mk_one, Matrix.cons_val_one, Matrix.cons_val_zero, Real.cos_zero, Real.sin_zero, Complex.ofReal_mul, Complex.ofReal_neg,
      Complex.ofReal_one, Complex.ofReal_zero]
    generalize (Real.sin φ : ℂ) = x at *
    generalize (Real.cos φ : ℂ) = y at *
    generalize (Real.cos θo' : ℂ) = ε at *
    linear_combination (a2 * ev + a3 * eh) * (q + x ^ 2 * hε)
  · simp

/-- the azimuth of a direction along the axis does not matter: incoming -/
theorem pole_in {θi' : ℝ} (h : θi' = 0 ∨ θi' = Real.pi) (Tm : Nat → Nat → Int → Nat → Nat → ℂ) (k : ℝ) (nmax : Nat) {i : Angular}
    (s : Angular) (hi : i.IsOf θi') (φo φ ψ : ℝ) (ev eh : ℂ) :
    let P := fun φ => theory Tm k nmax i s (φo - φ)
    ∃ ev' eh', field θi' φ ev eh = field θi' ψ ev' eh' ∧ (P φ).s0 * ev + (P φ).s1 * eh = (P ψ).s0 * ev' + (P ψ).s1 * eh'
      ∧ (P φ).s2 * ev + (P φ).s3 * eh = (P ψ).s2 * ev' + (P ψ).s3 * eh' := by
  intro P
  have hε : (Real.cos θi' : ℂ) ^ 2 = 1 := by
    rcases h with h | h <;> rw [h] <;> norm_num
  have hs0 : Real.sin θi' = 0 := by
    rcases h with h | h <;> rw [h] <;> norm_num
  obtain ⟨e0, e1, e2, e3⟩ := theory_shift_in h Tm k nmax s hi (φo - φ) (φ - ψ)
  have hp : theory Tm k nmax i s (φo - φ + (φ - ψ)) = P ψ := by
    change _ = theory Tm k nmax i s (φo - ψ)
    congr 1
    ring
  have h0 : theory Tm k nmax i s (φo - φ) = P φ := rfl
  rw [hp, h0] at e0 e1 e2 e3
  have q : (Real.sin (φ - ψ) : ℂ) ^ 2 + (Real.cos (φ - ψ) : ℂ) ^ 2 = 1 := by exact_mod_cast Real.sin_sq_add_cos_sq (φ - ψ)
  refine ⟨Real.cos (φ - ψ) * ev - Real.cos θi' * Real.sin (φ - ψ) * eh, Real.cos (φ - ψ) * eh + Real.cos θi' * Real.sin (φ - ψ) * ev, ?_, ?_, ?_⟩
  · have qs : (Real.sin ψ : ℂ) ^ 2 + (Real.cos ψ : ℂ) ^ 2 = 1 := by exact_mod_cast Real.sin_sq_add_cos_sq ψ
    have c1 : (Real.cos φ : ℂ) = Real.cos (φ - ψ) * Real.cos ψ - Real.sin (φ - ψ) * Real.sin ψ := by
      rw [← Complex.ofReal_mul, ← Complex.ofReal_mul, ← Complex.ofReal_sub, ← Real.cos_add, sub_add_cancel]
    have c2 : (Real.sin φ : ℂ) = Real.sin (φ - ψ) * Real.cos ψ + Real.cos (φ - ψ) * Real.sin ψ := by
      rw [← Complex.ofReal_mul, ← Complex.ofReal_mul, ← Complex.ofReal_add, ← Real.sin_add, sub_add_cancel]
    funext c
    unfold field eTheta ePhi
    rw [hs0]
    fin_cases c
    · simp only [Fin.zero_eta, Matrix.cons_val_zero, Complex.ofReal_mul, Complex.ofReal_neg]
      rw [c1, c2]
      generalize (Real.cos θi' : ℂ) = ε at *
      linear_combination eh * Real.sin (φ - ψ) * Real.cos ψ * hε
    · simp only [Fin.mk_one, Matrix.cons_val_one, Matrix.cons_val_zero, Complex.ofReal_mul]
      rw [c1, c2]
      generalize (Real.cos θi' : ℂ) = ε at *
      linear_combination eh * Real.sin (φ - ψ) * Real.sin ψ * hε
    · simp
  · rw [e0, e1]
    generalize (Real.cos θi' : ℂ) = ε at *
    generalize (Real.cos (φ - ψ) : ℂ) = y at *
    generalize (Real.sin (φ - ψ) : ℂ) = x at *
    linear_combination -((P φ).s0 * ev + (P φ).s1 * eh) * (q + x ^ 2 * hε)
  · rw [e2, e3]
    generalize (Real.cos θi' : ℂ) = ε at *
    generalize (Real.cos (φ - ψ) : ℂ) = y at *
    generalize (Real.sin (φ - ψ) : ℂ) = x at *
    linear_combination -((P φ).s2 * ev + (P φ).s3 * eh) * (q + x ^ 2 * hε)

/-- a regular angle whose sine vanishes is a pole -/
theorem regular_pole {θ : ℝ} (h : Regular θ) (hs : Real.sin θ = 0) : θ = 0 ∨ θ = Real.pi := by
  rcases h with h | h
  · exact absurd hs (Real.sin_pos_of_pos_of_lt_pi h.1 h.2.1).ne'
  · exact h

/-- **C75** the amplitude matrix for a particle with orientation `(α, β)`: turn the incoming field to the frame of the particle,
apply the amplitude matrix of the theory there, and turn back. -/
theorem c75_oriented (o : Obj ℝ ℂ) {Tm : Nat → Nat → Int → Nat → Nat → ℂ} (hA : Axisymmetric Tm) (hS : Stores o.res Tm)
    (α β θi φi θo φo : ℝ) {θi' φi' θo' φo' : ℝ}
    (ni : dir θi' φi' = mulVec (rot α β) (dir θi φi)) (no : dir θo' φo' = mulVec (rot α β) (dir θo φo))
    (hri : Regular θi') (hro : Regular θo') {i s : Angular} (hi : i.IsOf θi') (hs : s.IsOf θo') (Ev Eh : ℂ) :
    let S := forwardOriented o α β θi φi θo φo
    let P := theory Tm o.k o.nmax i s (φo' - φi')
    ∃ ev eh, mulVec (rotC α β) (field θi φi Ev Eh) = field θi' φi' ev eh
      ∧ mulVec (rotC α β) (field θo φo (S.s0 * Ev + S.s1 * Eh) (S.s2 * Ev + S.s3 * Eh))
        = field θo' φo' (P.s0 * ev + P.s1 * eh) (P.s2 * ev + P.s3 * eh) := by
  intro S P
  have bounds : ∀ {θ : ℝ}, Regular θ → 0 ≤ θ ∧ θ ≤ Real.pi := by
    intro θ h
    have := Real.pi_pos
    rcases h with h | h | h
    · exact ⟨h.1.le, h.2.1.le⟩
    · rw [h]; exact ⟨le_rfl, this.le⟩
    · rw [h]; exact ⟨this.le, le_rfl⟩
  obtain ⟨ψi, ri, qi, di⟩ := particle_spec (bounds hri).1 (bounds hri).2 ni
  obtain ⟨ψo, ro, qo, d_o⟩ := particle_spec (bounds hro).1 (bounds hro).2 no
  obtain ⟨ev, eh, f1, f2⟩ := oriented_code o hA hS ri ro di d_o hri hro hi hs Ev Eh
  -- the azimuth of the outgoing direction
  have g2 : mulVec (rotC α β) (field θo φo (S.s0 * Ev + S.s1 * Eh) (S.s2 * Ev + S.s3 * Eh))
      = field θo' φo' ((theory Tm o.k o.nmax i s (φo' - ψi)).s0 * ev + (theory Tm o.k o.nmax i s (φo' - ψi)).s1 * eh)
        ((theory Tm o.k o.nmax i s (φo' - ψi)).s2 * ev + (theory Tm o.k o.nmax i s (φo' - ψi)).s3 * eh) := by
    rcases qo with q | q
    · rw [← q]; exact f2
    · exact f2.trans (pole_out (regular_pole hro q) Tm o.k o.nmax i hs ψi ψo φo' ev eh)
  rcases qi with q | q
  · rw [q] at f1 g2
    exact ⟨ev, eh, f1, g2⟩
  · obtain ⟨ev', eh', p1, p2, p3⟩ := pole_in (regular_pole hri q) Tm o.k o.nmax s hi φo' ψi φi' ev eh
    exact ⟨ev', eh', f1.trans p1, by rw [g2, p2, p3]⟩

/-- the polar and azimuthal components of a field are determined by the field -/
theorem field_injective {θ φ : ℝ} {v h v' h' : ℂ} (e : field θ φ v h = field θ φ v' h') : v = v' ∧ h = h' := by
  have e0 := congrFun e 0
  have e1 := congrFun e 1
  have e2 := congrFun e 2
  unfold field eTheta ePhi at e0 e1 e2
  simp only [Matrix.cons_val_zero, Matrix.cons_val_one, Matrix.cons_val, Complex.ofReal_mul, Complex.ofReal_neg, Complex.ofReal_zero] at e0 e1 e2
  have q : (Real.sin φ : ℂ) ^ 2 + (Real.cos φ : ℂ) ^ 2 = 1 := by exact_mod_cast Real.sin_sq_add_cos_sq φ
  have p : (Real.sin θ : ℂ) ^ 2 + (Real.cos θ : ℂ) ^ 2 = 1 := by exact_mod_cast Real.sin_sq_add_cos_sq θ
  generalize (Real.sin φ : ℂ) = x at *
  generalize (Real.cos φ : ℂ) = y at *
  generalize (Real.sin θ : ℂ) = s at *
  generalize (Real.cos θ : ℂ) = c at *
  constructor
  · linear_combination c * y * e0 + c * x * e1 - s * e2 - c ^ 2 * (v - v') * q - (v - v') * p
  · linear_combination -x * e0 + y * e1 - (h - h') * q

/-- every direction has angles in the frame of the particle -/
theorem exists_angles (α β θ φ : ℝ) : ∃ θ' φ', 0 ≤ θ' ∧ θ' ≤ Real.pi ∧ dir θ' φ' = mulVec (rot α β) (dir θ φ) := by
  have hu : mulVec (rot α β) (dir θ φ) ⬝ᵥ mulVec (rot α β) (dir θ φ) = 1 := by
    rw [rot_dot, dot3]
    simp [dir]
    linear_combination Real.sin θ ^ 2 * Real.sin_sq_add_cos_sq φ + Real.sin_sq_add_cos_sq θ
  generalize mulVec (rot α β) (dir θ φ) = u at hu ⊢
  rw [dot3] at hu
  have h1 : -1 ≤ u 2 := by nlinarith [sq_nonneg (u 0), sq_nonneg (u 1)]
  have h2 : u 2 ≤ 1 := by nlinarith [sq_nonneg (u 0), sq_nonneg (u 1)]
  refine ⟨Real.arccos (u 2), Complex.arg ⟨u 0, u 1⟩, Real.arccos_nonneg _, Real.arccos_le_pi _, ?_⟩
  have hs : Real.sin (Real.arccos (u 2)) = ‖(⟨u 0, u 1⟩ : ℂ)‖ := by
    rw [Real.sin_arccos, Complex.norm_def, Complex.normSq_mk]
    congr 1
    linarith
  unfold dir
  rw [hs, Real.cos_arccos h1 h2, Complex.norm_mul_cos_arg, Complex.norm_mul_sin_arg]
  funext c
  fin_cases c <;> rfl

/-- the orientation angles are those of the symmetry axis: in the frame of the particle the direction `(β, α)` is the third axis -/
theorem c75_axis (α β : ℝ) : mulVec (rot α β) (dir β α) = ![0, 0, 1] := by
  funext c
  have h1 := Real.sin_sq_add_cos_sq α
  have h2 := Real.sin_sq_add_cos_sq β
  fin_cases c <;> simp [mulVec, dotProduct, Fin.sum_univ_three, rot, aboutY, aboutZ, dir, Matrix.mul_apply]
  · linear_combination Real.cos β * Real.sin β * h1
  · ring
  · linear_combination Real.sin β ^ 2 * h1 + h2

/-- **C75** for a particle with its axis along `z`: the amplitude matrix of the theory -/
theorem c75_forward (o : Obj ℝ ℂ) {Tm : Nat → Nat → Int → Nat → Nat → ℂ} (hA : Axisymmetric Tm) (hS : Stores o.res Tm)
    (θi φi θo φo : ℝ) (hri : Regular θi) (hro : Regular θo) {i s : Angular} (hi : i.IsOf θi) (hs : s.IsOf θo) :
    forwardAngles o θi φi θo φo = theory Tm o.k o.nmax i s (φo - φi) := by
  have rep : ∀ θ φ, Represents (directionOf θ φ) θ φ := fun θ φ => ⟨rfl, rfl, fun h => by simp [directionOf, invOf, h], rfl, rfl⟩
  exact forward_spec o hA hS (rep θi φi) (rep θo φo) hri hro hi hs

/-- **C75** turning particle, source and observer together around `z` changes nothing -/
theorem c75_rotate (o : Obj ℝ ℂ) (α β θi φi θo φo δ : ℝ) :
    forwardOriented o (α + δ) β θi (φi + δ) θo (φo + δ) = forwardOriented o α β θi φi θo φo := by
  have hp : ∀ θ φ, particle (α + δ) β θ (φ + δ) = particle α β θ φ := by
    intro θ φ
    have e1 : Real.cos (φ + δ) * Real.cos (α + δ) + Real.sin (φ + δ) * Real.sin (α + δ) = Real.cos φ * Real.cos α + Real.sin φ * Real.sin α := by
      rw [← Real.cos_sub, ← Real.cos_sub]
      congr 1
      ring
    have e2 : Real.sin (φ + δ) * Real.cos (α + δ) - Real.cos (φ + δ) * Real.sin (α + δ) = Real.sin φ * Real.cos α - Real.cos φ * Real.sin α := by
      rw [← Real.sin_sub, ← Real.sin_sub]
      congr 1
      ring
    unfold particle
    rw [e1, e2]
  have hz : ∀ u w : Fin 3 → ℝ, mulVec (aboutZ (α + δ)) u = mulVec (aboutZ α) w → mulVec (rot (α + δ) β) u = mulVec (rot α β) w := by
    intro u w e
    unfold rot
    rw [← Matrix.mulVec_mulVec, e, Matrix.mulVec_mulVec]
  have ht : ∀ θ φ, mulVec (rot (α + δ) β) (eTheta θ (φ + δ)) = mulVec (rot α β) (eTheta θ φ) := by
    intro θ φ
    apply hz
    have q := Real.sin_sq_add_cos_sq δ
    funext c
    fin_cases c <;> simp [mulVec, dotProduct, Fin.sum_univ_three, aboutZ, eTheta, Real.cos_add, Real.sin_add]
    · linear_combination (Real.cos α * Real.cos θ * Real.cos φ + Real.sin α * Real.cos θ * Real.sin φ) * q
    · linear_combination (-Real.sin α * Real.cos θ * Real.cos φ + Real.cos α * Real.cos θ * Real.sin φ) * q
  have hf : ∀ φ, mulVec (rot (α + δ) β) (ePhi (φ + δ)) = mulVec (rot α β) (ePhi φ) := by
    intro φ
    apply hz
    have q := Real.sin_sq_add_cos_sq δ
    funext c
    fin_cases c <;> simp [mulVec, dotProduct, Fin.sum_univ_three, aboutZ, ePhi, Real.cos_add, Real.sin_add]
    · linear_combination (-Real.cos α * Real.sin φ + Real.sin α * Real.cos φ) * q
    · linear_combination (Real.sin α * Real.sin φ + Real.cos α * Real.cos φ) * q
  have hR : ∀ (d : Direction) (C C' : Mat ℝ), (∀ c : Fin 3, C.get c 0 = C'.get c 0 ∧ C.get c 1 = C'.get c 1) →
      ∀ i j, i < 2 → j < 2 → (matR d C).get i j = (matR d C').get i j := by
    intro d C C' h i j hi hj
    have h0 := h 0
    have h1 := h 1
    have h2 := h 2
    simp only [Fin.val_zero, Fin.val_one, Fin.val_two] at h0 h1 h2
    unfold matR
    rw [(product_spec false (matAP d) C (Mat.new 2 2) (cols := 2) rfl (Or.inr fun i j _ _ => new_get 2 2 i j)).2 i j hi hj,
      (product_spec false (matAP d) C' (Mat.new 2 2) (cols := 2) rfl (Or.inr fun i j _ _ => new_get 2 2 i j)).2 i j hi hj]
    have : j = 0 ∨ j = 1 := by omega
    rcases this with rfl | rfl
    · rw [h0.1, h1.1, h2.1]
    · rw [h0.2, h1.2, h2.2]
  have hcol : ∀ (d : Direction) (C : Mat ℝ), (matR d C).cols = 2 := fun d C =>
    (product_spec false (rows := 2) (matAP d) C (Mat.new 2 2) (cols := 2) rfl (Or.inr fun i j _ _ => new_get 2 2 i j)).1
  have gi := hR (particle α β θi φi) (matCin (α + δ) β θi (φi + δ)) (matCin α β θi φi) (by
    intro c
    have a := (matC_spec (α + δ) β θi (φi + δ) θo (φo + δ) c).1
    have b := (matC_spec α β θi φi θo φo c).1
    rw [a.1, a.2, b.1, b.2, ht, hf]
    exact ⟨rfl, rfl⟩)
  have go := hR (particle α β θo φo) (matCout (α + δ) β θi (φi + δ) θo (φo + δ)) (matCout α β θi φi θo φo) (by
    intro c
    have a := (matC_spec (α + δ) β θi (φi + δ) θo (φo + δ) c).2
    have b := (matC_spec α β θi φi θo φo c).2
    rw [a.1, a.2, b.1, b.2, ht, hf]
    exact ⟨rfl, rfl⟩)
  unfold forwardOriented
  dsimp only
  rw [hp, hp]
  obtain ⟨v1, v2, v3, v4⟩ := invert_spec (hcol (particle α β θo φo) (matCout (α + δ) β θi (φi + δ) θo (φo + δ)))
  obtain ⟨w1, w2, w3, w4⟩ := invert_spec (hcol (particle α β θo φo) (matCout α β θi φi θo φo))
  rw [v1, v2, v3, v4, w1, w2, w3, w4, gi 0 0 (by omega) (by omega), gi 0 1 (by omega) (by omega), gi 1 0 (by omega) (by omega),
    gi 1 1 (by omega) (by omega), go 0 0 (by omega) (by omega), go 0 1 (by omega) (by omega), go 1 0 (by omega) (by omega),
    go 1 1 (by omega) (by omega)]

/-! ## C76: scattering and extinction matrix -/

/-- **C76** the scattering matrix: the Stokes vector of the scattered wave (up to the distance) is the matrix times the Stokes vector of
the incoming wave, and no other matrix has this property. -/
theorem c76_scattering (o : Obj ℝ ℂ) (α β θi φi θo φo : ℝ) :
    let S := forwardOriented o α β θi φi θo φo
    let Z := scatteringMatrix o α β θi φi θo φo
    (∀ (Ev Eh : ℂ) (r : Fin 4), stokes (S.s0 * Ev + S.s1 * Eh) (S.s2 * Ev + S.s3 * Eh) r = ∑ c : Fin 4, Z r c * stokes Ev Eh c)
    ∧ ∀ Z' : Fin 4 → Fin 4 → ℝ, (∀ (Ev Eh : ℂ) (r : Fin 4),
        stokes (S.s0 * Ev + S.s1 * Eh) (S.s2 * Ev + S.s3 * Eh) r = ∑ c : Fin 4, Z' r c * stokes Ev Eh c) → ∀ r c : Fin 4, Z' r c = Z r c :=
  ⟨c53_stokes _, fun Z' h r c => c53_unique _ Z' h r c⟩

/-- the extinction matrix for a given amplitude matrix -/
theorem extinctionOf_get (S : Amp) (k : ℝ) :
    let K := extinctionOf S k
    let p := 2 * Real.pi / k
    (∀ i < 4, K.get i i = p * (S.s0 + S.s3).im) ∧ (K.get 0 1 = p * (S.s0 - S.s3).im ∧ K.get 1 0 = p * (S.s0 - S.s3).im)
    ∧ (K.get 0 2 = -p * (S.s1 + S.s2).im ∧ K.get 2 0 = -p * (S.s1 + S.s2).im)
    ∧ (K.get 0 3 = p * (S.s2 - S.s1).re ∧ K.get 3 0 = p * (S.s2 - S.s1).re)
    ∧ (K.get 1 2 = p * (S.s2 - S.s1).im ∧ K.get 2 1 = -(p * (S.s2 - S.s1).im))
    ∧ (K.get 1 3 = -p * (S.s1 + S.s2).re ∧ K.get 3 1 = -(-p * (S.s1 + S.s2).re))
    ∧ K.get 2 3 = p * (S.s3 - S.s0).re ∧ K.get 3 2 = -(p * (S.s3 - S.s0).re) := by
  intro K p
  have hK : K = extinctionOf S k := rfl
  unfold extinctionOf at hK
  dsimp only at hK
  refine ⟨?_, ⟨?_, ?_⟩, ⟨?_, ?_⟩, ⟨?_, ?_⟩, ⟨?_, ?_⟩, ⟨?_, ?_⟩, ?_, ?_⟩
  · intro i hi
    have : i = 0 ∨ i = 1 ∨ i = 2 ∨ i = 3 := by omega
    rcases this with rfl | rfl | rfl | rfl <;>
      (rw [hK]; simp [Mat.get, Mat.set, Mat.new, pos, p])
  all_goals (rw [hK]; simp [Mat.get, Mat.set, Mat.new, pos, p])

/-- attenuation of the coherent wave, for a given forward amplitude matrix -/
theorem attenuation (S : Amp) (k κ n : ℝ) (Ev Eh : ℝ → ℂ) (t : ℝ) :
    let K := extinctionOf S k
    HasDerivAt Ev (Complex.I * κ * Ev t + 2 * Real.pi * Complex.I * n / k * (S.s0 * Ev t + S.s1 * Eh t)) t →
    HasDerivAt Eh (Complex.I * κ * Eh t + 2 * Real.pi * Complex.I * n / k * (S.s2 * Ev t + S.s3 * Eh t)) t →
    ∀ r : Fin 4, HasDerivAt (fun s => stokes (Ev s) (Eh s) r) (-(n * ∑ c : Fin 4, K.get r c * stokes (Ev t) (Eh t) c)) t := by
  intro K h1 h2
  obtain ⟨k0, ⟨k1, k2⟩, ⟨k3, k4⟩, ⟨k5, k6⟩, ⟨k7, k8⟩, ⟨k9, k10⟩, k11, k12⟩ := extinctionOf_get S k
  have d0 := k0 0 (by norm_num)
  have d1 := k0 1 (by norm_num)
  have d2 := k0 2 (by norm_num)
  have d3 := k0 3 (by norm_num)
  have re : ∀ {f : ℝ → ℂ} {f' : ℂ}, HasDerivAt f f' t → HasDerivAt (fun s => (f s).re) f'.re t := fun h =>
    (Complex.reCLM.hasFDerivAt.comp_hasDerivAt t h)
  have im : ∀ {f : ℝ → ℂ} {f' : ℂ}, HasDerivAt f f' t → HasDerivAt (fun s => (f s).im) f'.im t := fun h =>
    (Complex.imCLM.hasFDerivAt.comp_hasDerivAt t h)
  have a1 := re h1
  have a2 := im h1
  have a3 := re h2
  have a4 := im h2
  have hKe : K = extinctionOf S k := rfl
  generalize K = K at *
  subst hKe
  obtain ⟨⟨p0, q0⟩, ⟨p1, q1⟩, ⟨p2, q2⟩, ⟨p3, q3⟩⟩ := S
  have cc : (2 * (Real.pi : ℂ) * Complex.I * n / k) = Complex.I * ((2 * Real.pi / k * n : ℝ) : ℂ) := by
    push_cast
    ring
  rw [cc] at a1 a2 a3 a4
  have hv := (a1.mul a1).add (a2.mul a2)
  have hh := (a3.mul a3).add (a4.mul a4)
  have hre := ((a1.mul a3).add (a2.mul a4)).const_mul (-2)
  have him := ((a2.mul a3).sub (a1.mul a4)).const_mul 2
  have s0 : ∀ a b : ℂ, stokes a b 0 = (a.re * a.re + a.im * a.im) + (b.re * b.re + b.im * b.im) := by
    intro a b
    simp [stokes, Complex.normSq_apply]
  have s1 : ∀ a b : ℂ, stokes a b 1 = (a.re * a.re + a.im * a.im) - (b.re * b.re + b.im * b.im) := by
    intro a b
    simp [stokes, Complex.normSq_apply]
  have s2 : ∀ a b : ℂ, stokes a b 2 = -2 * (a.re * b.re + a.im * b.im) := by
    intro a b
    simp [stokes]
  have s3 : ∀ a b : ℂ, stokes a b 3 = 2 * (a.im * b.re - a.re * b.im) := by
    intro a b
    simp [stokes]
    ring
  intro r
  rw [Fin.sum_univ_four, s0, s1, s2, s3]
  simp only [Complex.add_re, Complex.add_im, Complex.mul_re, Complex.mul_im, Complex.I_re, Complex.I_im, Complex.ofReal_re, Complex.ofReal_im,
    Complex.sub_re, Complex.sub_im] at hv hh hre him d0 d1 d2 d3 k1 k2 k3 k4 k5 k6 k7 k8 k9 k10 k11 k12
  have cases : r = 0 ∨ r = 1 ∨ r = 2 ∨ r = 3 := by
    revert r
    decide
  rcases cases with rfl | rfl | rfl | rfl
  · simp only [Fin.val_zero, Fin.val_one, Fin.val_two, show ((3 : Fin 4) : Nat) = 3 from rfl]
    rw [show (fun s => stokes (Ev s) (Eh s) 0) = _ from funext fun s => s0 _ _, d0, k1, k3, k5]
    exact (hv.add hh).congr_deriv (by ring)
  · simp only [Fin.val_zero, Fin.val_one, Fin.val_two, show ((3 : Fin 4) : Nat) = 3 from rfl]
    rw [show (fun s => stokes (Ev s) (Eh s) 1) = _ from funext fun s => s1 _ _, d1, k2, k7, k9]
    exact (hv.sub hh).congr_deriv (by ring)
  · simp only [Fin.val_zero, Fin.val_one, Fin.val_two, show ((3 : Fin 4) : Nat) = 3 from rfl]
    rw [show (fun s => stokes (Ev s) (Eh s) 2) = _ from funext fun s => s2 _ _, d2, k4, k8, k11]
    exact hre.congr_deriv (by ring)
  · simp only [Fin.val_zero, Fin.val_one, Fin.val_two, show ((3 : Fin 4) : Nat) = 3 from rfl]
    rw [show (fun s => stokes (Ev s) (Eh s) 3) = _ from funext fun s => s3 _ _, d3, k6, k10, k12]
    exact him.congr_deriv (by ring)

/-- **C76** the extinction matrix describes the attenuation of the coherent wave: if the amplitudes along the path obey
`dE/ds = i κ E + (2π i n / k) S E` (`n` particles per volume, forward amplitude matrix `S`), then the Stokes vector obeys
`dI/ds = -n K I`. -/
theorem c76_extinction (o : Obj ℝ ℂ) (α β θ φ κ n : ℝ) (Ev Eh : ℝ → ℂ) (t : ℝ) :
    let S := forwardOriented o α β θ φ θ φ
    let K := extinctionMatrix o α β θ φ
    HasDerivAt Ev (Complex.I * κ * Ev t + 2 * Real.pi * Complex.I * n / o.k * (S.s0 * Ev t + S.s1 * Eh t)) t →
    HasDerivAt Eh (Complex.I * κ * Eh t + 2 * Real.pi * Complex.I * n / o.k * (S.s2 * Ev t + S.s3 * Eh t)) t →
    ∀ r : Fin 4, HasDerivAt (fun s => stokes (Ev s) (Eh s) r) (-(n * ∑ c : Fin 4, K.get r c * stokes (Ev t) (Eh t) c)) t :=
  attenuation _ o.k κ n Ev Eh t

end Verif.Direct
