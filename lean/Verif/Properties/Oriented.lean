import Verif.Spec.Oriented
import Verif.Proofs.VectorWave
import Verif.Properties.Rotation
import Verif.Proofs.ContentGrain
import Verif.Properties.DirectCross
import Verif.Spec.Content
import Verif.Properties.MatrixResource
import Verif.Properties.PythonInit

/-!
# C93: the amplitude matrix of an ensemble
-/
namespace Verif.Rotation

open Finset MeasureTheory Verif.Scatter Verif.Frame
open Verif.Direct (theory alphaF)
open Verif.Alignment (Axisymmetric Stores averaged)
open Verif.Python (AngleDist)

/-! ### waves in rotated frames -/

/-- component of the vector functions along a transverse field -/
noncomputable def lin (a : Angular) (φ : ℝ) (i n : Nat) (m : Int) (Ev Eh : ℂ) : ℂ := wave a φ i n m 0 * Ev + wave a φ i n m 1 * Eh

theorem field_eq (θ φ : ℝ) (Ev Eh : ℂ) : field θ φ Ev Eh = Ev • toC (eTheta θ φ) + Eh • toC (ePhi φ) := rfl

theorem lin_one {n : Nat} (hn : 1 ≤ n) {m : Int} (hm : |m| ≤ n) {a : Angular} {θ : ℝ} (ha : a.IsOf θ) (φ : ℝ) (Ev Eh : ℂ) :
    lin a φ 1 n m Ev Eh = cf n m (toC (dir θ φ)) (field θ φ Ev Eh) := by
  obtain ⟨h1, h2⟩ := cf_angular hn hm ha φ
  rw [field_eq, cf_add, cf_smul, cf_smul, h1, h2]
  simp only [lin, wave, one_ne_zero, if_false, Matrix.cons_val_zero, Matrix.cons_val_one]
  ring

theorem lin_zero {n : Nat} (hn : 1 ≤ n) {m : Int} (hm : |m| ≤ n) {a : Angular} {θ : ℝ} (ha : a.IsOf θ) (φ : ℝ) (Ev Eh : ℂ) :
    lin a φ 0 n m Ev Eh = -Complex.I * cf n m (toC (dir θ φ)) (field θ φ (-Eh) Ev) := by
  rw [← lin_one hn hm ha]
  simp only [lin, wave, one_ne_zero, if_false, if_true, Matrix.cons_val_zero, Matrix.cons_val_one]
  linear_combination (Complex.exp (Complex.I * (m * φ)) * a.pi m n * Ev) * Complex.I_sq

theorem toC_rot (α β : ℝ) (x : Fin 3 → ℝ) : toC (Matrix.mulVec (rot α β) x) = Matrix.mulVec (rotC α β) (toC x) := by
  funext i
  simp only [toC, rotC, Matrix.mulVec, dotProduct, Matrix.map_apply]
  push_cast
  rfl

theorem cross_field (θ φ : ℝ) (Ev Eh : ℂ) : field θ φ (-Eh) Ev = crossProduct (toC (dir θ φ)) (field θ φ Ev Eh) := by
  have h1 := Complex.sin_sq_add_cos_sq (θ : ℂ)
  have h2 := Complex.sin_sq_add_cos_sq (φ : ℂ)
  rw [cross_apply]
  funext i
  fin_cases i
  · simp [field, eTheta, ePhi, dir, toC]
    linear_combination Complex.sin φ * Ev * h1
  · simp [field, eTheta, ePhi, dir, toC]
    linear_combination -(Complex.cos φ * Ev) * h1
  · simp [field, eTheta, ePhi, dir, toC]
    linear_combination -(Complex.sin θ * Eh) * h2

theorem rot_entries (α β : ℝ) (x : Fin 3 → ℂ) :
    Matrix.mulVec (rotC α β) x 0 = Real.cos β * (Real.cos α * x 0 + Real.sin α * x 1) - Real.sin β * x 2
    ∧ Matrix.mulVec (rotC α β) x 1 = -(Real.sin α * x 0) + Real.cos α * x 1
    ∧ Matrix.mulVec (rotC α β) x 2 = Real.sin β * (Real.cos α * x 0 + Real.sin α * x 1) + Real.cos β * x 2 := by
  refine ⟨?_, ?_, ?_⟩
  · simp [rotC, rot, aboutY, aboutZ, Matrix.mulVec, dotProduct, Fin.sum_univ_three]
    ring
  · simp [rotC, rot, aboutY, aboutZ, Matrix.mulVec, dotProduct, Fin.sum_univ_three]
  · simp [rotC, rot, aboutY, aboutZ, Matrix.mulVec, dotProduct, Fin.sum_univ_three]
    ring

theorem cross_rot (α β : ℝ) (x y : Fin 3 → ℂ) :
    Matrix.mulVec (rotC α β) (crossProduct x y) = crossProduct (Matrix.mulVec (rotC α β) x) (Matrix.mulVec (rotC α β) y) := by
  have h1 : (Real.sin α : ℂ) ^ 2 + (Real.cos α : ℂ) ^ 2 = 1 := by exact_mod_cast Real.sin_sq_add_cos_sq α
  have h2 : (Real.sin β : ℂ) ^ 2 + (Real.cos β : ℂ) ^ 2 = 1 := by exact_mod_cast Real.sin_sq_add_cos_sq β
  obtain ⟨x0, x1, x2⟩ := rot_entries α β x
  obtain ⟨y0, y1, y2⟩ := rot_entries α β y
  obtain ⟨z0, z1, z2⟩ := rot_entries α β (crossProduct x y)
  funext i
  rw [cross_apply] at z0 z1 z2
  rw [cross_apply, cross_apply (Matrix.mulVec (rotC α β) x), x0, x1, x2, y0, y1, y2]
  simp only [Matrix.cons_val_zero, Matrix.cons_val_one, Matrix.cons_val_two, Matrix.cons_val, Matrix.tail_cons, Matrix.head_cons] at z0 z1 z2
  generalize (Real.sin α : ℂ) = sa at *
  generalize (Real.cos α : ℂ) = ca at *
  generalize (Real.sin β : ℂ) = sb at *
  generalize (Real.cos β : ℂ) = cb at *
  fin_cases i
  · refine z0.trans ?_
    simp
    linear_combination (sb * (x 0 * y 1 - x 1 * y 0)) * h1
  · refine z1.trans ?_
    simp
    linear_combination (sa * (x 1 * y 2 - x 2 * y 1) - ca * (x 2 * y 0 - x 0 * y 2)) * h2
  · refine z2.trans ?_
    simp
    linear_combination (-(cb * (x 0 * y 1 - x 1 * y 0))) * h1

/-- the functions of the rotated frame in terms of those of the laboratory -/
theorem lin_rot {n : Nat} (hn : 1 ≤ n) {m : Int} (hm : |m| ≤ n) {a a' : Angular} {θ φ θ' φ' α β : ℝ} (ha : a.IsOf θ) (ha' : a'.IsOf θ')
    (hd : dir θ' φ' = Matrix.mulVec (rot α β) (dir θ φ)) {Ev Eh ev eh : ℂ} (hf : Matrix.mulVec (rotC α β) (field θ φ Ev Eh) = field θ' φ' ev eh) (i : Nat) :
    lin a' φ' i n m ev eh = ∑ k ∈ Icc (-(n : Int)) n, D n k m α (-β) * lin a φ i n k Ev Eh := by
  have hmem : ∀ k ∈ Icc (-(n : Int)) n, |k| ≤ (n : Int) := fun k hk => abs_le.2 (Finset.mem_Icc.1 hk)
  have hi : ∀ (a : Angular) φ k Ev Eh, i ≠ 0 → lin a φ i n k Ev Eh = lin a φ 1 n k Ev Eh := by
    intro a φ k Ev Eh h
    simp only [lin, wave, h, one_ne_zero, if_false]
  by_cases h : i = 0
  · subst h
    rw [lin_zero hn hm ha', cross_field, ← hf, hd, toC_rot, ← cross_rot, ← cross_field, cf_rot hn hm, Finset.mul_sum]
    refine Finset.sum_congr rfl fun k hk => ?_
    rw [lin_zero hn (hmem k hk) ha]
    ring
  · rw [hi _ _ _ _ _ h, lin_one hn hm ha', ← hf, hd, toC_rot, cf_rot hn hm]
    refine Finset.sum_congr rfl fun k hk => ?_
    rw [hi _ _ _ _ _ h, lin_one hn (hmem k hk) ha]

theorem field_conj (θ φ : ℝ) (Ev Eh : ℂ) : field θ φ ((starRingEnd ℂ) Ev) ((starRingEnd ℂ) Eh) = fun c => (starRingEnd ℂ) (field θ φ Ev Eh c) := by
  funext c
  simp [field]

theorem rot_conj (α β : ℝ) (x : Fin 3 → ℂ) : Matrix.mulVec (rotC α β) (fun c => (starRingEnd ℂ) (x c)) = fun c => (starRingEnd ℂ) (Matrix.mulVec (rotC α β) x c) := by
  funext c
  simp [rotC, Matrix.mulVec, dotProduct]

/-! ### the amplitude matrix as a form in the two fields -/

/-- the scattered field for the field `(ev, eh)`, projected on `(gv, gh)` -/
def bil (P : Amp) (gv gh ev eh : ℂ) : ℂ := gv * (P.s0 * ev + P.s1 * eh) + gh * (P.s2 * ev + P.s3 * eh)

theorem reorder (nmax : Nat) (φ : ℝ) (f : Int → Nat → Nat → ℂ) :
    ampSum nmax φ f = ∑ n ∈ Icc 1 nmax, ∑ n' ∈ Icc 1 nmax, ∑ m ∈ Icc (-(min n n' : Int)) (min n n'), f m n n' * Complex.exp (Complex.I * (m * φ)) := by
  have e1 : ∀ n : Nat, ∑ n' ∈ Icc 1 nmax, ∑ m ∈ Icc (-(min n n' : Int)) (min n n'), f m n n' * Complex.exp (Complex.I * (m * φ))
      = ∑ m ∈ Icc (-(n : Int)) n, ∑ n' ∈ Icc (max m.natAbs 1) nmax, f m n n' * Complex.exp (Complex.I * (m * φ)) := by
    intro n
    refine Finset.sum_comm' fun n' m => ?_
    simp only [Finset.mem_Icc]
    omega
  simp only [e1]
  have e2 : ∑ n ∈ Icc 1 nmax, ∑ m ∈ Icc (-(n : Int)) n, ∑ n' ∈ Icc (max m.natAbs 1) nmax, f m n n' * Complex.exp (Complex.I * (m * φ))
      = ∑ m ∈ Icc (-(nmax : Int)) nmax, ∑ n ∈ Icc (max m.natAbs 1) nmax, ∑ n' ∈ Icc (max m.natAbs 1) nmax, f m n n' * Complex.exp (Complex.I * (m * φ)) := by
    refine Finset.sum_comm' fun n m => ?_
    simp only [Finset.mem_Icc]
    omega
  rw [e2]
  unfold ampSum
  exact Finset.sum_congr rfl fun m _ => Finset.sum_comm

theorem bil_theory (T : Nat → Nat → Int → Nat → Nat → ℂ) (k : ℝ) (nmax : Nat) (i s : Angular) (φo φi : ℝ) (gv gh ev eh : ℂ) :
    bil (theory T k nmax i s (φo - φi)) gv gh ev eh
      = 1 / k * ∑ n ∈ Icc 1 nmax, ∑ n' ∈ Icc 1 nmax, ∑ m ∈ Icc (-(min n n' : Int)) (min n n'), ∑ a ∈ range 2, ∑ b ∈ range 2,
        alphaF n n' * T a n m b n' * (lin s φo a n m gv gh * (starRingEnd ℂ) (lin i φi b n' m ((starRingEnd ℂ) ev) ((starRingEnd ℂ) eh))) := by
  have hI : (1 : ℂ) / (Complex.I * k) = -Complex.I * (1 / k) := by
    rw [one_div, mul_inv, Complex.inv_I, one_div]
  have hI' : Complex.I / (k : ℂ) = Complex.I * (1 / k) := by ring
  simp only [bil, theory, S11, S12, S21, S22, hI, hI', reorder]
  simp only [Finset.mul_sum, Finset.sum_mul, ← Finset.sum_add_distrib]
  refine Finset.sum_congr rfl fun n _ => Finset.sum_congr rfl fun n' _ => Finset.sum_congr rfl fun m _ => ?_
  have he : Complex.exp (Complex.I * (m * ((φo - φi : ℝ) : ℂ))) = Complex.exp (Complex.I * (m * φo)) * (starRingEnd ℂ) (Complex.exp (Complex.I * (m * φi))) := by
    rw [← Complex.exp_conj, ← Complex.exp_add]
    congr 1
    simp
    ring
  rw [he]
  simp only [Finset.sum_range_succ, Finset.sum_range_zero, zero_add, lin, wave, one_ne_zero, if_true, if_false, Matrix.cons_val_zero, Matrix.cons_val_one,
    map_add, map_mul, Complex.conj_conj, Complex.conj_ofReal, Complex.conj_I]
  ring_nf
  simp only [Complex.I_sq]
  ring

theorem field_dot (θ φ : ℝ) (gv gh ev eh : ℂ) : field θ φ gv gh ⬝ᵥ field θ φ ev eh = gv * ev + gh * eh := by
  have h1 := Complex.sin_sq_add_cos_sq (θ : ℂ)
  have h2 := Complex.sin_sq_add_cos_sq (φ : ℂ)
  simp [field, eTheta, ePhi, dotProduct, Fin.sum_univ_three]
  linear_combination gv * ev * (h1 + Complex.cos θ ^ 2 * h2) + gh * eh * h2

theorem rotC_dot (α β : ℝ) (u v : Fin 3 → ℂ) : Matrix.mulVec (rotC α β) u ⬝ᵥ Matrix.mulVec (rotC α β) v = u ⬝ᵥ v := by
  have h : (rotC α β).transpose * rotC α β = 1 := by
    have := congrArg (fun M : Matrix (Fin 3) (Fin 3) ℝ => M.map Complex.ofRealHom) (Direct.rot_orth α β)
    simp only [Matrix.map_mul, Matrix.transpose_map, Matrix.map_one _ (map_zero _) (map_one _)] at this
    exact this
  rw [Matrix.dotProduct_mulVec, ← Matrix.mulVec_transpose, Matrix.mulVec_mulVec, h, Matrix.one_mulVec]

/-- a transverse field is transverse in the rotated frame -/
theorem transverse {θ φ θ' φ' α β : ℝ} (hd : dir θ' φ' = Matrix.mulVec (rot α β) (dir θ φ)) (Ev Eh : ℂ) :
    ∃ ev eh, Matrix.mulVec (rotC α β) (field θ φ Ev Eh) = field θ' φ' ev eh := by
  have real : ∀ u : Fin 3 → ℝ, u ⬝ᵥ dir θ φ = 0 → ∃ a b : ℝ, Matrix.mulVec (rot α β) u = fun c => a * eTheta θ' φ' c + b * ePhi φ' c := by
    intro u hu
    refine ⟨eTheta θ' φ' ⬝ᵥ Matrix.mulVec (rot α β) u, ePhi φ' ⬝ᵥ Matrix.mulVec (rot α β) u, funext fun c => ?_⟩
    have := Direct.frame_complete θ' φ' (Matrix.mulVec (rot α β) u) c
    rw [this]
    rw [show Matrix.mulVec (rot α β) u ⬝ᵥ dir θ' φ' = 0 by rw [hd, Direct.rot_dot, hu]]
    ring
  obtain ⟨a, b, h1⟩ := real _ (Direct.eTheta_dir θ φ)
  obtain ⟨c, e, h2⟩ := real _ (Direct.ePhi_dir θ φ)
  refine ⟨Ev * a + Eh * c, Ev * b + Eh * e, ?_⟩
  rw [field_eq, Matrix.mulVec_add, Matrix.mulVec_smul, Matrix.mulVec_smul, ← toC_rot, ← toC_rot, h1, h2]
  funext x
  simp [toC, field]
  ring

/-! ### the amplitude matrix in the laboratory -/

theorem sgn_eq (j : Int) : (-1 : ℝ) ^ j.natAbs = if 2 ∣ j then 1 else -1 := by
  split
  · next h => exact Even.neg_one_pow (by rw [Int.natAbs_even]; exact even_iff_two_dvd.mpr h)
  · next h => exact Odd.neg_one_pow (by rw [Int.natAbs_odd, ← Int.not_even_iff_odd]; exact fun hh => h (even_iff_two_dvd.mp hh))

theorem sgn_mul (k m l : Int) : (-1 : ℝ) ^ (k + m).natAbs * (-1) ^ (l + m).natAbs = (-1) ^ (k + l).natAbs := by
  rw [sgn_eq, sgn_eq, sgn_eq]
  split <;> split <;> split <;> first | omega | norm_num

/-- `d^n_{m m'}(-β) = (-1)^(m+m') d^n_{m m'}(β)` -/
theorem d_minus (n m m' : Int) (hm : |m| ≤ n) (β : ℝ) : d n m m' (-β) = (-1) ^ (m + m').natAbs * d n m m' β := by
  have hsgn : ∀ k : Int, (-1 : ℝ) ^ (k + 1).natAbs = -(-1) ^ k.natAbs ∧ (-1 : ℝ) ^ (k - 1).natAbs = -(-1) ^ k.natAbs := by
    intro k
    rw [sgn_eq, sgn_eq, sgn_eq]
    constructor <;> · split <;> split <;> first | omega | norm_num
  have hsq : ∀ k : Int, (-1 : ℝ) ^ k.natAbs * (-1) ^ k.natAbs = 1 := by
    intro k
    rw [← mul_pow]
    simp
  have := d_unique n (fun m t => (-1) ^ (m + m').natAbs * d n m m' (-t)) (fun m t => d n m m' t)
    (fun m t _ => by
      have := ((d_deriv_all n m m' (-t)).scomp t (hasDerivAt_neg t)).const_mul ((-1 : ℝ) ^ (m + m').natAbs)
      refine this.congr_deriv ?_
      rw [show m + 1 + m' = m + m' + 1 by ring, show m - 1 + m' = m + m' - 1 by ring, (hsgn _).1, (hsgn _).2, smul_eq_mul]
      ring)
    (fun m t _ => d_deriv_all n m m' t)
    (fun m hm => by
      simp only [neg_zero]
      rw [d_zero n m m' hm]
      by_cases h : m = m'
      · subst h
        rw [if_pos rfl, mul_one]
        exact Even.neg_one_pow (by rw [Int.natAbs_even]; exact ⟨m, rfl⟩)
      · rw [if_neg h, mul_zero]) m hm β
  rw [← this, ← mul_assoc, hsq, one_mul]

theorem rotated_minus (T : Nat → Nat → Int → Nat → Nat → ℂ) (α β : ℝ) (i n1 : Nat) {m : Int} (hm : |m| ≤ n1) (j n2 : Nat) {m' : Int} (hm' : |m'| ≤ n2) :
    rotated T α (-β) i n1 m j n2 m' = (-1) ^ (m + m').natAbs * rotated T α β i n1 m j n2 m' := by
  unfold rotated
  rw [Finset.mul_sum]
  refine Finset.sum_congr rfl fun l _ => ?_
  have h : ((-1 : ℝ) : ℂ) ^ (m + l).natAbs * ((-1 : ℝ) : ℂ) ^ (m' + l).natAbs = ((-1 : ℝ) : ℂ) ^ (m + m').natAbs := by exact_mod_cast sgn_mul m l m'
  unfold D
  rw [d_minus _ _ _ hm, d_minus _ _ _ hm']
  simp only [map_mul, map_pow, Complex.conj_ofReal, Complex.ofReal_mul, Complex.ofReal_pow, Complex.ofReal_neg, Complex.ofReal_one, map_neg, map_one] at h ⊢
  rw [← h]
  ring

theorem swap5 (M K K' : Finset Int) (A B : Finset Nat) (X : Int → Nat → Nat → Int → Int → ℂ) :
    ∑ m ∈ M, ∑ a ∈ A, ∑ b ∈ B, ∑ k ∈ K, ∑ k' ∈ K', X m a b k k' = ∑ k ∈ K, ∑ k' ∈ K', ∑ a ∈ A, ∑ b ∈ B, ∑ m ∈ M, X m a b k k' := by
  have l : ∑ m ∈ M, ∑ a ∈ A, ∑ b ∈ B, ∑ k ∈ K, ∑ k' ∈ K', X m a b k k' = ∑ a ∈ A, ∑ b ∈ B, ∑ k ∈ K, ∑ k' ∈ K', ∑ m ∈ M, X m a b k k' := by
    rw [Finset.sum_comm]
    refine Finset.sum_congr rfl fun a _ => ?_
    rw [Finset.sum_comm]
    refine Finset.sum_congr rfl fun b _ => ?_
    rw [Finset.sum_comm]
    refine Finset.sum_congr rfl fun k _ => ?_
    rw [Finset.sum_comm]
  have r : ∀ Y : Nat → Nat → Int → Int → ℂ, ∑ a ∈ A, ∑ b ∈ B, ∑ k ∈ K, ∑ k' ∈ K', Y a b k k' = ∑ k ∈ K, ∑ k' ∈ K', ∑ a ∈ A, ∑ b ∈ B, Y a b k k' := by
    intro Y
    have : ∀ a, ∑ b ∈ B, ∑ k ∈ K, ∑ k' ∈ K', Y a b k k' = ∑ k ∈ K, ∑ k' ∈ K', ∑ b ∈ B, Y a b k k' := by
      intro a
      rw [Finset.sum_comm]
      refine Finset.sum_congr rfl fun b _ => ?_
      rw [Finset.sum_comm]
    simp only [this]
    rw [Finset.sum_comm]
    refine Finset.sum_congr rfl fun b _ => ?_
    rw [Finset.sum_comm]
  rw [l, r]

theorem bil_oriented {T : Nat → Nat → Int → Nat → Nat → ℂ} {k : ℝ} {nmax : Nat} {α β θi φi θo φo : ℝ} {S : Amp}
    (h : Oriented T k nmax α β θi φi θo φo S) {i s : Angular} (hi : i.IsOf θi) (hs : s.IsOf θo) (gv gh Ev Eh : ℂ) :
    bil S gv gh Ev Eh = 1 / k * ∑ n ∈ Icc 1 nmax, ∑ n' ∈ Icc 1 nmax, ∑ m ∈ Icc (-(n : Int)) n, ∑ m' ∈ Icc (-(n' : Int)) n', ∑ a ∈ range 2, ∑ b ∈ range 2,
      alphaF n n' * ((-1) ^ (m + m').natAbs * rotated T α β a n m b n' m')
        * (lin s φo a n m gv gh * (starRingEnd ℂ) (lin i φi b n' m' ((starRingEnd ℂ) Ev) ((starRingEnd ℂ) Eh))) := by
  obtain ⟨θi', φi', θo', φo', i', s', di, ds, hi', hs', hf⟩ := h
  obtain ⟨ev, eh, h1, h2⟩ := hf Ev Eh
  obtain ⟨gv', gh', h3⟩ := transverse ds gv gh
  have e : bil S gv gh Ev Eh = bil (theory T k nmax i' s' (φo' - φi')) gv' gh' ev eh := by
    refine (field_dot θo φo _ _ _ _).symm.trans (Eq.trans ?_ (field_dot θo' φo' _ _ _ _))
    rw [← h2, ← h3, rotC_dot]
  have h4 : Matrix.mulVec (rotC α β) (field θi φi ((starRingEnd ℂ) Ev) ((starRingEnd ℂ) Eh)) = field θi' φi' ((starRingEnd ℂ) ev) ((starRingEnd ℂ) eh) := by
    rw [field_conj, rot_conj, h1, field_conj]
  rw [e, bil_theory]
  congr 1
  refine Finset.sum_congr rfl fun n hn => Finset.sum_congr rfl fun n' hn' => ?_
  rw [Finset.mem_Icc] at hn hn'
  rw [show (∑ m ∈ Icc (-(n : Int)) n, ∑ m' ∈ Icc (-(n' : Int)) n', ∑ a ∈ range 2, ∑ b ∈ range 2,
      alphaF n n' * ((-1) ^ (m + m').natAbs * rotated T α β a n m b n' m')
        * (lin s φo a n m gv gh * (starRingEnd ℂ) (lin i φi b n' m' ((starRingEnd ℂ) Ev) ((starRingEnd ℂ) Eh))))
    = ∑ m ∈ Icc (-(n : Int)) n, ∑ m' ∈ Icc (-(n' : Int)) n', ∑ a ∈ range 2, ∑ b ∈ range 2, ∑ l ∈ Icc (-(min n n' : Int)) (min n n'),
      alphaF n n' * T a n l b n' * ((D n m l α (-β) * lin s φo a n m gv gh)
        * (starRingEnd ℂ) (D n' m' l α (-β) * lin i φi b n' m' ((starRingEnd ℂ) Ev) ((starRingEnd ℂ) Eh))) from ?_, ← swap5]
  · refine Finset.sum_congr rfl fun l hl => Finset.sum_congr rfl fun a _ => Finset.sum_congr rfl fun b _ => ?_
    rw [Finset.mem_Icc] at hl
    rw [lin_rot hn.1 (abs_le.2 ⟨by omega, by omega⟩) hs hs' ds h3, lin_rot hn'.1 (abs_le.2 ⟨by omega, by omega⟩) hi hi' di h4, map_sum,
      Finset.sum_mul_sum, Finset.mul_sum]
    refine Finset.sum_congr rfl fun m _ => ?_
    rw [Finset.mul_sum]
  · refine Finset.sum_congr rfl fun m hm => Finset.sum_congr rfl fun m' hm' => Finset.sum_congr rfl fun a _ => Finset.sum_congr rfl fun b _ => ?_
    rw [Finset.mem_Icc] at hm hm'
    rw [← rotated_minus T α β a n (abs_le.2 hm) b n' (abs_le.2 hm'), rotated, Finset.mul_sum, Finset.sum_mul]
    refine Finset.sum_congr rfl fun l _ => ?_
    rw [map_mul]
    ring

/-- **C93**: the amplitude matrix in the laboratory of a particle with any orientation -/
theorem c93_oriented {T : Nat → Nat → Int → Nat → Nat → ℂ} {k : ℝ} {nmax : Nat} {α β θi φi θo φo : ℝ} {S : Amp}
    (h : Oriented T k nmax α β θi φi θo φo S) {i s : Angular} (hi : i.IsOf θi) (hs : s.IsOf θo) (p q : Fin 2) :
    entry S p q = general (rotated T α β) k nmax s φo i φi p q := by
  have hb := fun gv gh Ev Eh => bil_oriented h hi hs gv gh Ev Eh
  fin_cases p <;> fin_cases q
  · have := hb 1 0 1 0
    simp only [bil, lin, map_zero, map_one, mul_zero, mul_one, add_zero, zero_add, one_mul, zero_mul] at this
    simpa [entry, general] using this
  · have := hb 1 0 0 1
    simp only [bil, lin, map_zero, map_one, mul_zero, mul_one, add_zero, zero_add, one_mul, zero_mul] at this
    simpa [entry, general] using this
  · have := hb 0 1 1 0
    simp only [bil, lin, map_zero, map_one, mul_zero, mul_one, add_zero, zero_add, one_mul, zero_mul] at this
    simpa [entry, general] using this
  · have := hb 0 1 0 1
    simp only [bil, lin, map_zero, map_one, mul_zero, mul_one, add_zero, zero_add, one_mul, zero_mul] at this
    simpa [entry, general] using this

/-! ### such a matrix exists, and there is only one -/

/-- every angle has angular functions -/
theorem angular_all (θ : ℝ) : ∃ a : Angular, a.IsOf θ := by
  have hw : ∀ m n : Nat, m ≤ n → ∀ t, Legendre.wigner m n t = Legendre.N m n * (Real.sin t ^ m * (Legendre.G m n).eval (Real.cos t)) := by
    intro m n h t
    rw [Legendre.wigner_eq m n h]
    ring
  refine ⟨Angular.of (fun m n => Legendre.N m n * (Real.sin θ ^ (m - 1) * (Legendre.G m n).eval (Real.cos θ))) (fun m n => deriv (Legendre.wigner m n) θ), ?_⟩
  intro m n _ hm
  constructor
  · intro h1
    have hc : Continuous fun t => (m : ℝ) * (Legendre.N m n * (Real.sin t ^ (m - 1) * (Legendre.G m n).eval (Real.cos t))) := by
      have := (Polynomial.continuous (Legendre.G m n)).comp Real.continuous_cos
      exact continuous_const.mul (continuous_const.mul ((Real.continuous_sin.pow _).mul this))
    have ht := (hc.tendsto θ).mono_left (nhdsWithin_le_nhds (s := {θ}ᶜ))
    refine (Filter.Tendsto.congr' ?_ ht).trans (le_of_eq ?_)
    · have hz : ∀ᶠ t in nhdsWithin θ {θ}ᶜ, Real.sin t ≠ 0 := by
        have ha : AnalyticAt ℝ Real.sin θ := Real.analyticAt_sin
        rcases ha.eventually_eq_zero_or_eventually_ne_zero with h | h
        · exfalso
          have h2 := (Real.hasDerivAt_sin θ).unique ((hasDerivAt_const θ (0 : ℝ)).congr_of_eventuallyEq h)
          have h3 : Real.sin θ = 0 := h.self_of_nhds
          have := Real.sin_sq_add_cos_sq θ
          rw [h2, h3] at this
          norm_num at this
        · exact h
      filter_upwards [hz] with t ht
      rw [hw m n hm, show Real.sin t ^ m = Real.sin t ^ (m - 1) * Real.sin t by rw [← pow_succ]; congr 1; omega]
      field_simp
    · simp [Angular.of]
  · have := (Special.wigner_hasDeriv m n hm θ).differentiableAt.hasDerivAt
    refine this.congr_deriv ?_
    simp [Angular.of]

/-- the change of the components of a transverse field with the frame -/
theorem transverse_lin {θ φ θ' φ' α β : ℝ} (hd : dir θ' φ' = Matrix.mulVec (rot α β) (dir θ φ)) :
    ∃ M : Matrix (Fin 2) (Fin 2) ℂ, M.transpose * M = 1
      ∧ ∀ Ev Eh, Matrix.mulVec (rotC α β) (field θ φ Ev Eh) = field θ' φ' (M 0 0 * Ev + M 0 1 * Eh) (M 1 0 * Ev + M 1 1 * Eh) := by
  obtain ⟨a, b, h1⟩ := transverse hd 1 0
  obtain ⟨c, e, h2⟩ := transverse hd 0 1
  refine ⟨!![a, c; b, e], ?_, fun Ev Eh => ?_⟩
  · have d11 := rotC_dot α β (field θ φ 1 0) (field θ φ 1 0)
    have d12 := rotC_dot α β (field θ φ 1 0) (field θ φ 0 1)
    have d22 := rotC_dot α β (field θ φ 0 1) (field θ φ 0 1)
    rw [h1, field_dot, field_dot] at d11
    rw [h1, h2, field_dot, field_dot] at d12
    rw [h2, field_dot, field_dot] at d22
    ext x y
    fin_cases x <;> fin_cases y <;> simp [Matrix.mul_apply, Fin.sum_univ_two]
    · linear_combination d11
    · linear_combination d12
    · linear_combination d12
    · linear_combination d22
  · rw [show field θ φ Ev Eh = Ev • field θ φ 1 0 + Eh • field θ φ 0 1 by funext x; simp [field], Matrix.mulVec_add, Matrix.mulVec_smul, Matrix.mulVec_smul,
      h1, h2]
    funext x
    simp [field]
    ring

/-- **C93**: every orientation, and every pair of directions, has exactly one amplitude matrix -/
theorem c93_exists_unique (T : Nat → Nat → Int → Nat → Nat → ℂ) (k : ℝ) (nmax : Nat) (α β θi φi θo φo : ℝ) :
    ∃! S : Amp, Oriented T k nmax α β θi φi θo φo S := by
  obtain ⟨θi', φi', -, -, di⟩ := Direct.exists_angles α β θi φi
  obtain ⟨θo', φo', -, -, ds⟩ := Direct.exists_angles α β θo φo
  obtain ⟨i', hi'⟩ := angular_all θi'
  obtain ⟨s', hs'⟩ := angular_all θo'
  obtain ⟨i, hi⟩ := angular_all θi
  obtain ⟨s, hs⟩ := angular_all θo
  obtain ⟨A, hA, fA⟩ := transverse_lin di
  obtain ⟨B, hB, fB⟩ := transverse_lin ds
  have hB' : B * B.transpose = 1 := mul_eq_one_comm.mp hB
  have key : ∃ S, Oriented T k nmax α β θi φi θo φo S := by
    set P := theory T k nmax i' s' (φo' - φi') with hP
    set Q : Matrix (Fin 2) (Fin 2) ℂ := !![P.s0, P.s1; P.s2, P.s3] with hQ
    set S := B.transpose * (Q * A) with hS
    have e : B * S = Q * A := by rw [hS, ← Matrix.mul_assoc, hB', Matrix.one_mul]
    refine ⟨⟨S 0 0, S 0 1, S 1 0, S 1 1⟩, θi', φi', θo', φo', i', s', di, ds, hi', hs', fun Ev Eh => ⟨_, _, fA Ev Eh, ?_⟩⟩
    rw [fB, ← hP]
    have e00 := congrFun (congrFun e 0) 0
    have e01 := congrFun (congrFun e 0) 1
    have e10 := congrFun (congrFun e 1) 0
    have e11 := congrFun (congrFun e 1) 1
    simp only [Matrix.mul_apply, Fin.sum_univ_two, hQ, Matrix.of_apply, Matrix.cons_val_zero, Matrix.cons_val_one, Matrix.cons_val', Matrix.cons_val_fin_one] at e00 e01 e10 e11
    congr 1
    · linear_combination Ev * e00 + Eh * e01
    · linear_combination Ev * e10 + Eh * e11
  obtain ⟨S, hS⟩ := key
  refine ⟨S, hS, fun S' hS' => ?_⟩
  have h : ∀ p q, entry S' p q = entry S p q := fun p q => (c93_oriented hS' hi hs p q).trans (c93_oriented hS hi hs p q).symm
  have h0 := h 0 0
  have h1 := h 0 1
  have h2 := h 1 0
  have h3 := h 1 1
  cases S
  cases S'
  simp [entry] at h0 h1 h2 h3
  simp [h0, h1, h2, h3]

/-! ### averages -/

theorem D_continuous (n m m' : Int) : Continuous fun x : ℝ × ℝ => D n m m' x.1 x.2 := by
  unfold D
  have := (d_continuous n m m').comp (continuous_snd (X := ℝ))
  fun_prop

theorem rotated_continuous (T : Nat → Nat → Int → Nat → Nat → ℂ) (i n1 : Nat) (m : Int) (j n2 : Nat) (m' : Int) :
    Continuous fun x : ℝ × ℝ => rotated T x.1 x.2 i n1 m j n2 m' := by
  unfold rotated
  exact continuous_finsetSum _ fun l _ => ((D_continuous _ _ _).mul continuous_const).mul (Complex.continuous_conj.comp (D_continuous _ _ _))

theorem mean_continuous {f : ℝ → ℝ → ℂ} (hf : Continuous fun x : ℝ × ℝ => f x.1 x.2) :
    Continuous fun β => (1 / (2 * Real.pi) * ∫ α in (0 : ℝ)..2 * Real.pi, f α β : ℂ) := by
  refine continuous_const.mul (intervalIntegral.continuous_parametric_intervalIntegral_of_continuous' ?_ 0 (2 * Real.pi))
  exact hf.comp continuous_swap

theorem average_sum {μ : Measure ℝ} (hμ : AngleDist μ) {ι : Type} (s : Finset ι) {f : ι → ℝ → ℝ → ℂ} (hf : ∀ x ∈ s, Continuous fun y : ℝ × ℝ => f x y.1 y.2) :
    average μ (fun α β => ∑ x ∈ s, f x α β) = ∑ x ∈ s, average μ (f x) := by
  unfold average
  rw [← integral_finsetSum _ fun x hx => integrable_of hμ (mean_continuous (hf x hx))]
  refine integral_congr_ae (Filter.Eventually.of_forall fun β => ?_)
  dsimp only
  rw [intervalIntegral.integral_finsetSum, Finset.mul_sum]
  intro x hx
  exact ((hf x hx).comp (by fun_prop : Continuous fun α : ℝ => (α, β))).intervalIntegrable _ _

theorem average_mul {μ : Measure ℝ} (c : ℂ) (f : ℝ → ℝ → ℂ) : average μ (fun α β => c * f α β) = c * average μ f := by
  unfold average
  rw [← integral_const_mul]
  refine integral_congr_ae (Filter.Eventually.of_forall fun β => ?_)
  dsimp only
  rw [intervalIntegral.integral_const_mul]
  ring

/-- the matrix for a T-matrix with `m = m'` only -/
theorem general_diagonal (T : Nat → Nat → Int → Nat → Nat → ℂ) (k : ℝ) (nmax : Nat) (i s : Angular) (φo φi : ℝ) (p q : Fin 2) :
    general (fun a n m b n' m' => if m = m' then T a n m b n' else 0) k nmax s φo i φi p q = entry (theory T k nmax i s (φo - φi)) p q := by
  have key : ∀ gv gh ev eh : ℂ, bil (theory T k nmax i s (φo - φi)) gv gh ev eh
      = 1 / k * ∑ n ∈ Icc 1 nmax, ∑ n' ∈ Icc 1 nmax, ∑ m ∈ Icc (-(n : Int)) n, ∑ m' ∈ Icc (-(n' : Int)) n', ∑ a ∈ range 2, ∑ b ∈ range 2,
        alphaF n n' * ((-1) ^ (m + m').natAbs * (if m = m' then T a n m b n' else 0))
          * (lin s φo a n m gv gh * (starRingEnd ℂ) (lin i φi b n' m' ((starRingEnd ℂ) ev) ((starRingEnd ℂ) eh))) := by
    intro gv gh ev eh
    rw [bil_theory]
    congr 1
    refine Finset.sum_congr rfl fun n _ => Finset.sum_congr rfl fun n' _ => ?_
    have e : ∀ m ∈ Icc (-(n : Int)) n, (∑ m' ∈ Icc (-(n' : Int)) n', ∑ a ∈ range 2, ∑ b ∈ range 2,
        alphaF n n' * ((-1) ^ (m + m').natAbs * (if m = m' then T a n m b n' else 0))
          * (lin s φo a n m gv gh * (starRingEnd ℂ) (lin i φi b n' m' ((starRingEnd ℂ) ev) ((starRingEnd ℂ) eh))))
        = if m ∈ Icc (-(n' : Int)) n' then ∑ a ∈ range 2, ∑ b ∈ range 2,
        alphaF n n' * T a n m b n' * (lin s φo a n m gv gh * (starRingEnd ℂ) (lin i φi b n' m ((starRingEnd ℂ) ev) ((starRingEnd ℂ) eh))) else 0 := by
      intro m _
      rw [← Finset.sum_ite_eq (Icc (-(n' : Int)) n') m fun m' => ∑ a ∈ range 2, ∑ b ∈ range 2,
        alphaF n n' * T a n m b n' * (lin s φo a n m gv gh * (starRingEnd ℂ) (lin i φi b n' m' ((starRingEnd ℂ) ev) ((starRingEnd ℂ) eh)))]
      refine Finset.sum_congr rfl fun m' _ => ?_
      by_cases h : m = m'
      · subst h
        have hs : (-1 : ℂ) ^ (m + m).natAbs = 1 := Even.neg_one_pow (by rw [Int.natAbs_even]; exact ⟨m, rfl⟩)
        simp only [if_true, hs, one_mul]
      · simp only [if_neg h, mul_zero, zero_mul, Finset.sum_const_zero]
    rw [Finset.sum_congr rfl e, ← Finset.sum_filter]
    refine Finset.sum_congr (Finset.ext fun m => ?_) fun _ _ => rfl
    simp only [Finset.mem_filter, Finset.mem_Icc]
    omega
  fin_cases p <;> fin_cases q
  · have := key 1 0 1 0
    simp only [bil, lin, map_zero, map_one, mul_zero, mul_one, add_zero, zero_add, one_mul, zero_mul] at this
    simpa [entry, general] using this.symm
  · have := key 1 0 0 1
    simp only [bil, lin, map_zero, map_one, mul_zero, mul_one, add_zero, zero_add, one_mul, zero_mul] at this
    simpa [entry, general] using this.symm
  · have := key 0 1 1 0
    simp only [bil, lin, map_zero, map_one, mul_zero, mul_one, add_zero, zero_add, one_mul, zero_mul] at this
    simpa [entry, general] using this.symm
  · have := key 0 1 0 1
    simp only [bil, lin, map_zero, map_one, mul_zero, mul_one, add_zero, zero_add, one_mul, zero_mul] at this
    simpa [entry, general] using this.symm

theorem general_continuous (T : Nat → Nat → Int → Nat → Nat → ℂ) (k : ℝ) (nmax : Nat) (i s : Angular) (φo φi : ℝ) (p q : Fin 2) :
    Continuous fun x : ℝ × ℝ => general (rotated T x.1 x.2) k nmax s φo i φi p q := by
  unfold general
  refine continuous_const.mul (continuous_finsetSum _ fun n _ => continuous_finsetSum _ fun n' _ => continuous_finsetSum _ fun m _ =>
    continuous_finsetSum _ fun m' _ => continuous_finsetSum _ fun a _ => continuous_finsetSum _ fun b _ => ?_)
  exact (continuous_const.mul (continuous_const.mul (rotated_continuous T a n m b n' m'))).mul continuous_const

theorem general_average {μ : Measure ℝ} (hμ : AngleDist μ) (T : Nat → Nat → Int → Nat → Nat → ℂ) (k : ℝ) (nmax : Nat) (i s : Angular) (φo φi : ℝ) (p q : Fin 2) :
    average μ (fun α β => general (rotated T α β) k nmax s φo i φi p q)
      = entry (theory (averaged (fun x : ℝ => (x : ℂ)) (coefficients μ) T) k nmax i s (φo - φi)) p q := by
  rw [← general_diagonal]
  unfold general
  have hc : ∀ a n m b n' m', Continuous fun y : ℝ × ℝ => alphaF n n' * ((-1) ^ (m + m').natAbs * rotated T y.1 y.2 a n m b n' m')
      * (wave s φo a n m p * (starRingEnd ℂ) (wave i φi b n' m' q)) := fun a n m b n' m' =>
    (continuous_const.mul (continuous_const.mul (rotated_continuous T a n m b n' m'))).mul continuous_const
  rw [average_mul]
  congr 1
  rw [average_sum hμ _ fun n _ => by
    refine continuous_finsetSum _ fun n' _ => continuous_finsetSum _ fun m _ => continuous_finsetSum _ fun m' _ => continuous_finsetSum _ fun a _ =>
      continuous_finsetSum _ fun b _ => hc a n m b n' m']
  refine Finset.sum_congr rfl fun n _ => ?_
  rw [average_sum hμ _ fun n' _ => by
    refine continuous_finsetSum _ fun m _ => continuous_finsetSum _ fun m' _ => continuous_finsetSum _ fun a _ => continuous_finsetSum _ fun b _ => hc a n m b n' m']
  refine Finset.sum_congr rfl fun n' _ => ?_
  rw [average_sum hμ _ fun m _ => by
    refine continuous_finsetSum _ fun m' _ => continuous_finsetSum _ fun a _ => continuous_finsetSum _ fun b _ => hc a n m b n' m']
  refine Finset.sum_congr rfl fun m hm => ?_
  rw [average_sum hμ _ fun m' _ => by
    refine continuous_finsetSum _ fun a _ => continuous_finsetSum _ fun b _ => hc a n m b n' m']
  refine Finset.sum_congr rfl fun m' hm' => ?_
  rw [average_sum hμ _ fun a _ => by
    refine continuous_finsetSum _ fun b _ => hc a n m b n' m']
  refine Finset.sum_congr rfl fun a _ => ?_
  rw [average_sum hμ _ fun b _ => hc a n m b n' m']
  refine Finset.sum_congr rfl fun b _ => ?_
  rw [Finset.mem_Icc] at hm hm'
  have e : (fun α β => alphaF n n' * ((-1) ^ (m + m').natAbs * rotated T α β a n m b n' m') * (wave s φo a n m p * (starRingEnd ℂ) (wave i φi b n' m' q)))
      = fun α β => (alphaF n n' * (-1) ^ (m + m').natAbs * (wave s φo a n m p * (starRingEnd ℂ) (wave i φi b n' m' q))) * rotated T α β a n m b n' m' := by
    funext α β
    ring
  rw [e, average_mul, c92_average hμ T a n b n' (abs_le.2 hm) (abs_le.2 hm')]
  unfold coefficients
  ring

/-- **C93**: the amplitude matrix of the averaged T-matrix is the average of the amplitude matrices over all orientations -/
theorem c93_average {μ : Measure ℝ} (hμ : AngleDist μ) {T : Nat → Nat → Int → Nat → Nat → ℂ} {k : ℝ} {nmax : Nat} {θi φi θo φo : ℝ} {S : ℝ → ℝ → Amp}
    (h : ∀ α β, Oriented T k nmax α β θi φi θo φo (S α β)) {i s : Angular} (hi : i.IsOf θi) (hs : s.IsOf θo) (p q : Fin 2) :
    average μ (fun α β => entry (S α β) p q) = entry (theory (averaged (fun x : ℝ => (x : ℂ)) (coefficients μ) T) k nmax i s (φo - φi)) p q := by
  rw [show (fun α β => entry (S α β) p q) = fun α β => general (rotated T α β) k nmax s φo i φi p q by
    funext α β; exact c93_oriented (h α β) hi hs p q]
  exact general_average hμ T k nmax i s φo φi p q

/-- linear functions of an average -/
theorem average_map {μ : Measure ℝ} (hμ : AngleDist μ) (L : ℂ →L[ℝ] ℂ) {f : ℝ → ℝ → ℂ} (hf : Continuous fun x : ℝ × ℝ => f x.1 x.2) :
    average μ (fun α β => L (f α β)) = L (average μ f) := by
  have hr : ∀ (r : ℝ) (z : ℂ), L ((r : ℂ) * z) = r * L z := by
    intro r z
    have := L.map_smul r z
    rwa [Complex.real_smul, Complex.real_smul] at this
  have he : (1 / (2 * Real.pi) : ℂ) = ((1 / (2 * Real.pi) : ℝ) : ℂ) := by push_cast; rfl
  unfold average
  rw [← ContinuousLinearMap.integral_comp_comm L (integrable_of hμ (mean_continuous hf))]
  refine integral_congr_ae (Filter.Eventually.of_forall fun β => ?_)
  dsimp only
  rw [he, hr]
  congr 1
  exact ContinuousLinearMap.intervalIntegral_comp_comm L ((hf.comp (by fun_prop : Continuous fun α : ℝ => (α, β))).intervalIntegrable _ _)

theorem mean_average (μ : Measure ℝ) (f : ℝ → ℝ → ℝ) : average μ (fun α β => (f α β : ℂ)) = (mean μ f : ℂ) := by
  unfold average mean
  refine Eq.trans (integral_congr_ae (Filter.Eventually.of_forall fun β => ?_)) (integral_ofReal (𝕜 := ℂ))
  dsimp only
  rw [intervalIntegral.integral_ofReal]
  simp

/-! ### the code -/

/-- **C93**: `get_forward_scattering_matrix` with angles of orientation gives the amplitude matrix of the particle with that orientation -/
theorem c93_code (o : Direct.Obj ℝ ℂ) {Tm : Nat → Nat → Int → Nat → Nat → ℂ} (hA : Axisymmetric Tm) (hS : Stores o.res Tm)
    (α β θi φi θo φo : ℝ) {θi' φi' θo' φo' : ℝ}
    (ni : dir θi' φi' = Matrix.mulVec (rot α β) (dir θi φi)) (no : dir θo' φo' = Matrix.mulVec (rot α β) (dir θo φo))
    (hri : Regular θi') (hro : Regular θo') : Oriented Tm o.k o.nmax α β θi φi θo φo (Direct.forwardOriented o α β θi φi θo φo) := by
  obtain ⟨i, hi⟩ := angular_all θi'
  obtain ⟨s, hs⟩ := angular_all θo'
  exact ⟨θi', φi', θo', φo', i, s, ni, no, hi, hs, fun Ev Eh => Direct.c75_oriented o hA hS α β θi φi θo φo ni no hri hro hi hs Ev Eh⟩

/-- **C93**: an object that holds the T-matrix of the ensemble gives the mean of the amplitude matrices of the particles -/
theorem c93_ensemble {μ : Measure ℝ} (hμ : AngleDist μ) (o : Direct.Obj ℝ ℂ) {Tm : Nat → Nat → Int → Nat → Nat → ℂ} (hA : Axisymmetric Tm)
    (hS : Stores o.res (averaged (fun x : ℝ => (x : ℂ)) (coefficients μ) Tm)) {θi φi θo φo : ℝ} (hri : Regular θi) (hro : Regular θo) {S : ℝ → ℝ → Amp}
    (h : ∀ α β, Oriented Tm o.k o.nmax α β θi φi θo φo (S α β)) (p q : Fin 2) :
    entry (Direct.forwardAngles o θi φi θo φo) p q = average μ (fun α β => entry (S α β) p q) := by
  obtain ⟨i, hi⟩ := angular_all θi
  obtain ⟨s, hs⟩ := angular_all θo
  rw [c93_average hμ h hi hs]
  rw [Direct.c75_forward o (Content.averaged_axisymmetric (algebraMap ℝ ℂ) (coefficients μ) hA) hS θi φi θo φo hri hro hi hs]
  rfl

/-- mean over the orientations of a number that is a real linear function of the amplitude matrix -/
theorem extinction_mean {μ : Measure ℝ} (hμ : AngleDist μ) {T : Nat → Nat → Int → Nat → Nat → ℂ} {k : ℝ} {nmax : Nat} {θi φi θo φo : ℝ} {S : ℝ → ℝ → Amp}
    (h : ∀ α β, Oriented T k nmax α β θi φi θo φo (S α β)) {i s : Angular} (hi : i.IsOf θi) (hs : s.IsOf θo) (L : ℂ →L[ℝ] ℂ) (c : ℂ) :
    average μ (fun α β => L (entry (S α β) 0 0 + c * entry (S α β) 1 1))
      = L (entry (theory (averaged (fun x : ℝ => (x : ℂ)) (coefficients μ) T) k nmax i s (φo - φi)) 0 0
        + c * entry (theory (averaged (fun x : ℝ => (x : ℂ)) (coefficients μ) T) k nmax i s (φo - φi)) 1 1) := by
  have c0 := general_continuous T k nmax i s φo φi 0 0
  have c1' : Continuous fun x : ℝ × ℝ => c * general (rotated T x.1 x.2) k nmax s φo i φi 1 1 := continuous_const.mul (general_continuous T k nmax i s φo φi 1 1)
  have e : ∀ p q, (fun α β => entry (S α β) p q) = fun α β => general (rotated T α β) k nmax s φo i φi p q := by
    intro p q
    funext α β
    exact c93_oriented (h α β) hi hs p q
  have e0 : ∀ α β, entry (S α β) 0 0 + c * entry (S α β) 1 1 = ∑ j ∈ (Finset.univ : Finset (Fin 2)),
      (if j = 0 then general (rotated T α β) k nmax s φo i φi 0 0 else c * general (rotated T α β) k nmax s φo i φi 1 1) := by
    intro α β
    rw [Fin.sum_univ_two]
    simp [congrFun (congrFun (e 0 0) α) β, congrFun (congrFun (e 1 1) α) β]
  simp only [e0]
  rw [average_map hμ L (f := fun α β => ∑ j ∈ (Finset.univ : Finset (Fin 2)),
      (if j = 0 then general (rotated T α β) k nmax s φo i φi 0 0 else c * general (rotated T α β) k nmax s φo i φi 1 1))]
  · congr 1
    rw [average_sum hμ, Fin.sum_univ_two]
    · simp only [if_true, one_ne_zero, if_false]
      rw [average_mul, general_average hμ, general_average hμ]
    · intro j _
      fin_cases j
      · simpa using c0
      · simpa using c1'
  · refine continuous_finsetSum _ fun j _ => ?_
    fin_cases j
    · simpa using c0
    · simpa using c1'

theorem theory_congr {T T' : Nat → Nat → Int → Nat → Nat → ℂ} (k : ℝ) {nmax : Nat} (i s : Angular) (φ : ℝ)
    (h : ∀ a n m b n', n ≤ nmax → n' ≤ nmax → T a n m b n' = T' a n m b n') : theory T k nmax i s φ = theory T' k nmax i s φ := by
  have e11 : S11 T alphaF s i k nmax φ = S11 T' alphaF s i k nmax φ := by
    unfold S11
    congr 1
    exact Direct.ampSum_congr fun m n n' _ b2 _ b4 => by rw [h _ _ _ _ _ b2 b4, h _ _ _ _ _ b2 b4, h _ _ _ _ _ b2 b4, h _ _ _ _ _ b2 b4]
  have e12 : S12 T alphaF s i k nmax φ = S12 T' alphaF s i k nmax φ := by
    unfold S12
    congr 1
    exact Direct.ampSum_congr fun m n n' _ b2 _ b4 => by rw [h _ _ _ _ _ b2 b4, h _ _ _ _ _ b2 b4, h _ _ _ _ _ b2 b4, h _ _ _ _ _ b2 b4]
  have e21 : S21 T alphaF s i k nmax φ = S21 T' alphaF s i k nmax φ := by
    unfold S21
    congr 1
    exact Direct.ampSum_congr fun m n n' _ b2 _ b4 => by rw [h _ _ _ _ _ b2 b4, h _ _ _ _ _ b2 b4, h _ _ _ _ _ b2 b4, h _ _ _ _ _ b2 b4]
  have e22 : S22 T alphaF s i k nmax φ = S22 T' alphaF s i k nmax φ := by
    unfold S22
    congr 1
    exact Direct.ampSum_congr fun m n n' _ b2 _ b4 => by rw [h _ _ _ _ _ b2 b4, h _ _ _ _ _ b2 b4, h _ _ _ _ _ b2 b4, h _ _ _ _ _ b2 b4]
  unfold theory
  rw [e11, e12, e21, e22]

/-- **C93**: the extinction coefficients in a table of aligned grains (C84) are the means over the orientations of those of the single grains -/
theorem c93_table (H : Content.Problem) (c : Graph.Cell) (g : Nat) {T : Nat → Nat → Int → Nat → Nat → ℂ} (ha : H.aligned c = true)
    {μ : Measure ℝ} (hμ : AngleDist μ) (hp : ∀ n : Nat, n ≤ 2 * Content.orderAt H g → (H.coeff c).v n = coefficients μ n) {θ φ : ℝ} {o : Angular} (ho : o.IsOf θ)
    {S : ℝ → ℝ → Amp} (h : ∀ α β, Oriented T (Content.waveK H c.par) (Content.orderAt H g) α β θ φ θ φ (S α β)) :
    let k := Content.waveK H c.par
    Content.extI H c g T o = mean μ (fun α β => 2 * Real.pi / k * ((S α β).s0 + (S α β).s3).im / Content.disc H c.par)
    ∧ Content.extQ H c g T o = mean μ (fun α β => 2 * Real.pi / k * ((S α β).s0 - (S α β).s3).im / Content.disc H c.par)
    ∧ Content.extV H c g T o = mean μ (fun α β => 2 * Real.pi / k * ((S α β).s3 - (S α β).s0).re / Content.disc H c.par) := by
  intro k
  have hens : ∀ i n1 m j n2, n1 ≤ Content.orderAt H g → n2 ≤ Content.orderAt H g →
      Content.ensemble H c T i n1 m j n2 = averaged (fun x : ℝ => (x : ℂ)) (coefficients μ) T i n1 m j n2 := by
    intro i n1 m j n2 h1 h2
    unfold Content.ensemble
    rw [if_pos ha]
    exact averaged_congr T i n1 m j n2 fun N hN => hp N (by omega)
  have hth := theory_congr k o o 0 hens
  have h11 : Content.amp11 H c g T o o 0 = entry (theory (averaged (fun x : ℝ => (x : ℂ)) (coefficients μ) T) k (Content.orderAt H g) o o (φ - φ)) 0 0 := by
    rw [sub_self, ← hth]
    rfl
  have h22 : Content.amp22 H c g T o o 0 = entry (theory (averaged (fun x : ℝ => (x : ℂ)) (coefficients μ) T) k (Content.orderAt H g) o o (φ - φ)) 1 1 := by
    rw [sub_self, ← hth]
    rfl
  have Lim : ∀ r : ℝ, ∃ L : ℂ →L[ℝ] ℂ, ∀ z, L z = ((r * z.im : ℝ) : ℂ) := fun r => ⟨(r • Complex.imCLM).smulRight (1 : ℂ), fun z => by simp⟩
  have Lre : ∀ r : ℝ, ∃ L : ℂ →L[ℝ] ℂ, ∀ z, L z = ((r * z.re : ℝ) : ℂ) := fun r => ⟨(r • Complex.reCLM).smulRight (1 : ℂ), fun z => by simp⟩
  refine ⟨Complex.ofReal_injective ?_, Complex.ofReal_injective ?_, Complex.ofReal_injective ?_⟩
  · rw [← mean_average]
    obtain ⟨L, hL⟩ := Lim (2 * Real.pi / k / Content.disc H c.par)
    have := extinction_mean hμ h ho ho L 1
    rw [← h11, ← h22] at this
    simp only [hL, one_mul] at this
    unfold Content.extI
    rw [show 2 * Real.pi / Content.waveK H c.par * (Content.amp11 H c g T o o 0 + Content.amp22 H c g T o o 0).im / Content.disc H c.par
      = 2 * Real.pi / k / Content.disc H c.par * (Content.amp11 H c g T o o 0 + Content.amp22 H c g T o o 0).im by ring, ← this]
    congr 1
    funext α β
    congr 1
    simp only [entry, if_true, one_ne_zero, if_false]
    ring
  · rw [← mean_average]
    obtain ⟨L, hL⟩ := Lim (2 * Real.pi / k / Content.disc H c.par)
    have := extinction_mean hμ h ho ho L (-1)
    rw [← h11, ← h22] at this
    simp only [hL, neg_mul, one_mul, ← sub_eq_add_neg] at this
    unfold Content.extQ
    rw [show 2 * Real.pi / Content.waveK H c.par * (Content.amp11 H c g T o o 0 - Content.amp22 H c g T o o 0).im / Content.disc H c.par
      = 2 * Real.pi / k / Content.disc H c.par * (Content.amp11 H c g T o o 0 - Content.amp22 H c g T o o 0).im by ring, ← this]
    congr 1
    funext α β
    congr 1
    simp only [entry, if_true, one_ne_zero, if_false]
    ring
  · rw [← mean_average]
    obtain ⟨L, hL⟩ := Lre (-(2 * Real.pi / k / Content.disc H c.par))
    have := extinction_mean hμ h ho ho L (-1)
    rw [← h11, ← h22] at this
    simp only [hL, neg_mul, one_mul, ← sub_eq_add_neg] at this
    unfold Content.extV
    rw [show 2 * Real.pi / Content.waveK H c.par * (Content.amp22 H c g T o o 0 - Content.amp11 H c g T o o 0).re / Content.disc H c.par
      = -(2 * Real.pi / k / Content.disc H c.par * (Content.amp11 H c g T o o 0 - Content.amp22 H c g T o o 0).re) by
        rw [Complex.sub_re, Complex.sub_re]; ring, ← this]
    congr 1
    funext α β
    congr 1
    simp only [entry, if_true, one_ne_zero, if_false, Complex.sub_re]
    ring

/-! ### the hypotheses are met -/

/-- a dipole of order 1 along the axis; orientations in the plane of the first two axes; the equator -/
example : ∃ (μ : Measure ℝ) (S : ℝ → ℝ → Amp) (a : Angular), AngleDist μ ∧ (∀ α β, Oriented MatRes.Td 1 1 α β (Real.pi / 2) 0 (Real.pi / 2) 0 (S α β))
    ∧ a.IsOf (Real.pi / 2) ∧ (theory MatRes.Td 1 1 a a 0).s0 ≠ 0 ∧ Regular (Real.pi / 2) := by
  have hp := Real.pi_pos
  obtain ⟨a, ha⟩ := angular_all (Real.pi / 2)
  choose S hS _ using fun α β => c93_exists_unique MatRes.Td 1 1 α β (Real.pi / 2) 0 (Real.pi / 2) 0
  exact ⟨_, S, a, Python.dirac_dist (β := Real.pi / 2) (by linarith) (by linarith), hS, ha, MatRes.Rd_forward ha, regular_examples.2.2⟩

end Verif.Rotation
