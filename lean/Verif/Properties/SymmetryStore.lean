import Verif.Properties.Symmetry
import Verif.Properties.Alignment
import Verif.Properties.TMatrixRun
import Verif.Properties.Direct

/-!
# Symmetries of the stored T-matrix: C74
-/
namespace Verif.TMatrix

open Finset Verif.Matrix Verif.TMatrix.Spec
open Verif.Alignment (Stores Axisymmetric)

/-- **C74** If the stored elements (degrees `0, ..., nmax`) are those of the transition matrix, they determine the elements for all
degrees of both signs: there is a matrix with the symmetry of an axisymmetric particle that the storage represents, and its elements
for positive and negative degrees are those of the transition matrix. This is what the averages over orientations (C57) and the
amplitude matrix (C66) assume about the T-matrix. -/
theorem c74_stores {t : TRes ℂ ℝ} {S : Surface ℂ} {npts : Nat} {γ : Nat → Nat → ℂ} {a b : ℂ} {h j j' : Radial ℂ}
    (hdet : (QMatrix Complex.I S npts γ a b h j' 0 t.nmax).det ≠ 0)
    (hT : ∀ m ≤ t.nmax, IsTransition Complex.I S npts γ a b h j j' m t.nmax (fun i n i' n' => t.get i n m i' n')) :
    ∃ Tm : Nat → Nat → Int → Nat → Nat → ℂ, Axisymmetric Tm ∧ Stores t Tm
      ∧ ∀ m ≤ t.nmax, IsTransition Complex.I S npts γ a b h j j' m t.nmax (fun i n i' n' => Tm i n m i' n')
        ∧ IsTransitionNeg Complex.I S npts γ a b h j j' m t.nmax (fun i n i' n' => Tm i n (-m : Int) i' n') := by
  have z := fun i n i' n' => c74_zero Complex.I two_ne_zero hdet (hT 0 (by omega)) (i := i) (n := n) (i' := i') (n' := n')
  refine ⟨fun i n m i' n' => if m = 0 ∧ (i + i') % 2 = 1 then 0 else (if m < 0 then (-1) ^ (i + i') else 1) * t.get i n m.natAbs i' n', ?_, ?_, ?_⟩
  · intro i n m i' n'
    dsimp only
    by_cases h0 : m = 0
    · subst h0
      by_cases hp : (i + i') % 2 = 1
      · simp [hp]
      · simp only [neg_zero, hp, and_false, if_false, lt_irrefl]
        rw [Even.neg_one_pow (by rw [Nat.even_iff]; omega)]
        ring
    · have p := sgn_sq (K := ℂ) (i + i')
      rw [if_neg (show ¬ (-m = 0 ∧ (i + i') % 2 = 1) by omega), if_neg (show ¬ (m = 0 ∧ (i + i') % 2 = 1) by omega), Int.natAbs_neg]
      by_cases hm : m < 0
      · rw [if_neg (show ¬ -m < 0 by omega), if_pos hm, ← mul_assoc, p]
      · rw [if_pos (show -m < 0 by omega), if_neg hm, one_mul]
  · intro i n m i' n' v v'
    dsimp only
    by_cases hc : (m : Int) = 0 ∧ (i + i') % 2 = 1
    · rw [if_pos hc]
      have : m = 0 := by omega
      subst this
      have v1 := v.n
      have v2 := v.max
      have v3 := v.i
      have v4 := v'.n
      have v5 := v'.max
      have v6 := v'.i
      have v7 := v.one
      have v8 := v'.one
      exact z i n i' n' (by omega) (by omega) (by omega) (by omega) (by omega) (by omega) (by omega)
    · rw [if_neg hc, if_neg (by omega), one_mul, Int.natAbs_natCast]
  · intro m hm
    constructor
    · refine transition_congr Complex.I (hT m hm) fun i n i' n' b1 b2 b3 b4 b5 b6 => ?_
      dsimp only
      by_cases hc : (m : Int) = 0 ∧ (i + i') % 2 = 1
      · rw [if_pos hc]
        have : m = 0 := by omega
        subst this
        exact (z i n i' n' b1 b2 (by omega) b4 (by omega) b6 (by omega)).symm
      · rw [if_neg hc, if_neg (by omega), one_mul, Int.natAbs_natCast]
    · have N := c74_negative Complex.I (hT m hm)
      intro i n i' n' b1 b2 b3 b4 b5 b6
      rw [← N i n i' n' b1 b2 b3 b4 b5 b6]
      refine sum_congr rfl fun i'' hi'' => sum_congr rfl fun n'' hn'' => ?_
      rw [mem_range] at hi''
      rw [mem_Ico] at hn''
      congr 1
      dsimp only
      by_cases h0 : m = 0
      · subst h0
        by_cases hp : (i + i'') % 2 = 1
        · rw [if_pos ⟨by simp, hp⟩, z i n i'' n'' b1 hi'' (by omega) b4 (by omega) (by omega) (by omega), mul_zero]
        · rw [if_neg (by omega), Even.neg_one_pow (by rw [Nat.even_iff]; omega)]
          simp
      · rw [if_neg (by omega), if_pos (by omega), Int.natAbs_neg, Int.natAbs_natCast]

end Verif.TMatrix

namespace Verif.Direct

open Finset Verif.Matrix Verif.TMatrix Verif.TMatrix.Spec
open Verif.Special (realOps OnSpheroid)
open Verif.Legendre (wigner)
open Verif.Alignment (Stores Axisymmetric)

/-- **C74** for an object of the class `TMatrix`: after the constructor and one call of `compute_additional_elements` the elements
with an odd sum of orders and kinds are zero, and (if `Q` is regular for all degrees) the object represents the transition matrix for
the degrees of both signs. -/
theorem c74_class (absv : ℂ → ℝ) (habs : ∀ x : ℂ, x ≠ 0 → absv 0 < absv x) (jdj ydy : Routine ℝ) (jdjm : Routine ℂ)
    {zj dzj zy dzy : Nat → ℝ → ℝ} {zm dzm : Nat → ℂ → ℂ} {nmax ngauss : Nat} (hn : 1 ≤ nmax) (h1 : Gives jdj nmax zj dzj)
    (h2 : Gives ydy nmax zy dzy) (h3 : Gives jdjm nmax zm dzm) (fuel : Nat) {wavelength RV d : ℝ} {mr : ℂ}
    (hl : 0 < wavelength) (hmr : mr ≠ 0) (hRV : 0 < RV) (hd : 0 < d) (o : Obj ℝ ℂ)
    (ho : construct realOps Complex.ofRealHom absv Complex.I jdj ydy jdjm fuel wavelength mr RV d nmax ngauss = some o)
    (hc : ∀ i < 2 * ngauss, -1 < o.costheta i ∧ o.costheta i < 1) :
    let θ := fun i => Real.arccos (o.costheta i)
    let k := 2 * Real.pi / wavelength
    let γ := fun n n' => (prefactor n n' : ℂ)
    let t := (additional realOps Complex.ofRealHom absv Complex.I o).res
    ∃ (a b : ℝ) (r : ℝ → ℝ), 0 < a ∧ 0 < b ∧ a / b = d ∧ a ^ 2 * b = RV ^ 3 ∧ (∀ x, 0 < r x ∧ OnSpheroid a b (r x) x) ∧
        let S := surface θ o.weights r
        let h := outgoingAt k (fun i => r (θ i)) zj dzj zy dzy
        let j := regularAt k (fun i => r (θ i)) zj dzj
        let j' := insideAt (mr * k) (fun i => r (θ i)) zm dzm
        Mirror S (2 * ngauss) [h, j, j'] ∧
        ((∀ m ≤ nmax, (QMatrix Complex.I S (2 * ngauss) γ (k * (mr * k)) (k ^ 2) h j' m nmax).det ≠ 0) →
        (∀ i n m i' n', Valid nmax i n m → Valid nmax i' n' m → (i + n + i' + n') % 2 = 1 → t.get i n m i' n' = 0)
        ∧ ∃ Tm : Nat → Nat → Int → Nat → Nat → ℂ, Axisymmetric Tm ∧ Stores t Tm
          ∧ ∀ m ≤ nmax, IsTransition Complex.I S (2 * ngauss) γ (k * (mr * k)) (k ^ 2) h j j' m nmax (fun i n i' n' => Tm i n m i' n')
            ∧ IsTransitionNeg Complex.I S (2 * ngauss) γ (k * (mr * k)) (k ^ 2) h j j' m nmax (fun i n i' n' => Tm i n (-m : Int) i' n')) := by
  intro θ k γ t
  obtain ⟨a, b, r, e1, e2, e3, e4, e5, H⟩ := c72_spheroid absv habs jdj ydy jdjm hn h1 h2 h3 fuel hl hmr hRV hd o ho hc
  refine ⟨a, b, r, e1, e2, e3, e4, e5, ?_⟩
  intro S h j j'
  refine ⟨(H 0 (by omega)).1, fun hdet => ?_⟩
  have hnm : t.nmax = nmax := by
    simp only [t, Obj.res]
    rw [additional_spec]
    simp only
    unfold construct at ho
    rw [Option.map_eq_some_iff] at ho
    obtain ⟨o0, ht, rfl⟩ := ho
    unfold tables at ht
    dsimp only at ht
    split at ht
    · cases ht
    rw [Option.some.injEq] at ht
    rw [← ht]
    exact (congrArg Obj.nmax (besselLoop_frame jdj ydy jdjm nmax ngauss _)).trans
      ((congrArg Obj.nmax (radiusLoop_spec RV mr ngauss _).2).trans rfl)
  constructor
  · intro i n m i' n' v v' hodd
    have v1 := v.n
    have v2 := v.max
    have v3 := v.i
    have v4 := v'.n
    have v5 := v'.max
    have v6 := v'.i
    have v7 := v.one
    have v8 := v'.one
    obtain ⟨hM, hT⟩ := H m (by omega)
    exact c74_parity Complex.I two_ne_zero hM (hdet m (by omega)) (hT (hdet m (by omega))) (by omega) (by omega) (by omega) (by omega) (by omega) (by omega) hodd
  · have hd0 := hdet 0 (by omega)
    have := c74_stores (t := t) (S := S) (npts := 2 * ngauss) (γ := γ) (a := k * (mr * k)) (b := k ^ 2) (h := h) (j := j) (j' := j')
      (by rw [hnm]; exact hd0) (by rw [hnm]; exact fun m hm => (H m hm).2 (hdet m hm))
    rw [hnm] at this
    exact this

/-! ## The hypotheses are met -/

namespace Example

/-- `Q` is regular for `m = 1` -/
theorem regular1 (θ w : Nat → ℝ) (r : ℝ → ℝ) (hθ : ∀ i < 2, 0 < θ i ∧ θ i < Real.pi) (hw : ∀ i < 2, 0 < w i) (hr : ∀ x, 0 < r x) (k : ℝ) (hk : 0 < k)
    (hM : Mirror (surface θ w r) (2 * 1) [outgoingAt k (fun i => r (θ i)) (fun _ _ => 0) (fun _ _ => 1) (fun _ _ => 0) (fun _ _ => 0),
      regularAt k (fun i => r (θ i)) (fun _ _ => 0) (fun _ _ => 1),
      insideAt (2 * (k : ℂ)) (fun i => r (θ i)) (fun _ _ => 1) (fun _ _ => 0)]) :
    (QMatrix Complex.I (surface θ w r) (2 * 1) (fun n n' => (prefactor n n' : ℂ))
        ((k : ℂ) * (2 * (k : ℂ))) ((k : ℂ) ^ 2)
        (outgoingAt k (fun i => r (θ i)) (fun _ _ => 0) (fun _ _ => 1) (fun _ _ => 0) (fun _ _ => 0))
        (insideAt (2 * (k : ℂ)) (fun i => r (θ i)) (fun _ _ => 1) (fun _ _ => 0)) 1 1).det ≠ 0 := by
  have hM1 : Mirror (surface θ w r) (2 * 1) [outgoingAt k (fun i => r (θ i)) (fun _ _ => 0) (fun _ _ => 1) (fun _ _ => 0) (fun _ _ => 0),
      insideAt (2 * (k : ℂ)) (fun i => r (θ i)) (fun _ _ => 1) (fun _ _ => 0)] := mirror_mono hM (by simp)
  have hwig : ∀ x, wigner 1 1 x = Real.sqrt (1 / 2) * Real.sin x := by
    intro x
    have := Legendre.wigner_diag_succ 0 x
    rw [Legendre.wigner_zero_zero] at this
    rw [this]
    norm_num
  have hs : ∀ i < 2, 0 < Real.sin (θ i) := fun i hi => Real.sin_pos_of_pos_of_lt_pi (hθ i hi).1 (hθ i hi).2
  have hp : 0 < prefactor 1 1 := by unfold prefactor; positivity
  have hq : (0 : ℝ) < Real.sqrt (1 / 2) := by positivity
  generalize hqd : Real.sqrt (1 / 2) = q at hwig hq
  have hd : deriv (wigner 1 1) = fun x => q * Real.cos x := by
    rw [show wigner 1 1 = fun x => q * Real.sin x from funext hwig]
    funext x
    simp
  let A : ℝ := w 0 * prefactor 1 1 * r (θ 0) ^ 2 * (q ^ 2 + (q * Real.cos (θ 0)) ^ 2) + w 1 * prefactor 1 1 * r (θ 1) ^ 2 * (q ^ 2 + (q * Real.cos (θ 1)) ^ 2)
  have hA : 0 < A := by
    have := hw 0 (by omega)
    have := hw 1 (by omega)
    have := hr (θ 0)
    have := hr (θ 1)
    positivity
  have s0 : (Real.sin (θ 0) : ℂ) ≠ 0 := by exact_mod_cast (hs 0 (by omega)).ne'
  have s1 : (Real.sin (θ 1) : ℂ) ≠ 0 := by exact_mod_cast (hs 1 (by omega)).ne'
  have hsurf : ∀ i, i < 2 → (surface θ w r).d 1 i 1 * (surface θ w r).sinInv i = q := by
    intro i hi
    have := (hs i hi).ne'
    simp only [surface, hwig]
    rw [← Complex.ofReal_mul, Complex.ofReal_inj]
    field_simp
  have e : (QMatrix Complex.I (surface θ w r) (2 * 1) (fun n n' => (prefactor n n' : ℂ))
        ((k : ℂ) * (2 * (k : ℂ))) ((k : ℂ) ^ 2)
        (outgoingAt k (fun i => r (θ i)) (fun _ _ => 0) (fun _ _ => 1) (fun _ _ => 0) (fun _ _ => 0))
        (insideAt (2 * (k : ℂ)) (fun i => r (θ i)) (fun _ _ => 1) (fun _ _ => 0)) 1 1)
      = _root_.Matrix.diagonal (fun x => if x.1 = 0 then -((k : ℂ) ^ 2 * A) else -((k : ℂ) * (2 * (k : ℂ)) * A)) := by
    ext x y
    obtain ⟨x1, x2⟩ := x
    obtain ⟨y1, y2⟩ := y
    have ex : (x2 : Nat) = 0 := by have := x2.2; simp at this; omega
    have ey : (y2 : Nat) = 0 := by have := y2.2; simp at this; omega
    have exy : x2 = y2 := Fin.ext (by omega)
    subst exy
    by_cases hxy : x1 = y1
    · subst hxy
      rw [_root_.Matrix.diagonal_apply_eq]
      simp only [QMatrix, Spec.Q, ex]
      have t0 := hsurf 0 (by omega)
      have t1 := hsurf 1 (by omega)
      have J10 : Spec.J Complex.I (surface θ w r) (2 * 1) (fun n n' => (prefactor n n' : ℂ))
          (outgoingAt k (fun i => r (θ i)) (fun _ _ => 0) (fun _ _ => 1) (fun _ _ => 0) (fun _ _ => 0))
          (insideAt (2 * (k : ℂ)) (fun i => r (θ i)) (fun _ _ => 1) (fun _ _ => 0)) 1 0 1 1 1 = -A := by
        simp only [Spec.J, Finset.sum_range_succ, Finset.sum_range_zero, wave, waveM, waveN, πf, cross, dot, normal, one_ne_zero, if_true, if_false]
        have hI := Complex.I_mul_I
        have g0 : ∀ i, i < 2 → (surface θ w r).τ 1 i 1 = q * Real.cos (θ i) := by
          intro i hi
          simp only [surface, hd]
          push_cast
          rfl
        rw [g0 0 (by omega), g0 1 (by omega)]
        simp only [mul_assoc, t0, t1]
        simp only [surface, outgoingAt, insideAt, A]
        push_cast
        linear_combination ((w 0 : ℂ) * prefactor 1 1 * r (θ 0) ^ 2 * q ^ 2 + (w 1 : ℂ) * prefactor 1 1 * r (θ 1) ^ 2 * q ^ 2) * hI
      have J01 : Spec.J Complex.I (surface θ w r) (2 * 1) (fun n n' => (prefactor n n' : ℂ))
          (outgoingAt k (fun i => r (θ i)) (fun _ _ => 0) (fun _ _ => 1) (fun _ _ => 0) (fun _ _ => 0))
          (insideAt (2 * (k : ℂ)) (fun i => r (θ i)) (fun _ _ => 1) (fun _ _ => 0)) 0 1 1 1 1 = 0 := by
        simp [Spec.J, wave, waveM, waveN, πf, cross, dot, normal, outgoingAt, insideAt]
      simp only [max_self, add_zero, J10, J01]
      fin_cases x1 <;> simp
    · rw [_root_.Matrix.diagonal_apply_ne _ (by simpa using hxy)]
      have := Q_mirror Complex.I (fun n n' => (prefactor n n' : ℂ)) hM1 ((k : ℂ) * (2 * (k : ℂ))) ((k : ℂ) ^ 2) (m := 1) (i := x1) (n := 1) (i' := y1) (n' := 1)
        le_rfl le_rfl le_rfl le_rfl x1.2 y1.2
      have hodd : (-1 : ℂ) ^ (1 + 1 + (x1 : Nat) + y1) = -1 := by
        apply Odd.neg_one_pow
        rw [Nat.odd_iff]
        have := x1.2
        have := y1.2
        have : (x1 : Nat) ≠ y1 := fun h => hxy (Fin.ext h)
        omega
      rw [hodd] at this
      simp only [QMatrix, ex, max_self, add_zero]
      exact self_eq_neg.mp (by rw [neg_one_mul] at this; exact this)
  rw [e, _root_.Matrix.det_diagonal, Finset.prod_ne_zero_iff]
  intro x _
  have h1 : (k : ℂ) ≠ 0 := by exact_mod_cast hk.ne'
  have h2 : (A : ℂ) ≠ 0 := by exact_mod_cast hA.ne'
  split_ifs <;> simp [h1, h2]

/-- a spheroid with axis ratio 2: all hypotheses are met for both degrees -/
theorem stored : ∃ o, construct realOps Complex.ofRealHom norm Complex.I (const 0 1) (const 0 0) (const 1 0) (100 + (16 + 1)) 1 2 1 2 1 1 = some o
    ∧ (∀ i n m i' n', Valid 1 i n m → Valid 1 i' n' m → (i + n + i' + n') % 2 = 1 →
        (additional realOps Complex.ofRealHom norm Complex.I o).res.get i n m i' n' = 0)
    ∧ ∃ Tm : Nat → Nat → Int → Nat → Nat → ℂ, Axisymmetric Tm ∧ Stores (additional realOps Complex.ofRealHom norm Complex.I o).res Tm := by
  obtain ⟨x, w, hw, h1, h2, e⟩ := quadrature_two
  obtain ⟨o, ho, e1, e2⟩ := construct_points norm (const 0 1) (const 0 0) (const 1 0) (100 + (16 + 1)) 1 2 1 2 1 1 _ e
  refine ⟨o, ho, ?_⟩
  have hc : ∀ i < 2 * 1, -1 < o.costheta i ∧ o.costheta i < 1 := by
    intro i hi
    rw [e1]
    dsimp only
    split_ifs <;> constructor <;> linarith
  have hθ : ∀ i < 2, 0 < Real.arccos (o.costheta i) ∧ Real.arccos (o.costheta i) < Real.pi := by
    intro i hi
    refine ⟨Real.arccos_pos.mpr (hc i hi).2, lt_of_le_of_ne (Real.arccos_le_pi _) fun e => absurd (Real.arccos_eq_pi.mp e) (by linarith [(hc i hi).1])⟩
  have hw' : ∀ i < 2, 0 < o.weights i := by
    intro i hi
    rw [e2]
    interval_cases i <;> simpa using hw
  obtain ⟨a, b, r, _, _, _, _, hr, H⟩ := c74_class norm (fun x hx => by simpa using hx) (const 0 1) (const 0 0) (const 1 0) (le_refl 1)
    (gives 0 1 1) (gives 0 0 1) (gives 1 0 1) _ (by norm_num) (by norm_num) (by norm_num) (by norm_num) o ho hc
  have G := H.2 ?_
  · obtain ⟨g1, Tm, g2, g3, _⟩ := G
    exact ⟨g1, Tm, g2, g3⟩
  intro m hm
  interval_cases m
  · exact regular _ _ r hθ hw' (fun x => (hr x).1) _ (by positivity)
  · exact regular1 _ _ r hθ hw' (fun x => (hr x).1) _ (by positivity) H.1

example : ∃ o, construct realOps Complex.ofRealHom norm Complex.I (const 0 1) (const 0 0) (const 1 0) (100 + (16 + 1)) 1 2 1 2 1 1 = some o
    ∧ (additional realOps Complex.ofRealHom norm Complex.I o).res.get 0 1 1 1 1 = 0 := by
  obtain ⟨o, h, h1, _⟩ := stored
  exact ⟨o, h, h1 0 1 1 1 1 ⟨by omega, by omega, by omega, by omega⟩ ⟨by omega, by omega, by omega, by omega⟩ rfl⟩

end Example

end Verif.Direct
