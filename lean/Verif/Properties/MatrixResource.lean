import Verif.Model.MatrixResource
import Verif.Properties.DirectScatter

/-!
# The extinction and scattering matrix resources: C78, C79
-/
namespace Verif.MatRes

open Finset Verif.Matrix Verif.TMatrix Verif.Scatter Verif.Frame Verif.Direct
open Verif.Alignment (Stores Axisymmetric)
open Verif.Special (realOps wignerDsinx)
open _root_.Matrix (mulVec)

/-! ## sums that start from previous content -/

/-- elementwise sum of two amplitude matrices -/
def plus (A B : Amp) : Amp := ⟨A.s0 + B.s0, A.s1 + B.s1, A.s2 + B.s2, A.s3 + B.s3⟩

theorem loop_comm {σ : Type} (f : Nat → σ → σ) (g : σ → σ) (h : ∀ i s, f i (g s) = g (f i s)) {a b : Nat} (hab : a ≤ b) (s : σ) :
    loop a b f (g s) = g (loop a b f s) := by
  induction b, hab using Nat.le_induction with
  | base => rw [loop_self, loop_self]
  | succ b hb ih => rw [loop_succ hb, loop_succ hb, ih, h]

theorem ampStep_plus (T : TRes ℂ ℝ) (cnn : Nat → Nat → ℂ) (wi dwi wo dwo : Nat → Nat → ℝ) (m : Nat) (fcos fsin : ℝ) (nn n : Nat) (D S : Amp) :
    ampStep T cnn wi dwi wo dwo m fcos fsin nn n (plus S D) = plus (ampStep T cnn wi dwi wo dwo m fcos fsin nn n S) D := by
  unfold ampStep plus
  dsimp only
  split
  · dsimp only
    congr 1 <;> ring
  · dsimp only
    congr 1 <;> ring

/-- the arrays before round `m` of the loop -/
noncomputable def tabs (nmax : Nat) (i s : Direction) (w : Arrays) : Nat → Arrays
  | 0 => w
  | m + 1 =>
    let t := tabs nmax i s w m
    let a := wignerDsinx realOps i.cosTheta i.sinTheta i.sinThetaInv nmax m (t.piIn, t.tauIn)
    let b := wignerDsinx realOps s.cosTheta s.sinTheta s.sinThetaInv nmax m (t.piOut, t.tauOut)
    ⟨a.1, a.2, b.1, b.2⟩

theorem sumOver_amplitude (T : TRes ℂ ℝ) (c : Mat ℂ) (i s : Direction) (w : Arrays) (D : Amp) (k : ℝ) :
    divide (sumOver T c i s w D).2.2 k = plus (amplitude T (fun nn n => c.get (n - 1) (nn - 1))
      (fun m n => (tabs T.nmax i s w (m + 1)).piIn (n - 1)) (fun m n => (tabs T.nmax i s w (m + 1)).tauIn (n - 1))
      (fun m n => (tabs T.nmax i s w (m + 1)).piOut (n - 1)) (fun m n => (tabs T.nmax i s w (m + 1)).tauOut (n - 1)) k
      ⟨s.cosPhi * i.cosPhi + s.sinPhi * i.sinPhi, s.sinPhi * i.cosPhi - s.cosPhi * i.sinPhi⟩) (divide D k) := by
  have key : ∀ q, ∀ X, X = loop 0 q (fun m (st : ℂ × Amp) =>
      (st.1 * ⟨s.cosPhi * i.cosPhi + s.sinPhi * i.sinPhi, s.sinPhi * i.cosPhi - s.cosPhi * i.sinPhi⟩,
        loop (max m 1) (T.nmax + 1) (fun nn S => loop (max m 1) (T.nmax + 1) (fun n S =>
          ampStep T (fun nn n => c.get (n - 1) (nn - 1)) (fun m n => (tabs T.nmax i s w (m + 1)).piIn (n - 1))
            (fun m n => (tabs T.nmax i s w (m + 1)).tauIn (n - 1)) (fun m n => (tabs T.nmax i s w (m + 1)).piOut (n - 1))
            (fun m n => (tabs T.nmax i s w (m + 1)).tauOut (n - 1)) m (2 * st.1.re) (2 * st.1.im) nn n S) S) st.2)) (1, ⟨0, 0, 0, 0⟩) →
      q ≤ T.nmax + 1 →
      loop 0 q (fun m (st : ℂ × Arrays × Amp) =>
        let nmin := max m 1
        let a := wignerDsinx realOps i.cosTheta i.sinTheta i.sinThetaInv T.nmax m (st.2.1.piIn, st.2.1.tauIn)
        let b := wignerDsinx realOps s.cosTheta s.sinTheta s.sinThetaInv T.nmax m (st.2.1.piOut, st.2.1.tauOut)
        let fcos := 2 * st.1.re
        let fsin := 2 * st.1.im
        (st.1 * ⟨s.cosPhi * i.cosPhi + s.sinPhi * i.sinPhi, s.sinPhi * i.cosPhi - s.cosPhi * i.sinPhi⟩, (⟨a.1, a.2, b.1, b.2⟩ : Arrays),
          loop nmin (T.nmax + 1) (fun nn S => loop nmin (T.nmax + 1) (fun n S =>
            ampStep T (fun nn n => c.get (n - 1) (nn - 1)) (fun _ n => a.1 (n - 1)) (fun _ n => a.2 (n - 1)) (fun _ n => b.1 (n - 1))
              (fun _ n => b.2 (n - 1)) m fcos fsin nn n S) S) st.2.2)) (1, w, D)
      = (X.1, tabs T.nmax i s w q, plus X.2 D) := by
    intro q
    induction q with
    | zero =>
      intro X hX _
      rw [loop_self] at hX ⊢
      subst hX
      simp [plus, tabs]
    | succ q ih =>
      intro X hX hq
      rw [loop_succ (Nat.zero_le q)] at hX ⊢
      rw [ih _ rfl (by omega)]
      generalize loop 0 q _ _ = Y at hX
      subst hX
      dsimp only
      refine Prod.ext rfl (Prod.ext rfl ?_)
      dsimp only
      refine (loop_comm _ (fun A => plus A D) (fun nn A => ?_) (by omega) _).trans rfl
      exact loop_comm _ (fun A => plus A D) (fun n A => ampStep_plus _ _ _ _ _ _ _ _ _ _ _ D A) (by omega) _
  unfold sumOver
  rw [key (T.nmax + 1) _ rfl le_rfl]
  unfold amplitude divide plus
  dsimp only
  congr 1 <;> ring

/-- **the sum**: whatever the arrays contain, and with the previous content of `S` added -/
theorem sumOver_theory (T : TRes ℂ ℝ) {Tm : Nat → Nat → Int → Nat → Nat → ℂ} (hA : Axisymmetric Tm) (hS : Stores T Tm)
    {c : Mat ℂ} (hc : ∀ n n', 1 ≤ n → n ≤ T.nmax → 1 ≤ n' → n' ≤ T.nmax → c.get (n - 1) (n' - 1) = alphaF n n')
    {di ds : Direction} {θi φi θs φs : ℝ} (hdi : Represents di θi φi) (hds : Represents ds θs φs) (hri : Regular θi) (hrs : Regular θs)
    {i s : Angular} (hi : i.IsOf θi) (hs : s.IsOf θs) (w : Arrays) (D : Amp) (k : ℝ) :
    divide (sumOver T c di ds w D).2.2 k = plus (theory Tm k T.nmax i s (φs - φi)) (divide D k) := by
  rw [sumOver_amplitude, expiphi hdi hds]
  congr 1
  exact amplitude_theory T hA hS hc (fun m n h1 hm hn => angular_over hds hrs hs T.nmax _ h1 hm hn)
    (fun m n h1 hm hn => angular_over hdi hri hi T.nmax _ h1 hm hn) k (φs - φi)

/-- the T-matrix and the wavenumber as the members of an object of the stand-alone class -/
noncomputable def objOf (T : TRes ℂ ℝ) (k : ℝ) : Obj ℝ ℂ :=
  { nmax := T.nmax, ngauss := T.ngauss, dd := fun _ => 0, ann := Mat.new 0 0, costheta := fun _ => 0, sinv := fun _ => 0, s2inv := fun _ => 0,
    weights := fun _ => 0, r2 := fun _ => 0, drr := fun _ => 0, kr := fun _ => 0, krinv := fun _ => 0, krmr := fun _ => 0,
    krmrinv := fun _ => 0, k := k, k2 := 0, k2mr := 0, j := fun _ _ => 0, y := fun _ _ => 0, dj := fun _ _ => 0, dy := fun _ _ => 0,
    jm := fun _ _ => 0, djm := fun _ _ => 0, T := T.T }

theorem plus_zero (A : Amp) (k : ℝ) : plus A (divide ⟨0, 0, 0, 0⟩ k) = A := by
  simp [plus, divide]

theorem bounds {θ : ℝ} (h : Regular θ) : 0 ≤ θ ∧ θ ≤ Real.pi := by
  have := Real.pi_pos
  rcases h with h | h | h
  · exact ⟨h.1.le, h.2.1.le⟩
  · rw [h]; exact ⟨le_rfl, this.le⟩
  · rw [h]; exact ⟨this.le, le_rfl⟩

/-- the first execution: the amplitude matrix the stand-alone class computes from the same T-matrix -/
theorem first_S (T : TRes ℂ ℝ) (k : ℝ) (p : Angles) {N : Nat} (hN : T.nmax ≤ N) {Tm : Nat → Nat → Int → Nat → Nat → ℂ}
    (hA : Axisymmetric Tm) (hS : Stores T Tm) {θi' φi' θo' φo' : ℝ}
    (ni : dir θi' φi' = mulVec (rot p.alpha p.beta) (dir p.thetaIn p.phiIn))
    (no : dir θo' φo' = mulVec (rot p.alpha p.beta) (dir p.thetaOut p.phiOut)) (hri : Regular θi') (hro : Regular θo') :
    (execute T k p (State.new N)).S = forwardOriented (objOf T k) p.alpha p.beta p.thetaIn p.phiIn p.thetaOut p.phiOut := by
  obtain ⟨i, hi⟩ := exists_angular hri
  obtain ⟨s, hs⟩ := exists_angular hro
  obtain ⟨ψi, ri, -, -⟩ := particle_spec (bounds hri).1 (bounds hri).2 ni
  obtain ⟨ψo, ro, -, -⟩ := particle_spec (bounds hro).1 (bounds hro).2 no
  have h1 := sumOver_theory T hA hS (c := cFill T.nmax (Mat.new N N)) (fun n n' b1 b2 b3 b4 => cFill_spec T.nmax _ hN b1 b2 b3 b4)
    ri ro hri hro hi hs ⟨fun _ => 0, fun _ => 0, fun _ => 0, fun _ => 0⟩ ⟨0, 0, 0, 0⟩ k
  have h2 : forward (objOf T k) (particle p.alpha p.beta p.thetaIn p.phiIn) (particle p.alpha p.beta p.thetaOut p.phiOut)
      = theory Tm k T.nmax i s (ψo - ψi) := forward_spec (objOf T k) hA hS ri ro hri hro hi hs
  rw [plus_zero, ← h2] at h1
  change toLab (divide (sumOver T (cFill T.nmax (Mat.new N N)) _ _ _ _).2.2 k) _ _ = _
  unfold State.new
  dsimp only
  rw [h1]
  rfl

/-- **C78** the first execution of a scattering matrix resource: the amplitude matrix is the one of the theory, turned from the frame of
the particle to the laboratory, and the scattering matrix is the one that turns the Stokes vector of the incoming wave into the Stokes vector
of the scattered wave. -/
theorem c78_scattering (T : TRes ℂ ℝ) (k : ℝ) (p : Angles) {N : Nat} (hN : T.nmax ≤ N) {Tm : Nat → Nat → Int → Nat → Nat → ℂ}
    (hA : Axisymmetric Tm) (hS : Stores T Tm) {θi' φi' θo' φo' : ℝ}
    (ni : dir θi' φi' = mulVec (rot p.alpha p.beta) (dir p.thetaIn p.phiIn))
    (no : dir θo' φo' = mulVec (rot p.alpha p.beta) (dir p.thetaOut p.phiOut)) (hri : Regular θi') (hro : Regular θo')
    {i s : Angular} (hi : i.IsOf θi') (hs : s.IsOf θo') :
    ∃ S : Amp, (∀ Ev Eh : ℂ, let P := theory Tm k T.nmax i s (φo' - φi')
      ∃ ev eh, mulVec (rotC p.alpha p.beta) (field p.thetaIn p.phiIn Ev Eh) = field θi' φi' ev eh
        ∧ mulVec (rotC p.alpha p.beta) (field p.thetaOut p.phiOut (S.s0 * Ev + S.s1 * Eh) (S.s2 * Ev + S.s3 * Eh))
          = field θo' φo' (P.s0 * ev + P.s1 * eh) (P.s2 * ev + P.s3 * eh))
      ∧ ∀ (Ev Eh : ℂ) (r : Fin 4), stokes (S.s0 * Ev + S.s1 * Eh) (S.s2 * Ev + S.s3 * Eh) r
        = ∑ c : Fin 4, (execute T k p (State.new N)).Z r c * stokes Ev Eh c := by
  refine ⟨(execute T k p (State.new N)).S, ?_, c53_stokes _⟩
  rw [first_S T k p hN hA hS ni no hri hro]
  exact fun Ev Eh => c75_oriented (objOf T k) hA hS p.alpha p.beta p.thetaIn p.phiIn p.thetaOut p.phiOut ni no hri hro hi hs Ev Eh

/-- **C78** the same matrix as the stand-alone class computes, for an object with the same T-matrix and wavenumber -/
theorem c78_class (o : Obj ℝ ℂ) (p : Angles) {N : Nat} (hN : o.nmax ≤ N) {Tm : Nat → Nat → Int → Nat → Nat → ℂ}
    (hA : Axisymmetric Tm) (hS : Stores o.res Tm) {θi' φi' θo' φo' : ℝ}
    (ni : dir θi' φi' = mulVec (rot p.alpha p.beta) (dir p.thetaIn p.phiIn))
    (no : dir θo' φo' = mulVec (rot p.alpha p.beta) (dir p.thetaOut p.phiOut)) (hri : Regular θi') (hro : Regular θo') :
    (execute o.res o.k p (State.new N)).Z = scatteringMatrix o p.alpha p.beta p.thetaIn p.phiIn p.thetaOut p.phiOut :=
  congrArg mueller (first_S o.res o.k p hN hA hS ni no hri hro)

/-! ## the extinction matrix -/

theorem rot_zero : rot 0 0 = 1 := by
  ext a b
  fin_cases a <;> fin_cases b <;> simp [rot, aboutY, aboutZ, Matrix.mul_apply, Fin.sum_univ_three]

theorem rotC_zero : rotC 0 0 = 1 := by
  ext a b
  unfold rotC
  rw [rot_zero]
  fin_cases a <;> fin_cases b <;> simp

/-- a particle with its axis along `z`: for every pair of directions the amplitude matrix in the laboratory is that of the theory -/
theorem zero_theory (o : Obj ℝ ℂ) {Tm : Nat → Nat → Int → Nat → Nat → ℂ} (hA : Axisymmetric Tm) (hS : Stores o.res Tm)
    {θi φi θo φo : ℝ} (hri : Regular θi) (hro : Regular θo) {i s : Angular} (hi : i.IsOf θi) (hs : s.IsOf θo) :
    forwardOriented o 0 0 θi φi θo φo = theory Tm o.k o.nmax i s (φo - φi) := by
  have h := c75_oriented o hA hS 0 0 θi φi θo φo (θi' := θi) (φi' := φi) (θo' := θo) (φo' := φo) (by rw [rot_zero, Matrix.one_mulVec])
    (by rw [rot_zero, Matrix.one_mulVec]) hri hro hi hs
  rw [rotC_zero] at h
  simp only [Matrix.one_mulVec] at h
  have key : ∀ Ev Eh : ℂ, (forwardOriented o 0 0 θi φi θo φo).s0 * Ev + (forwardOriented o 0 0 θi φi θo φo).s1 * Eh
        = (theory Tm o.k o.nmax i s (φo - φi)).s0 * Ev + (theory Tm o.k o.nmax i s (φo - φi)).s1 * Eh
      ∧ (forwardOriented o 0 0 θi φi θo φo).s2 * Ev + (forwardOriented o 0 0 θi φi θo φo).s3 * Eh
        = (theory Tm o.k o.nmax i s (φo - φi)).s2 * Ev + (theory Tm o.k o.nmax i s (φo - φi)).s3 * Eh := by
    intro Ev Eh
    obtain ⟨ev, eh, e1, e2⟩ := h Ev Eh
    obtain ⟨a, b⟩ := field_injective e1
    rw [← a, ← b] at e2
    exact field_injective e2
  have k1 := key 1 0
  have k2 := key 0 1
  simp only [mul_one, mul_zero, add_zero, zero_add] at k1 k2
  generalize forwardOriented o 0 0 θi φi θo φo = X at *
  generalize theory Tm o.k o.nmax i s (φo - φi) = Y at *
  cases X
  cases Y
  simp_all

theorem axisDirection_eq {θ : ℝ} (h : Regular θ) (φ : ℝ) : axisDirection θ φ = particle 0 0 θ φ := by
  unfold axisDirection particle
  simp only [Real.cos_zero, Real.sin_zero, mul_one, mul_zero, add_zero, sub_zero, zero_mul, one_mul,
    Real.arccos_cos (bounds h).1 (bounds h).2]

/-- only the four elements of each of the matrices matter -/
theorem toLab_congr (S : Amp) {R R' Q Q' : Mat ℝ} (h : ∀ i j, i < 2 → j < 2 → R.get i j = R'.get i j)
    (g : ∀ i j, i < 2 → j < 2 → Q.get i j = Q'.get i j) : toLab S R Q = toLab S R' Q' := by
  unfold toLab
  rw [h 0 0 (by omega) (by omega), h 0 1 (by omega) (by omega), h 1 0 (by omega) (by omega), h 1 1 (by omega) (by omega),
    g 0 0 (by omega) (by omega), g 0 1 (by omega) (by omega), g 1 0 (by omega) (by omega), g 1 1 (by omega) (by omega)]

theorem invert_congr {R R' : Mat ℝ} (hc : R.cols = 2) (hc' : R'.cols = 2) (h : ∀ i j, i < 2 → j < 2 → R.get i j = R'.get i j) :
    ∀ i j, i < 2 → j < 2 → (invert R).get i j = (invert R').get i j := by
  obtain ⟨a1, a2, a3, a4⟩ := invert_spec hc
  obtain ⟨b1, b2, b3, b4⟩ := invert_spec hc'
  rw [h 0 0 (by omega) (by omega), h 0 1 (by omega) (by omega), h 1 0 (by omega) (by omega), h 1 1 (by omega) (by omega)] at a1 a2 a3 a4
  intro i j hi hj
  have : (i = 0 ∨ i = 1) ∧ (j = 0 ∨ j = 1) := by omega
  rcases this with ⟨rfl | rfl, rfl | rfl⟩
  · rw [a1, b1]
  · rw [a2, b2]
  · rw [a3, b3]
  · rw [a4, b4]

theorem fillK_get (S : Amp) (k : ℝ) {K : Mat ℝ} (hK : K.cols = 4) {r c : Nat} (hr : r < 4) (hc : c < 4) :
    (fillK S k K).get r c = (extinctionOf S k).get r c := by
  have e : 2 * Real.pi * (1 / k) = 2 * Real.pi / k := by rw [mul_one_div]
  unfold fillK extinctionOf
  rw [e]
  have : (r = 0 ∨ r = 1 ∨ r = 2 ∨ r = 3) ∧ (c = 0 ∨ c = 1 ∨ c = 2 ∨ c = 3) := by omega
  rcases this with ⟨rfl | rfl | rfl | rfl, rfl | rfl | rfl | rfl⟩ <;>
    simp [Mat.get, Mat.set, Mat.new, pos, hK]

/-- an extinction matrix resource: whatever it contained before, it contains the extinction matrix of the theory afterwards -/
theorem extinction_spec (T : TRes ℂ ℝ) {Tm : Nat → Nat → Int → Nat → Nat → ℂ} (hA : Axisymmetric Tm) (hS : Stores T Tm) (k : ℝ) {θ : ℝ} (φ : ℝ)
    (hr : Regular θ) {a : Angular} (ha : a.IsOf θ) {K : Mat ℝ} (hK : K.cols = 4) {r c : Nat} (h1 : r < 4) (h2 : c < 4) :
    (extinction T k θ φ K).get r c = (extinctionOf (theory Tm k T.nmax a a 0) k).get r c := by
  have hz : forwardOriented (objOf T k) 0 0 θ φ θ φ = theory Tm k T.nmax a a (φ - φ) := zero_theory (objOf T k) hA hS hr hr ha ha
  rw [sub_self] at hz
  rw [← hz]
  have he : extinction T k θ φ K = fillK (toLab (forward (objOf T k) (particle 0 0 θ φ) (particle 0 0 θ φ))
      (product false 2 2 (matAP (particle 0 0 θ φ)) (matAL θ φ) (Mat.new 2 2))
      (invert (product false 2 2 (matAP (particle 0 0 θ φ)) (matAL θ φ) (Mat.new 2 2)))) k K := by
    unfold extinction
    rw [axisDirection_eq hr]
    rfl
  have hf : forwardOriented (objOf T k) 0 0 θ φ θ φ = toLab (forward (objOf T k) (particle 0 0 θ φ) (particle 0 0 θ φ))
      (matR (particle 0 0 θ φ) (matCin 0 0 θ φ)) (invert (matR (particle 0 0 θ φ) (matCout 0 0 θ φ θ φ))) := rfl
  rw [he, fillK_get _ _ hK h1 h2, hf]
  refine congrArg (fun S => (extinctionOf S k).get r c) ?_
  have hC : ∀ (C : Mat ℝ), (∀ c : Fin 3, C.get c 0 = mulVec (rot 0 0) (eTheta θ φ) c ∧ C.get c 1 = mulVec (rot 0 0) (ePhi φ) c) →
      ∀ i j, i < 2 → j < 2 → (product false 2 2 (matAP (particle 0 0 θ φ)) (matAL θ φ) (Mat.new 2 2)).get i j
        = (matR (particle 0 0 θ φ) C).get i j := by
    intro C h i j hi hj
    have l0 := matAL_get θ φ 0
    have l1 := matAL_get θ φ 1
    have l2 := matAL_get θ φ 2
    have h0 := h 0
    have h1 := h 1
    have h2 := h 2
    rw [rot_zero, Matrix.one_mulVec, Matrix.one_mulVec] at h0 h1 h2
    simp only [Fin.val_zero, Fin.val_one, Fin.val_two] at h0 h1 h2 l0 l1 l2
    unfold matR
    rw [(product_spec false (matAP _) C (Mat.new 2 2) (cols := 2) rfl (Or.inr fun i j _ _ => new_get 2 2 i j)).2 i j hi hj,
      (product_spec false (matAP _) (matAL θ φ) (Mat.new 2 2) (cols := 2) rfl (Or.inr fun i j _ _ => new_get 2 2 i j)).2 i j hi hj]
    have : j = 0 ∨ j = 1 := by omega
    rcases this with rfl | rfl
    · rw [h0.1, h1.1, h2.1, l0.1, l1.1, l2.1]
    · rw [h0.2, h1.2, h2.2, l0.2, l1.2, l2.2]
  have cols : ∀ (A C : Mat ℝ), (product false 2 2 A C (Mat.new 2 2)).cols = 2 := fun A C =>
    (product_spec false (rows := 2) A C (Mat.new 2 2) (cols := 2) rfl (Or.inr fun i j _ _ => new_get 2 2 i j)).1
  exact toLab_congr _ (hC _ fun c => (matC_spec 0 0 θ φ θ φ c).1)
    (invert_congr (cols _ _) (cols _ _) (hC _ fun c => (matC_spec 0 0 θ φ θ φ c).2))

/-- **C78** an extinction matrix resource: if the amplitudes of the coherent wave along the path obey `dE/ds = i κ E + (2π i n / k) S E`
with `n` particles per volume and the forward amplitude matrix of the theory, then the Stokes vector obeys `dI/ds = -n K I`. -/
theorem c78_extinction (T : TRes ℂ ℝ) {Tm : Nat → Nat → Int → Nat → Nat → ℂ} (hA : Axisymmetric Tm) (hS : Stores T Tm) (k : ℝ) {θ : ℝ} (φ : ℝ)
    (hr : Regular θ) {a : Angular} (ha : a.IsOf θ) (κ n : ℝ) (Ev Eh : ℝ → ℂ) (t : ℝ) :
    let S := theory Tm k T.nmax a a 0
    let K := extinction T k θ φ newK
    HasDerivAt Ev (Complex.I * κ * Ev t + 2 * Real.pi * Complex.I * n / k * (S.s0 * Ev t + S.s1 * Eh t)) t →
    HasDerivAt Eh (Complex.I * κ * Eh t + 2 * Real.pi * Complex.I * n / k * (S.s2 * Ev t + S.s3 * Eh t)) t →
    ∀ r : Fin 4, HasDerivAt (fun s => stokes (Ev s) (Eh s) r) (-(n * ∑ c : Fin 4, K.get r c * stokes (Ev t) (Eh t) c)) t := by
  intro S K h1 h2 r
  have := attenuation S k κ n Ev Eh t h1 h2 r
  have e : ∀ c : Fin 4, K.get r c = (extinctionOf S k).get r c := fun c => extinction_spec T hA hS k φ hr ha rfl r.2 c.2
  simp only [e]
  exact this

/-- **C79** (partial) an extinction matrix resource can be executed again: the matrix does not depend on what was computed before, with the
same object, for whatever T-matrix -/
theorem c79_extinction_partial (T : TRes ℂ ℝ) (k θ φ : ℝ) {K K' : Mat ℝ} (hK : K.cols = 4) (hK' : K'.cols = 4) {r c : Nat} (h1 : r < 4)
    (h2 : c < 4) : (extinction T k θ φ K).get r c = (extinction T k θ φ K').get r c := by
  unfold extinction
  dsimp only
  rw [fillK_get _ _ hK h1 h2, fillK_get _ _ hK' h1 h2]

/-! ## a second execution of the same scattering matrix resource -/

/-- the triple loop without the reset adds to the previous content -/
theorem product_acc {rows cols : Nat} (A B C : Mat ℝ) (hc : C.cols = cols) :
    (product false rows cols A B C).cols = cols ∧ ∀ i j, i < rows → j < cols →
      (product false rows cols A B C).get i j = C.get i j + (A.get i 0 * B.get 0 j + A.get i 1 * B.get 1 j + A.get i 2 * B.get 2 j) := by
  unfold product
  have := loop_inv (fun q (D : Mat ℝ) => D.cols = cols
      ∧ (∀ i j, i < q → j < cols → D.get i j = C.get i j + (A.get i 0 * B.get 0 j + A.get i 1 * B.get 1 j + A.get i 2 * B.get 2 j))
      ∧ ∀ i j, q ≤ i → j < cols → D.get i j = C.get i j) (Nat.zero_le rows) (fun i C => loop 0 cols (fun j C =>
    loop 0 3 (fun k C => C.set i j (C.get i j + A.get i k * B.get k j)) (if false = true then C.set i j 0 else C)) C) C
    ⟨hc, fun i j h => by omega, fun _ _ _ _ => rfl⟩ (by
    rintro r D _ hr ⟨d1, d2, d3⟩
    have := loop_inv (fun q (E : Mat ℝ) => E.cols = cols
      ∧ (∀ j, j < q → j < cols → E.get r j = C.get r j + (A.get r 0 * B.get 0 j + A.get r 1 * B.get 1 j + A.get r 2 * B.get 2 j))
      ∧ (∀ j, q ≤ j → j < cols → E.get r j = C.get r j) ∧ ∀ i j, i ≠ r → j < cols → E.get i j = D.get i j) (Nat.zero_le cols)
      (fun j C => loop 0 3 (fun k C => C.set r j (C.get r j + A.get r k * B.get k j)) (if false = true then C.set r j 0 else C)) D
      ⟨d1, fun j h => by omega, fun j _ hj => d3 r j le_rfl hj, fun _ _ _ _ => rfl⟩ (by
      rintro c E _ hcc ⟨e1, e2, e3, e4⟩
      rw [if_neg (by decide)]
      have := loop_inv (fun q (G : Mat ℝ) => G.cols = cols ∧ G.get r c = C.get r c + ∑ k ∈ range q, A.get r k * B.get k c
          ∧ ∀ i j, (i ≠ r ∨ j ≠ c) → j < cols → G.get i j = E.get i j) (Nat.zero_le 3)
          (fun k C => C.set r c (C.get r c + A.get r k * B.get k c)) E ⟨e1, by simpa using e3 c le_rfl hcc, fun _ _ _ _ => rfl⟩ (by
        rintro k G _ _ ⟨g1, g2, g3⟩
        refine ⟨g1, ?_, ?_⟩
        · rw [get_set _ _ (by rw [g1]; exact hcc) (by rw [g1]; exact hcc), if_pos ⟨rfl, rfl⟩, sum_range_succ, g2, add_assoc]
        · intro i j hij hj
          rw [get_set _ _ (by rw [g1]; exact hcc) (by rw [g1]; exact hj), if_neg, g3 i j hij hj]
          rintro ⟨rfl, rfl⟩
          rcases hij with h | h <;> exact h rfl)
      generalize loop 0 3 _ E = G at this ⊢
      obtain ⟨g1, g2, g3⟩ := this
      refine ⟨g1, ?_, ?_, ?_⟩
      · intro j hj hj'
        by_cases h : j = c
        · subst h
          rw [g2]
          simp [sum_range_succ]
        · rw [g3 r j (Or.inr h) hj', e2 j (by omega) hj']
      · intro j hj hj'
        rw [g3 r j (Or.inr (by omega)) hj', e3 j (by omega) hj']
      · intro i j hi hj
        rw [g3 i j (Or.inl hi) hj, e4 i j hi hj])
    obtain ⟨f1, f2, _, f4⟩ := this
    refine ⟨f1, ?_, ?_⟩
    · intro i j hi hj
      by_cases h : i = r
      · subst h
        exact f2 j hj hj
      · rw [f4 i j h hj, d2 i j (by omega) hj]
    · intro i j hi hj
      rw [f4 i j (by omega) hj, d3 i j (by omega) hj])
  exact ⟨this.1, fun i j hi hj => this.2.1 i j hi hj⟩

theorem fillB_get (α β : ℝ) {B : Mat ℝ} (hc : B.cols = 3) (h0 : B.get 1 2 = 0) :
    (fillB α β B).cols = 3 ∧ ∀ i j : Fin 3, (fillB α β B).get i j = rot α β i j := by
  refine ⟨hc, fun i j => ?_⟩
  unfold Mat.get pos at h0
  rw [hc] at h0
  unfold fillB rot aboutY aboutZ
  fin_cases i <;> fin_cases j <;>
    simp [Mat.get, Mat.set, pos, Function.update_apply, Matrix.mul_apply, Fin.sum_univ_three, hc, h0] <;> try ring

theorem fillAL_get (θ φ : ℝ) {A : Mat ℝ} (hc : A.cols = 2) (h0 : A.get 2 1 = 0) :
    (fillAL θ φ A).cols = 2 ∧ ∀ i : Fin 3, (fillAL θ φ A).get i 0 = eTheta θ φ i ∧ (fillAL θ φ A).get i 1 = ePhi φ i := by
  refine ⟨hc, fun i => ?_⟩
  unfold Mat.get pos at h0
  rw [hc] at h0
  unfold fillAL eTheta ePhi
  fin_cases i <;> simp [Mat.get, Mat.set, pos, Function.update_apply, hc, h0]

theorem fillAP_get {d : Direction} {θ φ : ℝ} (hd : Represents d θ φ) {A : Mat ℝ} (hc : A.cols = 3) (h0 : A.get 1 2 = 0) :
    (fillAP d A).cols = 3 ∧ ∀ i : Fin 3, (fillAP d A).get 0 i = eTheta θ φ i ∧ (fillAP d A).get 1 i = ePhi φ i := by
  refine ⟨hc, fun i => ?_⟩
  unfold Mat.get pos at h0
  rw [hc] at h0
  unfold fillAP eTheta ePhi
  rw [hd.cosTheta, hd.sinTheta, hd.cosPhi, hd.sinPhi]
  fin_cases i <;> simp [Mat.get, Mat.set, pos, Function.update_apply, hc, h0]

theorem cFill_cols (nmax : Nat) (c : Mat ℂ) : (cFill nmax c).cols = c.cols := by
  unfold cFill
  refine loop_inv (fun _ (s : ℂ × Mat ℂ) => s.2.cols = c.cols) (show 1 ≤ nmax + 1 by omega) _ _ rfl ?_
  rintro nn ⟨x, d⟩ _ _ e
  dsimp only at e ⊢
  exact loop_inv (fun _ (s : ℂ × Mat ℂ) => s.2.cols = c.cols) (show 1 ≤ nmax + 1 by omega) _ _ e fun _ _ _ _ e => e

/-- content of the members between executions, for a particle with its axis along `z` and one direction: `C` is `x` times the unit vectors,
`R_in` is `y` times and `R_out` is `z` times the unit matrix -/
structure Between (θ φ : ℝ) (nmax : Nat) (x y z : ℝ) (st : State) : Prop where
  B : st.B.cols = 3 ∧ st.B.get 1 2 = 0
  ALin : st.ALin.cols = 2 ∧ st.ALin.get 2 1 = 0
  ALout : st.ALout.cols = 2 ∧ st.ALout.get 2 1 = 0
  APin : st.APin.cols = 3 ∧ st.APin.get 1 2 = 0
  APout : st.APout.cols = 3 ∧ st.APout.get 1 2 = 0
  C : st.C.cols = 2 ∧ ∀ i : Fin 3, st.C.get i 0 = x * eTheta θ φ i ∧ st.C.get i 1 = x * ePhi φ i
  Rin : st.Rin.cols = 2 ∧ st.Rin.get 0 0 = y ∧ st.Rin.get 0 1 = 0 ∧ st.Rin.get 1 0 = 0 ∧ st.Rin.get 1 1 = y
  Rout : st.Rout.cols = 2 ∧ st.Rout.get 0 0 = z ∧ st.Rout.get 0 1 = 0 ∧ st.Rout.get 1 0 = 0 ∧ st.Rout.get 1 1 = z
  c : nmax ≤ st.c.cols

theorem between_new (θ φ : ℝ) {nmax N : Nat} (h : nmax ≤ N) : Between θ φ nmax 0 0 0 (State.new N) := by
  refine ⟨⟨rfl, rfl⟩, ⟨rfl, rfl⟩, ⟨rfl, rfl⟩, ⟨rfl, rfl⟩, ⟨rfl, rfl⟩, ⟨rfl, fun i => ?_⟩, ⟨rfl, rfl, rfl, rfl, rfl⟩, ⟨rfl, rfl, rfl, rfl, rfl⟩, h⟩
  rw [zero_mul, zero_mul]
  exact ⟨rfl, rfl⟩

/-- a multiple of an amplitude matrix -/
noncomputable def times (f : ℝ) (A : Amp) : Amp := ⟨f * A.s0, f * A.s1, f * A.s2, f * A.s3⟩

/-- one execution -/
theorem execute_between (T : TRes ℂ ℝ) (k : ℝ) {Tm : Nat → Nat → Int → Nat → Nat → ℂ} (hA : Axisymmetric Tm) (hS : Stores T Tm) {θ φ : ℝ}
    (hr : Regular θ) (h0 : Real.sin θ ≠ 0) {a : Angular} (ha : a.IsOf θ) {x y z : ℝ} {st : State} (hst : Between θ φ T.nmax x y z st)
    (hz : z + 1 ≠ 0) :
    let st' := execute T k ⟨0, 0, θ, φ, θ, φ⟩ st
    Between θ φ T.nmax 1 (y + x + 1) (1 / (z + 1)) st'
    ∧ st'.S = times ((y + x + 1) / (z + 1)) (plus (theory Tm k T.nmax a a 0) (divide st.S k)) := by
  intro st'
  have hd : dir θ φ = mulVec (rot 0 0) (dir θ φ) := by rw [rot_zero, Matrix.one_mulVec]
  obtain ⟨ψ, hrep, hψ, -⟩ := particle_spec (bounds hr).1 (bounds hr).2 hd
  rcases hψ with rfl | hψ
  swap
  · exact absurd hψ h0
  obtain ⟨b0, b1⟩ := fillB_get 0 0 hst.B.1 hst.B.2
  obtain ⟨li0, li1⟩ := fillAL_get θ ψ hst.ALin.1 hst.ALin.2
  obtain ⟨lo0, lo1⟩ := fillAL_get θ ψ hst.ALout.1 hst.ALout.2
  obtain ⟨pi0, pi1⟩ := fillAP_get hrep hst.APin.1 hst.APin.2
  obtain ⟨po0, po1⟩ := fillAP_get hrep hst.APout.1 hst.APout.2
  rw [rot_zero] at b1
  obtain ⟨ci0, ci1⟩ := product_acc (rows := 3) (fillB 0 0 st.B) (fillAL θ ψ st.ALin) st.C hst.C.1
  have hCin : ∀ i : Fin 3, (product false 3 2 (fillB 0 0 st.B) (fillAL θ ψ st.ALin) st.C).get i 0 = (x + 1) * eTheta θ ψ i
      ∧ (product false 3 2 (fillB 0 0 st.B) (fillAL θ ψ st.ALin) st.C).get i 1 = (x + 1) * ePhi ψ i := by
    intro i
    rw [ci1 i 0 i.2 (by omega), ci1 i 1 i.2 (by omega)]
    have e0 := b1 i 0
    have e1 := b1 i 1
    have e2 := b1 i 2
    have g0 := li1 0
    have g1 := li1 1
    have g2 := li1 2
    simp only [Fin.val_zero, Fin.val_one, Fin.val_two] at e0 e1 e2 g0 g1 g2
    rw [e0, e1, e2, g0.1, g1.1, g2.1, g0.2, g1.2, g2.2, (hst.C.2 i).1, (hst.C.2 i).2]
    fin_cases i <;> simp [Matrix.one_apply] <;> constructor <;> ring
  have hst' : st' = execute T k ⟨0, 0, θ, ψ, θ, ψ⟩ st := rfl
  unfold execute at hst'
  dsimp only at hst'
  have hRin := product_acc (rows := 2) (fillAP (particle 0 0 θ ψ) st.APin) (product false 3 2 (fillB 0 0 st.B) (fillAL θ ψ st.ALin) st.C) st.Rin hst.Rin.1
  have hCout := product_spec true (rows := 3) (fillB 0 0 st.B) (fillAL θ ψ st.ALout) (product false 3 2 (fillB 0 0 st.B) (fillAL θ ψ st.ALin) st.C) ci0
    (Or.inl rfl)
  generalize product false 3 2 (fillB 0 0 st.B) (fillAL θ ψ st.ALin) st.C = Cin at *
  have hRout := product_acc (rows := 2) (fillAP (particle 0 0 θ ψ) st.APout) (product true 3 2 (fillB 0 0 st.B) (fillAL θ ψ st.ALout) Cin) st.Rout
    hst.Rout.1
  generalize product true 3 2 (fillB 0 0 st.B) (fillAL θ ψ st.ALout) Cin = Cout at *
  have hco : ∀ i : Fin 3, Cout.get i 0 = eTheta θ ψ i ∧ Cout.get i 1 = ePhi ψ i := by
    intro i
    rw [hCout.2 i 0 i.2 (by omega), hCout.2 i 1 i.2 (by omega)]
    have e0 := b1 i 0
    have e1 := b1 i 1
    have e2 := b1 i 2
    have g0 := lo1 0
    have g1 := lo1 1
    have g2 := lo1 2
    simp only [Fin.val_zero, Fin.val_one, Fin.val_two] at e0 e1 e2 g0 g1 g2
    rw [e0, e1, e2, g0.1, g1.1, g2.1, g0.2, g1.2, g2.2]
    fin_cases i <;> simp [Matrix.one_apply]
  generalize product false 2 2 (fillAP (particle 0 0 θ ψ) st.APin) Cin st.Rin = Rin at *
  generalize product false 2 2 (fillAP (particle 0 0 θ ψ) st.APout) Cout st.Rout = Rout at *
  have tt := eTheta_eTheta θ ψ
  have tp := eTheta_ePhi θ ψ
  have pp := ePhi_ePhi ψ
  rw [dot3] at tt tp pp
  have rin : Rin.get 0 0 = y + x + 1 ∧ Rin.get 0 1 = 0 ∧ Rin.get 1 0 = 0 ∧ Rin.get 1 1 = y + x + 1 := by
    have g0 := pi1 0
    have g1 := pi1 1
    have g2 := pi1 2
    have c0 := hCin 0
    have c1 := hCin 1
    have c2 := hCin 2
    simp only [Fin.val_zero, Fin.val_one, Fin.val_two] at c0 c1 c2 g0 g1 g2
    obtain ⟨r0, r1, r2, r3, r4⟩ := hst.Rin
    refine ⟨?_, ?_, ?_, ?_⟩
    · rw [hRin.2 0 0 (by omega) (by omega), r1, g0.1, g1.1, g2.1, c0.1, c1.1, c2.1]
      linear_combination (x + 1) * tt
    · rw [hRin.2 0 1 (by omega) (by omega), r2, g0.1, g1.1, g2.1, c0.2, c1.2, c2.2]
      linear_combination (x + 1) * tp
    · rw [hRin.2 1 0 (by omega) (by omega), r3, g0.2, g1.2, g2.2, c0.1, c1.1, c2.1]
      linear_combination (x + 1) * tp
    · rw [hRin.2 1 1 (by omega) (by omega), r4, g0.2, g1.2, g2.2, c0.2, c1.2, c2.2]
      linear_combination (x + 1) * pp
  have rout : Rout.get 0 0 = z + 1 ∧ Rout.get 0 1 = 0 ∧ Rout.get 1 0 = 0 ∧ Rout.get 1 1 = z + 1 := by
    have g0 := po1 0
    have g1 := po1 1
    have g2 := po1 2
    have c0 := hco 0
    have c1 := hco 1
    have c2 := hco 2
    simp only [Fin.val_zero, Fin.val_one, Fin.val_two] at c0 c1 c2 g0 g1 g2
    obtain ⟨r0, r1, r2, r3, r4⟩ := hst.Rout
    refine ⟨?_, ?_, ?_, ?_⟩
    · rw [hRout.2 0 0 (by omega) (by omega), r1, g0.1, g1.1, g2.1, c0.1, c1.1, c2.1]
      linear_combination tt
    · rw [hRout.2 0 1 (by omega) (by omega), r2, g0.1, g1.1, g2.1, c0.2, c1.2, c2.2]
      linear_combination tp
    · rw [hRout.2 1 0 (by omega) (by omega), r3, g0.2, g1.2, g2.2, c0.1, c1.1, c2.1]
      linear_combination tp
    · rw [hRout.2 1 1 (by omega) (by omega), r4, g0.2, g1.2, g2.2, c0.2, c1.2, c2.2]
      linear_combination pp
  have hinv : (invert Rout).get 0 0 = 1 / (z + 1) ∧ (invert Rout).get 0 1 = 0 ∧ (invert Rout).get 1 0 = 0 ∧ (invert Rout).get 1 1 = 1 / (z + 1) := by
    obtain ⟨v1, v2, v3, v4⟩ := invert_spec hRout.1
    obtain ⟨r1, r2, r3, r4⟩ := rout
    rw [r1, r2, r3, r4] at v1 v2 v3 v4
    rw [v1, v2, v3, v4]
    refine ⟨?_, ?_, ?_, ?_⟩
    · field_simp
      ring
    · ring
    · ring
    · field_simp
      ring
  have hsum := sumOver_theory T hA hS (c := cFill T.nmax st.c) (fun n n' e1 e2 e3 e4 => cFill_spec T.nmax _ hst.c e1 e2 e3 e4)
    hrep hrep hr hr ha ha st.w st.S k
  rw [sub_self] at hsum
  have q12 : ∀ a b : ℝ, (rot a b) 1 2 = 0 := by
    intro a b
    simp [rot, aboutY, aboutZ, Matrix.mul_apply, Fin.sum_univ_three]
  constructor
  · rw [hst']
    refine ⟨⟨b0, ?_⟩, ⟨li0, ?_⟩, ⟨lo0, ?_⟩, ⟨pi0, ?_⟩, ⟨po0, ?_⟩, ⟨hCout.1, fun i => ?_⟩, ⟨hRin.1, rin⟩, ⟨hRout.1, hinv⟩, ?_⟩
    · have := b1 1 2
      simpa using this
    · have := (li1 2).2
      simpa [ePhi] using this
    · have := (lo1 2).2
      simpa [ePhi] using this
    · have := (pi1 2).2
      simpa [ePhi] using this
    · have := (po1 2).2
      simpa [ePhi] using this
    · rw [one_mul, one_mul]
      exact hco i
    · dsimp only
      rw [cFill_cols]
      exact hst.c
  · rw [hst']
    dsimp only
    rw [hsum]
    unfold toLab times
    rw [rin.1, rin.2.1, rin.2.2.1, rin.2.2.2, hinv.1, hinv.2.1, hinv.2.2.1, hinv.2.2.2]
    have hz' : (z : ℂ) + 1 ≠ 0 := by exact_mod_cast hz
    dsimp only
    push_cast
    congr 1 <;> (field_simp; try ring)

/-- the second execution of the same object, particle with its axis along `z`, incoming and outgoing direction the same: the matrix is
`(3/2 (1 + 1/k))²` times the one after the first execution -/
theorem c79_second (T : TRes ℂ ℝ) (k : ℝ) {Tm : Nat → Nat → Int → Nat → Nat → ℂ} (hA : Axisymmetric Tm) (hS : Stores T Tm) {θ : ℝ} (φ : ℝ)
    (hr : Regular θ) (h0 : Real.sin θ ≠ 0) {N : Nat} (hN : T.nmax ≤ N) :
    let first := execute T k ⟨0, 0, θ, φ, θ, φ⟩ (State.new N)
    let second := execute T k ⟨0, 0, θ, φ, θ, φ⟩ first
    ∀ r c, second.Z r c = (3 / 2 * (1 + 1 / k)) ^ 2 * first.Z r c := by
  intro first second
  obtain ⟨a, ha⟩ := exists_angular hr
  obtain ⟨b1, e1⟩ := execute_between T k hA hS hr h0 ha (between_new θ φ hN) (by norm_num)
  norm_num at b1 e1
  have e1' : first.S = theory Tm k T.nmax a a 0 := by
    refine e1.trans ?_
    have : (State.new N).S = ⟨0, 0, 0, 0⟩ := rfl
    rw [this, plus_zero]
    simp [times]
  obtain ⟨b2, e2⟩ := execute_between T k hA hS hr h0 ha b1 (by norm_num)
  have e2' : second.S = times (3 / 2 * (1 + 1 / k)) first.S := by
    refine e2.trans ?_
    have : (execute T k ⟨0, 0, θ, φ, θ, φ⟩ (State.new N)).S = theory Tm k T.nmax a a 0 := e1'
    rw [this]
    unfold times plus divide
    dsimp only
    push_cast
    congr 1 <;> ring
  have hz : ∀ (f : ℝ) (A : Amp) (r c : Nat), mueller (times f A) r c = f ^ 2 * mueller A r c := by
    intro f A r c
    rcases r with _ | _ | _ | _ | r <;> rcases c with _ | _ | _ | _ | c <;>
      simp [mueller, times] <;> ring
  intro r c
  have g1 : first.Z r c = mueller first.S r c := rfl
  have g2 : second.Z r c = mueller second.S r c := rfl
  rw [g1, g2, e2', hz]


/-! ### an example -/

/-- a particle with a single non-zero element: the one for `n = n' = 1`, `m = 0`, both of the second kind -/
def Td (i _n : Nat) (m : Int) (j _n' : Nat) : ℂ := if i = 1 ∧ j = 1 ∧ m = 0 then 1 else 0

theorem Td_axisymmetric : Axisymmetric Td := by
  intro i n m j n'
  unfold Td
  by_cases h : i = 1 ∧ j = 1 ∧ m = 0
  · obtain ⟨rfl, rfl, rfl⟩ := h
    norm_num
  · rw [if_neg (by simpa using h), if_neg h, mul_zero]

def Rd : TRes ℂ ℝ := ⟨1, 0, fun m => ⟨2, 2, fun k => Td (k / 2) 1 m (k % 2) 1⟩, 0, 0, 0, 0⟩

theorem Rd_stores : Stores Rd Td := by
  intro i n1 m j n2 h h'
  have a1 := h.one; have a2 : n1 ≤ 1 := h.n
  have b1 := h'.one; have b2 : n2 ≤ 1 := h'.n
  have c1 := h.i; have c2 := h'.i; have c3 := h.m
  obtain rfl : n1 = 1 := by omega
  obtain rfl : n2 = 1 := by omega
  interval_cases i <;> interval_cases j <;> interval_cases m <;> rfl

theorem wigner01 (t : ℝ) : Legendre.wigner 0 1 t = Real.cos t := by
  simp [Legendre.wigner, Legendre.G, Legendre.P]
  ring

theorem Rd_forward {a : Angular} (ha : a.IsOf (Real.pi / 2)) : (theory Td 1 1 a a 0).s0 ≠ 0 := by
  have h := (ha 0 1 le_rfl (by omega)).2
  have h' : HasDerivAt (Legendre.wigner 0 1) (-1) (Real.pi / 2) := by
    have := Real.hasDerivAt_cos (Real.pi / 2)
    rw [Real.sin_pi_div_two] at this
    rwa [show Legendre.wigner 0 1 = Real.cos from funext wigner01]
  have ht : a.tau ((0 : Nat) : Int) 1 = -1 := h.unique h'
  rw [Nat.cast_zero] at ht
  have e : (theory Td 1 1 a a 0).s0 = alphaF 1 1 := by
    change S11 _ _ _ _ _ _ _ = _
    unfold S11 ampSum
    have : Icc (-((1 : Nat) : Int)) ((1 : Nat) : Int) = {-1, 0, 1} := by decide
    rw [this]
    simp [Td, ht]
  rw [e]
  unfold alphaF
  refine mul_ne_zero (zpow_ne_zero _ Complex.I_ne_zero) ?_
  have : 0 < prefactor 1 1 := by
    unfold prefactor
    positivity
  exact_mod_cast this.ne'

/-- **C79 does not hold** for scattering matrix resources: a second execution of the same object gives another matrix (here nine times
as large) although the T-matrix, the wavenumber and the angles are the same. -/
theorem c79_violated : ∃ (T : TRes ℂ ℝ) (p : Angles), Regular p.thetaIn ∧ Regular p.thetaOut ∧
    let first := execute T 1 p (State.new T.nmax)
    let second := execute T 1 p first
    0 < first.Z 0 0 ∧ second.Z 0 0 = 9 * first.Z 0 0 := by
  have hr := regular_examples.2.2
  have hs : Real.sin (Real.pi / 2) ≠ 0 := by
    rw [Real.sin_pi_div_two]
    exact one_ne_zero
  refine ⟨Rd, ⟨0, 0, Real.pi / 2, 0, Real.pi / 2, 0⟩, hr, hr, ?_, ?_⟩
  · obtain ⟨a, ha⟩ := exists_angular hr
    have e1 := (execute_between Rd 1 Td_axisymmetric Rd_stores hr hs ha (between_new (Real.pi / 2) 0 (le_refl Rd.nmax)) (by norm_num)).2
    have : (State.new Rd.nmax).S = ⟨0, 0, 0, 0⟩ := rfl
    rw [this, plus_zero] at e1
    have hne := Rd_forward ha
    change 0 < mueller (execute Rd 1 ⟨0, 0, Real.pi / 2, 0, Real.pi / 2, 0⟩ (State.new Rd.nmax)).S 0 0
    rw [e1]
    have hn : Rd.nmax = 1 := rfl
    rw [hn]
    generalize theory Td 1 1 a a 0 = X at hne ⊢
    have key : mueller (times ((0 + 0 + 1) / (0 + 1)) X) 0 0 = 1 / 2 * (Complex.normSq X.s0 + Complex.normSq X.s1 + Complex.normSq X.s2 + Complex.normSq X.s3) := by
      simp [mueller, times, Complex.normSq_apply]
    rw [key]
    have := Complex.normSq_pos.mpr hne
    have := Complex.normSq_nonneg X.s1
    have := Complex.normSq_nonneg X.s2
    have := Complex.normSq_nonneg X.s3
    linarith
  · have := c79_second Rd 1 Td_axisymmetric Rd_stores 0 hr hs (le_refl Rd.nmax) 0 0
    rw [this]
    norm_num

/-- the hypotheses of `c78_scattering`, `c78_class`, `c78_extinction` and `c79_second` hold for that particle and the equator -/
example : Axisymmetric Td ∧ Stores Rd Td ∧ Regular (Real.pi / 2) ∧ (∃ a : Angular, a.IsOf (Real.pi / 2))
    ∧ dir (Real.pi / 2) 0 = mulVec (rot 0 0) (dir (Real.pi / 2) 0) :=
  ⟨Td_axisymmetric, Rd_stores, regular_examples.2.2, exists_angular regular_examples.2.2, by rw [rot_zero, Matrix.one_mulVec]⟩

end Verif.MatRes
