import Verif.Proofs.ContentEnsemble

/-!
# The coefficients of an ensemble of grains
-/
namespace Verif.Content

set_option autoImplicit false

open Verif.Matrix (loop Mat)
open Verif.Special (Ops realOps)
open Verif.TMatrix
open Verif.Graph
open Finset

variable {H : Problem} {c : Cell} {t : TRes ℂ ℝ} {T : Nat → Nat → Int → Nat → Nat → ℂ} {g : Nat}

/-- the phase factor of a scattered wave: the difference of the azimuths -/
theorem circle_phi (n i : Nat) : (fullCircle realOps H n).1 i = gridφ H n i := by
  unfold fullCircle gridφ
  dsimp only [realOps]
  ring

theorem circle_weight (n i : Nat) : (fullCircle realOps H n).2 i = gridW H n i := by
  unfold fullCircle gridW
  dsimp only [realOps]
  ring

/-- the ensemble of the grains of a cell -/
structure Known (H : Problem) (c : Cell) (t : TRes ℂ ℝ) (T : Nat → Nat → Int → Nat → Nat → ℂ) (g : Nat) : Prop where
  nmax : (ens H c t).nmax = orderAt H g
  le : orderAt H g ≤ H.P.maxOrder
  axi : Alignment.Axisymmetric (ensemble H c T)
  stores : Alignment.Stores (ens H c t) (ensemble H c T)

theorem known_ext (h : Known H c t T g) : ∃ r, known H .ext c t = .ext r ∧ ∀ it < H.ntheta, Scatter.Regular (H.theta it) → ∀ o : Scatter.Angular,
    o.IsOf (H.theta it) → r.Qext it = extI H c g T o ∧ r.Qextpol it = extQ H c g T o ∧ r.Qextcpol it = extV H c g T o := by
  refine ⟨_, rfl, fun it hit hr o ho => ?_⟩
  have key := Scatter.c67_extinction (T := ens H c t) (cnn := getCnn (table H .nbased).toNfac) h.axi h.stores (θ := H.theta) (N := H.P.maxOrder) noTab
    (h.nmax.trans_le h.le) hit hr ho (waveK H c.par) (H.radius c.par) ⟨fun _ => 0, fun _ => 0, fun _ => 0⟩
  dsimp only at key
  rw [h.nmax] at key
  have a := amp_congr (Tm := ensemble H c T) h.le o o (waveK H c.par) 0
  rw [a.1, a.2.2.2] at key
  exact ⟨key.1, key.2.1, key.2.2.1⟩

theorem mueller_first (S : Scatter.Amp) (r : Fin 4) :
    Scatter.mueller S r 0 = (Scatter.stokes S.s0 S.s2 r + Scatter.stokes S.s1 S.s3 r) / 2 := by
  have h1 := Scatter.c53_stokes S 1 0 r
  have h2 := Scatter.c53_stokes S 0 1 r
  simp only [mul_one, mul_zero, add_zero, zero_add] at h1 h2
  rw [h1, h2]
  simp only [Fin.sum_univ_four, Scatter.stokes]
  simp
  ring

theorem known_abs (h : Known H c t T g) : ∃ r, known H .abs c t = .abs r ∧ ∀ it < H.ntheta, Scatter.Regular (H.theta it) → ∀ o : Scatter.Angular,
    o.IsOf (H.theta it) → (∀ j < H.ngrid, -1 ≤ (H.gl H.ngrid).1 j ∧ (H.gl H.ngrid).1 j ≤ 1 ∧ Scatter.Regular (gridθ H H.ngrid j)) → ∀ i : Nat → Scatter.Angular,
    (∀ j < H.ngrid, (i j).IsOf (gridθ H H.ngrid j)) →
      r.Qabs it = extI H c g T o - (if H.accountForScattering then lost H c g T o i 0 / disc H c.par else 0)
      ∧ r.Qabspol it = extQ H c g T o - (if H.accountForScattering then lost H c g T o i 1 / disc H c.par else 0) := by
  refine ⟨_, rfl, fun it hit hr o ho hg i hi => ?_⟩
  have key := Scatter.c67_absorption (T := ens H c t) (cnn := getCnn (table H .nbased).toNfac) h.axi h.stores (θo := H.theta) (θi := gridθ H H.ngrid)
    (φ := gridφ H H.ngrid) (wt := (H.gl H.ngrid).2) (wp := gridW H H.ngrid) (ngauss := H.ngrid) (N := H.P.maxOrder) noTab noTab
    (h.nmax.trans_le h.le) hit hr (fun j hj => (hg j hj).2.2) ho hi (waveK H c.par) (H.radius c.par) H.accountForScattering ⟨fun _ => 0, fun _ => 0⟩
  dsimp only at key
  rw [h.nmax] at key
  have a := fun o i φ => amp_congr (Tm := ensemble H c T) h.le o i (waveK H c.par) φ
  simp only [fun o i φ => (a o i φ).1, fun o i φ => (a o i φ).2.1, fun o i φ => (a o i φ).2.2.1, fun o i φ => (a o i φ).2.2.2] at key
  have m0 : ∀ S, Scatter.mueller S 0 0 = (Scatter.stokes S.s0 S.s2 0 + Scatter.stokes S.s1 S.s3 0) / 2 := fun S => mueller_first S 0
  have m1 : ∀ S, Scatter.mueller S 1 0 = (Scatter.stokes S.s0 S.s2 1 + Scatter.stokes S.s1 S.s3 1) / 2 := fun S => mueller_first S 1
  simp only [m0, m1] at key
  have e1 : (fullCircle realOps H H.ngrid).1 = gridφ H H.ngrid := funext (circle_phi H.ngrid)
  have e2 : (fullCircle realOps H H.ngrid).2 = gridW H H.ngrid := funext (circle_weight H.ngrid)
  have e3 : Scatter.fill realOps (anglesOf realOps (H.gl H.ngrid).1 H.ngrid) H.P.maxOrder noTab
      = Scatter.fill realOps (Scatter.gridOf (gridθ H H.ngrid) H.ngrid) H.P.maxOrder noTab :=
    fill_grid (fun j hj => ⟨(hg j hj).1, (hg j hj).2.1⟩) _ _
  have e : (fun r : Scatter.Abs => (⟨r.Qabs, r.Qabspol⟩ : Interp.AbsRes ℝ)) (Scatter.absorptionTask (ens H c t) (getCnn (table H .nbased).toNfac)
      (Scatter.fill realOps (Scatter.gridOf H.theta H.ntheta) H.P.maxOrder noTab)
      (Scatter.fill realOps (anglesOf realOps (H.gl H.ngrid).1 H.ngrid) H.P.maxOrder noTab) (fun j => Real.cos ((fullCircle realOps H H.ngrid).1 j))
      (fun j => Real.sin ((fullCircle realOps H H.ngrid).1 j)) (H.gl H.ngrid).2 (fullCircle realOps H H.ngrid).2 Real.pi (waveK H c.par) (H.radius c.par) H.ntheta
      H.ngrid H.accountForScattering ⟨fun _ => 0, fun _ => 0⟩)
    = (fun r : Scatter.Abs => (⟨r.Qabs, r.Qabspol⟩ : Interp.AbsRes ℝ)) (Scatter.absorptionTask (ens H c t) (getCnn (table H .nbased).toNfac)
      (Scatter.fill realOps (Scatter.gridOf H.theta H.ntheta) H.P.maxOrder noTab)
      (Scatter.fill realOps (Scatter.gridOf (gridθ H H.ngrid) H.ngrid) H.P.maxOrder noTab) (fun j => Real.cos (gridφ H H.ngrid j))
      (fun j => Real.sin (gridφ H H.ngrid j)) (H.gl H.ngrid).2 (gridW H H.ngrid) Real.pi (waveK H c.par) (H.radius c.par) H.ntheta
      H.ngrid H.accountForScattering ⟨fun _ => 0, fun _ => 0⟩) := by rw [e1, e2, e3]
  constructor
  · exact (congrArg (fun x : Interp.AbsRes ℝ => x.Qabs it) e).trans key.1
  · exact (congrArg (fun x : Interp.AbsRes ℝ => x.Qabspol it) e).trans key.2.1

theorem known_scat (h : Known H c t T g) : ∃ Z, known H .scat c t = .scat Z ∧ ∀ it < H.ntheta, ∀ ip < 2 * H.ntheta,
    (∀ j < H.ntheta, -1 ≤ (H.gl H.ntheta).1 j ∧ (H.gl H.ntheta).1 j ≤ 1 ∧ Scatter.Regular (gridθ H H.ntheta j)) → ∀ o i : Scatter.Angular,
    o.IsOf (gridθ H H.ntheta it) → i.IsOf (Real.pi / 2) → ∀ (Ev Eh : ℂ) (r : Fin 4),
    ∑ k : Fin 4, Z (it * (2 * H.ntheta) + ip) r k * Scatter.stokes Ev Eh k
      = Scatter.stokes
        (amp11 H c g T o i (gridφ H (2 * H.ntheta) ip) * Ev + amp12 H c g T o i (gridφ H (2 * H.ntheta) ip) * Eh)
        (amp21 H c g T o i (gridφ H (2 * H.ntheta) ip) * Ev + amp22 H c g T o i (gridφ H (2 * H.ntheta) ip) * Eh) r := by
  refine ⟨_, rfl, fun it hit ip hip hg o i ho hi Ev Eh r => ?_⟩
  have key := Scatter.c53_scattering (T := ens H c t) (cnn := getCnn (table H .nbased).toNfac) h.axi h.stores (θi := fun _ => Real.pi / 2) (θo := gridθ H H.ntheta)
    (φ := gridφ H (2 * H.ntheta)) (ntheta := H.ntheta) (nphi := 2 * H.ntheta) (N := H.P.maxOrder) noTab noTab
    (h.nmax.trans_le h.le) hit hip Scatter.regular_examples.2.2 (hg it hit).2.2 hi ho (waveK H c.par) (fun _ _ _ => 0) Ev Eh r
  rw [h.nmax] at key
  have a := amp_congr (Tm := ensemble H c T) h.le o i (waveK H c.par) (gridφ H (2 * H.ntheta) ip)
  rw [a.1, a.2.1, a.2.2.1, a.2.2.2] at key
  refine Eq.trans ?_ key
  have e1 : (fullCircle realOps H (2 * H.ntheta)).1 = gridφ H (2 * H.ntheta) := funext (circle_phi (2 * H.ntheta))
  have e3 : Scatter.fill realOps (anglesOf realOps (H.gl H.ntheta).1 H.ntheta) H.P.maxOrder noTab
      = Scatter.fill realOps (Scatter.gridOf (gridθ H H.ntheta) H.ntheta) H.P.maxOrder noTab :=
    fill_grid (fun j hj => ⟨(hg j hj).1, (hg j hj).2.1⟩) _ _
  have e : Scatter.scatteringTask (ens H c t) (getCnn (table H .nbased).toNfac)
      (Scatter.fill realOps (Scatter.gridOf (fun _ => Real.pi / 2) 1) H.P.maxOrder noTab)
      (Scatter.fill realOps (anglesOf realOps (H.gl H.ntheta).1 H.ntheta) H.P.maxOrder noTab) (fun j => Real.cos ((fullCircle realOps H (2 * H.ntheta)).1 j))
      (fun j => Real.sin ((fullCircle realOps H (2 * H.ntheta)).1 j)) (waveK H c.par) H.ntheta (2 * H.ntheta) (fun _ _ _ => 0)
    = Scatter.scatteringTask (ens H c t) (getCnn (table H .nbased).toNfac)
      (Scatter.fill realOps (Scatter.gridOf (fun _ => Real.pi / 2) 1) H.P.maxOrder noTab)
      (Scatter.fill realOps (Scatter.gridOf (gridθ H H.ntheta) H.ntheta) H.P.maxOrder noTab) (fun j => Real.cos (gridφ H (2 * H.ntheta) j))
      (fun j => Real.sin (gridφ H (2 * H.ntheta) j)) (waveK H c.par) H.ntheta (2 * H.ntheta) (fun _ _ _ => 0) := by rw [e1, e3]
  exact Finset.sum_congr rfl fun k _ => congrArg (fun x : Nat → Nat → Nat → ℝ => x (it * (2 * H.ntheta) + ip) r k * Scatter.stokes Ev Eh k) e

end Verif.Content
