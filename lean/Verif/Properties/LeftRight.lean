import Verif.Spec.LeftRight
import Verif.Properties.MirrorTable
import Verif.Properties.SymmetryStore

/-!
# C119: scattering matrices left and right of the plane of the incoming light
-/
namespace Verif.Content

open Finset Verif.Graph Verif.Scatter Verif.TMatrix Verif.TMatrix.Spec
open Verif.Alignment (Axisymmetric)

section
variable {H : Problem} {B : Nat → Bessel}

/-- every grain has a T-matrix that is axisymmetric for all indices -/
theorem axial {c : Cell} {g : Nat} {T : Nat → Nat → Int → Nat → Nat → ℂ} (hs : Solvable H B c g 0) (hT : IsGrain H B c g T) :
    ∃ T', Axisymmetric T' ∧ IsGrain H B c g T' := by
  have z := fun i n i' n' => c74_zero Complex.I two_ne_zero hs (hT.pos 0 (by omega)) (i := i) (n := n) (i' := i') (n' := n')
  refine ⟨fun i n m i' n' => if m = 0 ∧ (i + i') % 2 = 1 then 0 else (if m < 0 then (-1) ^ (i + i') else 1) * T i n m.natAbs i' n', ?_, hT.order, ?_, ?_⟩
  · intro i n m i' n'
    dsimp only
    by_cases h0 : m = 0
    · subst h0
      by_cases hp : (i + i') % 2 = 1
      · simp [hp]
      · simp only [neg_zero, hp, and_false, if_false, lt_irrefl]
        rw [Even.neg_one_pow (by rw [Nat.even_iff]; omega)]
        ring
    · have p := sgn_sq (K := ℂ) (i + i')
      rw [if_neg (show ¬ (-m = 0 ∧ (i + i') % 2 = 1) by omega), if_neg (show ¬ (m = 0 ∧ (i + i') % 2 = 1) by omega), Int.natAbs_neg]
      by_cases hm : m < 0
      · rw [if_neg (show ¬ -m < 0 by omega), if_pos hm, ← mul_assoc, p]
      · rw [if_pos (show -m < 0 by omega), if_neg hm, one_mul]
  · intro m hm
    refine transition_congr Complex.I (hT.pos m hm) fun i n i' n' b1 b2 b3 b4 b5 b6 => ?_
    by_cases hc : (m : Int) = 0 ∧ (i + i') % 2 = 1
    · rw [if_pos hc]
      have : m = 0 := by omega
      subst this
      exact (z i n i' n' b1 b2 (by omega) b4 (by omega) b6 (by omega)).symm
    · rw [if_neg hc, if_neg (by omega), one_mul, Int.natAbs_natCast]
  · intro m hm
    have N := c74_negative Complex.I (hT.pos m hm)
    intro i n i' n' b1 b2 b3 b4 b5 b6
    rw [← N i n i' n' b1 b2 b3 b4 b5 b6]
    refine sum_congr rfl fun i'' hi'' => sum_congr rfl fun n'' hn'' => ?_
    rw [mem_range] at hi''
    rw [mem_Ico] at hn''
    congr 1
    dsimp only
    by_cases h0 : m = 0
    · subst h0
      by_cases hp : (i + i'') % 2 = 1
      · rw [if_pos ⟨by simp, hp⟩, z i n i'' n'' b1 hi'' (by omega) b4 (by omega) (by omega) (by omega), mul_zero]
      · rw [if_neg (by omega), Even.neg_one_pow (by rw [Nat.even_iff]; omega)]
        simp
    · rw [if_neg (by omega), if_pos (by omega), Int.natAbs_neg, Int.natAbs_natCast]

end

section
variable {T : Nat → Nat → Int → Nat → Nat → ℂ} {nmax : Nat}

theorem ampSum_turn (φ : ℝ) (f : Int → Nat → Nat → ℂ) : ampSum nmax (2 * Real.pi - φ) f = ampSum nmax φ fun m n n' => f (-m) n n' := by
  unfold ampSum
  refine sum_nbij' (fun x => -x) (fun x => -x) ?_ ?_ (fun x _ => neg_neg x) (fun x _ => neg_neg x) ?_
  · intro x hx
    rw [mem_Icc] at hx ⊢
    omega
  · intro x hx
    rw [mem_Icc] at hx ⊢
    omega
  · intro m _
    beta_reduce
    rw [neg_neg, Int.natAbs_neg]
    refine sum_congr rfl fun n' _ => sum_congr rfl fun n _ => ?_
    congr 1
    have e : Complex.I * ((m : ℂ) * ((2 * Real.pi - φ : ℝ) : ℂ)) = Complex.I * (((-m : Int) : ℂ) * φ) + m * (2 * Real.pi * Complex.I) := by
      push_cast
      ring
    rw [e, Complex.exp_add, Complex.exp_int_mul_two_pi_mul_I, mul_one]

/-- mirrored azimuths: the elements that change the polarisation are reversed -/
theorem amp_turn (hA : Axisymmetric T) (α : Nat → Nat → ℂ) (o i : Angular) (k φ : ℝ) :
    S11 T α o i k nmax (2 * Real.pi - φ) = S11 T α o i k nmax φ ∧ S12 T α o i k nmax (2 * Real.pi - φ) = -S12 T α o i k nmax φ
      ∧ S21 T α o i k nmax (2 * Real.pi - φ) = -S21 T α o i k nmax φ ∧ S22 T α o i k nmax (2 * Real.pi - φ) = S22 T α o i k nmax φ := by
  have sq : ∀ m : Int, ((-1 : ℂ) ^ m.natAbs) * (-1) ^ m.natAbs = 1 := fun m => by rw [← mul_pow]; simp
  have neg : ∀ f : Int → Nat → Nat → ℂ, ampSum nmax φ (fun m n n' => -f m n n') = -ampSum nmax φ f := by
    intro f
    unfold ampSum
    simp only [neg_mul, sum_neg_distrib]
  unfold S11 S12 S21 S22
  simp only [ampSum_turn]
  refine ⟨?_, ?_, ?_, ?_⟩
  · congr 1
    refine ampSum_congr fun m n n' _ _ _ _ _ _ => ?_
    have s := sq m
    rw [hA, hA, hA, hA, o.pi_neg, o.tau_neg, i.pi_neg, i.tau_neg]
    push_cast
    linear_combination α n n' * (T 0 n m 0 n' * o.pi m n * i.pi m n' + T 1 n m 0 n' * o.tau m n * i.pi m n'
      + T 0 n m 1 n' * o.pi m n * i.tau m n' + T 1 n m 1 n' * o.tau m n * i.tau m n') * s
  · rw [← mul_neg, ← neg]
    congr 1
    refine ampSum_congr fun m n n' _ _ _ _ _ _ => ?_
    have s := sq m
    rw [hA, hA, hA, hA, o.pi_neg, o.tau_neg, i.pi_neg, i.tau_neg]
    push_cast
    linear_combination -α n n' * (T 0 n m 0 n' * o.pi m n * i.tau m n' + T 1 n m 0 n' * o.tau m n * i.tau m n'
      + T 0 n m 1 n' * o.pi m n * i.pi m n' + T 1 n m 1 n' * o.tau m n * i.pi m n') * s
  · rw [← mul_neg, ← neg]
    congr 1
    refine ampSum_congr fun m n n' _ _ _ _ _ _ => ?_
    have s := sq m
    rw [hA, hA, hA, hA, o.pi_neg, o.tau_neg, i.pi_neg, i.tau_neg]
    push_cast
    linear_combination -α n n' * (T 0 n m 0 n' * o.tau m n * i.pi m n' + T 1 n m 0 n' * o.pi m n * i.pi m n'
      + T 0 n m 1 n' * o.tau m n * i.tau m n' + T 1 n m 1 n' * o.pi m n * i.tau m n') * s
  · congr 1
    refine ampSum_congr fun m n n' _ _ _ _ _ _ => ?_
    have s := sq m
    rw [hA, hA, hA, hA, o.pi_neg, o.tau_neg, i.pi_neg, i.tau_neg]
    push_cast
    linear_combination α n n' * (T 0 n m 0 n' * o.tau m n * i.tau m n' + T 1 n m 0 n' * o.pi m n * i.tau m n'
      + T 0 n m 1 n' * o.tau m n * i.pi m n' + T 1 n m 1 n' * o.pi m n * i.pi m n') * s

end

section
variable {H : Problem} {B : Nat → Bessel} {p : Graph.Par}

theorem ensemble_axisymmetric {c : Graph.Cell} {T : Nat → Nat → Int → Nat → Nat → ℂ} (hA : Axisymmetric T) : Axisymmetric (ensemble H c T) := by
  unfold ensemble
  split_ifs
  · exact averaged_axisymmetric (algebraMap ℝ ℂ) _ hA
  · exact hA

theorem gridφ_mirror {n i : Nat} (hr : SymmetricRule H n) (hi : i < n) : gridφ H n (n - 1 - i) = 2 * Real.pi - gridφ H n i := by
  unfold gridφ
  rw [(hr i hi).1]
  ring

/-- **C119** The scattering matrices in a table left and right of the plane of the axis and the incoming light differ by the signs of the last two Stokes parameters only. -/
theorem c119_entry (hp : Proper H B p) {g : Nat → Nat} {T : Nat → Nat → Nat → Int → Nat → Nat → ℂ} (hG : Grains H B p g T) {v : Val} (hv : IsEntry H p g T .scat v) : LeftRight H v := by
  have hex : ∀ s, ∃ T', s < H.P.nshape → Axisymmetric T' ∧ IsGrain H B ⟨p, s⟩ (g s) T' := by
    intro s
    by_cases hs : s < H.P.nshape
    · obtain ⟨T', h⟩ := axial (hp.solvable s hs (g s) (hG s hs).order.1 0 (Nat.zero_le _)) (hG s hs)
      exact ⟨T', fun _ => h⟩
    · exact ⟨0, fun h => absurd h hs⟩
  choose T' hT' using hex
  obtain ⟨E, rfl, h⟩ := c84_unique hp hG (fun s hs => (hT' s hs).2) .scat v hv
  choose A hA using Rotation.angular_all
  intro it hit ip hip jp hjp e r k
  have hz : (fun k : Fin 4 => E (it * (2 * H.ntheta) + jp) r k - stokesSign r * stokesSign k * E (it * (2 * H.ntheta) + ip) r k) = 0 := by
    refine stokes_zero fun Ev Eh => ?_
    have k1 := h it hit ip hip _ _ (hA _) (hA _) Ev (-Eh) r
    have k2 := h it hit jp hjp _ _ (hA _) (hA _) Ev Eh r
    simp only [sub_mul, sum_sub_distrib]
    rw [sub_eq_zero]
    have e1 : ∀ k : Fin 4, stokesSign r * stokesSign k * E (it * (2 * H.ntheta) + ip) r k * stokes Ev Eh k
        = stokesSign r * (E (it * (2 * H.ntheta) + ip) r k * stokes Ev (-Eh) k) := by
      intro k
      rw [(stokes_flip Ev Eh k).2]
      ring
    rw [sum_congr rfl fun k _ => e1 k, ← mul_sum]
    refine k2.trans (Eq.trans ?_ (congrArg (stokesSign r * ·) k1.symm))
    change shapeMean H _ = stokesSign r * shapeMean H _
    unfold shapeMean
    rw [← mul_div_assoc, mul_sum]
    congr 1
    refine sum_congr rfl fun s hs => ?_
    obtain ⟨a1, a2, a3, a4⟩ : _ ∧ _ ∧ _ ∧ _ := amp_turn (ensemble_axisymmetric (H := H) (c := ⟨p, s⟩) (hT' s (mem_range.1 hs)).1) α (A (gridθ H H.ntheta it)) (A (Real.pi / 2))
      (waveK H p) (nmax := orderAt H (g s)) (gridφ H (2 * H.ntheta) ip)
    beta_reduce
    unfold amp11 amp12 amp21 amp22
    rw [e, a1, a2, a3, a4, mul_left_comm, ← (stokes_flip _ _ r).2]
    congr 2
    · ring
    · ring
  exact sub_eq_zero.1 (congrFun hz k)

end

/-! ## tables -/

section run
open Verif.Exec Verif.Store Verif.Api
open Verif.Special (realOps)

/-- **C119** For all calculations: whatever the schedule, the numbers of threads and queues and the reserved memory, when a thread has returned the scattering matrices in the
table have this symmetry. -/
theorem c119_run {H : Problem} (hP : Sensible H.P) {l : List Call} (h : generate H.P = some l)
    (m0 : Place Loc → Val) (hc : AllClean H.P (clean H) m0) (hv : ∀ c, m0 (.inl (.conv c)) = .ctl Ctl.new)
    (ty : Tk → Nat) (pl : Tk → List Nat) (hpl : ∀ t, (pl t).length ≤ 8000) (J Jp : Junk)
    (hist : List (Op × Junk)) (hh : hist.map Prod.fst = toOps ty pl l)
    (nq nth : Nat) (hq : 0 < nq) (hth : nth ≤ nq) (weight0 : Nat → Int) :
    ∃ s r, exec (hist ++ [(.prepare, Jp)]) (init J) = some s ∧ prepareOf s nq weight0 = some r ∧
      ∀ pr x, XReach _ (bodyOf l (placed H.P (code realOps H))) ⟨startOf s nq nth r, m0, pr⟩ x →
        (∃ th, x.st.pc th = .exited) → H.P.want .scat = true → ∀ p, p ∈ pars H.P → ∀ B, Proper H B p → Directions H .scat →
          LeftRight H (x.mem (.inl (.result .scat p))) := by
  obtain ⟨s, r, e1, e2, e3⟩ := c84_values hP h m0 hc hv ty pl hpl J Jp hist hh nq nth hq hth weight0
  refine ⟨s, r, e1, e2, fun pr x hx hex hw p hp B hB hd => ?_⟩
  obtain ⟨g, T, hG, hE⟩ := (e3 pr x hx).1 hex .scat p hw hp B hB hd
  exact c119_entry hB hG hE

end run

/-- the problem of C84 meets the hypotheses, and its grid has azimuths that are mirrored -/
example : Sensible exH.P ∧ (∃ l, generate exH.P = some l) ∧ (∀ p, Proper exH exB p) ∧ Directions exH .scat ∧ exH.P.want .scat = true
    ∧ (⟨0, 0, 0⟩ : Par) ∈ pars exH.P ∧ gridφ exH (2 * exH.ntheta) 1 = 2 * Real.pi - gridφ exH (2 * exH.ntheta) 0 := by
  refine ⟨⟨by decide, by decide, by decide⟩, c19_total (by decide), ex_proper, ex_directions _, rfl, by decide, ?_⟩
  unfold gridφ
  simp [exH]
  ring

end Verif.Content
