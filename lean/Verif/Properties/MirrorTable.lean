import Verif.Spec.MirrorTable
import Verif.Properties.Scaling
import Verif.Properties.Refine

/-!
# C118: tables have the mirror symmetry of the grains
-/
namespace Verif.Content

open Finset Verif.Graph Verif.Scatter Verif.Refine

/-- the angular functions of the mirrored direction -/
noncomputable def upside (a : Angular) : Angular where
  pi m n := (-1) ^ (n + m.natAbs) * a.pi m n
  tau m n := -((-1) ^ (n + m.natAbs) * a.tau m n)
  pi_neg m n := by
    rw [a.pi_neg, Int.natAbs_neg]
    ring
  tau_neg m n := by
    rw [a.tau_neg, Int.natAbs_neg]
    ring

theorem upside_isOf {a : Angular} {θ : ℝ} (h : a.IsOf θ) : (upside a).IsOf (Real.pi - θ) := by
  intro m n hn hmn
  obtain ⟨h1, h2⟩ := h m n hn hmn
  have hs : ∀ t, Legendre.wigner m n t = (-1) ^ (n + m) * Legendre.wigner m n (Real.pi - t) := by
    intro t
    rw [Special.wigner_reflect, ← mul_assoc, ← pow_add, Even.neg_one_pow ⟨n + m, rfl⟩, one_mul]
  constructor
  · intro hm
    have ht : Filter.Tendsto (fun t => Real.pi - t) (nhdsWithin (Real.pi - θ) {Real.pi - θ}ᶜ) (nhdsWithin θ {θ}ᶜ) := by
      refine tendsto_nhdsWithin_iff.2 ⟨?_, ?_⟩
      · have : Filter.Tendsto (fun t : ℝ => Real.pi - t) (nhds (Real.pi - θ)) (nhds (Real.pi - (Real.pi - θ))) := (continuous_const.sub continuous_id).tendsto _
        rw [sub_sub_cancel] at this
        exact this.mono_left nhdsWithin_le_nhds
      · filter_upwards [self_mem_nhdsWithin] with t ht
        intro e
        have e : Real.pi - t = θ := e
        refine ht ?_
        change t = Real.pi - θ
        linarith
    have := ((h1 hm).comp ht).const_mul ((-1) ^ (n + m))
    refine this.congr fun t => ?_
    change (-1) ^ (n + m) * (m * (Legendre.wigner m n (Real.pi - t) / Real.sin (Real.pi - t))) = _
    rw [hs t, Real.sin_pi_sub]
    ring
  · have h3 : HasDerivAt (fun t : ℝ => Real.pi - t) (-1) (Real.pi - θ) := by
      simpa using (hasDerivAt_id (Real.pi - θ)).const_sub Real.pi
    have h4 : HasDerivAt (Legendre.wigner m n) (a.tau m n) (Real.pi - (Real.pi - θ)) := by rwa [sub_sub_cancel]
    have h5 := (h4.comp (Real.pi - θ) h3).const_mul ((-1) ^ (n + m))
    have e : (fun t => (-1) ^ (n + m) * (Legendre.wigner m n ∘ fun t => Real.pi - t) t) = Legendre.wigner m n := by
      funext t
      exact (hs t).symm
    rw [e] at h5
    refine h5.congr_deriv ?_
    change (-1) ^ (n + m) * (a.tau m n * -1) = -((-1) ^ (n + m) * a.tau m n)
    ring

section
variable {T : Nat → Nat → Int → Nat → Nat → ℂ} {nmax : Nat}

theorem ampSum_congr {φ : ℝ} {f f' : Int → Nat → Nat → ℂ} (h : ∀ (m : Int) (n n' : Nat), 1 ≤ n → n ≤ nmax → 1 ≤ n' → n' ≤ nmax → |m| ≤ n → |m| ≤ n' → f m n n' = f' m n n') :
    ampSum nmax φ f = ampSum nmax φ f' := by
  unfold ampSum
  refine sum_congr rfl fun m _ => sum_congr rfl fun n' hn' => sum_congr rfl fun n hn => ?_
  have hn' := mem_Icc.1 hn'
  have hn := mem_Icc.1 hn
  rw [h m n n' (by omega) hn.2 (by omega) hn'.2 (by rw [Int.abs_eq_natAbs]; omega) (by rw [Int.abs_eq_natAbs]; omega)]

/-- mirrored directions: the elements that change the polarisation are reversed -/
theorem amp_upside (hM : Mirror T nmax) (α : Nat → Nat → ℂ) (o i : Angular) (k φ : ℝ) :
    S11 T α (upside o) (upside i) k nmax φ = S11 T α o i k nmax φ ∧ S12 T α (upside o) (upside i) k nmax φ = -S12 T α o i k nmax φ
      ∧ S21 T α (upside o) (upside i) k nmax φ = -S21 T α o i k nmax φ ∧ S22 T α (upside o) (upside i) k nmax φ = S22 T α o i k nmax φ := by
  have key : ∀ (m : Int) (n n' : Nat), 1 ≤ n → n ≤ nmax → 1 ≤ n' → n' ≤ nmax → |m| ≤ n → |m| ≤ n' → ∀ a b, a < 2 → b < 2 →
      T a n m b n' * ((-1) ^ (n + m.natAbs) * (-1) ^ (n' + m.natAbs)) = (-1) ^ (a + b) * T a n m b n' := by
    intro m n n' b1 b2 b3 b4 b5 b6 a b ha hb
    rcases Nat.mod_two_eq_zero_or_one (a + n + b + n') with h | h
    · rw [← pow_add, mul_comm]
      congr 1
      rw [neg_one_pow_eq_pow_mod_two, neg_one_pow_eq_pow_mod_two (n := a + b)]
      congr 1
      omega
    · rw [hM a n m b n' ha hb b1 b2 b3 b4 b5 b6 h]
      simp
  have neg : ∀ f : Int → Nat → Nat → ℂ, ampSum nmax φ (fun m n n' => -f m n n') = -ampSum nmax φ f := by
    intro f
    unfold ampSum
    simp only [neg_mul, sum_neg_distrib]
  unfold S11 S12 S21 S22
  refine ⟨?_, ?_, ?_, ?_⟩
  · congr 1
    refine ampSum_congr fun m n n' b1 b2 b3 b4 b5 b6 => ?_
    have q := key m n n' b1 b2 b3 b4 b5 b6
    have q1 := q 0 0 (by omega) (by omega)
    have q2 := q 1 0 (by omega) (by omega)
    have q3 := q 0 1 (by omega) (by omega)
    have q4 := q 1 1 (by omega) (by omega)
    simp only [upside]
    push_cast
    linear_combination α n n' * (o.pi m n * i.pi m n' * q1 - o.tau m n * i.pi m n' * q2 - o.pi m n * i.tau m n' * q3 + o.tau m n * i.tau m n' * q4)
  · rw [← mul_neg, ← neg]
    congr 1
    refine ampSum_congr fun m n n' b1 b2 b3 b4 b5 b6 => ?_
    have q := key m n n' b1 b2 b3 b4 b5 b6
    have q1 := q 0 0 (by omega) (by omega)
    have q2 := q 1 0 (by omega) (by omega)
    have q3 := q 0 1 (by omega) (by omega)
    have q4 := q 1 1 (by omega) (by omega)
    simp only [upside]
    push_cast
    linear_combination α n n' * (-(o.pi m n * i.tau m n' * q1) + o.tau m n * i.tau m n' * q2 + o.pi m n * i.pi m n' * q3 - o.tau m n * i.pi m n' * q4)
  · rw [← mul_neg, ← neg]
    congr 1
    refine ampSum_congr fun m n n' b1 b2 b3 b4 b5 b6 => ?_
    have q := key m n n' b1 b2 b3 b4 b5 b6
    have q1 := q 0 0 (by omega) (by omega)
    have q2 := q 1 0 (by omega) (by omega)
    have q3 := q 0 1 (by omega) (by omega)
    have q4 := q 1 1 (by omega) (by omega)
    simp only [upside]
    push_cast
    linear_combination α n n' * (-(o.tau m n * i.pi m n' * q1) + o.pi m n * i.pi m n' * q2 + o.tau m n * i.tau m n' * q3 - o.pi m n * i.tau m n' * q4)
  · congr 1
    refine ampSum_congr fun m n n' b1 b2 b3 b4 b5 b6 => ?_
    have q := key m n n' b1 b2 b3 b4 b5 b6
    have q1 := q 0 0 (by omega) (by omega)
    have q2 := q 1 0 (by omega) (by omega)
    have q3 := q 0 1 (by omega) (by omega)
    have q4 := q 1 1 (by omega) (by omega)
    simp only [upside]
    push_cast
    linear_combination α n n' * (o.tau m n * i.tau m n' * q1 - o.pi m n * i.tau m n' * q2 - o.tau m n * i.pi m n' * q3 + o.pi m n * i.pi m n' * q4)

end

section
variable {H : Problem} {c : Graph.Cell} {g : Nat} {T : Nat → Nat → Int → Nat → Nat → ℂ}

theorem amps_upside (hM : Mirror T (orderAt H g)) (o i : Angular) (φ : ℝ) :
    amp11 H c g T (upside o) (upside i) φ = amp11 H c g T o i φ ∧ amp12 H c g T (upside o) (upside i) φ = -amp12 H c g T o i φ
      ∧ amp21 H c g T (upside o) (upside i) φ = -amp21 H c g T o i φ ∧ amp22 H c g T (upside o) (upside i) φ = amp22 H c g T o i φ :=
  amp_upside (ensemble_mirror hM) α o i _ φ

theorem ext_upside (hM : Mirror T (orderAt H g)) (o : Angular) :
    extI H c g T (upside o) = extI H c g T o ∧ extQ H c g T (upside o) = extQ H c g T o ∧ extV H c g T (upside o) = extV H c g T o := by
  obtain ⟨a1, _, _, a4⟩ := amps_upside (c := c) hM o o 0
  unfold extI extQ extV
  rw [a1, a4]
  exact ⟨rfl, rfl, rfl⟩

theorem stokes_flip (a b : ℂ) (r : Fin 4) : stokes (-a) b r = stokesSign r * stokes a b r ∧ stokes a (-b) r = stokesSign r * stokes a b r := by
  unfold stokes stokesSign
  constructor <;> fin_cases r <;> simp <;> ring

theorem scattered_upside (hM : Mirror T (orderAt H g)) (o i : Angular) (φ : ℝ) (r : Fin 4) :
    scattered H c g T (upside o) (upside i) φ r = stokesSign r * scattered H c g T o i φ r := by
  obtain ⟨a1, a2, a3, a4⟩ := amps_upside (c := c) hM o i φ
  unfold scattered
  rw [a1, a2, a3, a4, (stokes_flip _ _ r).2, (stokes_flip _ _ r).1]
  ring

theorem lost_upside (hM : Mirror T (orderAt H g)) (hr : SymmetricRule H H.ngrid) (o : Angular) (i : Nat → Angular) (r : Fin 4) :
    lost H c g T (upside o) (fun j => upside (i (H.ngrid - 1 - j))) r = stokesSign r * lost H c g T o i r := by
  unfold lost
  rw [← sum_range_reflect, mul_sum]
  refine sum_congr rfl fun j hj => ?_
  have hj := mem_range.1 hj
  rw [mul_sum]
  refine sum_congr rfl fun l _ => ?_
  rw [scattered_upside hM, (hr j hj).2, show H.ngrid - 1 - (H.ngrid - 1 - j) = j by omega]
  ring

theorem gridθ_mirror {n i : Nat} (hr : SymmetricRule H n) (hi : i < n) : gridθ H n (n - 1 - i) = Real.pi - gridθ H n i := by
  unfold gridθ
  rw [(hr i hi).1, Real.arccos_neg]

variable {B : Nat → Bessel} {p : Graph.Par}

/-- **C118** Entries of a table have the mirror symmetry of the grains: the efficiencies of two directions that are mirrored in the plane perpendicular to the axis are the
same, and the scattering matrices of mirrored directions differ by the signs of the last two Stokes parameters only. -/
theorem c118_entry (hp : Proper H B p) {g : Nat → Nat} {T : Nat → Nat → Nat → Int → Nat → Nat → ℂ} (hG : Grains H B p g T) {q : Graph.Qty} {v : Val}
    (hr : q = .abs → SymmetricRule H H.ngrid) (hr' : q = .scat → SymmetricRule H H.ntheta) (hv : IsEntry H p g T q v) : MirrorTable H v := by
  have hM : ∀ s < H.P.nshape, Mirror (T s) (orderAt H (g s)) := fun s hs => c100_mirror hp hs (hG s hs)
  choose A hA using Rotation.angular_all
  cases q with
  | ext =>
    obtain ⟨E, rfl, h⟩ := hv
    intro it hit jt hjt e
    obtain ⟨k1, k2, k3⟩ := h it hit _ (hA _)
    obtain ⟨l1, l2, l3⟩ := h jt hjt (upside (A (H.theta it))) (e ▸ upside_isOf (hA _))
    refine ⟨l1.trans (Eq.trans ?_ k1.symm), l2.trans (Eq.trans ?_ k2.symm), l3.trans (Eq.trans ?_ k3.symm)⟩
    · exact mean_congr (H := H) fun s hs => (ext_upside (hM s hs) _).1
    · exact mean_congr (H := H) fun s hs => (ext_upside (hM s hs) _).2.1
    · exact mean_congr (H := H) fun s hs => (ext_upside (hM s hs) _).2.2
  | abs =>
    obtain ⟨E, rfl, h⟩ := hv
    have hr := hr rfl
    intro it hit jt hjt e
    obtain ⟨k1, k2⟩ := h it hit _ (hA _) (fun j => A (gridθ H H.ngrid j)) fun j _ => hA _
    obtain ⟨l1, l2⟩ := h jt hjt (upside (A (H.theta it))) (e ▸ upside_isOf (hA _)) (fun j => upside (A (gridθ H H.ngrid (H.ngrid - 1 - j)))) fun j hj => by
      have := upside_isOf (hA (gridθ H H.ngrid (H.ngrid - 1 - j)))
      rwa [gridθ_mirror hr hj, sub_sub_cancel, ← gridθ_mirror hr hj] at this
    refine ⟨l1.trans (Eq.trans ?_ k1.symm), l2.trans (Eq.trans ?_ k2.symm)⟩
    · refine mean_congr (H := H) fun s hs => ?_
      rw [(ext_upside (hM s hs) _).1]
      have := lost_upside (c := ⟨p, s⟩) (hM s hs) hr (A (H.theta it)) (fun j => A (gridθ H H.ngrid j)) 0
      rw [this]
      simp [stokesSign]
    · refine mean_congr (H := H) fun s hs => ?_
      rw [(ext_upside (hM s hs) _).2.1]
      have := lost_upside (c := ⟨p, s⟩) (hM s hs) hr (A (H.theta it)) (fun j => A (gridθ H H.ngrid j)) 1
      rw [this]
      simp [stokesSign]
  | scat =>
    obtain ⟨E, rfl, h⟩ := hv
    have hr := hr' rfl
    intro it hit ip hip r k
    have hz : (fun k : Fin 4 => E ((H.ntheta - 1 - it) * (2 * H.ntheta) + ip) r k - stokesSign r * stokesSign k * E (it * (2 * H.ntheta) + ip) r k) = 0 := by
      refine stokes_zero fun Ev Eh => ?_
      have k1 := h it hit ip hip _ _ (hA _) (hA _) Ev (-Eh) r
      have k2 := h (H.ntheta - 1 - it) (by omega) ip hip (upside (A (gridθ H H.ntheta it))) (upside (A (Real.pi / 2))) (gridθ_mirror hr hit ▸ upside_isOf (hA _))
        (by have := upside_isOf (hA (Real.pi / 2)); rwa [show Real.pi - Real.pi / 2 = Real.pi / 2 by ring] at this) Ev Eh r
      simp only [sub_mul, sum_sub_distrib]
      rw [sub_eq_zero]
      have e1 : ∀ k : Fin 4, stokesSign r * stokesSign k * E (it * (2 * H.ntheta) + ip) r k * stokes Ev Eh k
          = stokesSign r * (E (it * (2 * H.ntheta) + ip) r k * stokes Ev (-Eh) k) := by
        intro k
        rw [(stokes_flip Ev Eh k).2]
        ring
      rw [sum_congr rfl fun k _ => e1 k, ← mul_sum]
      refine k2.trans (Eq.trans ?_ (congrArg (stokesSign r * ·) k1.symm))
      change shapeMean H _ = stokesSign r * shapeMean H _
      unfold shapeMean
      rw [← mul_div_assoc, mul_sum]
      congr 1
      refine sum_congr rfl fun s hs => ?_
      obtain ⟨a1, a2, a3, a4⟩ := amps_upside (c := ⟨p, s⟩) (hM s (mem_range.1 hs)) (A (gridθ H H.ntheta it)) (A (Real.pi / 2)) (gridφ H (2 * H.ntheta) ip)
      beta_reduce
      rw [a1, a2, a3, a4, mul_left_comm, ← (stokes_flip _ _ r).2]
      congr 2
      · ring
      · ring
    have := sub_eq_zero.1 (congrFun hz k)
    exact this

end

/-! ## tables -/

section run
open Verif.Exec Verif.Store Verif.Api
open Verif.Special (realOps)

/-- **C118** For all calculations: whatever the schedule, the numbers of threads and queues and the reserved memory, when a thread has returned the entries of the table have
the mirror symmetry of the grains. -/
theorem c118_run {H : Problem} (hP : Sensible H.P) {l : List Call} (h : generate H.P = some l)
    (m0 : Place Loc → Val) (hc : AllClean H.P (clean H) m0) (hv : ∀ c, m0 (.inl (.conv c)) = .ctl Ctl.new)
    (ty : Tk → Nat) (pl : Tk → List Nat) (hpl : ∀ t, (pl t).length ≤ 8000) (J Jp : Junk)
    (hist : List (Op × Junk)) (hh : hist.map Prod.fst = toOps ty pl l)
    (nq nth : Nat) (hq : 0 < nq) (hth : nth ≤ nq) (weight0 : Nat → Int) :
    ∃ s r, exec (hist ++ [(.prepare, Jp)]) (init J) = some s ∧ prepareOf s nq weight0 = some r ∧
      ∀ pr x, XReach _ (bodyOf l (placed H.P (code realOps H))) ⟨startOf s nq nth r, m0, pr⟩ x →
        (∃ th, x.st.pc th = .exited) → ∀ q p, H.P.want q = true → p ∈ pars H.P → ∀ B, Proper H B p → Directions H q →
          (q = .abs → SymmetricRule H H.ngrid) → (q = .scat → SymmetricRule H H.ntheta) → MirrorTable H (x.mem (.inl (.result q p))) := by
  obtain ⟨s, r, e1, e2, e3⟩ := c84_values hP h m0 hc hv ty pl hpl J Jp hist hh nq nth hq hth weight0
  refine ⟨s, r, e1, e2, fun pr x hx hex q p hw hp B hB hd hr hr' => ?_⟩
  obtain ⟨g, T, hG, hE⟩ := (e3 pr x hx).1 hex q p hw hp B hB hd
  exact c118_entry hB hG hr hr' hE

end run

/-- the problem of C84 meets the hypotheses -/
example : Sensible exH.P ∧ (∃ l, generate exH.P = some l) ∧ (∀ p, Proper exH exB p) ∧ (∀ q, Directions exH q) ∧ (∀ q, exH.P.want q = true)
    ∧ (⟨0, 0, 0⟩ : Par) ∈ pars exH.P ∧ SymmetricRule exH exH.ngrid ∧ SymmetricRule exH exH.ntheta := by
  have h : SymmetricRule exH 2 := by
    intro i hi
    interval_cases i <;> constructor <;> simp [exH]
  exact ⟨⟨by decide, by decide, by decide⟩, c19_total (by decide), ex_proper, ex_directions, fun _ => rfl, by decide, h, h⟩

end Verif.Content
