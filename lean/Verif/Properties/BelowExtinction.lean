import Verif.Spec.BelowExtinction
import Verif.Properties.MirrorTable

/-!
# C121: absorption is at most extinction
-/
namespace Verif.Content

open Finset Verif.Graph Verif.Scatter

section
variable {H : Problem} {c : Graph.Cell} {g : Nat} {T : Nat → Nat → Int → Nat → Nat → ℂ}

theorem scattered_bound (o i : Angular) (φ : ℝ) : |scattered H c g T o i φ 1| ≤ scattered H c g T o i φ 0 := by
  unfold scattered stokes
  rw [abs_le]
  simp only [Matrix.cons_val_zero, Matrix.cons_val_one]
  have h1 := Complex.normSq_nonneg (amp11 H c g T o i φ)
  have h2 := Complex.normSq_nonneg (amp12 H c g T o i φ)
  have h3 := Complex.normSq_nonneg (amp21 H c g T o i φ)
  have h4 := Complex.normSq_nonneg (amp22 H c g T o i φ)
  constructor <;> linarith

theorem lost_bound (hw : ∀ j < H.ngrid, 0 ≤ (H.gl H.ngrid).2 j) (o : Angular) (i : Nat → Angular) : |lost H c g T o i 1| ≤ lost H c g T o i 0 := by
  unfold lost
  refine (abs_sum_le_sum_abs _ _).trans (sum_le_sum fun j hj => (abs_sum_le_sum_abs _ _).trans (sum_le_sum fun l hl => ?_))
  have w : 0 ≤ (H.gl H.ngrid).2 j * gridW H H.ngrid l := mul_nonneg (hw j (mem_range.1 hj)) (mul_nonneg (hw l (mem_range.1 hl)) Real.pi_pos.le)
  rw [abs_mul, abs_of_nonneg w]
  exact mul_le_mul_of_nonneg_left (scattered_bound _ _ _) w

theorem shapeMean_sub (f f' : Nat → ℝ) : shapeMean H f - shapeMean H (fun s => f s - f' s) = shapeMean H f' := by
  unfold shapeMean
  rw [← sub_div, ← sum_sub_distrib]
  congr 1
  refine sum_congr rfl fun s _ => ?_
  ring

theorem shapeMean_bound (hw : ∀ s < H.P.nshape, 0 ≤ H.weight s) {f f' : Nat → ℝ} (h : ∀ s, |f s| ≤ f' s) : |shapeMean H f| ≤ shapeMean H f' := by
  have h0 : 0 ≤ ∑ s ∈ range H.P.nshape, H.weight s := sum_nonneg fun s hs => hw s (mem_range.1 hs)
  unfold shapeMean
  rw [abs_div, abs_of_nonneg h0]
  refine div_le_div_of_nonneg_right ((abs_sum_le_sum_abs _ _).trans (sum_le_sum fun s hs => ?_)) h0
  have w := hw s (mem_range.1 hs)
  rw [abs_mul, abs_of_nonneg w]
  exact mul_le_mul_of_nonneg_left (h s) w

variable {B : Nat → Bessel} {p : Graph.Par} {gs gs' : Nat → Nat} {Ts Ts' : Nat → Nat → Nat → Int → Nat → Nat → ℂ} {v v' : Val}

/-- **C121** Entries of a table: absorption is at most extinction, for light that is not polarised and for light that is polarised along one of the two directions. -/
theorem c121_entry (hp : Proper H B p) (hG : Grains H B p gs Ts) (hG' : Grains H B p gs' Ts') (hw : ∀ s < H.P.nshape, 0 ≤ H.weight s) (hw' : ∀ j < H.ngrid, 0 ≤ (H.gl H.ngrid).2 j)
    (hv : IsEntry H p gs Ts .ext v) (hv' : IsEntry H p gs' Ts' .abs v') : BelowExtinction H v v' := by
  choose A hA using Rotation.angular_all
  obtain ⟨E, rfl, h⟩ := hv
  obtain ⟨E', rfl, h'⟩ := c84_unique hp hG' hG .abs v' hv'
  intro it hit
  obtain ⟨k1, k2, -⟩ := h it hit _ (hA _)
  obtain ⟨l1, l2⟩ := h' it hit _ (hA _) (fun j => A (gridθ H H.ngrid j)) fun j _ => hA _
  rw [k1, k2, l1, l2, shapeMean_sub, shapeMean_sub]
  refine shapeMean_bound hw fun s => ?_
  split_ifs
  · have hd : 0 ≤ disc H p := mul_nonneg Real.pi_pos.le (sq_nonneg _)
    rw [abs_div, abs_of_nonneg hd]
    exact div_le_div_of_nonneg_right (lost_bound hw' _ _) hd
  · simp

/-- **C121** Without scattering, absorption is extinction. -/
theorem c121_without (hp : Proper H B p) (hG : Grains H B p gs Ts) (hG' : Grains H B p gs' Ts') (hs : H.accountForScattering = false)
    (hv : IsEntry H p gs Ts .ext v) (hv' : IsEntry H p gs' Ts' .abs v') : IsExtinguished H v v' := by
  choose A hA using Rotation.angular_all
  obtain ⟨E, rfl, h⟩ := hv
  obtain ⟨E', rfl, h'⟩ := c84_unique hp hG' hG .abs v' hv'
  intro it hit
  obtain ⟨k1, k2, -⟩ := h it hit _ (hA _)
  obtain ⟨l1, l2⟩ := h' it hit _ (hA _) (fun j => A (gridθ H H.ngrid j)) fun j _ => hA _
  simp only [hs, Bool.false_eq_true, if_false, sub_zero] at l1 l2
  exact ⟨l1.trans k1.symm, l2.trans k2.symm⟩

end

/-! ## tables -/

section run
open Verif.Exec Verif.Store Verif.Api
open Verif.Special (realOps)

/-- **C121** For all calculations: whatever the schedule, the numbers of threads and queues and the reserved memory, when a thread has returned the absorption coefficients in
the table are at most the extinction coefficients. -/
theorem c121_run {H : Problem} (hP : Sensible H.P) {l : List Call} (h : generate H.P = some l)
    (m0 : Place Loc → Val) (hc : AllClean H.P (clean H) m0) (hv : ∀ c, m0 (.inl (.conv c)) = .ctl Ctl.new)
    (ty : Tk → Nat) (pl : Tk → List Nat) (hpl : ∀ t, (pl t).length ≤ 8000) (J Jp : Junk)
    (hist : List (Op × Junk)) (hh : hist.map Prod.fst = toOps ty pl l)
    (nq nth : Nat) (hq : 0 < nq) (hth : nth ≤ nq) (weight0 : Nat → Int) :
    ∃ s r, exec (hist ++ [(.prepare, Jp)]) (init J) = some s ∧ prepareOf s nq weight0 = some r ∧
      ∀ pr x, XReach _ (bodyOf l (placed H.P (code realOps H))) ⟨startOf s nq nth r, m0, pr⟩ x →
        (∃ th, x.st.pc th = .exited) → H.P.want .ext = true → H.P.want .abs = true → ∀ p, p ∈ pars H.P → ∀ B, Proper H B p → Directions H .ext → Directions H .abs →
          ((∀ s < H.P.nshape, 0 ≤ H.weight s) → (∀ j < H.ngrid, 0 ≤ (H.gl H.ngrid).2 j) → BelowExtinction H (x.mem (.inl (.result .ext p))) (x.mem (.inl (.result .abs p))))
          ∧ (H.accountForScattering = false → IsExtinguished H (x.mem (.inl (.result .ext p))) (x.mem (.inl (.result .abs p)))) := by
  obtain ⟨s, r, e1, e2, e3⟩ := c84_values hP h m0 hc hv ty pl hpl J Jp hist hh nq nth hq hth weight0
  refine ⟨s, r, e1, e2, fun pr x hx hex hw hw' p hp B hB hd hd' => ?_⟩
  obtain ⟨g, T, hG, hE⟩ := (e3 pr x hx).1 hex .ext p hw hp B hB hd
  obtain ⟨g', T', hG', hE'⟩ := (e3 pr x hx).1 hex .abs p hw' hp B hB hd'
  exact ⟨fun a b => c121_entry hB hG hG' a b hE hE', fun a => c121_without hB hG hG' a hE hE'⟩

end run

/-- the problem of C84 meets the hypotheses -/
example : Sensible exH.P ∧ (∃ l, generate exH.P = some l) ∧ (∀ p, Proper exH exB p) ∧ (∀ q, Directions exH q) ∧ (∀ q, exH.P.want q = true)
    ∧ (⟨0, 0, 0⟩ : Par) ∈ pars exH.P ∧ (∀ s < exH.P.nshape, 0 ≤ exH.weight s) ∧ (∀ j < exH.ngrid, 0 ≤ (exH.gl exH.ngrid).2 j) ∧ exH.accountForScattering = true := by
  refine ⟨⟨by decide, by decide, by decide⟩, c19_total (by decide), ex_proper, ex_directions, fun _ => rfl, by decide, fun s _ => ?_, fun j _ => ?_, rfl⟩
  · change (0 : ℝ) ≤ s + 1
    positivity
  · change (0 : ℝ) ≤ 1
    exact zero_le_one

end Verif.Content
