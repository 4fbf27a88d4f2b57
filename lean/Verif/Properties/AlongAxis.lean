import Verif.Spec.AlongAxis
import Verif.Properties.MirrorTable

/-!
# C120: light along the axis
-/
namespace Verif.Content

open Finset Verif.Graph Verif.Scatter

/-- light along the axis goes on with the same amplitude for both polarisations -/
theorem amp_along {θ : ℝ} (h : θ = 0 ∨ θ = Real.pi) {a : Angular} (ha : a.IsOf θ) (T : Nat → Nat → Int → Nat → Nat → ℂ) (α : Nat → Nat → ℂ) (k φ : ℝ) (nmax : Nat) :
    S11 T α a a k nmax φ = S22 T α a a k nmax φ := by
  have hc : (Real.cos θ : ℂ) ^ 2 = 1 := by
    rcases h with rfl | rfl <;> simp
  unfold S11 S22
  congr 1
  refine ampSum_congr fun m n n' b1 b2 b3 b4 b5 b6 => ?_
  rcases Direct.angular_pole h ha m n b1 (by rw [Int.abs_eq_natAbs] at b5; omega) with ⟨hm, e⟩ | ⟨e1, e2⟩
  · rcases Direct.angular_pole h ha m n' b3 (by rw [Int.abs_eq_natAbs] at b6; omega) with ⟨-, e'⟩ | ⟨e1', e2'⟩
    · rw [e, e']
      have hm' : (m : ℂ) ^ 2 = 1 := by exact_mod_cast hm
      have s : ((Real.cos θ : ℂ) * m) ^ 2 = 1 := by rw [mul_pow, hc, hm', one_mul]
      push_cast at s ⊢
      linear_combination α n n' * (T 1 n m 1 n' - T 0 n m 0 n') * a.pi m n * a.pi m n' * s
    · rw [e1', e2']
      simp
  · rw [e1, e2]
    simp

theorem ext_along {H : Problem} {c : Graph.Cell} {g : Nat} {T : Nat → Nat → Int → Nat → Nat → ℂ} {θ : ℝ} (h : θ = 0 ∨ θ = Real.pi) {a : Angular} (ha : a.IsOf θ) :
    extQ H c g T a = 0 ∧ extV H c g T a = 0 := by
  have e : amp11 H c g T a a 0 = amp22 H c g T a a 0 := amp_along h ha _ _ _ _ _
  unfold extQ extV
  rw [e, sub_self]
  simp

/-- **C120** Entries of a table for light along the axis: the extinction is the same for all polarisations. -/
theorem c120_entry {H : Problem} {p : Graph.Par} {g : Nat → Nat} {T : Nat → Nat → Nat → Int → Nat → Nat → ℂ} {q : Qty} {v : Val} (hq : q ≠ .scat) (hv : IsEntry H p g T q v) :
    AlongAxis H v := by
  choose A hA using Rotation.angular_all
  have zero : shapeMean H (fun _ => 0) = 0 := by
    unfold shapeMean
    simp
  cases q with
  | ext =>
    obtain ⟨E, rfl, h⟩ := hv
    intro it hit ha
    obtain ⟨-, k2, k3⟩ := h it hit _ (hA _)
    simp only [(ext_along ha (hA _)).1, (ext_along ha (hA _)).2] at k2 k3
    exact ⟨k2.trans zero, k3.trans zero⟩
  | abs =>
    obtain ⟨E, rfl, h⟩ := hv
    intro hs it hit ha
    obtain ⟨-, k2⟩ := h it hit _ (hA _) (fun j => A (gridθ H H.ngrid j)) fun j _ => hA _
    simp only [(ext_along ha (hA _)).1, hs, sub_self, Bool.false_eq_true, if_false] at k2
    exact k2.trans zero
  | scat => exact absurd rfl hq

/-! ## tables -/

section run
open Verif.Exec Verif.Store Verif.Api
open Verif.Special (realOps)

/-- **C120** For all calculations: whatever the schedule, the numbers of threads and queues and the reserved memory, when a thread has returned the coefficients in the table
are those of grains that do not polarise light along their axis. -/
theorem c120_run {H : Problem} (hP : Sensible H.P) {l : List Call} (h : generate H.P = some l)
    (m0 : Place Loc → Val) (hc : AllClean H.P (clean H) m0) (hv : ∀ c, m0 (.inl (.conv c)) = .ctl Ctl.new)
    (ty : Tk → Nat) (pl : Tk → List Nat) (hpl : ∀ t, (pl t).length ≤ 8000) (J Jp : Junk)
    (hist : List (Op × Junk)) (hh : hist.map Prod.fst = toOps ty pl l)
    (nq nth : Nat) (hq : 0 < nq) (hth : nth ≤ nq) (weight0 : Nat → Int) :
    ∃ s r, exec (hist ++ [(.prepare, Jp)]) (init J) = some s ∧ prepareOf s nq weight0 = some r ∧
      ∀ pr x, XReach _ (bodyOf l (placed H.P (code realOps H))) ⟨startOf s nq nth r, m0, pr⟩ x →
        (∃ th, x.st.pc th = .exited) → ∀ q p, q ≠ .scat → H.P.want q = true → p ∈ pars H.P → ∀ B, Proper H B p → Directions H q →
          AlongAxis H (x.mem (.inl (.result q p))) := by
  obtain ⟨s, r, e1, e2, e3⟩ := c84_values hP h m0 hc hv ty pl hpl J Jp hist hh nq nth hq hth weight0
  refine ⟨s, r, e1, e2, fun pr x hx hex q p hs hw hp B hB hd => ?_⟩
  obtain ⟨g, T, -, hE⟩ := (e3 pr x hx).1 hex q p hw hp B hB hd
  exact c120_entry hs hE

end run

/-- the problem of C84 meets the hypotheses, and its first direction is along the axis -/
example : Sensible exH.P ∧ (∃ l, generate exH.P = some l) ∧ (∀ p, Proper exH exB p) ∧ (∀ q, Directions exH q) ∧ (∀ q, exH.P.want q = true)
    ∧ (⟨0, 0, 0⟩ : Par) ∈ pars exH.P ∧ 0 < exH.ntheta ∧ exH.theta 0 = 0 :=
  ⟨⟨by decide, by decide, by decide⟩, c19_total (by decide), ex_proper, ex_directions, fun _ => rfl, by decide, by simp [exH], by simp [exH]⟩

end Verif.Content
