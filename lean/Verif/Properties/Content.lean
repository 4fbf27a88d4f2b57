import Verif.Proofs.ContentValue
import Verif.Properties.Interp
import Mathlib.Algebra.BigOperators.Field
import Mathlib.Tactic.IntervalCases
import Mathlib.Tactic.Positivity
import Mathlib.Tactic.LinearCombination

/-!
# C84: the values in the table
-/
namespace Verif.Content

set_option autoImplicit false

open Verif.Matrix (loop Mat)
open Verif.Special (Ops realOps)
open Verif.TMatrix
open Verif.TMatrix.Spec
open Verif.Graph
open Verif.Exec Verif.Store Verif.Api
open Finset

/-- All directions that occur in the calculation of a quantity are regular (`Scatter.Regular`: along the axis, or not within rounding distance of it); the cosines of the
polar angles of the grids are cosines. -/
def Directions (H : Problem) : Qty → Prop
  | .ext => ∀ it < H.ntheta, Scatter.Regular (H.theta it)
  | .abs => (∀ it < H.ntheta, Scatter.Regular (H.theta it)) ∧
      ∀ j < H.ngrid, -1 ≤ (H.gl H.ngrid).1 j ∧ (H.gl H.ngrid).1 j ≤ 1 ∧ Scatter.Regular (gridθ H H.ngrid j)
  | .scat => ∀ j < H.ntheta, -1 ≤ (H.gl H.ntheta).1 j ∧ (H.gl H.ntheta).1 j ≤ 1 ∧ Scatter.Regular (gridθ H H.ntheta j)

/-- `v` is an entry of the table: extinction coefficients, absorption coefficients or scattering matrices -/
def IsEntry (H : Problem) (p : Par) (g : Nat → Nat) (T : Nat → Nat → Nat → Int → Nat → Nat → ℂ) : Qty → Val → Prop
  | .ext, v => ∃ E, v = .ext E ∧ IsExtinction H p g T E
  | .abs, v => ∃ A, v = .abs A ∧ IsAbsorption H p g T A
  | .scat, v => ∃ Z, v = .scat Z ∧ IsScattering H p g T Z

variable {H : Problem} {B : Nat → Bessel} {p : Par}

/-- the tasks of one entry compute its value -/
theorem alone_value (hp : Proper H B p) (hnq : 0 < H.P.nq) {q : Qty} (hd : Directions H q) {m : Place Loc → Val}
    (hc : ∀ x, Mine H.P x → m (.inl x) = clean H x) (hv : ∀ i < H.P.nshape, m (.inl (.conv ⟨p, i⟩)) = .ctl Ctl.new) :
    ∃ g T, Grains H B p g T ∧ IsEntry H p g T q (seq (code realOps H) (alone H.P q p) m (.inl (.result q p))) := by
  have hg : ∀ s, ∃ g t T, s < H.P.nshape → grain H ⟨p, s⟩ = some t ∧ IsGrain H B ⟨p, s⟩ g T ∧ Known H ⟨p, s⟩ t T g ∧ (tried H ⟨p, s⟩).c.nmax ≤ H.P.maxOrder
      ∧ (alignState H ⟨p, s⟩ t).C.ok = true ∧ (alignState H ⟨p, s⟩ t).p.ok = true := by
    intro s
    by_cases hs : s < H.P.nshape
    · obtain ⟨h0, g, t, T, h1, h2, h3, h4, h5, h6⟩ := grain_spec hp hnq hs
      have ho : orderAt H g ≤ H.P.maxOrder := order_le hp h3
      have h1' : 1 ≤ t.nmax := by
        rw [h2]
        have := hp.first
        unfold orderAt
        omega
      have he := ens_spec (H := H) (c := ⟨p, s⟩) h1' (h2.trans_le ho) h5 h6
      refine ⟨g, t, T, fun _ => ⟨h1, h4, ⟨he.1.trans h2, ho, he.2.1, he.2.2⟩, h0, ens_ok h1' fun ha => ?_⟩⟩
      rw [h2]
      exact hp.workspace s hs ha g h4.order
    · exact ⟨0, TRes.new 0, fun _ _ _ _ _ => 0, fun h => absurd h hs⟩
  choose g t T hg using hg
  refine ⟨g, T, fun s hs => (hg s hs).2.1, ?_⟩
  obtain ⟨e, he, hr⟩ := entry_run (H := H) (q := q) (p := p) (fun ig hig => order_le hp hig) hc hv t
    fun i hi => ⟨(hg i hi).2.2.2.1, (hg i hi).1, (hg i hi).2.2.2.2⟩
  rw [hr]
  cases q with
  | ext =>
    choose E hE using fun s (hs : s < H.P.nshape) => known_ext (hg s hs).2.2.1
    let E' : Nat → Interp.ExtRes ℝ := fun s => if hs : s < H.P.nshape then E s hs else ⟨fun _ => 0, fun _ => 0, fun _ => 0⟩
    have hE' : ∀ s (hs : s < H.P.nshape), E' s = E s hs := fun s hs => dif_pos hs
    obtain ⟨r, r1, r2, _⟩ := Interp.c34_extinction H.ntheta H.P.nshape H.weight E' (fun i => (e (.unav .ext ⟨p, i⟩)).toExt)
      (fun i hi => by rw [he i hi, (hE i hi).1, hE' i hi]; rfl) ⟨fun _ => 0, fun _ => 0, fun _ => 0⟩ hp.shapes
    refine ⟨r, ?_, fun it hit o ho => ?_⟩
    · unfold avgTask
      dsimp only
      rw [r1]
      rfl
    · have key := fun s hs => (hE s hs).2 it hit (hd it hit) o ho
      obtain ⟨a1, a2, a3⟩ := r2 it hit
      refine ⟨a1.trans ?_, a2.trans ?_, a3.trans ?_⟩ <;>
      · unfold shapeMean
        congr 1
        refine sum_congr rfl fun s hs => ?_
        have hs := mem_range.1 hs
        rw [hE' s hs]
        first | rw [(key s hs).1] | rw [(key s hs).2.1] | rw [(key s hs).2.2]
  | abs =>
    choose E hE using fun s (hs : s < H.P.nshape) => known_abs (hg s hs).2.2.1
    let E' : Nat → Interp.AbsRes ℝ := fun s => if hs : s < H.P.nshape then E s hs else ⟨fun _ => 0, fun _ => 0⟩
    have hE' : ∀ s (hs : s < H.P.nshape), E' s = E s hs := fun s hs => dif_pos hs
    obtain ⟨r, r1, r2, _⟩ := Interp.c34_absorption H.ntheta H.P.nshape H.weight E' (fun i => (e (.unav .abs ⟨p, i⟩)).toAbs)
      (fun i hi => by rw [he i hi, (hE i hi).1, hE' i hi]; rfl) ⟨fun _ => 0, fun _ => 0⟩ hp.shapes
    refine ⟨r, ?_, fun it hit o ho i hi => ?_⟩
    · unfold avgTask
      dsimp only
      rw [r1]
      rfl
    · have key := fun s hs => (hE s hs).2 it hit (hd.1 it hit) o ho hd.2 i hi
      obtain ⟨a1, a2⟩ := r2 it hit
      refine ⟨a1.trans ?_, a2.trans ?_⟩ <;>
      · unfold shapeMean
        congr 1
        refine sum_congr rfl fun s hs => ?_
        have hs := mem_range.1 hs
        rw [hE' s hs]
        first | rw [(key s hs).1] | rw [(key s hs).2]
  | scat =>
    choose E hE using fun s (hs : s < H.P.nshape) => known_scat (hg s hs).2.2.1
    let E' : Nat → Nat → Nat → Nat → ℝ := fun s => if hs : s < H.P.nshape then E s hs else fun _ _ _ => 0
    have hE' : ∀ s (hs : s < H.P.nshape), E' s = E s hs := fun s hs => dif_pos hs
    obtain ⟨r, r1, r2, _⟩ := Interp.c34_scattering (H.ntheta * (2 * H.ntheta)) H.P.nshape H.weight E' (fun i => (e (.unav .scat ⟨p, i⟩)).toScat)
      (fun i hi => by rw [he i hi, (hE i hi).1, hE' i hi]; rfl) (fun _ _ _ => 0) hp.shapes
    refine ⟨r, ?_, fun it hit ip hip o i ho hi Ev Eh k => ?_⟩
    · unfold avgTask
      dsimp only
      rw [r1]
      rfl
    · have key := fun s hs => (hE s hs).2 it hit ip hip hd o i ho hi Ev Eh k
      have hlt : it * (2 * H.ntheta) + ip < H.ntheta * (2 * H.ntheta) := by
        have : (it + 1) * (2 * H.ntheta) ≤ H.ntheta * (2 * H.ntheta) := Nat.mul_le_mul_right _ hit
        nlinarith
      unfold shapeMean
      rw [sum_congr rfl fun (b : Fin 4) _ => show r (it * (2 * H.ntheta) + ip) k b * Scatter.stokes Ev Eh b
          = ∑ s ∈ range H.P.nshape, H.weight s * E' s (it * (2 * H.ntheta) + ip) k b * Scatter.stokes Ev Eh b / ∑ s ∈ range H.P.nshape, H.weight s by
        rw [r2 _ k b hlt k.2 b.2, div_mul_eq_mul_div, sum_mul, sum_div], sum_comm, sum_div]
      refine sum_congr rfl fun s hs => ?_
      have hs := mem_range.1 hs
      beta_reduce
      rw [← key s hs, mul_sum, sum_div, hE' s hs]
      refine sum_congr rfl fun b _ => ?_
      ring

/-- **C84** For every schedule, every number of threads and every memory limit: when a thread has returned, the table holds the coefficients or matrices of
the grains (`Spec.Content`), for every composition, size and wavelength that meets the hypotheses; and from every reachable state all threads can still
return. -/
theorem c84_values (hP : Sensible H.P) {l : List Call} (h : generate H.P = some l) (m0 : Place Loc → Val) (hc : AllClean H.P (clean H) m0)
    (hv : ∀ c, m0 (.inl (.conv c)) = .ctl Ctl.new) (ty : Tk → Nat) (pl : Tk → List Nat) (hpl : ∀ t, (pl t).length ≤ 8000) (J Jp : Junk)
    (hist : List (Op × Junk)) (hh : hist.map Prod.fst = toOps ty pl l) (nq nth : Nat) (hq : 0 < nq) (hth : nth ≤ nq) (weight0 : Nat → Int) :
    ∃ s r, exec (hist ++ [(.prepare, Jp)]) (init J) = some s ∧ prepareOf s nq weight0 = some r ∧
      ∀ pr x, XReach _ (bodyOf l (placed H.P (code realOps H))) ⟨startOf s nq nth r, m0, pr⟩ x →
        ((∃ th, x.st.pc th = .exited) → ∀ q p, H.P.want q = true → p ∈ pars H.P → ∀ B, Proper H B p → Directions H q →
          ∃ g T, Grains H B p g T ∧ IsEntry H p g T q (x.mem (.inl (.result q p)))) ∧
        ∃ x', XReach _ (bodyOf l (placed H.P (code realOps H))) x x' ∧ Sched.AllExited x'.st := by
  have hc1 : AllClean (one H.P) (clean H) m0 := by
    intro s hs
    obtain rfl : s = 0 := Nat.lt_one_iff.1 hs
    exact hc 0 hP.slots
  have hc0 : ∀ x, Mine H.P x → m0 (.inl x) = clean H x := by
    intro x hx
    have := (allClean_iff.1 hc) 0 hP.slots x hx
    cases x <;> exact this
  obtain ⟨s, r, f1, f2, tab⟩ := c83_entry hP h (code realOps H) (clean H) (wellBehaved H) (clears H) m0 m0 hc hc1 (fun _ _ => rfl) ty pl hpl J Jp hist hh nq nth hq
    hth weight0
  refine ⟨s, r, f1, f2, fun pr x hx => ⟨fun he q p hw hp B hB hd => ?_, (tab pr x hx).2⟩⟩
  rw [(tab pr x hx).1 he q p hw hp]
  exact alone_value hB hP.orders hd hc0 fun i _ => hv _

/-! ## the values are determined -/

theorem neg_pos {g m : Nat} {c : Cell} {T : Nat → Nat → Nat → Nat → ℂ} (hT : IsTNeg H B c g m T) :
    IsT H B c g m (fun i n i' n' => (-1) ^ (i + i') * T i n i' n') := by
  intro i n i' n' hi hi' h1 h2 h3 h4
  have key := hT i n i' n' hi hi' h1 h2 h3 h4
  rw [Q_neg _ γ _ _ _ _ hi hi'] at key
  have e : ((-1 : ℂ) ^ (i + i')) * (-1) ^ (i + i') = 1 := sgn_sq _
  have : ∀ x : ℂ, x = (-1) ^ (i + i') * ((-1) ^ (i + i') * x) := fun x => by rw [← mul_assoc, e, one_mul]
  rw [this (-Q _ _ _ _ _ _ _ _ _ _ _ _ _), mul_neg, ← key, mul_sum]
  refine sum_congr rfl fun k hk => ?_
  rw [mul_sum]
  refine sum_congr rfl fun l _ => ?_
  rw [Q_neg _ γ _ _ _ _ (mem_range.1 hk) hi']
  have e2 : ((-1 : ℂ) ^ (i + i')) * (-1) ^ (k + i') = (-1) ^ (i + k) := by
    rw [← pow_add, show i + i' + (k + i') = i + k + 2 * i' by ring, pow_add, pow_mul]
    simp
  dsimp only
  rw [← e2]
  ring

/-- T-matrices that agree up to an order -/
def Agree (N : Nat) (T T' : Nat → Nat → Int → Nat → Nat → ℂ) : Prop :=
  ∀ i n (m : Int) i' n', i < 2 → i' < 2 → 1 ≤ n → n ≤ N → 1 ≤ n' → n' ≤ N → m.natAbs ≤ n → m.natAbs ≤ n' → T i n m i' n' = T' i n m i' n'

theorem isT_unique {g m : Nat} {c : Cell} (hs : Solvable H B c g m) {T T' : Nat → Nat → Nat → Nat → ℂ} (hT : IsT H B c g m T) (hT' : IsT H B c g m T')
    {i n i' n' : Nat} (hi : i < 2) (hi' : i' < 2) (h1 : max 1 m ≤ n) (h2 : n ≤ orderAt H g) (h3 : max 1 m ≤ n') (h4 : n' ≤ orderAt H g) :
    T i n i' n' = T' i n i' n' := transition_unique _ hs hT hT' hi hi' h1 h2 h3 h4

theorem close_congr {N N' : Nat} {tol : ℝ} {T T' U U' : Nat → Nat → Nat → Nat → ℂ} (h : ∀ i < 2, ∀ n, 1 ≤ n → n ≤ N → T i n i n = U i n i n)
    (h' : ∀ i < 2, ∀ n, 1 ≤ n → n ≤ N' → T' i n i n = U' i n i n) (hc : Close tol N T N' T') : Close tol N U N' U' := by
  have e : ∀ {N : Nat} {T U : Nat → Nat → Nat → Nat → ℂ}, (∀ i < 2, ∀ n, 1 ≤ n → n ≤ N → T i n i n = U i n i n) → scatSum N T = scatSum N U ∧ extSum N T = extSum N U := by
    intro N T U h
    unfold scatSum extSum
    constructor <;>
    · refine sum_congr rfl fun n hn => ?_
      have hn := mem_Icc.1 hn
      rw [h 0 (by omega) n hn.1 hn.2, h 1 (by omega) n hn.1 hn.2]
  unfold Close at hc ⊢
  rw [← (e h).1, ← (e h).2, ← (e h').1, ← (e h').2]
  exact hc

/-- only one order is used -/
theorem order_unique {c : Cell} (hs : ∀ g < H.P.nq, Solvable H B c g 0) {g g' : Nat} (h : IsOrder H B c g) (h' : IsOrder H B c g') : g = g' := by
  have key : ∀ {g g' : Nat}, IsOrder H B c g → IsOrder H B c g' → ¬ g < g' := by
    rintro g g' ⟨_, t, t1, _, t3⟩ ⟨g1, u, u1, u2, _⟩ hlt
    rcases t3 with t3 | ⟨t3, t4⟩
    · omega
    · refine u2 g t3 hlt (close_congr (fun i hi n h1 h2 => ?_) (fun i hi n h1 h2 => ?_) t4)
      · exact isT_unique (hs (g - 1) (by omega)) (t1 (g - 1) (by omega)) (u1 (g - 1) (by omega)) hi hi (by omega) h2 (by omega) h2
      · exact isT_unique (hs g (by omega)) (t1 g (by omega)) (u1 g (by omega)) hi hi (by omega) h2 (by omega) h2
  have a := key h h'
  have b := key h' h
  omega

/-- one T-matrix -/
theorem grain_unique {c : Cell} (hs : ∀ g < H.P.nq, ∀ m ≤ orderAt H g, Solvable H B c g m) {g g' : Nat} {T T' : Nat → Nat → Int → Nat → Nat → ℂ}
    (h : IsGrain H B c g T) (h' : IsGrain H B c g' T') : g = g' ∧ Agree (orderAt H g) T T' := by
  obtain rfl := order_unique (fun g hg => hs g hg 0 (Nat.zero_le _)) h.order h'.order
  refine ⟨rfl, fun i n m i' n' hi hi' h1 h2 h3 h4 h5 h6 => ?_⟩
  have hg := h.order.1
  obtain ⟨k, rfl | rfl⟩ : ∃ k : Nat, m = k ∨ m = -(k : Int) := ⟨m.natAbs, by omega⟩
  · have hk : k ≤ n := by simpa using h5
    have hk' : k ≤ n' := by simpa using h6
    exact isT_unique (hs g hg k (by omega)) (h.pos k (by omega)) (h'.pos k (by omega)) hi hi' (by omega) h2 (by omega) h4
  · have hk : k ≤ n := by simpa using h5
    have hk' : k ≤ n' := by simpa using h6
    have := isT_unique (hs g hg k (by omega)) (neg_pos (h.neg k (by omega))) (neg_pos (h'.neg k (by omega))) hi hi' (by omega) h2 (by omega) h4
    exact mul_left_cancel₀ (pow_ne_zero _ (by norm_num)) this

theorem ensemble_agree {c : Cell} {N : Nat} {T T' : Nat → Nat → Int → Nat → Nat → ℂ} (h : Agree N T T') : Agree N (ensemble H c T) (ensemble H c T') := by
  unfold ensemble
  split_ifs
  · intro i n m i' n' hi hi' h1 h2 h3 h4 h5 h6
    unfold Alignment.averaged
    refine sum_congr rfl fun k _ => sum_congr rfl fun m1 hm => ?_
    have hm := mem_Icc.1 hm
    rw [h i n m1 i' n' hi hi' h1 h2 h3 h4 (by omega) (by omega)]
  · exact h

variable {c : Cell}

theorem amp_agree {g : Nat} {T T' : Nat → Nat → Int → Nat → Nat → ℂ} (h : Agree (orderAt H g) T T') (o i : Scatter.Angular) (φ : ℝ) :
    amp11 H c g T o i φ = amp11 H c g T' o i φ ∧ amp12 H c g T o i φ = amp12 H c g T' o i φ ∧ amp21 H c g T o i φ = amp21 H c g T' o i φ
      ∧ amp22 H c g T o i φ = amp22 H c g T' o i φ := by
  have key : ∀ f f' : Int → Nat → Nat → ℂ, (∀ (m : Int) n n', 1 ≤ n → n ≤ orderAt H g → 1 ≤ n' → n' ≤ orderAt H g → m.natAbs ≤ n → m.natAbs ≤ n' →
      f m n n' = f' m n n') → Scatter.ampSum (orderAt H g) φ f = Scatter.ampSum (orderAt H g) φ f' := by
    intro f f' h
    unfold Scatter.ampSum
    refine sum_congr rfl fun m hm => ?_
    refine sum_congr rfl fun n' hn' => ?_
    refine sum_congr rfl fun n hn => ?_
    rw [mem_Icc] at hn hn'
    rw [h m n n' (by omega) (by omega) (by omega) (by omega) (by omega) (by omega)]
  have hU := ensemble_agree (H := H) (c := c) h
  unfold amp11 amp12 amp21 amp22 Scatter.S11 Scatter.S12 Scatter.S21 Scatter.S22
  generalize ensemble H c T = U at hU ⊢
  generalize ensemble H c T' = U' at hU ⊢
  refine ⟨?_, ?_, ?_, ?_⟩ <;>
  · refine congrArg _ (key _ _ fun m n n' a b a' b' d d' => ?_)
    rw [hU 0 n m 0 n' (by omega) (by omega) a b a' b' d d', hU 1 n m 0 n' (by omega) (by omega) a b a' b' d d',
      hU 0 n m 1 n' (by omega) (by omega) a b a' b' d d', hU 1 n m 1 n' (by omega) (by omega) a b a' b' d d']

theorem mean_congr {f f' : Nat → ℝ} (h : ∀ s < H.P.nshape, f s = f' s) : shapeMean H f = shapeMean H f' := by
  unfold shapeMean
  rw [sum_congr rfl fun s hs => by rw [h s (mem_range.1 hs)]]

/-- **C84** the values are determined: all T-matrices that meet the specification lead to the same entries -/
theorem c84_unique (hp : Proper H B p) {g g' : Nat → Nat} {T T' : Nat → Nat → Nat → Int → Nat → Nat → ℂ} (h : Grains H B p g T) (h' : Grains H B p g' T') (q : Qty)
    (v : Val) (hv : IsEntry H p g T q v) : IsEntry H p g' T' q v := by
  have e : ∀ s < H.P.nshape, g s = g' s ∧ Agree (orderAt H (g s)) (T s) (T' s) := fun s hs => grain_unique (hp.solvable s hs) (h s hs) (h' s hs)
  have a : ∀ s < H.P.nshape, ∀ o i φ, amp11 H ⟨p, s⟩ (g s) (T s) o i φ = amp11 H ⟨p, s⟩ (g' s) (T' s) o i φ ∧ amp12 H ⟨p, s⟩ (g s) (T s) o i φ = amp12 H ⟨p, s⟩ (g' s) (T' s) o i φ
      ∧ amp21 H ⟨p, s⟩ (g s) (T s) o i φ = amp21 H ⟨p, s⟩ (g' s) (T' s) o i φ ∧ amp22 H ⟨p, s⟩ (g s) (T s) o i φ = amp22 H ⟨p, s⟩ (g' s) (T' s) o i φ := by
    intro s hs o i φ
    obtain ⟨e1, e2⟩ := e s hs
    rw [← e1]
    exact amp_agree e2 o i φ
  have hx : ∀ s < H.P.nshape, ∀ o, extI H ⟨p, s⟩ (g s) (T s) o = extI H ⟨p, s⟩ (g' s) (T' s) o ∧ extQ H ⟨p, s⟩ (g s) (T s) o = extQ H ⟨p, s⟩ (g' s) (T' s) o
      ∧ extV H ⟨p, s⟩ (g s) (T s) o = extV H ⟨p, s⟩ (g' s) (T' s) o := by
    intro s hs o
    unfold extI extQ extV
    rw [(a s hs o o 0).1, (a s hs o o 0).2.2.2]
    exact ⟨rfl, rfl, rfl⟩
  cases q with
  | ext =>
    obtain ⟨E, e1, e2⟩ := hv
    refine ⟨E, e1, fun it hit o ho => ?_⟩
    obtain ⟨k1, k2, k3⟩ := e2 it hit o ho
    exact ⟨k1.trans (mean_congr fun s hs => (hx s hs o).1), k2.trans (mean_congr fun s hs => (hx s hs o).2.1), k3.trans (mean_congr fun s hs => (hx s hs o).2.2)⟩
  | abs =>
    obtain ⟨E, e1, e2⟩ := hv
    refine ⟨E, e1, fun it hit o ho i hi => ?_⟩
    have hl : ∀ s < H.P.nshape, ∀ r, lost H ⟨p, s⟩ (g s) (T s) o i r = lost H ⟨p, s⟩ (g' s) (T' s) o i r := by
      intro s hs r
      unfold lost scattered
      refine sum_congr rfl fun j _ => sum_congr rfl fun l _ => ?_
      have := a s hs o (i j) (-gridφ H H.ngrid l)
      rw [this.1, this.2.1, this.2.2.1, this.2.2.2]
    obtain ⟨k1, k2⟩ := e2 it hit o ho i hi
    refine ⟨k1.trans (mean_congr fun s hs => ?_), k2.trans (mean_congr fun s hs => ?_)⟩
    · rw [(hx s hs o).1, hl s hs]
    · rw [(hx s hs o).2.1, hl s hs]
  | scat =>
    obtain ⟨E, e1, e2⟩ := hv
    refine ⟨E, e1, fun it hit ip hip o i ho hi Ev Eh r => ?_⟩
    refine (e2 it hit ip hip o i ho hi Ev Eh r).trans (mean_congr fun s hs => ?_)
    have := a s hs o i (gridφ H (2 * H.ntheta) ip)
    rw [this.1, this.2.1, this.2.2.1, this.2.2.2]

/-! ## an example

Made-up radial functions (the same for all orders and arguments) for which the linear equations are easy to solve. -/

/-- orders 1 and 2 are available, only order 1 is tried; two shapes, partially aligned -/
noncomputable def exH : Problem where
  P := ⟨1, 2, 2, 1, 1, 1, 1, fun _ => true⟩
  minOrder := 1
  factor := 1
  tol := 1 / 10 ^ 4
  radius _ := 1 / 10
  wavelength _ := 2
  mr _ := 2
  axisRatio _ := 1
  weight s := s + 1
  aligned c := decide (c.ish = 1)
  coeff _ := ⟨3, fun N => if N = 0 then 1 else if N = 2 then 1 / 2 else 0, true⟩
  theta i := if i = 0 then 0 else Real.pi / 2
  ntheta := 2
  ngrid := 2
  accountForScattering := true
  gl _ := (fun i => if i = 0 then -(3 / 5) else 3 / 5, fun _ => 1)
  jdj _ _ _ := (fun _ => 1, fun _ => 0)
  ydy _ _ _ := (fun _ => 1, fun _ => 0)
  jdjm _ _ _ := (fun _ => 0, fun _ => 1)

noncomputable def exB (_ : Nat) : Bessel := ⟨fun _ _ => 1, fun _ _ => 0, fun _ _ => 1, fun _ _ => 0, fun _ _ => 0, fun _ _ => 1⟩

theorem spheroid_one : spheroid 1 = fun _ => 1 := by
  funext θ
  unfold spheroid
  simp

theorem wigner_01 : Legendre.wigner 0 1 = Real.cos := by
  funext θ
  unfold Legendre.wigner Legendre.G
  simp [Legendre.P]
  ring

theorem wigner_11 : Legendre.wigner 1 1 = fun θ => Real.sqrt (1 / 2) * Real.sin θ := by
  funext θ
  unfold Legendre.wigner Legendre.G
  simp [Legendre.P]
  ring

theorem ex_arccos (i : Nat) : Real.sin (polar exH 0 i) ≠ 0 := by
  have : Real.sin (polar exH 0 i) = Real.sqrt (1 - (if i = 0 then -(3 / 5) else 3 / 5) ^ 2) := Real.sin_arccos _
  rw [this, Real.sqrt_ne_zero']
  split_ifs <;> norm_num

theorem ex_solvable {p : Par} {s m : Nat} (hm : m ≤ 1) : Solvable exH exB ⟨p, s⟩ 0 m := by
  have hmax : max 1 m = 1 := by omega
  -- the sums of squares
  let W : ℝ := ∑ ig ∈ range 2, norm2 1 1 * ((m * Legendre.wigner m 1 (polar exH 0 ig) * (1 / Real.sin (polar exH 0 ig))) ^ 2
    + deriv (Legendre.wigner m 1) (polar exH 0 ig) ^ 2)
  have hn : 0 < norm2 1 1 := by
    unfold norm2
    apply Real.sqrt_pos.2
    norm_num
  have hW : W ≠ 0 := by
    have : 0 < W := by
      refine sum_pos (fun i _ => mul_pos hn ?_) ⟨0, by simp⟩
      have hs := ex_arccos i
      rcases (show m = 0 ∨ m = 1 by omega) with rfl | rfl
      · rw [wigner_01]
        simp only [Real.deriv_cos]
        have : 0 < (-Real.sin (polar exH 0 i)) ^ 2 := by rw [neg_sq]; positivity
        positivity
      · rw [wigner_11]
        have : Real.sqrt (1 / 2) ≠ 0 := (Real.sqrt_pos.2 (by norm_num)).ne'
        simp only [Nat.cast_one, one_mul]
        positivity
    exact this.ne'
  have hQ : ∀ i < 2, ∀ i' < 2, Q Complex.I (surfaceAt exH ⟨p, s⟩ 0) (2 * halfPts exH 0) γ (factorA exH p) (factorB exH p) (outAt exH exB ⟨p, s⟩ 0) (insideAt exH exB ⟨p, s⟩ 0)
      m i 1 i' 1 = if i = i' then (if i = 0 then factorA exH p else factorB exH p) * ((1 + Complex.I) * W) else 0 := by
    intro i hi i' hi'
    have hr : ∀ j, (surfaceAt exH ⟨p, s⟩ 0).r2 j = 1 := fun j => by
      unfold surfaceAt
      dsimp only [exH]
      rw [spheroid_one]
      norm_num
    have hsl : ∀ j, (surfaceAt exH ⟨p, s⟩ 0).slope j = 0 := fun j => by
      unfold surfaceAt
      dsimp only [exH]
      rw [spheroid_one]
      simp
    have J00 : J Complex.I (surfaceAt exH ⟨p, s⟩ 0) (2 * halfPts exH 0) γ (outAt exH exB ⟨p, s⟩ 0) (insideAt exH exB ⟨p, s⟩ 0) 0 0 m 1 1 = 0 := by
      refine sum_eq_zero fun j _ => ?_
      simp [wave, waveM, dot, cross, normal, hr, hsl, insideAt, outAt, exB]
    have J11 : J Complex.I (surfaceAt exH ⟨p, s⟩ 0) (2 * halfPts exH 0) γ (outAt exH exB ⟨p, s⟩ 0) (insideAt exH exB ⟨p, s⟩ 0) 1 1 m 1 1 = 0 := by
      refine sum_eq_zero fun j _ => ?_
      simp [wave, waveN, dot, cross, normal, hr, hsl, insideAt, outAt, exB]
    have J10 : J Complex.I (surfaceAt exH ⟨p, s⟩ 0) (2 * halfPts exH 0) γ (outAt exH exB ⟨p, s⟩ 0) (insideAt exH exB ⟨p, s⟩ 0) 1 0 m 1 1 = 0 := by
      refine sum_eq_zero fun j _ => ?_
      simp [wave, waveN, waveM, dot, cross, normal, hr, hsl, insideAt, outAt, exB]
    have J01 : J Complex.I (surfaceAt exH ⟨p, s⟩ 0) (2 * halfPts exH 0) γ (outAt exH exB ⟨p, s⟩ 0) (insideAt exH exB ⟨p, s⟩ 0) 0 1 m 1 1
        = (1 + Complex.I) * W := by
      change _ = (1 + Complex.I) * ((∑ ig ∈ range 2, _ : ℝ) : ℂ)
      rw [Complex.ofReal_sum, mul_sum]
      refine sum_congr rfl fun j _ => ?_
      simp only [wave, waveN, waveM, dot, cross, normal, hr, hsl, if_true, if_false, one_ne_zero, πf]
      have hw : (surfaceAt exH ⟨p, s⟩ 0).weight j = 1 := by simp [surfaceAt, exH]
      rw [hw]
      simp only [insideAt, outAt, exB, surfaceAt, γ]
      push_cast
      linear_combination (-(norm2 1 1 : ℂ) * (1 + Complex.I)) * ((m : ℂ) * (Legendre.wigner m 1 (polar exH 0 j) : ℂ) * (1 / Complex.sin (polar exH 0 j))) ^ 2 * Complex.I_sq
    unfold Q
    simp only [J00, J11, J10, J01]
    rcases (show i = 0 ∨ i = 1 by omega) with rfl | rfl <;> rcases (show i' = 0 ∨ i' = 1 by omega) with rfl | rfl <;> simp
  have hk : (waveK exH p : ℂ) ≠ 0 := by
    unfold waveK
    have := Real.pi_ne_zero
    simp [exH, this]
  have hA : factorA exH p ≠ 0 := by
    unfold factorA
    simp [exH] at hk ⊢
    exact hk
  have hB : factorB exH p ≠ 0 := pow_ne_zero _ hk
  have hI : (1 + Complex.I) * (W : ℂ) ≠ 0 := by
    refine mul_ne_zero (fun h => ?_) (by exact_mod_cast hW)
    have := congrArg Complex.re h
    simp at this
  unfold Solvable
  have : QMatrix Complex.I (surfaceAt exH ⟨p, s⟩ 0) (2 * halfPts exH 0) γ (factorA exH p) (factorB exH p) (outAt exH exB ⟨p, s⟩ 0) (insideAt exH exB ⟨p, s⟩ 0) m
      (orderAt exH 0) = _root_.Matrix.diagonal fun x => (if x.1 = 0 then factorA exH p else factorB exH p) * ((1 + Complex.I) * W) := by
    ext x y
    have ho : orderAt exH 0 = 1 := rfl
    have h1 : ∀ z : Fin (orderAt exH 0 + 1 - max 1 m), (z : Nat) = 0 := fun z => by have := z.2; omega
    unfold QMatrix
    have h2 : ∀ z : Fin (orderAt exH 0 + 1 - max 1 m), max 1 m + (z : Nat) = 1 := fun z => by rw [h1 z]; omega
    rw [h2 x.2, h2 y.2, hQ _ x.1.2 _ y.1.2]
    by_cases e : x = y
    · subst e
      rw [if_pos rfl, _root_.Matrix.diagonal_apply_eq]
      simp
    · rw [_root_.Matrix.diagonal_apply_ne _ e, if_neg]
      intro h
      exact e (Prod.ext (Fin.ext h) (Fin.ext (by rw [h1, h1])))
  rw [this, _root_.Matrix.det_diagonal]
  refine prod_ne_zero_iff.2 fun x _ => mul_ne_zero ?_ hI
  split_ifs
  · exact hA
  · exact hB

theorem ex_proper (p : Par) : Proper exH exB p where
  first := le_rfl
  orders := by decide
  inside g hg i _ := by
    dsimp only [exH]
    split_ifs <;> norm_num
  points g hg i hi := by
    obtain rfl : g = 0 := Nat.lt_one_iff.1 hg
    have hi : i < 2 := hi
    change (if 2 - 1 - i = 0 then (-(3 / 5) : ℝ) else 3 / 5) = -(if i = 0 then -(3 / 5) else 3 / 5)
    interval_cases i <;> norm_num
  weights _ _ _ _ := rfl
  ratio _ _ := one_pos
  shapes := by
    simp [exH, sum_range_succ]
    norm_num
  bessel _ _ := ⟨fun _ _ _ _ _ => ⟨rfl, rfl⟩, fun _ _ _ _ _ => ⟨rfl, rfl⟩, fun _ _ _ _ _ => ⟨rfl, rfl⟩⟩
  workspace s _ _ g hg := by
    obtain rfl : g = 0 := Nat.lt_one_iff.1 hg.1
    exact ⟨by decide, show (2 : Int) < 3 by decide⟩
  solvable s _ g hg m hm := by
    obtain rfl : g = 0 := Nat.lt_one_iff.1 hg
    exact ex_solvable hm

theorem ex_directions (q : Qty) : Directions exH q := by
  have h1 : ∀ it < 2, Scatter.Regular (exH.theta it) := by
    intro it _
    dsimp only [exH]
    split_ifs
    · exact Scatter.regular_examples.1
    · exact Scatter.regular_examples.2.2
  have h2 : ∀ j < 2, -1 ≤ (exH.gl 2).1 j ∧ (exH.gl 2).1 j ≤ 1 ∧ Scatter.Regular (gridθ exH 2 j) := by
    intro j _
    have key : ∀ x : ℝ, x = -(3 / 5) ∨ x = 3 / 5 → -1 ≤ x ∧ x ≤ 1 ∧ Scatter.Regular (Real.arccos x) := by
      intro x hx
      have h : -1 < x ∧ x < 1 := by rcases hx with rfl | rfl <;> norm_num
      refine ⟨h.1.le, h.2.le, Or.inl ⟨Real.arccos_pos.2 h.2, ?_, ?_⟩⟩
      · have := (Real.arccos_lt_pi (x := x)).2 h.1
        exact this
      · rw [Real.cos_arccos h.1.le h.2.le]
        rcases hx with rfl | rfl <;> norm_num [abs_of_pos, abs_of_neg]
    refine key _ ?_
    change (if j = 0 then (-(3 / 5) : ℝ) else 3 / 5) = _ ∨ (if j = 0 then (-(3 / 5) : ℝ) else 3 / 5) = _
    split_ifs
    · exact Or.inl rfl
    · exact Or.inr rfl
  cases q with
  | ext => exact h1
  | abs => exact ⟨h1, h2⟩
  | scat => exact h2

/-- the inputs of `exH` meet the hypotheses of `c84_values`, for all quantities and both shapes -/
example : Sensible exH.P ∧ (∃ l, generate exH.P = some l) ∧ (∃ m0, AllClean exH.P (clean exH) m0 ∧ ∀ c, m0 (.inl (.conv c)) = .ctl Ctl.new)
    ∧ (⟨0, 0, 0⟩ : Par) ∈ pars exH.P ∧ (∀ q, exH.P.want q = true) ∧ (∀ p, Proper exH exB p) ∧ ∀ q, Directions exH q := by
  refine ⟨⟨by decide, by decide, by decide⟩, c19_total (by decide), ⟨fun x => match x with
    | .inl (.conv _) => .ctl Ctl.new
    | .inl x => clean exH x
    | _ => .unused, ?_, fun _ => rfl⟩, by decide, fun _ => rfl, ex_proper, ex_directions⟩
  intro s hs
  obtain rfl : s = 0 := Nat.lt_one_iff.1 hs
  exact ⟨rfl, fun _ _ => ⟨rfl, fun _ _ => rfl⟩⟩

/-- and those of `c84_unique` -/
example (p : Par) : ∃ g T, Grains exH exB p g T := by
  obtain ⟨g, T, h, _⟩ := alone_value (ex_proper p) (by decide) (ex_directions .ext) (m := fun x => match x with
    | .inl (.conv _) => .ctl Ctl.new
    | .inl x => clean exH x
    | _ => .unused) (fun x hx => by
      cases x <;> first | rfl | (exfalso; revert hx; simp [Mine, whole])) fun _ _ => rfl
  exact ⟨g, T, h⟩

end Verif.Content
