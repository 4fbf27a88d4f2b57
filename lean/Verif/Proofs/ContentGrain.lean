import Verif.Proofs.ContentEntry
import Verif.Properties.SymmetryStore
import Verif.Properties.NBased
import Verif.Spec.Content
import Verif.Properties.Scatter

/-!
# The T-matrix of a grain
-/
namespace Verif.Content

set_option autoImplicit false

open Verif.Matrix (loop Mat loop_inv loop_self loop_succ)
open Verif.Special (Ops realOps rDrSpheroid OnSpheroid)
open Verif.WignerTable (Tab sineLoop)
open Verif.TMatrix
open Verif.TMatrix.Spec
open Verif.Graph
open Verif.Exec
open Finset

theorem loop_congr {S : Type} {lo hi : Nat} {f g : Nat → S → S} (h : ∀ i, lo ≤ i → i < hi → ∀ s, f i s = g i s) (s : S) : loop lo hi f s = loop lo hi g s := by
  by_cases hl : lo ≤ hi
  · induction hi with
    | zero =>
      obtain rfl : lo = 0 := by omega
      rw [loop_self, loop_self]
    | succ n ih =>
      by_cases e : lo = n + 1
      · subst e
        rw [loop_self, loop_self]
      · rw [loop_succ (by omega), loop_succ (by omega), ih (fun i h1 h2 => h i h1 (by omega)) (by omega), h n (by omega) (by omega)]
  · unfold loop
    rw [show hi - lo = 0 by omega]
    rfl

/-! ## the surface integrals depend on the functions at the points and for the orders that occur -/

theorem wave_congr {im : ℂ} {S : Surface ℂ} {Z Y : Radial ℂ} {n ig : Nat} (h : Z.z ig n = Y.z ig n ∧ Z.dz ig n = Y.dz ig n ∧ Z.xinv ig = Y.xinv ig)
    (κ : Nat) (s : ℂ) (m : Nat) : wave im S κ s Z m ig n = wave im S κ s Y m ig n := by
  unfold wave waveM waveN
  rw [h.1, h.2.1, h.2.2]

theorem q_congr {im : ℂ} {S : Surface ℂ} {npts : Nat} {γ γ' : Nat → Nat → ℂ} {a b : ℂ} {Z Z' Y Y' : Radial ℂ} {m i n i' n' : Nat} (hg : γ n n' = γ' n n')
    (h : ∀ ig < npts, Z.z ig n = Y.z ig n ∧ Z.dz ig n = Y.dz ig n ∧ Z.xinv ig = Y.xinv ig)
    (h' : ∀ ig < npts, Z'.z ig n' = Y'.z ig n' ∧ Z'.dz ig n' = Y'.dz ig n' ∧ Z'.xinv ig = Y'.xinv ig) :
    Q im S npts γ a b Z Z' m i n i' n' = Q im S npts γ' a b Y Y' m i n i' n' := by
  have hJ : ∀ κ κ', J im S npts γ Z Z' κ κ' m n n' = J im S npts γ' Y Y' κ κ' m n n' := by
    intro κ κ'
    unfold J
    refine sum_congr rfl fun ig hig => ?_
    rw [mem_range] at hig
    rw [hg, wave_congr (h ig hig), wave_congr (h' ig hig)]
  unfold Q
  simp only [hJ]

/-- the radial functions agree where they are used -/
def Same (npts nmax : Nat) (Z Y : Radial ℂ) : Prop := ∀ n, 1 ≤ n → n ≤ nmax → ∀ ig < npts, Z.z ig n = Y.z ig n ∧ Z.dz ig n = Y.dz ig n ∧ Z.xinv ig = Y.xinv ig

theorem qmatrix_congr {im : ℂ} {S : Surface ℂ} {npts nmax : Nat} {γ γ' : Nat → Nat → ℂ} {a b : ℂ} {Z Z' Y Y' : Radial ℂ} {m : Nat}
    (hg : ∀ n n', 1 ≤ n → n ≤ nmax → 1 ≤ n' → n' ≤ nmax → γ n n' = γ' n n') (h : Same npts nmax Z Y) (h' : Same npts nmax Z' Y') :
    QMatrix im S npts γ a b Z Z' m nmax = QMatrix im S npts γ' a b Y Y' m nmax := by
  funext x y
  have hx := x.2.2
  have hy := y.2.2
  unfold QMatrix
  exact q_congr (hg _ _ (by omega) (by omega) (by omega) (by omega)) (h _ (by omega) (by omega)) (h' _ (by omega) (by omega))

theorem isT_congr {im : ℂ} {S : Surface ℂ} {npts nmax : Nat} {γ γ' : Nat → Nat → ℂ} {a b : ℂ} {h j j' h' k k' : Radial ℂ} {m : Nat}
    (hg : ∀ n n', 1 ≤ n → n ≤ nmax → 1 ≤ n' → n' ≤ nmax → γ n n' = γ' n n') (e1 : Same npts nmax h h') (e2 : Same npts nmax j k) (e3 : Same npts nmax j' k')
    {T : Nat → Nat → Nat → Nat → ℂ} (hT : IsTransition im S npts γ a b h j j' m nmax T) : IsTransition im S npts γ' a b h' k k' m nmax T := by
  intro i n i' n' b1 b2 b3 b4 b5 b6
  have := hT i n i' n' b1 b2 b3 b4 b5 b6
  rw [q_congr (hg n n' (by omega) b4 (by omega) b6) (e2 n (by omega) b4) (e3 n' (by omega) b6)] at this
  rw [← this]
  refine sum_congr rfl fun i'' _ => sum_congr rfl fun n'' hn'' => ?_
  rw [mem_Ico] at hn''
  rw [q_congr (hg n'' n' (by omega) (by omega) (by omega) b6) (e1 n'' (by omega) (by omega)) (e3 n' (by omega) b6)]

/-! ## the tables of one order -/

section

variable {H : Problem} {B : Nat → Bessel} {p : Par}

theorem ng_eq (H : Problem) (g : Nat) : H.ng g = halfPts H g := by
  unfold Problem.ng halfPts
  ring

theorem rsqrt : realOps.sqrt = Real.sqrt := by simp only [realOps]

theorem pts_eq (hp : Proper H B p) (s : Nat) {g : Nat} (hg : g < H.P.nq) :
    pts H s g = spheroidPoints (polar H g) (H.gl (2 * halfPts H g)).2 (orderAt H g) (halfPts H g) (H.axisRatio s) (fun _ => 0, fun _ => 0) (fun _ => 0, fun _ => 0) noTab := by
  have hc : ∀ i < 2 * halfPts H g, Real.cos (polar H g i) = (H.gl (2 * halfPts H g)).1 i := fun i hi =>
    Real.cos_arccos (hp.inside g hg i hi).1.le (hp.inside g hg i hi).2.le
  have e1 : sineLoop realOps (H.gl (2 * halfPts H g)).1 (halfPts H g) (fun _ => 0, fun _ => 0)
      = sineLoop realOps (fun i => Real.cos (polar H g i)) (halfPts H g) (fun _ => 0, fun _ => 0) := by
    unfold sineLoop
    exact loop_congr (fun i _ hi s => by simp only [hc i (by omega)]) _
  have e2 : rDrSpheroid realOps (H.gl (2 * halfPts H g)).1 (2 * halfPts H g) (H.axisRatio s) (fun _ => 0, fun _ => 0)
      = rDrSpheroid realOps (fun i => Real.cos (polar H g i)) (2 * halfPts H g) (H.axisRatio s) (fun _ => 0, fun _ => 0) := by
    unfold rDrSpheroid
    exact loop_congr (fun i _ hi s => by simp only [hc i (by omega)]) _
  have e3 : WignerTable.execute realOps (H.gl (2 * halfPts H g)).1 (orderAt H g) (halfPts H g) noTab
      = WignerTable.execute realOps (fun i => Real.cos (polar H g i)) (orderAt H g) (halfPts H g) noTab := by
    unfold WignerTable.execute
    refine loop_congr (fun m _ _ t => loop_congr (fun i _ hi t => ?_) _) _
    unfold WignerTable.pointStep
    simp only [hc (halfPts H g + i - 1) (by omega)]
  unfold pts pointsAt spheroidPoints
  simp only [table, Val.toGauss, Val.toGeom, Val.toWigner, ng_eq, points, e1, e2, rsqrt]
  rw [← e3]
  rfl

theorem spheroid_unique {a b d r x : ℝ} (ha : 0 < a) (hb : 0 < b) (hd : a / b = d) (hv : a ^ 2 * b = 1) (hr : 0 < r) (ho : OnSpheroid a b r x) :
    r = spheroid d x := by
  have hd0 : 0 < d := hd ▸ div_pos ha hb
  have ha3 : a ^ 3 = d := by
    rw [← hd]
    field_simp
    exact hv
  have hcb : d ^ (1 / 3 : ℝ) = a := by
    rw [← ha3, ← Real.rpow_natCast, ← Real.rpow_mul ha.le]
    norm_num
  unfold spheroid
  rw [hcb]
  unfold OnSpheroid at ho
  have hbd : a = d * b := by rw [← hd]; field_simp
  have hs : r ^ 2 * (Real.sin x ^ 2 + d ^ 2 * Real.cos x ^ 2) = a ^ 2 := by
    have h1 : (r * Real.sin x) ^ 2 / a ^ 2 * a ^ 2 = (r * Real.sin x) ^ 2 := by field_simp
    have h2 : (r * Real.cos x) ^ 2 / b ^ 2 * a ^ 2 = d ^ 2 * (r * Real.cos x) ^ 2 := by rw [hbd]; field_simp
    calc r ^ 2 * (Real.sin x ^ 2 + d ^ 2 * Real.cos x ^ 2) = (r * Real.sin x) ^ 2 + d ^ 2 * (r * Real.cos x) ^ 2 := by ring
      _ = ((r * Real.sin x) ^ 2 / a ^ 2 + (r * Real.cos x) ^ 2 / b ^ 2) * a ^ 2 := by rw [add_mul, h1, h2]
      _ = a ^ 2 := by rw [ho, one_mul]
  have hpos : 0 < Real.sin x ^ 2 + d ^ 2 * Real.cos x ^ 2 := by
    by_contra hn
    have : r ^ 2 * (Real.sin x ^ 2 + d ^ 2 * Real.cos x ^ 2) ≤ 0 := mul_nonpos_of_nonneg_of_nonpos (by positivity) (not_lt.1 hn)
    have := pow_pos ha 2
    linarith
  rw [eq_div_iff (Real.sqrt_pos.2 hpos).ne', ← Real.sqrt_sq hr.le, ← Real.sqrt_mul (by positivity), hs, Real.sqrt_sq ha.le]

/-- what the tables hold -/
theorem pts_spec (hp : Proper H B p) {s : Nat} (hs : s < H.P.nshape) {g : Nat} (hg : g < H.P.nq) :
    Mirror (surfaceAt H ⟨p, s⟩ g) (2 * halfPts H g) []
      ∧ (∀ i < 2 * halfPts H g, (pts H s g).r i = (spheroid (H.axisRatio s) (polar H g i) : ℂ))
      ∧ (∀ i < 2 * halfPts H g, (pts H s g).r (2 * halfPts H g - 1 - i) = (pts H s g).r i)
      ∧ ∀ m ≤ orderAt H g, Reads (pts H s g) (surfaceAt H ⟨p, s⟩ g) m (orderAt H g) (halfPts H g) := by
  have hc := hp.inside g hg
  obtain ⟨a, b, r, ha, hb, hd, hv, hr, h1, h2, h3, h4⟩ := c60_tables (polar H g) (H.gl (2 * halfPts H g)).2 (orderAt H g) (halfPts H g) (H.axisRatio s)
    (hp.ratio s hs) (fun i hi => ⟨Real.arccos_pos.2 (hc i hi).2, by
      unfold polar
      rw [Real.arccos_eq_pi_div_two_sub_arcsin]
      have := Real.neg_pi_div_two_lt_arcsin.2 (hc i hi).1
      linarith⟩) (fun i hi => by
      unfold polar
      rw [hp.points g hg i hi, Real.arccos_neg]) (fun i hi => hp.weights g hg i hi) (fun _ => 0, fun _ => 0) (fun _ => 0, fun _ => 0) noTab
  have hrs : r = spheroid (H.axisRatio s) := funext fun x => spheroid_unique ha hb hd hv (hr x).1 (hr x).2
  subst hrs
  rw [← pts_eq hp s hg] at h2 h3 h4
  exact ⟨h1, h2, h3, h4⟩

theorem cs_eq (H : Problem) (p : Par) : csOf H p = interactionVariables (H.radius p : ℂ) (waveK H p : ℂ) (H.mr p) (getAnn (table H .nbased).toNfac) := by
  unfold csOf consts wavenumber waveK
  rw [show realOps.pi = Real.pi by simp only [realOps]]

theorem csqrt_eq : csqrt realOps = sqrtC := by
  funext z
  simp only [csqrt, sqrtC, realOps]

theorem ann_eq (H : Problem) {n n' : Nat} (hn : 1 ≤ n ∧ n ≤ H.P.maxOrder) (hn' : 1 ≤ n' ∧ n' ≤ H.P.maxOrder) :
    getAnn (table H .nbased).toNfac n n' = γ n n' ∧ getCnn (table H .nbased).toNfac n' n = α n n' := by
  unfold table
  simp only [Val.toNfac, csqrt_eq]
  exact c56_factors_partial H.P.maxOrder _ rfl rfl rfl rfl n n' hn hn'

theorem row_computes {f : Nat → ℂ → (Nat → ℂ) × (Nat → ℂ) → (Nat → ℂ) × (Nat → ℂ)} {n : Nat} (hn : n ≤ H.P.maxOrder) {z dz : Nat → ℂ → ℂ} (h : Returns f n z dz) :
    Computes (H.row f) n z dz := by
  intro x s l h1 h2
  obtain ⟨e1, e2⟩ := h x s l h1 h2
  unfold Problem.row
  simp only [arr, show l - 1 < H.P.maxOrder by omega, if_true]
  exact ⟨e1, e2⟩

/-! ## the orders that are tried -/

/-- the orders -/
noncomputable def iters (H : Problem) (s : Nat) : List (Iter ℂ) := (List.range H.P.nq).map (iterAt H s)

theorem iters_get (H : Problem) (s : Nat) {j : Nat} (hj : j < H.P.nq) : (iters H s)[j]? = some (iterAt H s j) := by
  unfold iters
  rw [List.getElem?_map, List.getElem?_range hj]
  rfl

theorem iters_mem {s : Nat} {q : Iter ℂ} (h : q ∈ iters H s) : ∃ j < H.P.nq, q = iterAt H s j := by
  unfold iters at h
  obtain ⟨j, hj, rfl⟩ := List.mem_map.1 h
  exact ⟨j, List.mem_range.1 hj, rfl⟩

/-- trying a list of orders -/
noncomputable def tryList (H : Problem) (p : Par) (qs : List (Iter ℂ)) : Work ℂ ℝ :=
  runIters (fun z : ℂ => ‖z‖) Complex.I Complex.normSq Complex.re (H.row H.jdj) (H.row H.ydy) (H.row H.jdjm) (csOf H p) H.tol qs (start H)

theorem order_le (hp : Proper H B p) {j : Nat} (hj : j < H.P.nq) : orderAt H j ≤ H.P.maxOrder := by
  have := hp.orders
  unfold orderAt
  omega

theorem fresh_start (H : Problem) : Fresh (start H) := ⟨rfl, rfl, rfl, rfl, rfl⟩

theorem shape_new (H : Problem) : (TRes.new H.P.maxOrder : TRes ℂ ℝ).Shape H.P.maxOrder := fun _ _ => ⟨rfl, rfl⟩

theorem aux_shape (H : Problem) : (Aux.new H.P.maxOrder : Aux ℂ).Shape H.P.maxOrder := ⟨rfl, rfl, rfl, rfl⟩

theorem run_T (hp : Proper H B p) {s : Nat} (hs : s < H.P.nshape) {k : Nat} (hk : 1 ≤ k) (hk' : k ≤ H.P.nq)
    (hit : (tryList H p ((iters H s).take k)).c.iteration = k) (ms : List (Nat × Aux ℂ)) (hms : ∀ x ∈ ms, 1 ≤ x.1 ∧ x.2.Shape H.P.maxOrder) :
    ∃ t, runMAll (fun z : ℂ => ‖z‖) Complex.I (csOf H p) (tryList H p ((iters H s).take k)).it (tryList H p ((iters H s).take k)).c ms
        (tryList H p ((iters H s).take k)).t = some t ∧ t.nmax = orderAt H (k - 1) ∧
      ∀ m, m ≤ orderAt H (k - 1) → (m = 0 ∨ m ∈ ms.map (·.1)) → IsT H B ⟨p, s⟩ (k - 1) m fun i n i' n' => t.get i n m i' n' := by
  have hg : k - 1 < H.P.nq := by omega
  have hle := order_le hp hg
  obtain ⟨p1, p2, p3, p4⟩ := pts_spec hp hs hg
  obtain ⟨b1, b2, b3⟩ := hp.bessel (k - 1) hg
  have hγ : ∀ n n', 1 ≤ n → n ≤ orderAt H (k - 1) → 1 ≤ n' → n' ≤ orderAt H (k - 1) → (csOf H p).ann n n' = γ n n' := by
    intro n n' h1 h2 h3 h4
    rw [cs_eq]
    exact (ann_eq H ⟨h1, by omega⟩ ⟨h3, by omega⟩).1
  have hx : ∀ ig < 2 * halfPts H (k - 1), (csOf H p).k * (pts H s (k - 1)).r ig * (csOf H p).RV = xAt H ⟨p, s⟩ (k - 1) ig := by
    intro ig hig
    rw [p2 ig hig, cs_eq]
    unfold xAt interactionVariables
    push_cast
    ring
  have hx' : ∀ ig < 2 * halfPts H (k - 1), (csOf H p).kmr * (pts H s (k - 1)).r ig * (csOf H p).RV = H.mr p * xAt H ⟨p, s⟩ (k - 1) ig := by
    intro ig hig
    rw [p2 ig hig, cs_eq]
    unfold xAt interactionVariables
    push_cast
    ring
  have e1 : Same (2 * halfPts H (k - 1)) (orderAt H (k - 1))
      (outgoing Complex.I (csOf H p) (pts H s (k - 1)).r (B (k - 1)).j (B (k - 1)).dj (B (k - 1)).y (B (k - 1)).dy) (outAt H B ⟨p, s⟩ (k - 1)) := by
    intro n _ _ ig hig
    unfold outgoing outAt
    simp only [hx ig hig, one_div, and_self]
  have e2 : Same (2 * halfPts H (k - 1)) (orderAt H (k - 1))
      (regular (csOf H p).k (csOf H p) (pts H s (k - 1)).r (B (k - 1)).j (B (k - 1)).dj) (regAt H B ⟨p, s⟩ (k - 1)) := by
    intro n _ _ ig hig
    unfold regular regAt
    simp only [hx ig hig, one_div, and_self]
  have e3 : Same (2 * halfPts H (k - 1)) (orderAt H (k - 1))
      (regular (csOf H p).kmr (csOf H p) (pts H s (k - 1)).r (B (k - 1)).jm (B (k - 1)).djm) (insideAt H B ⟨p, s⟩ (k - 1)) := by
    intro n _ _ ig hig
    unfold regular insideAt
    simp only [hx' ig hig, one_div, and_self]
  have ea : (csOf H p).k2mr = factorA H p := by
    rw [cs_eq]
    unfold factorA interactionVariables
    ring
  have eb : (csOf H p).k2 = factorB H p := by
    rw [cs_eq]
    unfold factorB interactionVariables
    ring
  have hlast : ((iters H s).take k)[(tryList H p ((iters H s).take k)).c.iteration - 1]? = some (iterAt H s (k - 1)) := by
    rw [hit, List.getElem?_take_of_lt (by omega)]
    exact iters_get H s hg
  have key := c60_run (fun z : ℂ => ‖z‖) Complex.I Complex.normSq Complex.re (H.row H.jdj) (H.row H.ydy) (H.row H.jdjm) (csOf H p) H.tol
    (fun x hx => by simpa using hx) Complex.I_mul_I two_ne_zero (maxOrder := H.P.maxOrder)
    ((iters H s).take k) (fun q hq => by
      obtain ⟨j, hj, rfl⟩ := iters_mem (List.mem_of_mem_take hq)
      exact order_le hp hj) (fun q hq => by
      obtain ⟨j, hj, rfl⟩ := iters_mem (List.mem_of_mem_take hq)
      exact aux_shape H) (start H) (fresh_start H) (shape_new H) (iterAt H s (k - 1)) (row_computes hle b1) (row_computes hle b2) (row_computes hle b3)
    hlast (by have := hp.first; exact Nat.le_trans this (Nat.le_add_right _ _))
    (surfaceAt H ⟨p, s⟩ (k - 1)) (by rw [show (iterAt H s (k - 1)).ngauss = halfPts H (k - 1) from ng_eq H _]; exact p1)
    (by rw [show (iterAt H s (k - 1)).ngauss = halfPts H (k - 1) from ng_eq H _]; exact p3)
    (by rw [show (iterAt H s (k - 1)).ngauss = halfPts H (k - 1) from ng_eq H _]; exact p4)
    (by
      rw [show (iterAt H s (k - 1)).ngauss = halfPts H (k - 1) from ng_eq H _]
      intro m hm
      change (QMatrix _ _ _ _ _ _ _ _ m (orderAt H (k - 1))).det ≠ 0
      rw [ea, eb]
      have := qmatrix_congr (im := Complex.I) (S := surfaceAt H ⟨p, s⟩ (k - 1)) (a := factorA H p) (b := factorB H p) (m := m) hγ e1 e3
      intro h0
      exact hp.solvable s hs (k - 1) hg m hm ((congrArg _root_.Matrix.det this).symm.trans h0)) ms hms
  obtain ⟨t, t1, t2, t3, t4⟩ := key
  refine ⟨t, t1, t2, fun m hm hm' => ?_⟩
  have := t4 m hm hm'
  rw [show (iterAt H s (k - 1)).ngauss = halfPts H (k - 1) from ng_eq H _, ea, eb] at this
  exact isT_congr hγ e1 e2 e3 this

theorem iters_length (H : Problem) (s : Nat) : (iters H s).length = H.P.nq := by simp [iters]

/-- the counter after the first orders, as long as they are all needed -/
theorem iter_take {s k j : Nat} (hk : k ≤ H.P.nq) (hit : (tryList H p ((iters H s).take k)).c.iteration = k) (hj : j ≤ k) :
    (tryList H p ((iters H s).take j)).c.iteration = j := by
  obtain ⟨n, A⟩ := after (fun z : ℂ => ‖z‖) Complex.I Complex.normSq Complex.re (H.row H.jdj) (H.row H.ydy) (H.row H.jdjm) (csOf H p) H.tol
    ((iters H s).take j) (start H) (fresh_start H)
  have hl : ((iters H s).take j).length = j := by
    rw [List.length_take, iters_length]
    omega
  have hi : (tryList H p ((iters H s).take j)).c.iteration = n := A.iteration
  rw [hi]
  have hle := A.le
  rw [hl] at hle
  cases hc : (tryList H p ((iters H s).take j)).c.converged with
  | false => exact (A.all hc).trans hl
  | true =>
    have e : (iters H s).take k = (iters H s).take j ++ ((iters H s).take k).drop j := by
      conv_lhs => rw [← List.take_append_drop j ((iters H s).take k)]
      rw [List.take_take, min_eq_left hj]
    have : tryList H p ((iters H s).take k) = tryList H p ((iters H s).take j) := by
      rw [e]
      unfold tryList runIters
      rw [List.foldl_append]
      exact c37_frozen _ _ _ _ _ _ _ _ _ _ _ hc
    rw [this, hi] at hit
    omega

theorem scat_eq {N : Nat} (t : TRes ℂ ℝ) (h : t.nmax = N) : scatteringSum Complex.normSq t = scatSum N fun i n i' n' => t.get i n 0 i' n' := by
  subst h
  rfl

theorem ext_eq {N : Nat} (t : TRes ℂ ℝ) (h : t.nmax = N) : extinctionSum Complex.re t = extSum N fun i n i' n' => t.get i n 0 i' n' := by
  subst h
  rfl

/-- **the T-matrix of a grain** -/
theorem grain_spec (hp : Proper H B p) (hnq : 0 < H.P.nq) {s : Nat} (hs : s < H.P.nshape) :
    (tried H ⟨p, s⟩).c.nmax ≤ H.P.maxOrder ∧ ∃ g t T, grain H ⟨p, s⟩ = some t ∧ t.nmax = orderAt H g ∧ g < H.P.nq ∧ IsGrain H B ⟨p, s⟩ g T
      ∧ Alignment.Axisymmetric T ∧ Alignment.Stores t T := by
  obtain ⟨k, hle, heq, hit, hord, hconv, hnot⟩ := c37_run (fun z : ℂ => ‖z‖) Complex.I Complex.normSq Complex.re (H.row H.jdj) (H.row H.ydy) (H.row H.jdjm)
    (csOf H p) H.tol (iters H s) (start H) (fresh_start H)
  rw [iters_length] at hle
  change tried H ⟨p, s⟩ = tryList H p ((iters H s).take k) at heq
  change (tried H ⟨p, s⟩).c.iteration = k at hit
  have hk1 : 1 ≤ k := by
    cases hc : (tried H ⟨p, s⟩).c.converged with
    | true => have := (hconv hc).1.1; omega
    | false => rw [(hnot hc).1, iters_length]; exact hnq
  have hg : k - 1 < H.P.nq := by omega
  obtain ⟨o1, o2, o3, o4, o5⟩ := hord _ hk1 (iters_get H s hg)
  change (tried H ⟨p, s⟩).c.nmax = orderAt H (k - 1) at o3
  have hit' : (tryList H p ((iters H s).take k)).c.iteration = k := heq ▸ hit
  have hT0 : ∀ j < k, (tryList H p ((iters H s).take (j + 1))).t.nmax = orderAt H j ∧
      IsT H B ⟨p, s⟩ j 0 fun i n i' n' => (tryList H p ((iters H s).take (j + 1))).t.get i n 0 i' n' := by
    intro j hj
    obtain ⟨t, t1, t2, t3⟩ := run_T hp hs (k := j + 1) (by omega) (by omega) (iter_take hle hit' (by omega)) [] (by simp)
    simp only [runMAll, Option.some.injEq] at t1
    subst t1
    exact ⟨t2, t3 0 (by omega) (Or.inl rfl)⟩
  -- the criterion
  have hcr : ∀ i, 1 ≤ i → i < k → (Close H.tol (orderAt H (i - 1)) (fun a n a' n' => (tryList H p ((iters H s).take (i - 1 + 1))).t.get a n 0 a' n') (orderAt H i)
        (fun a n a' n' => (tryList H p ((iters H s).take (i + 1))).t.get a n 0 a' n')
      ↔ Meets (fun z : ℂ => ‖z‖) Complex.I Complex.normSq Complex.re (H.row H.jdj) (H.row H.ydy) (H.row H.jdjm) (csOf H p) H.tol (iters H s) (start H) (i + 1)) := by
    intro i h1 h2
    unfold Close Meets relS relE
    rw [← scat_eq _ (hT0 i h2).1, ← scat_eq _ (hT0 (i - 1) (by omega)).1, ← ext_eq _ (hT0 i h2).1, ← ext_eq _ (hT0 (i - 1) (by omega)).1]
    rw [show i - 1 + 1 = i by omega, show i + 1 - 1 = i by omega]
    constructor
    · rintro ⟨a, b, c⟩
      exact ⟨by omega, a, b, c⟩
    · rintro ⟨_, a, b, c⟩
      exact ⟨a, b, c⟩
  have horder : IsOrder H B ⟨p, s⟩ (k - 1) := by
    refine ⟨hg, fun j a n a' n' => (tryList H p ((iters H s).take (j + 1))).t.get a n 0 a' n', fun i hi => (hT0 i (by omega)).2, fun i h1 h2 => ?_, ?_⟩
    · rw [hcr i h1 (by omega)]
      cases hc : (tried H ⟨p, s⟩).c.converged with
      | true => exact (hconv hc).2 (i + 1) (by omega) (by rw [iters_length]; omega)
      | false => exact (hnot hc).2 (i + 1) (by rw [iters_length]; omega)
    · cases hc : (tried H ⟨p, s⟩).c.converged with
      | false =>
        left
        have := (hnot hc).1
        rw [iters_length] at this
        omega
      | true =>
        right
        have := (hconv hc).1
        have h2 := this.1
        refine ⟨by omega, ?_⟩
        rw [hcr (k - 1) (by omega) (by omega), show k - 1 + 1 = k by omega]
        exact this
  obtain ⟨t, t1, t2, t3⟩ := run_T hp hs hk1 hle hit' (((List.range H.P.maxOrder).map fun i => i + 1).map fun k => (k, Aux.new H.P.maxOrder)) (by
    intro x hx
    simp only [List.map_map, List.mem_map, List.mem_range, Function.comp] at hx
    obtain ⟨i, _, rfl⟩ := hx
    exact ⟨by simp, aux_shape H⟩)
  have hT : ∀ m ≤ t.nmax, IsT H B ⟨p, s⟩ (k - 1) m fun i n i' n' => t.get i n m i' n' := by
    intro m hm
    rw [t2] at hm
    refine t3 m hm ?_
    by_cases h0 : m = 0
    · exact Or.inl h0
    · right
      have := order_le hp hg
      simp only [List.map_map, List.mem_map, List.mem_range, Function.comp]
      exact ⟨m - 1, by omega, by omega⟩
  unfold IsT at hT
  rw [← t2] at hT
  obtain ⟨Tm, hA, hS, hI⟩ := c74_stores (by rw [t2]; exact hp.solvable s hs (k - 1) hg 0 (Nat.zero_le _)) hT
  rw [t2] at hI
  refine ⟨by rw [o3]; exact order_le hp hg, k - 1, t, Tm, ?_, t2, hg, ⟨horder, fun m hm => (hI m hm).1, fun m hm => (hI m hm).2⟩, hA, hS⟩
  unfold grain
  rw [heq]
  exact t1

/-! ## orientations -/

theorem averaged_axisymmetric (ι : ℝ →+* ℂ) (p : Int → ℝ) {T : Nat → Nat → Int → Nat → Nat → ℂ} (hA : Alignment.Axisymmetric T) :
    Alignment.Axisymmetric (Alignment.averaged (⇑ι) p T) := by
  intro i n1 m j n2
  unfold Alignment.averaged
  rw [mul_sum]
  refine sum_congr rfl fun N hN => ?_
  rw [mem_Icc] at hN
  have tri : Clebsch.Triangle n1 n2 N := ⟨by omega, by omega, le_trans (le_abs_self _) hN.1, le_trans (by rw [abs_sub_comm]; exact le_abs_self _) hN.1, hN.2⟩
  have hr : ∀ x : Int, Clebsch.cg n1 n2 N 0 (-x) = (-1) ^ ((n1 : Int) + n2 - N).toNat * Clebsch.cg n1 n2 N 0 x := by
    intro x
    have := Clebsch.cg_reflect tri 0 x
    rwa [neg_zero] at this
  rw [mul_sum]
  refine sum_nbij' (fun x => -x) (fun x => -x) ?_ ?_ (fun x _ => neg_neg x) (fun x _ => neg_neg x) ?_
  · intro x hx
    rw [mem_Icc] at hx ⊢
    omega
  · intro x hx
    rw [mem_Icc] at hx ⊢
    omega
  · intro x _
    have e : T i n1 x j n2 = (-1) ^ (i + j) * T i n1 (-x) j n2 := by
      have := hA i n1 (-x) j n2
      rwa [neg_neg] at this
    have e2 : Clebsch.cg n1 n2 N 0 (-m) * Clebsch.cg n1 n2 N 0 x = Clebsch.cg n1 n2 N 0 m * Clebsch.cg n1 n2 N 0 (-x) := by
      rw [hr m, hr x]
      ring
    have e3 : (-m + x).natAbs = (m + -x).natAbs := by omega
    rw [e, e3, mul_assoc _ (Clebsch.cg n1 n2 N 0 (-m)), e2, ← mul_assoc]
    ring

end

end Verif.Content
