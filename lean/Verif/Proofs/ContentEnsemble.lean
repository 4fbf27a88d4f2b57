import Verif.Proofs.ContentGrain

/-!
# The T-matrix of an ensemble of grains
-/
namespace Verif.Content

set_option autoImplicit false

open Verif.Matrix (loop Mat)
open Verif.Special (Ops realOps)
open Verif.TMatrix
open Verif.Graph
open Finset

theorem setElement_shape {N : Nat} {t : TRes ℂ ℝ} (h : t.Shape N) (i n m i' n' : Nat) (v : ℂ) : (t.setElement i n m i' n' v).Shape N := by
  intro k hk
  unfold TRes.setElement
  dsimp only
  by_cases e : k = m
  · subst e
    rw [Function.update_self]
    exact h k hk
  · rw [Function.update_of_ne e]
    exact h k hk

theorem execute_shape (ι : ℝ → ℂ) (b : Bool) (inp : TRes ℂ ℝ) {N : Nat} (s : Alignment.State ℂ ℝ) (h : s.out.Shape N) :
    (Alignment.execute Real.sqrt ι b inp s).out.Shape N := by
  have key : ∀ f : Nat → Nat → Nat → Alignment.State ℂ ℝ → Alignment.State ℂ ℝ, (∀ m n1 n2 s, s.out.Shape N → (f m n1 n2 s).out.Shape N) →
      ∀ s : Alignment.State ℂ ℝ, s.out.Shape N → (Alignment.elements inp.nmax f s).out.Shape N := by
    intro f hf s hs
    refine loop_any (fun s : Alignment.State ℂ ℝ => s.out.Shape N) _ _ hs fun m s hs => ?_
    refine loop_any (fun s : Alignment.State ℂ ℝ => s.out.Shape N) _ _ hs fun n1 s hs => ?_
    exact loop_any (fun s : Alignment.State ℂ ℝ => s.out.Shape N) _ _ hs fun n2 s hs => hf m n1 n2 s hs
  unfold Alignment.execute
  dsimp only
  split_ifs
  · refine key _ (fun m n1 n2 s hs => ?_) _ h
    exact setElement_shape (setElement_shape (setElement_shape (setElement_shape hs _ _ _ _ _ _) _ _ _ _ _ _) _ _ _ _ _ _) _ _ _ _ _ _
  · refine key _ (fun m n1 n2 s hs => ?_) _ h
    exact setElement_shape (setElement_shape (setElement_shape (setElement_shape hs _ _ _ _ _ _) _ _ _ _ _ _) _ _ _ _ _ _) _ _ _ _ _ _

theorem copy_ok (ι : ℝ → ℂ) (inp : TRes ℂ ℝ) (s : Alignment.State ℂ ℝ) :
    (Alignment.execute Real.sqrt ι false inp s).C = s.C ∧ (Alignment.execute Real.sqrt ι false inp s).p = s.p := by
  unfold Alignment.execute
  dsimp only
  rw [if_neg (by simp)]
  refine loop_any (fun x : Alignment.State ℂ ℝ => x.C = s.C ∧ x.p = s.p) _ _ ⟨rfl, rfl⟩ fun m x hx => ?_
  refine loop_any (fun x : Alignment.State ℂ ℝ => x.C = s.C ∧ x.p = s.p) _ _ hx fun n1 x hx => ?_
  exact loop_any (fun x : Alignment.State ℂ ℝ => x.C = s.C ∧ x.p = s.p) _ _ hx fun n2 x hx => hx

variable {H : Problem} {c : Cell}

theorem new_shape (N : Nat) : (TRes.new N : TRes ℂ ℝ).Shape N := fun _ _ => ⟨rfl, rfl⟩

/-- trimming does not change the elements -/
theorem trim_get {N : Nat} {x : TRes ℂ ℝ} (hs : x.Shape N) (hn : x.nmax ≤ N) {i n m j n' : Nat} (hv : Valid x.nmax i n m) (hv' : Valid x.nmax j n' m) :
    ({ x with T := fun k => mat (2 * (N + 1 - k)) (x.T k) } : TRes ℂ ℝ).get i n m j n' = x.get i n m j n' := by
  have hm : m ≤ N := hv.m.trans (hv.n.trans hn)
  have a := index_lt (m := m) hv.i (max_le hv.one hv.m) hv.n
  have b := index_lt (m := m) hv'.i (max_le hv'.one hv'.m) hv'.n
  unfold TRes.get Mat.get Matrix.pos mat arr
  dsimp only
  rw [(hs m hm).2]
  generalize TRes.index x.nmax m i n = u at *
  generalize TRes.index x.nmax m j n' = v at *
  have h2 : 2 * (x.nmax + 1 - max 1 m) ≤ 2 * (N + 1 - m) := by omega
  generalize 2 * (N + 1 - m) = M at *
  rw [if_pos]
  have : (u + 1) * M ≤ M * M := Nat.mul_le_mul_right _ (by omega)
  nlinarith

/-- the ensemble holds the averages -/
theorem ens_spec {t : TRes ℂ ℝ} {T : Nat → Nat → Int → Nat → Nat → ℂ} (h1 : 1 ≤ t.nmax) (hn : t.nmax ≤ H.P.maxOrder) (hA : Alignment.Axisymmetric T)
    (hS : Alignment.Stores t T) :
    (ens H c t).nmax = t.nmax ∧ Alignment.Axisymmetric (ensemble H c T) ∧ Alignment.Stores (ens H c t) (ensemble H c T) := by
  have key : (aligned H c t).nmax = t.nmax ∧ Alignment.Axisymmetric (ensemble H c T) ∧ Alignment.Stores (aligned H c t) (ensemble H c T) := by
    have hv0 : Valid t.nmax 0 1 0 := ⟨by omega, le_rfl, by omega, h1⟩
    unfold aligned alignState ensemble
    cases hb : H.aligned c with
    | true =>
      have := fun {i n m j n'} (hv : Valid t.nmax i n m) (hv' : Valid t.nmax j n' m) => Alignment.c57_average Complex.ofRealHom t
        ⟨Val.toCG H.P.maxOrder .unused, ⟨(H.coeff c).size, (H.coeff c).v, true⟩, TRes.new H.P.maxOrder⟩ (new_shape _) hn T hA hS hv hv'
      refine ⟨(this hv0 hv0).1, ?_, ?_⟩
      · exact averaged_axisymmetric Complex.ofRealHom (H.coeff c).v hA
      · intro i n m j n' hv hv'
        have e : (Alignment.execute Real.sqrt (fun x : ℝ => (x : ℂ)) true t
          ⟨Val.toCG H.P.maxOrder .unused, ⟨(H.coeff c).size, (H.coeff c).v, true⟩, TRes.new H.P.maxOrder⟩).out.nmax = t.nmax := (this hv0 hv0).1
        rw [e] at hv hv'
        exact (this hv hv').2
    | false =>
      have := fun {i n m j n'} (hv : Valid t.nmax i n m) (hv' : Valid t.nmax j n' m) => Alignment.c57_copy Complex.ofRealHom t
        ⟨Val.toCG H.P.maxOrder .unused, ⟨(H.coeff c).size, (H.coeff c).v, true⟩, TRes.new H.P.maxOrder⟩ (new_shape _) hn hv hv'
      refine ⟨(this hv0 hv0).1, hA, ?_⟩
      intro i n m j n' hv hv'
      have e : (Alignment.execute Real.sqrt (fun x : ℝ => (x : ℂ)) false t
        ⟨Val.toCG H.P.maxOrder .unused, ⟨(H.coeff c).size, (H.coeff c).v, true⟩, TRes.new H.P.maxOrder⟩).out.nmax = t.nmax := (this hv0 hv0).1
      rw [e] at hv hv'
      exact (this hv hv').2.trans (hS i n m j n' hv hv')
  refine ⟨key.1, key.2.1, ?_⟩
  intro i n m j n' hv hv'
  refine (trim_get (N := H.P.maxOrder) ?_ (key.1.trans_le hn) hv hv').trans (key.2.2 i n m j n' hv hv')
  exact execute_shape _ _ _ _ (new_shape _)

/-- all accesses of the averages over the orientations are in bounds -/
theorem ens_ok {t : TRes ℂ ℝ} (h1 : 1 ≤ t.nmax)
    (hw : H.aligned c = true → (2 * t.nmax + 1) * (2 * t.nmax + 1) ≤ (H.P.maxOrder + 1) * (2 * H.P.maxOrder + 1) ∧ ((2 * t.nmax : Nat) : Int) < (H.coeff c).size) :
    (alignState H c t).C.ok = true ∧ (alignState H c t).p.ok = true := by
  unfold alignState
  cases hb : H.aligned c with
  | true =>
    have := Alignment.c61_bounds Complex.ofRealHom t
      ⟨Val.toCG H.P.maxOrder .unused, ⟨(H.coeff c).size, (H.coeff c).v, true⟩, TRes.new H.P.maxOrder⟩ h1
    obtain ⟨w1, w2⟩ := hw hb
    refine ⟨this.1.trans ?_, this.2.trans ?_⟩
    · simp only [Val.toCG, Bool.true_and]
      refine decide_eq_true ?_
      exact_mod_cast w1
    · simp only [Bool.true_and]
      refine decide_eq_true ?_
      exact_mod_cast w2
  | false =>
    have := copy_ok (fun x : ℝ => (x : ℂ)) t ⟨Val.toCG H.P.maxOrder .unused, ⟨(H.coeff c).size, (H.coeff c).v, true⟩, TRes.new H.P.maxOrder⟩
    rw [this.1, this.2]
    exact ⟨rfl, rfl⟩

/-! ### coefficients -/

theorem fill_congr {g g' : Scatter.Angles ℝ} (hn : g.n = g'.n) (hc : ∀ i < g.n, g.c i = g'.c i ∧ g.s i = g'.s i ∧ g.inv i = g'.inv i) (N : Nat)
    (t : WignerTable.Tab ℝ) : Scatter.fill realOps g N t = Scatter.fill realOps g' N t := by
  unfold Scatter.fill
  refine loop_congr (fun n _ _ t => ?_) t
  refine loop_congr (fun m _ _ t => ?_) t
  rw [← hn]
  refine loop_congr (fun it _ hit t => ?_) t
  unfold Scatter.rowStep
  rw [(hc it hit).1, (hc it hit).2.1, (hc it hit).2.2]

/-- a grid given by cosines -/
theorem fill_grid {x : Nat → ℝ} {n : Nat} (hx : ∀ i < n, -1 ≤ x i ∧ x i ≤ 1) (N : Nat) (t : WignerTable.Tab ℝ) :
    Scatter.fill realOps (anglesOf realOps x n) N t = Scatter.fill realOps (Scatter.gridOf (fun i => Real.arccos (x i)) n) N t := by
  refine fill_congr (g := anglesOf realOps x n) (g' := Scatter.gridOf (fun i => Real.arccos (x i)) n) rfl (fun i hi => ?_) N t
  have : Real.cos (Real.arccos (x i)) = x i := Real.cos_arccos (hx i hi).1 (hx i hi).2
  unfold anglesOf Scatter.gridOf
  simp only [this, and_self]

theorem wave_eq (p : Par) : wavenumber realOps H p = waveK H p := rfl

variable {Tm : Nat → Nat → Int → Nat → Nat → ℂ} {nmax : Nat}

/-- the phase factors -/
theorem amp_congr (hn : nmax ≤ H.P.maxOrder) (o i : Scatter.Angular) (k φ : ℝ) :
    Scatter.S11 Tm (fun n n' => getCnn (table H .nbased).toNfac n' n) o i k nmax φ = Scatter.S11 Tm α o i k nmax φ
    ∧ Scatter.S12 Tm (fun n n' => getCnn (table H .nbased).toNfac n' n) o i k nmax φ = Scatter.S12 Tm α o i k nmax φ
    ∧ Scatter.S21 Tm (fun n n' => getCnn (table H .nbased).toNfac n' n) o i k nmax φ = Scatter.S21 Tm α o i k nmax φ
    ∧ Scatter.S22 Tm (fun n n' => getCnn (table H .nbased).toNfac n' n) o i k nmax φ = Scatter.S22 Tm α o i k nmax φ := by
  have key : ∀ f f' : Int → Nat → Nat → ℂ, (∀ m n n', 1 ≤ n → n ≤ nmax → 1 ≤ n' → n' ≤ nmax → f m n n' = f' m n n') →
      Scatter.ampSum nmax φ f = Scatter.ampSum nmax φ f' := by
    intro f f' h
    unfold Scatter.ampSum
    refine sum_congr rfl fun m hm => ?_
    refine sum_congr rfl fun n' hn' => ?_
    refine sum_congr rfl fun n hn => ?_
    rw [mem_Icc] at hn hn'
    rw [h m n n' (by omega) (by omega) (by omega) (by omega)]
  have e : ∀ n n', 1 ≤ n → n ≤ nmax → 1 ≤ n' → n' ≤ nmax → getCnn (table H .nbased).toNfac n' n = α n n' := fun n n' a b a' b' =>
    (ann_eq H ⟨a, b.trans hn⟩ ⟨a', b'.trans hn⟩).2
  unfold Scatter.S11 Scatter.S12 Scatter.S21 Scatter.S22
  refine ⟨?_, ?_, ?_, ?_⟩ <;>
  · congr 1
    refine key _ _ fun m n n' a b a' b' => ?_
    dsimp only
    rw [e n n' a b a' b']

end Verif.Content
