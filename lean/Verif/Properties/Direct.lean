import Mathlib.Analysis.Real.Pi.Bounds
import Verif.Properties.TMatrixRun
import Verif.Proofs.Direct
import Verif.Properties.TMatrixTables
import Verif.Properties.NBased

/-!
# The stand-alone `TMatrix` class: C72, C73, C74
-/
namespace Verif.Direct

open Finset Verif.Matrix Verif.TMatrix Verif.TMatrix.Spec
open Verif.Legendre (wigner wigner_zero_one)
open Verif.Special (Ops realOps gaussLegendre rDrSpheroid wignerD OnSpheroid)

section

variable {R K Γ : Type} [Field R] [LinearOrder R] [Field K] [LinearOrder Γ] (ops : Ops R) (ι : R →+* K) (absv : K → Γ) (im : K)

/-- the constants of the integrals, as the tasks have them -/
def Obj.consts (o : Obj R K) : Consts K :=
  ⟨ι o.k, 0, ι o.k2, o.k2mr, 0, fun n n' => 2 * ι (o.ann.get (n - 1) (n' - 1))⟩

/-- storage of one degree, all elements zero -/
structure Clean (o : Obj R K) (m : Nat) : Prop where
  cols : (o.T m).cols = 2 * (o.nmax + 1 - m)
  zero : ∀ r c, (o.T m).get r c = 0

/-- the tables of the object, for degree `m`, describe the surface `S` and the radial functions, and `Q` is regular -/
def Describes (o : Obj R K) (S : Surface K) (h j j' : Radial K) (m : Nat) : Prop :=
  Setting im (o.consts ι) (o.inter ι) (o.points ops ι m) S h j j' m o.nmax o.ngauss

/-- the degree `m = 0` -/
theorem degree0_spec (habs : ∀ x : K, x ≠ 0 → absv 0 < absv x) (him : im * im = -1)
    (o : Obj R K) (hn : 1 ≤ o.nmax) (S : Surface K) (h j j' : Radial K) (hs : Describes ops ι im o S h j j' 0)
    (hT : 2 * o.nmax ≤ (o.T 0).cols) (hz : ∀ r c, r < 2 * o.nmax → c < 2 * o.nmax → (o.T 0).get r c = 0) :
    IsTransition im S (2 * o.ngauss) (o.consts ι).ann o.k2mr (ι o.k2) h j j' 0 o.nmax
      (fun i n i' n' => (degree0 ops ι absv im o).res.get i n 0 i' n') := by
  obtain ⟨⟨qc1, qc2⟩, qe⟩ := assembled0 im (o.inter ι) (o.points ops ι 0) him (o.consts ι) (fun a b => ι (o.ann.get a b))
    (nm := o.nmax) (ngauss := o.ngauss) (fun n n' _ _ _ _ => rfl)
  have hM1 : Mirror S (2 * o.ngauss) [h, j'] := mirror_mono hs.mirror (by simp)
  have hM2 : Mirror S (2 * o.ngauss) [j, j'] := mirror_mono hs.mirror (by simp)
  have hinv : (2 * -im) * im = 2 := by linear_combination (-2) * him
  have eq : degree0 ops ι absv im o = { o with T := Function.update o.T 0 (multAcc o.nmax
      (q0 im (o.consts ι).k2mr (o.consts ι).k2 o.nmax (js0 im (o.inter ι) (o.points ops ι 0) (fun a b => ι (o.ann.get a b)) o.nmax o.ngauss (Mat.new o.nmax o.nmax))
        (Mat.new (2 * o.nmax) (2 * o.nmax), Mat.new (2 * o.nmax) (2 * o.nmax))).2
      (pluInverse absv (2 * o.nmax)
      (q0 im (o.consts ι).k2mr (o.consts ι).k2 o.nmax (js0 im (o.inter ι) (o.points ops ι 0) (fun a b => ι (o.ann.get a b)) o.nmax o.ngauss (Mat.new o.nmax o.nmax))
        (Mat.new (2 * o.nmax) (2 * o.nmax), Mat.new (2 * o.nmax) (2 * o.nmax))).1 (fun _ => 0) (fun _ => 0)) (o.T 0)) } := rfl
  generalize q0 im (o.consts ι).k2mr (o.consts ι).k2 o.nmax (js0 im (o.inter ι) (o.points ops ι 0) (fun a b => ι (o.ann.get a b)) o.nmax o.ngauss (Mat.new o.nmax o.nmax))
        (Mat.new (2 * o.nmax) (2 * o.nmax), Mat.new (2 * o.nmax) (2 * o.nmax)) = q at qc1 qc2 qe eq
  obtain ⟨_, _, hmul⟩ := multAcc_spec q.2 (pluInverse absv (2 * o.nmax) q.1 (fun _ => 0) (fun _ => 0)) (o.T 0) hT
  have sol := solve_gen absv im habs S h j j' (m := 0) (nmax := o.nmax) (by omega) hs.det rfl rfl q.1 q.2 (fun _ => 0) (fun _ => 0)
    (show 2 * (o.nmax + 1 - max 1 0) ≤ q.1.cols by rw [qc1]; simp) (2 * -im)
    (by
      intro i n i' n' b1 b2 b3 b4 b5 b6
      simp only [show max 1 0 = 1 by rfl, Nat.add_sub_cancel] at *
      have e := congrArg Prod.fst (qe i i' n n' b1 b2 b3 (by omega) b5 (by omega))
      dsimp only at e
      rw [spec_half im (o.consts ι) (o.inter ι) (o.points ops ι 0) him S h j' _ _ hs.reads hs.outgoing hs.inside hM1 b1 b2 (by omega) (by omega),
        e, ← mul_assoc, hinv])
    (by
      intro i n i' n' b1 b2 b3 b4 b5 b6
      simp only [show max 1 0 = 1 by rfl, Nat.add_sub_cancel] at *
      have e := congrArg Prod.snd (qe i i' n n' b1 b2 b3 (by omega) b5 (by omega))
      dsimp only at e
      rw [spec_half im (o.consts ι) (o.inter ι) (o.points ops ι 0) him S j j' _ _ hs.reads hs.regular hs.inside hM2 b1 b2 (by omega) (by omega),
        e, ← mul_assoc, hinv])
    (fun r c => (multAcc o.nmax q.2 (pluInverse absv (2 * o.nmax) q.1 (fun _ => 0) (fun _ => 0)) (o.T 0)).get r c)
    (by
      intro r c hr hc
      simp only [show max 1 0 = 1 by rfl, Nat.add_sub_cancel] at *
      rw [hmul r c hr hc, hz r c hr hc, zero_add])
  refine transition_congr im sol fun i n i' n' b1 b2 b3 b4 b5 b6 => ?_
  rw [eq]
  simp only [TRes.get, Obj.res, Function.update_self]
  rw [index_eq b3 b4, index_eq b5 b6]

/-- a degree `m > 0` -/
theorem degreeM_spec (habs : ∀ x : K, x ≠ 0 → absv 0 < absv x) (him : im * im = -1)
    (o : Obj R K) {m : Nat} (hm : 1 ≤ m) (hmn : m ≤ o.nmax) (S : Surface K) (h j j' : Radial K) (hs : Describes ops ι im o S h j j' m)
    (hT : Clean o m) :
    IsTransition im S (2 * o.ngauss) (o.consts ι).ann o.k2mr (ι o.k2) h j j' m o.nmax
      (fun i n i' n' => (degreeM ops ι absv im m o).res.get i n m i' n') := by
  obtain ⟨⟨qc1, qc2⟩, qe⟩ := assembledM im (o.inter ι) (o.points ops ι m) him (o.consts ι) (fun a b => ι (o.ann.get a b))
    (nm := o.nmax + 1 - m) (ngauss := o.ngauss) (fun n n' _ _ _ _ => rfl) hm hmn rfl
    (fun ig hg => by rw [hs.reads.s2inv ig hg, hs.reads.sinv ig hg])
  have hM1 : Mirror S (2 * o.ngauss) [h, j'] := mirror_mono hs.mirror (by simp)
  have hM2 : Mirror S (2 * o.ngauss) [j, j'] := mirror_mono hs.mirror (by simp)
  have hinv : (2 * -im) * im = 2 := by linear_combination (-2) * him
  have hmax : max 1 m = m := by omega
  generalize hnm : o.nmax + 1 - m = nm at qc1 qc2 qe
  have hTc : (o.T m).cols = 2 * nm := hT.cols.trans (by rw [hnm])
  have eq : degreeM ops ι absv im m o = { o with T := Function.update o.T m (multAcc (o.nmax + 1 - m)
      (qM im (o.consts ι).k2mr (o.consts ι).k2 m o.nmax (jsM im (o.inter ι) (o.points ops ι m) (fun a b => ι (o.ann.get a b)) m o.nmax o.ngauss (Mat.new o.nmax o.nmax))
        (Mat.new (2 * (o.nmax + 1 - m)) (2 * (o.nmax + 1 - m)), Mat.new (2 * (o.nmax + 1 - m)) (2 * (o.nmax + 1 - m)))).2
      (pluInverse absv (2 * (o.nmax + 1 - m))
      (qM im (o.consts ι).k2mr (o.consts ι).k2 m o.nmax (jsM im (o.inter ι) (o.points ops ι m) (fun a b => ι (o.ann.get a b)) m o.nmax o.ngauss (Mat.new o.nmax o.nmax))
        (Mat.new (2 * (o.nmax + 1 - m)) (2 * (o.nmax + 1 - m)), Mat.new (2 * (o.nmax + 1 - m)) (2 * (o.nmax + 1 - m)))).1 (fun _ => 0) (fun _ => 0)) (o.T m)) } := rfl
  rw [hnm] at eq
  generalize qM im (o.consts ι).k2mr (o.consts ι).k2 m o.nmax (jsM im (o.inter ι) (o.points ops ι m) (fun a b => ι (o.ann.get a b)) m o.nmax o.ngauss (Mat.new o.nmax o.nmax))
        (Mat.new (2 * nm) (2 * nm), Mat.new (2 * nm) (2 * nm)) = q at qc1 qc2 qe eq
  obtain ⟨_, _, hmul⟩ := multAcc_spec q.2 (pluInverse absv (2 * nm) q.1 (fun _ => 0) (fun _ => 0)) (o.T m) hTc.ge
  have sol := solve_gen absv im habs S h j j' (m := m) (nmax := o.nmax) (by omega) hs.det hmax (by rw [hmax]; exact hnm) q.1 q.2 (fun _ => 0) (fun _ => 0)
    qc1.ge (2 * -im)
    (by
      intro i n i' n' b1 b2 b3 b4 b5 b6
      have e := congrArg Prod.fst (qe i i' n n' b1 b2 b3 (by omega) b5 (by omega))
      dsimp only at e
      rw [spec_half im (o.consts ι) (o.inter ι) (o.points ops ι m) him S h j' _ _ hs.reads hs.outgoing hs.inside hM1 b1 b2 (by omega) (by omega),
        e, ← mul_assoc, hinv])
    (by
      intro i n i' n' b1 b2 b3 b4 b5 b6
      have e := congrArg Prod.snd (qe i i' n n' b1 b2 b3 (by omega) b5 (by omega))
      dsimp only at e
      rw [spec_half im (o.consts ι) (o.inter ι) (o.points ops ι m) him S j j' _ _ hs.reads hs.regular hs.inside hM2 b1 b2 (by omega) (by omega),
        e, ← mul_assoc, hinv])
    (fun r c => (multAcc nm q.2 (pluInverse absv (2 * nm) q.1 (fun _ => 0) (fun _ => 0)) (o.T m)).get r c)
    (by
      intro r c hr hc
      rw [hmul r c hr hc, hT.zero, zero_add])
  refine transition_congr im sol fun i n i' n' b1 b2 b3 b4 b5 b6 => ?_
  rw [eq]
  simp only [TRes.get, Obj.res, Function.update_self]
  rw [index_eq b3 b4, index_eq b5 b6, hmax, hnm]

/-- one pass does not touch anything but the elements of its degree -/
theorem degreeM_only (m : Nat) (o : Obj R K) : degreeM ops ι absv im m o = { o with T := Function.update o.T m ((degreeM ops ι absv im m o).T m) } := by
  have : (degreeM ops ι absv im m o).T = Function.update o.T m ((degreeM ops ι absv im m o).T m) := by
    funext l
    unfold degreeM
    by_cases e : l = m
    · subst e; simp
    · simp [Function.update_of_ne e]
  exact (show degreeM ops ι absv im m o = { o with T := (degreeM ops ι absv im m o).T } from rfl).trans (by rw [← this])

/-- a pass only reads the elements of its own degree -/
theorem degreeM_reads (m : Nat) (o : Obj R K) (T : Nat → Mat K) (h : T m = o.T m) :
    (degreeM ops ι absv im m { o with T := T }).T m = (degreeM ops ι absv im m o).T m := by
  simp only [degreeM, Function.update_self, h]
  rfl

/-- all passes: every degree from 1 on gets the elements its pass computes, nothing else changes -/
theorem additional_spec (o : Obj R K) :
    additional ops ι absv im o = { o with
      T := fun m => if 1 ≤ m ∧ m ≤ o.nmax then (degreeM ops ι absv im m o).T m else o.T m } := by
  unfold additional
  refine (loop_inv (fun k s => s = { o with
      T := fun m => if 1 ≤ m ∧ m < k then (degreeM ops ι absv im m o).T m else o.T m }) (show 1 ≤ o.nmax + 1 by omega)
    (fun m o => degreeM ops ι absv im m o) o ?_ ?_).trans ?_
  · have : (fun m => if 1 ≤ m ∧ m < 1 then (degreeM ops ι absv im m o).T m else o.T m) = o.T := by
      funext m
      rw [if_neg (by omega)]
    rw [this]
  · intro k s h1 h2 hs
    rw [degreeM_only, hs, degreeM_reads ops ι absv im k o _ (if_neg (by omega))]
    congr 1
    funext m
    by_cases e : m = k
    · subst e
      simp [h1]
    · rw [Function.update_of_ne e]
      dsimp only
      by_cases g : 1 ≤ m ∧ m < k
      · rw [if_pos g, if_pos (by omega)]
      · rw [if_neg g, if_neg (by omega)]
  · congr 1
    funext m
    by_cases g : 1 ≤ m ∧ m ≤ o.nmax
    · rw [if_pos g, if_pos (by omega)]
    · rw [if_neg g, if_neg (by omega)]

/-- what one pass adds to the elements of its degree does not depend on them -/
theorem degreeM_adds (m : Nat) (o : Obj R K) : ∃ V : Nat → Nat → K, ∀ T : Nat → Mat K, 2 * (o.nmax + 1 - m) ≤ (T m).cols →
    ((degreeM ops ι absv im m { o with T := T }).T m).cols = (T m).cols
    ∧ ∀ r c, r < 2 * (o.nmax + 1 - m) → c < 2 * (o.nmax + 1 - m) →
      ((degreeM ops ι absv im m { o with T := T }).T m).get r c = (T m).get r c + V r c := by
  let q := qM im o.k2mr (ι o.k2) m o.nmax
            (jsM im (o.inter ι) (o.points ops ι m) (fun a b => ι (o.ann.get a b)) m o.nmax o.ngauss (Mat.new o.nmax o.nmax))
            (Mat.new (2 * (o.nmax + 1 - m)) (2 * (o.nmax + 1 - m)), Mat.new (2 * (o.nmax + 1 - m)) (2 * (o.nmax + 1 - m)))
  refine ⟨prodVal (o.nmax + 1 - m) q.2 (pluInverse absv (2 * (o.nmax + 1 - m)) q.1 (fun _ => 0) (fun _ => 0)), fun T hT => ?_⟩
  simp only [degreeM, Function.update_self]
  obtain ⟨_, h1, h2⟩ := multAcc_spec (nm := o.nmax + 1 - m) q.2
    (pluInverse absv (2 * (o.nmax + 1 - m)) q.1 (fun _ => 0) (fun _ => 0)) (T m) hT
  exact ⟨h1, h2⟩

/-- **C72** Let the tables of a freshly constructed object describe the surface `S` and radial functions for every degree. After
the constructor and one call of `compute_additional_elements`, `operator()` returns, for every degree `m ≤ nmax`, the elements of
the transition matrix of the extended boundary condition method with all `2·ngauss` quadrature points. -/
theorem c72_transition (habs : ∀ x : K, x ≠ 0 → absv 0 < absv x) (him : im * im = -1)
    (o : Obj R K) (hn : 1 ≤ o.nmax) (hclean : ∀ m ≤ o.nmax, Clean o m) (S : Surface K) (h j j' : Radial K)
    {m : Nat} (hm : m ≤ o.nmax) (hs : Describes ops ι im o S h j j' m) :
    IsTransition im S (2 * o.ngauss) (o.consts ι).ann o.k2mr (ι o.k2) h j j' m o.nmax
      (fun i n i' n' => (additional ops ι absv im (degree0 ops ι absv im o)).res.get i n m i' n') := by
  rw [additional_spec]
  by_cases h0 : m = 0
  · subst h0
    have := degree0_spec ops ι absv im habs him o hn S h j j' hs (by have := (hclean 0 (by omega)).cols; omega)
      (fun r c _ _ => (hclean 0 (by omega)).zero r c)
    refine transition_congr im this fun i n i' n' _ _ _ _ _ _ => ?_
    simp only [TRes.get, Obj.res]
    rw [if_neg (by omega)]
  · have hup : (degree0 ops ι absv im o).T m = o.T m := Function.update_of_ne h0 _ _
    have c : Clean (degree0 ops ι absv im o) m := by
      have := hclean m hm
      exact ⟨by rw [hup]; exact this.cols, by rw [hup]; exact this.zero⟩
    have := degreeM_spec ops ι absv im habs him (degree0 ops ι absv im o) (show 1 ≤ m by omega) hm S h j j' hs c
    refine transition_congr im this fun i n i' n' _ _ _ _ _ _ => ?_
    simp only [TRes.get, Obj.res]
    rw [if_pos ⟨by omega, hm⟩]
    rfl

/-- **C73** (violated) `compute_additional_elements` adds to the elements: after a second call every element of a degree `m ≥ 1`
is twice what it was -/
theorem c73_violated_twice (o : Obj R K) {m : Nat} (hm : 1 ≤ m) (hmn : m ≤ o.nmax) (hclean : Clean o m)
    {i n i' n' : Nat} (hi : Valid o.nmax i n m) (hi' : Valid o.nmax i' n' m) :
    (additional ops ι absv im (additional ops ι absv im o)).res.get i n m i' n'
      = 2 * (additional ops ι absv im o).res.get i n m i' n' := by
  obtain ⟨V, hV⟩ := degreeM_adds ops ι absv im m o
  rw [additional_spec ops ι absv im (additional ops ι absv im o)]
  simp only [TRes.get, Obj.res]
  have e : ∀ o' : Obj R K, (additional ops ι absv im o').nmax = o'.nmax := fun o' => by rw [additional_spec]
  rw [e o, if_pos ⟨hm, hmn⟩]
  have b1 := index_lt hi.i hi.max hi.n
  have b2 := index_lt hi'.i hi'.max hi'.n
  rw [show max 1 m = m by omega] at b1 b2
  have f1 := hV o.T (by rw [hclean.cols])
  have eo : additional ops ι absv im o = { o with T := (additional ops ι absv im o).T } := by
    rw [additional_spec]
  have eT : (additional ops ι absv im o).T m = (degreeM ops ι absv im m o).T m := by
    rw [additional_spec]
    simp only
    rw [if_pos ⟨hm, hmn⟩]
  have f2 := hV (additional ops ι absv im o).T (by rw [eT, f1.1, hclean.cols])
  rw [← eo] at f2
  rw [f2.2 _ _ b1 b2, eT, f1.2 _ _ b1 b2, hclean.zero]
  ring

/-- **C73** what does hold: the elements of degree 0 and everything else in the object do not change, however often
`compute_additional_elements` is called -/
theorem c73_repeat_partial (o : Obj R K) (k : Nat) :
    ((additional ops ι absv im)^[k] o).T 0 = o.T 0
    ∧ (additional ops ι absv im)^[k] o = { o with T := ((additional ops ι absv im)^[k] o).T } := by
  induction k with
  | zero => exact ⟨rfl, rfl⟩
  | succ k ih =>
    rw [Function.iterate_succ_apply', additional_spec]
    refine ⟨?_, ?_⟩
    · simp only
      rw [if_neg (by omega), ih.1]
    · rw [ih.2]

end

/-! ## the tables of a spheroid -/

section

variable (absv : ℂ → ℝ)

/-- what `_ann` contains -/
theorem annLoop_spec (nmax : Nat) (dd : Nat → ℝ) (ann : Mat ℝ) (hc : ann.cols = nmax) :
    let a := annLoop realOps nmax (dd, ann)
    a.2.cols = nmax ∧ ∀ i j, i < nmax → j < nmax → 2 * a.2.get i j = prefactor (i + 1) (j + 1) := by
  intro a
  have key := loop_inv (fun k (s : (Nat → ℝ) × Mat ℝ) => s.2.cols = nmax
      ∧ (∀ i, i < k → s.1 i = Real.sqrt ((2 * ((i : ℝ) + 1) + 1) / (((i : ℝ) + 2) * ((i : ℝ) + 1))))
      ∧ ∀ i j, i < k → j < k → s.2.get i j
        = 1 / 2 * (Real.sqrt ((2 * ((i : ℝ) + 1) + 1) / (((i : ℝ) + 2) * ((i : ℝ) + 1)))
          * Real.sqrt ((2 * ((j : ℝ) + 1) + 1) / (((j : ℝ) + 2) * ((j : ℝ) + 1))))) (Nat.zero_le nmax)
    (fun ni (s : (Nat → ℝ) × Mat ℝ) =>
    let nn : ℝ := ((ni : ℝ) + 2) * ((ni : ℝ) + 1)
    let d := realOps.sqrt ((2 * ((ni : ℝ) + 1) + 1) / nn)
    let dd := Function.update s.1 ni d
    (dd, loop 0 (ni + 1) (fun nj ann =>
      let ddd := 1 / 2 * d * dd nj
      (ann.set ni nj ddd).set nj ni ddd) s.2)) (dd, ann) ⟨hc, fun _ h => absurd h (by omega), fun _ _ h => absurd h (by omega)⟩
    (by
      rintro k s _ hk ⟨i1, i2, i3⟩
      dsimp only
      have hdd : ∀ i, i < k + 1 → Function.update s.1 k (realOps.sqrt ((2 * ((k : ℝ) + 1) + 1) / (((k : ℝ) + 2) * ((k : ℝ) + 1)))) i
          = Real.sqrt ((2 * ((i : ℝ) + 1) + 1) / (((i : ℝ) + 2) * ((i : ℝ) + 1))) := by
        intro i hi
        by_cases e : i = k
        · subst e; rw [Function.update_self]; rfl
        · rw [Function.update_of_ne e]; exact i2 i (by omega)
      generalize Function.update s.1 k (realOps.sqrt ((2 * ((k : ℝ) + 1) + 1) / (((k : ℝ) + 2) * ((k : ℝ) + 1)))) = f at hdd ⊢
      have inner := loop_inv (fun l (A : Mat ℝ) => A.cols = nmax
          ∧ (∀ i j, i < k → j < k → A.get i j = s.2.get i j)
          ∧ ∀ j, j < l → A.get k j = 1 / 2 * realOps.sqrt ((2 * ((k : ℝ) + 1) + 1) / (((k : ℝ) + 2) * ((k : ℝ) + 1))) * f j
            ∧ A.get j k = 1 / 2 * realOps.sqrt ((2 * ((k : ℝ) + 1) + 1) / (((k : ℝ) + 2) * ((k : ℝ) + 1))) * f j) (Nat.zero_le (k + 1))
        (fun nj (ann : Mat ℝ) =>
          let ddd := 1 / 2 * realOps.sqrt ((2 * ((k : ℝ) + 1) + 1) / (((k : ℝ) + 2) * ((k : ℝ) + 1))) * f nj
          (ann.set k nj ddd).set nj k ddd) s.2 ⟨i1, fun _ _ _ _ => rfl, fun _ h => absurd h (by omega)⟩
        (by
          rintro l A _ hl ⟨j1, j2, j3⟩
          have hg : ∀ r c v, c < nmax → ((A.set k l v).set l k v).get r c = if r = l ∧ c = k then v else if r = k ∧ c = l then v else A.get r c := by
            intro r c v hc
            rw [get_set _ _ (by rw [show (A.set k l v).cols = A.cols from rfl]; omega) (by rw [show (A.set k l v).cols = A.cols from rfl]; omega),
              get_set _ _ (by omega) (by omega)]
          refine ⟨j1, ?_, ?_⟩
          · intro i j hi hj
            rw [hg i j _ (by omega), if_neg (by omega), if_neg (by omega)]
            exact j2 i j hi hj
          · intro j hj
            by_cases e : j = l
            · subst e
              refine ⟨?_, ?_⟩
              · rw [hg k j _ (by omega)]
                by_cases e : k = j
                · rw [if_pos ⟨e, e.symm⟩]
                · rw [if_neg (fun h => e h.1), if_pos ⟨rfl, rfl⟩]
              · rw [hg j k _ (by omega), if_pos ⟨rfl, rfl⟩]
            · obtain ⟨a1, a2⟩ := j3 j (by omega)
              refine ⟨?_, ?_⟩
              · rw [hg k j _ (by omega), if_neg (by omega), if_neg (by omega), a1]
              · rw [hg j k _ (by omega), if_neg (by omega), if_neg (by omega), a2])
      obtain ⟨j1, j2, j3⟩ := inner
      refine ⟨j1, hdd, ?_⟩
      intro i j hi hj
      by_cases e : i = k
      · subst e
        rw [(j3 j hj).1, hdd j hj, mul_assoc]
        rfl
      · by_cases e' : j = k
        · subst e'
          rw [(j3 i hi).2, hdd i hi, mul_assoc, mul_comm (realOps.sqrt _)]
          rfl
        · rw [j2 i j (by omega) (by omega), i3 i j (by omega) (by omega)])
  obtain ⟨k1, _, k3⟩ := key
  refine ⟨k1, fun i j hi hj => ?_⟩
  rw [show a.2.get i j = _ from k3 i j hi hj, ← Real.sqrt_mul (by positivity), prefactor, ← mul_assoc]
  norm_num
  congr 1
  field_simp
  ring

/-- the local tables of Wigner functions -/
theorem wignerTables_spec (θ : Nat → ℝ) (nmax ngauss m : Nat) (hm : m ≤ nmax)
    (hθ : ∀ r, r < 2 * ngauss → 0 < θ r ∧ θ r < Real.pi) :
    let t := wignerTables realOps (fun r => Real.cos (θ r)) nmax ngauss m
    WignerTable.RowsOk θ nmax ngauss m (ngauss + 1) ⟨fun _ => t.1, fun _ => t.2⟩ := by
  intro t
  refine loop_inv (σ := (Nat → Nat → ℝ) × (Nat → Nat → ℝ))
    (fun k u => WignerTable.RowsOk θ nmax ngauss m k ⟨fun _ => u.1, fun _ => u.2⟩)
    (by omega : 1 ≤ ngauss + 1) _ _ (fun ig _ h => absurd h (by omega)) ?_
  rintro k s hk hk2 h1
  have hr := hθ (ngauss + k - 1) (by omega)
  obtain ⟨w1, _⟩ := Special.c63_wigner (θ (ngauss + k - 1)) hr.1 hr.2 nmax m hm (fun _ => 0, fun _ => 0)
  dsimp only
  generalize wignerD realOps (Real.cos (θ (ngauss + k - 1))) nmax m (fun _ => 0, fun _ => 0) = q at w1 ⊢
  have inner := loop_inv (σ := ℝ × (Nat → Nat → ℝ) × (Nat → Nat → ℝ))
    (fun l p => p.1 = (-1) ^ l
      ∧ (∀ n, n < l → p.2.1 (ngauss + k - 1) n = q.1 n ∧ p.2.2 (ngauss + k - 1) n = q.2 n
        ∧ p.2.1 (ngauss - k) n = (-1) ^ (n + 1) * q.1 n ∧ p.2.2 (ngauss - k) n = -(-1) ^ (n + 1) * q.2 n)
      ∧ ∀ r n, r ≠ ngauss + k - 1 → r ≠ ngauss - k → p.2.1 r n = s.1 r n ∧ p.2.2 r n = s.2 r n)
    (Nat.zero_le nmax)
    (fun n (p : ℝ × (Nat → Nat → ℝ) × (Nat → Nat → ℝ)) =>
      let si := -p.1
      let w := Function.update p.2.1 (ngauss + k - 1) (Function.update (p.2.1 (ngauss + k - 1)) n (q.1 n))
      let w := Function.update w (ngauss + 1 - k - 1) (Function.update (w (ngauss + 1 - k - 1)) n (si * q.1 n))
      let dw := Function.update p.2.2 (ngauss + k - 1) (Function.update (p.2.2 (ngauss + k - 1)) n (q.2 n))
      let dw := Function.update dw (ngauss + 1 - k - 1) (Function.update (dw (ngauss + 1 - k - 1)) n (-si * q.2 n))
      (si, w, dw)) (1, s)
    ⟨by simp, fun n hn => absurd hn (by omega), fun _ _ _ _ => ⟨rfl, rfl⟩⟩
    (by
      rintro l p _ _ ⟨j1, j2, j3⟩
      dsimp only
      rw [show ngauss + 1 - k - 1 = ngauss - k by omega]
      have hne : ngauss + k - 1 ≠ ngauss - k := by omega
      refine ⟨by rw [j1, pow_succ]; ring, ?_, ?_⟩
      · intro n hn
        simp only [Function.update_of_ne hne, Function.update_of_ne hne.symm, Function.update_self]
        by_cases e : n = l
        · subst e
          simp only [Function.update_self, j1, pow_succ, true_and]
          constructor <;> ring
        · simp only [Function.update_of_ne e]
          exact j2 n (by omega)
      · intro r n hr1 hr2
        simp only [Function.update_of_ne hr1, Function.update_of_ne hr2]
        exact j3 r n hr1 hr2)
  obtain ⟨_, i2, i3⟩ := inner
  intro ig hig1 hig2
  by_cases hik : ig = k
  · subst hik
    refine ⟨?_, ?_⟩
    · intro n hn
      obtain ⟨e1, e2, _, _⟩ := i2 n hn
      have := w1 (n + 1) (by omega) (by omega)
      dsimp only
      rw [e1, e2]
      exact this
    · intro n hn
      obtain ⟨_, _, e1, e2⟩ := i2 n hn
      have := w1 (n + 1) (by omega) (by omega)
      dsimp only
      rw [e1, e2, ← mul_assoc, WignerTable.sq_one, one_mul, ← this.1]
      exact ⟨rfl, this.2⟩
  · obtain ⟨a1, a2⟩ := h1 ig hig1 (by omega)
    refine ⟨?_, ?_⟩
    · intro n hn
      obtain ⟨e1, e2⟩ := i3 (ngauss + ig - 1) n (by omega) (by omega)
      dsimp only
      rw [e1, e2]
      exact a1 n hn
    · intro n hn
      obtain ⟨e1, e2⟩ := i3 (ngauss - ig) n (by omega) (by omega)
      dsimp only
      rw [e1, e2]
      exact a2 n hn

/-- the arrays of a routine contain the functions `z` and `dz` of the orders `1, ..., nmax`, for every nonzero argument, whatever
they contained before -/
def Gives {F : Type} [Zero F] (f : Routine F) (nmax : Nat) (z dz : Nat → F → F) : Prop :=
  ∀ x, x ≠ 0 → ∀ s n, 1 ≤ n → n ≤ nmax → (f nmax x s).1 (n - 1) = z n x ∧ (f nmax x s).2 (n - 1) = dz n x

/-- the outgoing radial functions (order `n`) at the points of the surface, for wavenumber `k` -/
noncomputable def outgoingAt (k : ℝ) (r : Nat → ℝ) (zj dzj zy dzy : Nat → ℝ → ℝ) : Radial ℂ :=
  ⟨fun ig n => (zj n (k * r ig) : ℂ) + Complex.I * (zy n (k * r ig) : ℂ),
    fun ig n => (dzj n (k * r ig) : ℂ) + Complex.I * (dzy n (k * r ig) : ℂ), fun ig => ((k * r ig : ℝ) : ℂ)⁻¹⟩

/-- the regular radial functions outside the particle -/
noncomputable def regularAt (k : ℝ) (r : Nat → ℝ) (zj dzj : Nat → ℝ → ℝ) : Radial ℂ :=
  ⟨fun ig n => (zj n (k * r ig) : ℂ), fun ig n => (dzj n (k * r ig) : ℂ), fun ig => ((k * r ig : ℝ) : ℂ)⁻¹⟩

/-- the regular radial functions for the complex wavenumber `κ` inside the particle -/
noncomputable def insideAt (κ : ℂ) (r : Nat → ℝ) (zm dzm : Nat → ℂ → ℂ) : Radial ℂ :=
  ⟨fun ig n => zm n (κ * (r ig : ℂ)), fun ig n => dzm n (κ * (r ig : ℂ)), fun ig => (κ * (r ig : ℂ))⁻¹⟩

/-- the radii, and everything computed from them -/
theorem radiusLoop_spec (RV : ℝ) (mr : ℂ) (ngauss : Nat) (o : Obj ℝ ℂ) :
    let o' := radiusLoop realOps Complex.ofRealHom RV mr ngauss o
    (∀ i, i < 2 * ngauss → o'.r2 i = o.r2 i * (RV * RV) ∧ o'.kr i = o.k * Real.sqrt (o.r2 i * (RV * RV))
      ∧ o'.krinv i = 1 / (o.k * Real.sqrt (o.r2 i * (RV * RV)))
      ∧ o'.krmr i = mr * ((o.k * Real.sqrt (o.r2 i * (RV * RV)) : ℝ) : ℂ)
      ∧ o'.krmrinv i = 1 / mr * ((1 / (o.k * Real.sqrt (o.r2 i * (RV * RV))) : ℝ) : ℂ))
    ∧ o' = { o with
      r2 := o'.r2
      kr := o'.kr
      krinv := o'.krinv
      krmr := o'.krmr
      krmrinv := o'.krmrinv } := by
  intro o'
  have key := loop_inv (fun k (u : Obj ℝ ℂ) => (∀ i, i < k → u.r2 i = o.r2 i * (RV * RV) ∧ u.kr i = o.k * Real.sqrt (o.r2 i * (RV * RV))
      ∧ u.krinv i = 1 / (o.k * Real.sqrt (o.r2 i * (RV * RV)))
      ∧ u.krmr i = mr * ((o.k * Real.sqrt (o.r2 i * (RV * RV)) : ℝ) : ℂ)
      ∧ u.krmrinv i = 1 / mr * ((1 / (o.k * Real.sqrt (o.r2 i * (RV * RV))) : ℝ) : ℂ))
      ∧ (∀ i, k ≤ i → u.r2 i = o.r2 i)
      ∧ u = { o with
        r2 := u.r2
        kr := u.kr
        krinv := u.krinv
        krmr := u.krmr
        krmrinv := u.krmrinv }) (Nat.zero_le (2 * ngauss))
    (fun i (o : Obj ℝ ℂ) =>
      let o := { o with r2 := Function.update o.r2 i (o.r2 i * (RV * RV)) }
      let r := realOps.sqrt (o.r2 i)
      let o := { o with kr := Function.update o.kr i (o.k * r) }
      let o := { o with krmr := Function.update o.krmr i (mr * Complex.ofRealHom (o.kr i)) }
      let o := { o with krinv := Function.update o.krinv i (1 / o.kr i) }
      { o with krmrinv := Function.update o.krmrinv i (1 / mr * Complex.ofRealHom (o.krinv i)) }) o
    ⟨fun _ h => absurd h (by omega), fun _ _ => rfl, rfl⟩
    (by
      rintro k u _ hk ⟨h1, h2, h3⟩
      have hk0 : u.k = o.k := by rw [h3]
      refine ⟨?_, ?_, ?_⟩
      · intro i hi
        dsimp only
        by_cases e : i = k
        · subst e
          refine ⟨?_, ?_, ?_, ?_, ?_⟩ <;> simp only [Function.update_self, h2 i le_rfl, hk0] <;> rfl
        · simp only [Function.update_of_ne e]
          exact h1 i (by omega)
      · intro i hi
        dsimp only
        rw [Function.update_of_ne (by omega)]
        exact h2 i (by omega)
      · rw [h3])
  exact ⟨key.1, key.2.2⟩

/-- the loop over the Bessel functions changes nothing else -/
theorem besselLoop_frame (jdj ydy : Routine ℝ) (jdjm : Routine ℂ) (nmax ngauss : Nat) (o : Obj ℝ ℂ) :
    let o' := besselLoop jdj ydy jdjm nmax ngauss o
    o' = { o with
      j := o'.j
      dj := o'.dj
      y := o'.y
      dy := o'.dy
      jm := o'.jm
      djm := o'.djm } := by
  intro o'
  refine loop_inv (fun _ (u : Obj ℝ ℂ) => u = { o with
        j := u.j
        dj := u.dj
        y := u.y
        dy := u.dy
        jm := u.jm
        djm := u.djm }) (Nat.zero_le (2 * ngauss)) _ o rfl ?_
  intro q u _ _ e
  rw [e]

/-- the Bessel functions -/
theorem besselLoop_spec (jdj ydy : Routine ℝ) (jdjm : Routine ℂ) (nmax ngauss : Nat) (o : Obj ℝ ℂ)
    {zj dzj zy dzy : Nat → ℝ → ℝ} {zm dzm : Nat → ℂ → ℂ} (h1 : Gives jdj nmax zj dzj) (h2 : Gives ydy nmax zy dzy)
    (h3 : Gives jdjm nmax zm dzm) (hk : ∀ i, i < 2 * ngauss → o.kr i ≠ 0 ∧ o.krmr i ≠ 0) :
    let o' := besselLoop jdj ydy jdjm nmax ngauss o
    ∀ i, i < 2 * ngauss → ∀ n, 1 ≤ n → n ≤ nmax → o'.j i (n - 1) = zj n (o.kr i) ∧ o'.dj i (n - 1) = dzj n (o.kr i)
      ∧ o'.y i (n - 1) = zy n (o.kr i) ∧ o'.dy i (n - 1) = dzy n (o.kr i)
      ∧ o'.jm i (n - 1) = zm n (o.krmr i) ∧ o'.djm i (n - 1) = dzm n (o.krmr i) := by
  intro o'
  refine (loop_inv (fun q (u : Obj ℝ ℂ) => (∀ i, i < q → ∀ n, 1 ≤ n → n ≤ nmax → u.j i (n - 1) = zj n (o.kr i) ∧ u.dj i (n - 1) = dzj n (o.kr i)
      ∧ u.y i (n - 1) = zy n (o.kr i) ∧ u.dy i (n - 1) = dzy n (o.kr i)
      ∧ u.jm i (n - 1) = zm n (o.krmr i) ∧ u.djm i (n - 1) = dzm n (o.krmr i))
      ∧ u = { o with
        j := u.j
        dj := u.dj
        y := u.y
        dy := u.dy
        jm := u.jm
        djm := u.djm }) (Nat.zero_le (2 * ngauss))
    (fun ig (o : Obj ℝ ℂ) =>
    let p := jdj nmax (o.kr ig) (o.j ig, o.dj ig)
    let o := { o with
      j := TMatrix.setRow o.j ig p.1
      dj := TMatrix.setRow o.dj ig p.2 }
    let p := ydy nmax (o.kr ig) (o.y ig, o.dy ig)
    let o := { o with
      y := TMatrix.setRow o.y ig p.1
      dy := TMatrix.setRow o.dy ig p.2 }
    let p := jdjm nmax (o.krmr ig) (o.jm ig, o.djm ig)
    { o with
      jm := TMatrix.setRow o.jm ig p.1
      djm := TMatrix.setRow o.djm ig p.2 }) o
    ⟨fun _ h => absurd h (by omega), rfl⟩
    (by
      rintro q u _ hq ⟨h, e⟩
      have e1 : u.kr = o.kr := by rw [e]
      have e2 : u.krmr = o.krmr := by rw [e]
      obtain ⟨n1, n2⟩ := hk q hq
      refine ⟨?_, by rw [e]⟩
      intro i hi n hn hn'
      by_cases e : i = q
      · subst e
        simp only [TMatrix.setRow, if_true, e1, e2]
        exact ⟨(h1 _ n1 _ n hn hn').1, (h1 _ n1 _ n hn hn').2, (h2 _ n1 _ n hn hn').1, (h2 _ n1 _ n hn hn').2,
          (h3 _ n2 _ n hn hn').1, (h3 _ n2 _ n hn hn').2⟩
      · simp only [TMatrix.setRow, if_neg e]
        exact h i (by omega) n hn hn')).1

/-- only the factor of the pair of orders matters -/
theorem Q_congr {im : ℂ} {S : Surface ℂ} {npts : Nat} {γ γ' : Nat → Nat → ℂ} {a b : ℂ} {Z Z' : Radial ℂ} {m i n i' n' : Nat}
    (h : γ n n' = γ' n n') : Spec.Q im S npts γ a b Z Z' m i n i' n' = Spec.Q im S npts γ' a b Z Z' m i n i' n' := by
  unfold Spec.Q Spec.J
  rw [h]

/-- **C72** (spheroid) For every wavelength, refractive index, size, axis ratio, order and number of quadrature points: if the
quadrature routine returns (points inside `(-1, 1)`), then, with `θ` the angles of the quadrature points and `k = 2π/λ`, there is a
spheroid with the requested axis ratio and the volume of the sphere of radius `R_V` such that after the constructor and one call of
`compute_additional_elements`, `operator()` returns the elements of its transition matrix, for every degree with regular `Q`. The
radial functions are those the Bessel routines compute. -/
theorem c72_spheroid (habs : ∀ x : ℂ, x ≠ 0 → absv 0 < absv x) (jdj ydy : Routine ℝ) (jdjm : Routine ℂ)
    {zj dzj zy dzy : Nat → ℝ → ℝ} {zm dzm : Nat → ℂ → ℂ} {nmax ngauss : Nat} (hn : 1 ≤ nmax) (h1 : Gives jdj nmax zj dzj)
    (h2 : Gives ydy nmax zy dzy) (h3 : Gives jdjm nmax zm dzm) (fuel : Nat) {wavelength RV d : ℝ} {mr : ℂ}
    (hl : 0 < wavelength) (hmr : mr ≠ 0) (hRV : 0 < RV) (hd : 0 < d) (o : Obj ℝ ℂ)
    (ho : construct realOps Complex.ofRealHom absv Complex.I jdj ydy jdjm fuel wavelength mr RV d nmax ngauss = some o)
    (hc : ∀ i < 2 * ngauss, -1 < o.costheta i ∧ o.costheta i < 1) :
    let θ := fun i => Real.arccos (o.costheta i)
    let k := 2 * Real.pi / wavelength
    let γ := fun n n' => (prefactor n n' : ℂ)
    ∃ (a b : ℝ) (r : ℝ → ℝ), 0 < a ∧ 0 < b ∧ a / b = d ∧ a ^ 2 * b = RV ^ 3 ∧ (∀ x, 0 < r x ∧ OnSpheroid a b (r x) x)
      ∧ ∀ m ≤ nmax,
        let S := surface θ o.weights r
        let h := outgoingAt k (fun i => r (θ i)) zj dzj zy dzy
        let j := regularAt k (fun i => r (θ i)) zj dzj
        let j' := insideAt (mr * k) (fun i => r (θ i)) zm dzm
        Mirror S (2 * ngauss) [h, j, j'] ∧
        ((QMatrix Complex.I S (2 * ngauss) γ (k * (mr * k)) (k ^ 2) h j' m nmax).det ≠ 0 →
        IsTransition Complex.I S (2 * ngauss) γ (k * (mr * k)) (k ^ 2) h j j' m nmax
          (fun i n i' n' => (additional realOps Complex.ofRealHom absv Complex.I o).res.get i n m i' n')) := by
  intro θ k γ
  unfold construct at ho
  rw [Option.map_eq_some_iff] at ho
  obtain ⟨o0, ht, rfl⟩ := ho
  unfold tables at ht
  dsimp only at ht
  split at ht
  · cases ht
  rename_i g hg
  obtain ⟨gs, gw, gq, _⟩ := Special.c32_symmetric realOps fuel (2 * ngauss) _ g hg
  obtain ⟨an1, an2⟩ := annLoop_spec nmax (blank realOps Complex.ofRealHom wavelength mr nmax ngauss).dd
    (blank realOps Complex.ofRealHom wavelength mr nmax ngauss).ann rfl
  rw [Option.some.injEq] at ht
  generalize annLoop realOps nmax ((blank realOps Complex.ofRealHom wavelength mr nmax ngauss).dd,
    (blank realOps Complex.ofRealHom wavelength mr nmax ngauss).ann) = A at ht an1 an2
  obtain ⟨R1, R2⟩ := radiusLoop_spec RV mr ngauss { blank realOps Complex.ofRealHom wavelength mr nmax ngauss with
    dd := A.1
    ann := A.2
    costheta := g.1
    weights := g.2
    s2inv := (WignerTable.sineLoop realOps g.1 ngauss (fun _ => 0, fun _ => 0)).1
    sinv := (WignerTable.sineLoop realOps g.1 ngauss (fun _ => 0, fun _ => 0)).2
    r2 := (rDrSpheroid realOps g.1 (2 * ngauss) d (fun _ => 0, fun _ => 0)).1
    drr := (rDrSpheroid realOps g.1 (2 * ngauss) d (fun _ => 0, fun _ => 0)).2 }
  have ht' : besselLoop jdj ydy jdjm nmax ngauss (radiusLoop realOps Complex.ofRealHom RV mr ngauss { blank realOps Complex.ofRealHom wavelength mr nmax ngauss with
    dd := A.1
    ann := A.2
    costheta := g.1
    weights := g.2
    s2inv := (WignerTable.sineLoop realOps g.1 ngauss (fun _ => 0, fun _ => 0)).1
    sinv := (WignerTable.sineLoop realOps g.1 ngauss (fun _ => 0, fun _ => 0)).2
    r2 := (rDrSpheroid realOps g.1 (2 * ngauss) d (fun _ => 0, fun _ => 0)).1
    drr := (rDrSpheroid realOps g.1 (2 * ngauss) d (fun _ => 0, fun _ => 0)).2 }) = o0 := ht
  clear ht
  generalize radiusLoop realOps Complex.ofRealHom RV mr ngauss { blank realOps Complex.ofRealHom wavelength mr nmax ngauss with
    dd := A.1
    ann := A.2
    costheta := g.1
    weights := g.2
    s2inv := (WignerTable.sineLoop realOps g.1 ngauss (fun _ => 0, fun _ => 0)).1
    sinv := (WignerTable.sineLoop realOps g.1 ngauss (fun _ => 0, fun _ => 0)).2
    r2 := (rDrSpheroid realOps g.1 (2 * ngauss) d (fun _ => 0, fun _ => 0)).1
    drr := (rDrSpheroid realOps g.1 (2 * ngauss) d (fun _ => 0, fun _ => 0)).2 } = oR at R1 R2 ht'
  dsimp only at R1
  -- the quadrature points
  have ect : oR.costheta = g.1 := congrArg Obj.costheta R2
  have ewt : oR.weights = g.2 := congrArg Obj.weights R2
  have esi : oR.sinv = (WignerTable.sineLoop realOps g.1 ngauss (fun _ => 0, fun _ => 0)).2 := congrArg Obj.sinv R2
  have es2 : oR.s2inv = (WignerTable.sineLoop realOps g.1 ngauss (fun _ => 0, fun _ => 0)).1 := congrArg Obj.s2inv R2
  have edr : oR.drr = (rDrSpheroid realOps g.1 (2 * ngauss) d (fun _ => 0, fun _ => 0)).2 := congrArg Obj.drr R2
  have ean : oR.ann = A.2 := congrArg Obj.ann R2
  have enm : oR.nmax = nmax := congrArg Obj.nmax R2
  have eng : oR.ngauss = ngauss := congrArg Obj.ngauss R2
  have ek2 : oR.k2 = k * k := congrArg Obj.k2 R2
  have ek2m : oR.k2mr = mr * ((k * k : ℝ) : ℂ) := congrArg Obj.k2mr R2
  have eT : oR.T = fun m => Mat.new (2 * (nmax + 1 - m)) (2 * (nmax + 1 - m)) := congrArg Obj.T R2
  have B2 := besselLoop_frame jdj ydy jdjm nmax ngauss oR
  rw [ht'] at B2
  dsimp only at B2
  have gct : o0.costheta = g.1 := (congrArg Obj.costheta B2).trans ect
  have hθd : θ = fun i => Real.arccos (g.1 i) := by
    funext i
    exact congrArg (fun c : Nat → ℝ => Real.arccos (c i)) gct
  have hcc : ∀ i < 2 * ngauss, -1 < g.1 i ∧ g.1 i < 1 := by
    intro i hi
    have := hc i hi
    rwa [show (degree0 realOps Complex.ofRealHom absv Complex.I o0).costheta = g.1 from gct] at this
  have hcos : g.1 = fun i => Real.cos (θ i) := by
    funext i
    rw [hθd]
    symm
    by_cases hi : i < 2 * ngauss
    · exact Real.cos_arccos (hcc i hi).1.le (hcc i hi).2.le
    · have : g.1 i = 0 := (gq i (by omega)).1
      dsimp only
      rw [this]
      simp
  have hθ : ∀ i, i < 2 * ngauss → 0 < θ i ∧ θ i < Real.pi := by
    intro i hi
    rw [hθd]
    exact ⟨Real.arccos_pos.mpr (hcc i hi).2, by
      have := (hcc i hi).1
      exact lt_of_le_of_ne (Real.arccos_le_pi _) fun e => absurd (Real.arccos_eq_pi.mp e) (by linarith)⟩
  have hsym : ∀ i, i < 2 * ngauss → θ (2 * ngauss - 1 - i) = Real.pi - θ i := by
    intro i hi
    rw [hθd]
    dsimp only
    rw [gs i hi (by omega), Real.arccos_neg]
  obtain ⟨a, b, r, ha, hb, hab, hv, hr, hM, hr1, hr2, hreads⟩ := c60_tables θ g.2 nmax ngauss d hd hθ hsym gw
    (fun _ => 0, fun _ => 0) (fun _ => 0, fun _ => 0) ⟨fun _ _ _ => 0, fun _ _ _ => 0⟩
  have hk : 0 < k := by positivity
  -- the tables
  have hsqrt : ∀ i, i < 2 * ngauss → Real.sqrt ((rDrSpheroid realOps g.1 (2 * ngauss) d (fun _ => 0, fun _ => 0)).1 i * (RV * RV)) = RV * r (θ i) := by
    intro i hi
    have e := hr1 i hi
    simp only [spheroidPoints] at e
    rw [← hcos] at e
    have e : Real.sqrt ((rDrSpheroid realOps g.1 (2 * ngauss) d (fun _ => 0, fun _ => 0)).1 i) = r (θ i) := by exact_mod_cast e
    rw [Real.sqrt_mul' _ (by positivity), e, Real.sqrt_mul_self hRV.le, mul_comm]
  have hR : ∀ i, i < 2 * ngauss → oR.kr i = k * (RV * r (θ i)) ∧ oR.krinv i = 1 / (k * (RV * r (θ i)))
      ∧ oR.krmr i = mr * ((k * (RV * r (θ i)) : ℝ) : ℂ) ∧ oR.krmrinv i = 1 / mr * ((1 / (k * (RV * r (θ i))) : ℝ) : ℂ) := by
    intro i hi
    have := (R1 i hi).2
    rw [hsqrt i hi] at this
    exact this
  have hpos : ∀ i, 0 < k * (RV * r (θ i)) := fun i => by have := (hr (θ i)).1; positivity
  have hne : ∀ i, i < 2 * ngauss → oR.kr i ≠ 0 ∧ oR.krmr i ≠ 0 := by
    intro i hi
    rw [(hR i hi).1, (hR i hi).2.2.1]
    exact ⟨(hpos i).ne', mul_ne_zero hmr (by exact_mod_cast (hpos i).ne')⟩
  have B1 := besselLoop_spec jdj ydy jdjm nmax ngauss oR h1 h2 h3 hne
  rw [ht'] at B1
  dsimp only at B1
  have fnm : o0.nmax = nmax := (congrArg Obj.nmax B2).trans enm
  have fng : o0.ngauss = ngauss := (congrArg Obj.ngauss B2).trans eng
  have fT : o0.T = fun m => Mat.new (2 * (nmax + 1 - m)) (2 * (nmax + 1 - m)) := (congrArg Obj.T B2).trans eT
  have fan : o0.ann = A.2 := (congrArg Obj.ann B2).trans ean
  have fk2 : o0.k2 = k * k := (congrArg Obj.k2 B2).trans ek2
  have fk2m : o0.k2mr = mr * ((k * k : ℝ) : ℂ) := (congrArg Obj.k2mr B2).trans ek2m
  have fwt : o0.weights = g.2 := (congrArg Obj.weights B2).trans ewt
  have fkr : o0.kr = oR.kr := (congrArg Obj.kr B2).trans rfl
  have fki : o0.krinv = oR.krinv := (congrArg Obj.krinv B2).trans rfl
  have fkm : o0.krmr = oR.krmr := (congrArg Obj.krmr B2).trans rfl
  have fkmi : o0.krmrinv = oR.krmrinv := (congrArg Obj.krmrinv B2).trans rfl
  have fr2 : o0.r2 = oR.r2 := (congrArg Obj.r2 B2).trans rfl
  have fdr : o0.drr = _ := (congrArg Obj.drr B2).trans edr
  have fsi : o0.sinv = _ := (congrArg Obj.sinv B2).trans esi
  have fs2 : o0.s2inv = _ := (congrArg Obj.s2inv B2).trans es2
  have hwt : (degree0 realOps Complex.ofRealHom absv Complex.I o0).weights = g.2 := fwt
  refine ⟨RV * a, RV * b, fun x => RV * r x, by positivity, by positivity, ?_, ?_, ?_, ?_⟩
  · rw [mul_div_mul_left _ _ hRV.ne', hab]
  · rw [show (RV * a) ^ 2 * (RV * b) = RV ^ 3 * (a ^ 2 * b) by ring, hv, mul_one]
  · intro x
    refine ⟨mul_pos hRV (hr x).1, ?_⟩
    have := (hr x).2
    unfold OnSpheroid at this ⊢
    rw [← this]
    field_simp
  rw [hwt]
  intro m hm S h j j'
  have hgam : ∀ n n', 1 ≤ n → n ≤ nmax → 1 ≤ n' → n' ≤ nmax → (o0.consts Complex.ofRealHom).ann n n' = γ n n' := by
    intro n n' b1 b2 b3 b4
    simp only [Obj.consts, fan]
    have := an2 (n - 1) (n' - 1) (by omega) (by omega)
    rw [show n - 1 + 1 = n by omega, show n' - 1 + 1 = n' by omega] at this
    simp only [γ]
    rw [← this, Complex.ofRealHom_eq_coe]
    push_cast
    rfl
  have ea : (o0.consts Complex.ofRealHom).k2mr = k * (mr * k) := by
    simp only [Obj.consts, fk2m]
    push_cast
    ring
  have eb : (o0.consts Complex.ofRealHom).k2 = (k : ℂ) ^ 2 := by
    simp only [Obj.consts, fk2, Complex.ofRealHom_eq_coe]
    push_cast
    ring
  have hrow := wignerTables_spec θ nmax ngauss m hm hθ
  have hsurf : Mirror S (2 * ngauss) [h, j, j'] := by
    have hslope : ∀ i, S.slope i = (surface θ g.2 r).slope i := by
      intro i
      simp only [S, surface]
      rw [deriv_const_mul_field, mul_div_mul_left _ _ hRV.ne']
    have hr2' : ∀ i, S.r2 i = ((RV ^ 2 : ℝ) : ℂ) * (surface θ g.2 r).r2 i := by
      intro i
      simp only [S, surface]
      push_cast
      ring
    have hrr : ∀ i, i < 2 * ngauss → r (θ (2 * ngauss - 1 - i)) = r (θ i) := by
      intro i hi
      have := hr2 i hi
      rw [hr1 i hi, hr1 (2 * ngauss - 1 - i) (by omega)] at this
      exact_mod_cast this
    refine ⟨hM.1, hM.2, ?_, ?_, hM.5, hM.6, ?_, ?_, ?_⟩
    · intro i hi
      rw [hr2', hr2', hM.3 i hi]
    · intro i hi
      rw [hslope, hslope, hM.4 i hi]
    all_goals
      intro Y hY i hi
      simp only [List.mem_cons, List.not_mem_nil, or_false] at hY
      rcases hY with rfl | rfl | rfl <;> simp only [h, j, j', outgoingAt, regularAt, insideAt, hrr i hi, implies_true]
  refine ⟨hsurf, fun hdet => ?_⟩
  have hdesc : Describes realOps Complex.ofRealHom Complex.I o0 S h j j' m := by
    unfold Describes
    rw [fnm, fng]
    have hRd := hreads m hm
    have hsq : ∀ i, i < 2 * ngauss → (rDrSpheroid realOps g.1 (2 * ngauss) d (fun _ => 0, fun _ => 0)).1 i * (RV * RV) = (RV * r (θ i)) ^ 2 := by
      intro i hi
      rw [← hsqrt i hi, Real.sq_sqrt]
      have e := hr1 i hi
      simp only [spheroidPoints] at e
      rw [← hcos] at e
      have e : Real.sqrt ((rDrSpheroid realOps g.1 (2 * ngauss) d (fun _ => 0, fun _ => 0)).1 i) = r (θ i) := by exact_mod_cast e
      have hp : 0 < Real.sqrt ((rDrSpheroid realOps g.1 (2 * ngauss) d (fun _ => 0, fun _ => 0)).1 i) := by rw [e]; exact (hr _).1
      have := Real.sqrt_pos.mp hp
      positivity
    have hI : ∀ i, i < 2 * ngauss → (o0.inter Complex.ofRealHom).krinv i = ((k * (RV * r (θ i)) : ℝ) : ℂ)⁻¹
        ∧ (o0.inter Complex.ofRealHom).krmrinv i = (mr * (k : ℂ) * ((RV * r (θ i) : ℝ) : ℂ))⁻¹ := by
      intro i hi
      have hh := hR i hi
      simp only [Obj.inter, fki, fkmi, hh.2.1, hh.2.2.2, Complex.ofRealHom_eq_coe]
      have h1 : (k : ℂ) ≠ 0 := by exact_mod_cast hk.ne'
      have h2 : (RV : ℂ) ≠ 0 := by exact_mod_cast hRV.ne'
      have h3 : (r (θ i) : ℂ) ≠ 0 := by exact_mod_cast (hr (θ i)).1.ne'
      push_cast
      constructor <;> field_simp
    have hB : ∀ i, i < 2 * ngauss → ∀ n, 1 ≤ n → n ≤ nmax → o0.j i (n - 1) = zj n (k * (RV * r (θ i))) ∧ o0.dj i (n - 1) = dzj n (k * (RV * r (θ i)))
        ∧ o0.y i (n - 1) = zy n (k * (RV * r (θ i))) ∧ o0.dy i (n - 1) = dzy n (k * (RV * r (θ i)))
        ∧ o0.jm i (n - 1) = zm n (mr * (k : ℂ) * ((RV * r (θ i) : ℝ) : ℂ)) ∧ o0.djm i (n - 1) = dzm n (mr * (k : ℂ) * ((RV * r (θ i) : ℝ) : ℂ)) := by
      intro i hi n hn hn'
      have := B1 i hi n hn hn'
      rw [(hR i hi).1, (hR i hi).2.2.1] at this
      rw [show mr * (k : ℂ) * ((RV * r (θ i) : ℝ) : ℂ) = mr * ((k * (RV * r (θ i)) : ℝ) : ℂ) by push_cast; ring]
      exact this
    refine ⟨⟨?_, ?_, ?_, ?_, ?_, ?_⟩, ⟨?_, ?_, ?_⟩, ⟨?_, ?_, ?_⟩, ⟨?_, ?_, ?_⟩, hsurf, ?_⟩
    · intro i hi
      simp only [Obj.points, fwt]
      rfl
    · intro i hi
      refine Eq.trans ?_ (hRd.sinv i hi)
      simp only [Obj.points, fsi, spheroidPoints, ← hcos]
      rfl
    · intro i hi
      refine Eq.trans ?_ (hRd.s2inv i hi)
      simp only [Obj.points, fs2, spheroidPoints, ← hcos]
      rfl
    · intro i hi
      simp only [Obj.points, fr2, (R1 i (by omega)).1, hsq i (by omega), S, surface]
      rfl
    · intro i hi
      refine Eq.trans ?_ ((hRd.drr i hi).trans ?_)
      · simp only [Obj.points, fdr, spheroidPoints, ← hcos]
        rfl
      · simp only [S, surface]
        rw [deriv_const_mul_field, mul_div_mul_left _ _ hRV.ne']
    · intro i hi
      obtain ⟨ε, he, _, _, hh⟩ := WignerTable.rowsOk_sign θ hsym _ hrow (show i < 2 * ngauss by omega)
      refine ⟨(ε : ℂ), by exact_mod_cast he, ?_⟩
      intro n b1 b2 b3
      obtain ⟨d', hd', e1, e2⟩ := hh n b1 b3
      dsimp only at e1 e2
      rw [← hcos] at e1 e2
      simp only [Obj.points, gct, fnm, fng, S, surface]
      rw [e1, e2, hd'.deriv]
      simp only [Complex.ofRealHom_eq_coe]
      push_cast
      exact ⟨rfl, rfl⟩
    · intro i hi n b1 b2
      have := hB i (by omega) n b1 b2
      simp only [hank, Obj.inter, this.1, this.2.2.1, h, outgoingAt]
      rfl
    · intro i hi n b1 b2
      have := hB i (by omega) n b1 b2
      simp only [hank, Obj.inter, this.2.1, this.2.2.2.1, h, outgoingAt]
      rfl
    · intro i hi
      exact (hI i (by omega)).1
    · intro i hi n b1 b2
      have := hB i (by omega) n b1 b2
      simp only [Obj.inter, this.1, j, regularAt]
      rfl
    · intro i hi n b1 b2
      have := hB i (by omega) n b1 b2
      simp only [Obj.inter, this.2.1, j, regularAt]
      rfl
    · intro i hi
      exact (hI i (by omega)).1
    · intro i hi n b1 b2
      have := hB i (by omega) n b1 b2
      simp only [Obj.inter, this.2.2.2.2.1, j', insideAt]
    · intro i hi n b1 b2
      have := hB i (by omega) n b1 b2
      simp only [Obj.inter, this.2.2.2.2.2, j', insideAt]
    · intro i hi
      exact (hI i (by omega)).2
    · have : QMatrix Complex.I S (2 * ngauss) (o0.consts Complex.ofRealHom).ann (o0.consts Complex.ofRealHom).k2mr
          (o0.consts Complex.ofRealHom).k2 h j' m nmax = QMatrix Complex.I S (2 * ngauss) γ (k * (mr * k)) (k ^ 2) h j' m nmax := by
        ext x y
        have e1 := x.2.2
        have e2 := y.2.2
        simp only [QMatrix]
        rw [Q_congr (hgam _ _ (by omega) (by omega) (by omega) (by omega)), ea, eb]
      rw [this]
      exact hdet
  have main := c72_transition realOps Complex.ofRealHom absv Complex.I habs Complex.I_mul_I o0 (by omega)
    (by
      intro l hl
      exact ⟨by rw [fT, fnm]; rfl, fun r c => by rw [fT]; rfl⟩) S h j j' (show m ≤ o0.nmax by omega) hdesc
  rw [fnm, fng] at main
  intro i n i' n' b1 b2 b3 b4 b5 b6
  have e := main i n i' n' b1 b2 b3 b4 b5 b6
  have ea' : o0.k2mr = k * (mr * k) := ea
  have eb' : Complex.ofRealHom o0.k2 = (k : ℂ) ^ 2 := eb
  rw [Q_congr (hgam n n' (by omega) b4 (by omega) b6), ea', eb'] at e
  rw [← e]
  refine sum_congr rfl fun i'' hi'' => sum_congr rfl fun n'' hn'' => ?_
  rw [mem_Ico] at hn''
  rw [Q_congr (hgam n'' n' (by omega) (by omega) (by omega) b6)]

end

/-! ## The hypotheses are met -/

namespace Example

theorem newtonStep_two {x : ℝ} (hx : 1 / 2 ≤ x) (hx' : x ≤ 3 / 4) :
    ∃ pa, 0 < pa ∧ Special.newtonStep 2 x = (pa, (3 * x ^ 2 - 1) / (6 * x), (3 * x ^ 2 + 1) / (6 * x)) := by
  have h1 : 1 - x * x ≠ 0 := by nlinarith
  have h2 : x ≠ 0 := by linarith
  have e : Special.legendrePair 2 x = (x, x * x + (x * x - 1) / 2) := by
    unfold Special.legendrePair
    rw [loop_succ (by omega), loop_self]
    simp only [Nat.cast_one]
    norm_num
  have e1 : (x - x * (x * x + (x * x - 1) / 2)) * ((2 : ℕ) : ℝ) = 3 * x * (1 - x * x) := by push_cast; ring
  have e2 : 1 / (3 * x * (1 - x * x)) * (x * x + (x * x - 1) / 2) * (1 - x * x) = (3 * x ^ 2 - 1) / (6 * x) := by
    rw [div_mul_eq_mul_div, div_mul_eq_mul_div, div_eq_div_iff (by positivity) (by positivity)]
    ring
  have hp : 0 < 1 - x * x := by nlinarith
  refine ⟨1 / (3 * x * (1 - x * x)), by positivity, ?_⟩
  unfold Special.newtonStep
  rw [e]
  simp only [e1, e2]
  rw [Prod.mk.injEq, Prod.mk.injEq]
  refine ⟨rfl, rfl, ?_⟩
  field_simp
  ring

theorem step_bounds {x : ℝ} (hx : 1 / 2 ≤ x) (hx' : x ≤ 3 / 4) :
    1 / 2 ≤ (3 * x ^ 2 + 1) / (6 * x) ∧ (3 * x ^ 2 + 1) / (6 * x) ≤ 3 / 4 ∧ |(3 * x ^ 2 - 1) / (6 * x)| ≤ 1 / 2 := by
  have hp : (0 : ℝ) < 6 * x := by linarith
  refine ⟨?_, ?_, ?_⟩
  · rw [le_div_iff₀ hp]; nlinarith [sq_nonneg (x - 1 / 2)]
  · rw [div_le_iff₀ hp]; nlinarith
  · rw [abs_div, abs_of_pos hp, div_le_iff₀ hp, abs_le]
    constructor <;> nlinarith

/-- the test of the loop becomes weaker by a factor of 10 in every pass after the hundredth -/
theorem newton_end (f : Nat) : ∀ (niter : Nat) (check x : ℝ), 1 / 2 ≤ x → x ≤ 3 / 4 → 0 < check → 100 ≤ niter →
    1 ≤ check * 10 ^ (f + 1) →
    ∃ pa y, Special.newton 2 (f + 1) niter check x = some (pa, y) ∧ 0 < pa ∧ 1 / 2 ≤ y ∧ y ≤ 3 / 4 := by
  induction f with
  | zero =>
    intro niter check x hx hx' h0 hn h
    obtain ⟨pa, hpa, e⟩ := newtonStep_two hx hx'
    obtain ⟨b1, b2, b3⟩ := step_bounds hx hx'
    unfold Special.newton
    rw [e]
    dsimp only
    rw [if_neg]
    · exact ⟨_, _, rfl, hpa, b1, b2⟩
    · rw [if_pos (by omega), gt_iff_lt, not_lt, abs_of_pos (by linarith : 0 < (3 * x ^ 2 + 1) / (6 * x))]
      simp only [zero_add, pow_one] at h
      nlinarith
  | succ f ih =>
    intro niter check x hx hx' h0 hn h
    obtain ⟨pa, hpa, e⟩ := newtonStep_two hx hx'
    obtain ⟨b1, b2, b3⟩ := step_bounds hx hx'
    unfold Special.newton
    rw [e]
    dsimp only
    rw [if_pos (show 100 < niter + 1 by omega)]
    split_ifs
    · exact ih _ _ _ b1 b2 (by linarith) (by omega) (by rw [pow_succ] at h; linarith)
    · exact ⟨_, _, rfl, hpa, b1, b2⟩

theorem newton_start (f k : Nat) : ∀ (check x : ℝ), k ≤ 100 → 1 / 2 ≤ x → x ≤ 3 / 4 → 0 < check → 
    1 ≤ check * 10 ^ (f + 1) →
    ∃ pa y, Special.newton 2 (k + (f + 1)) (100 - k) check x = some (pa, y) ∧ 0 < pa ∧ 1 / 2 ≤ y ∧ y ≤ 3 / 4 := by
  induction k with
  | zero =>
    intro check x _ hx hx' h0 h
    rw [zero_add]
    exact newton_end f _ _ _ hx hx' h0 (by omega) h
  | succ k ih =>
    intro check x hk hx hx' h0 h
    obtain ⟨pa, hpa, e⟩ := newtonStep_two hx hx'
    obtain ⟨b1, b2, b3⟩ := step_bounds hx hx'
    rw [show k + 1 + (f + 1) = (k + (f + 1)) + 1 by omega]
    unfold Special.newton
    rw [e]
    dsimp only
    rw [if_neg (show ¬ 100 < 100 - (k + 1) + 1 by omega)]
    split_ifs
    · rw [show 100 - (k + 1) + 1 = 100 - k by omega]
      exact ih _ _ (by omega) b1 b2 h0 h
    · exact ⟨_, _, rfl, hpa, b1, b2⟩

theorem guess_two : 1 / 2 ≤ Special.guess realOps 2 0 ∧ Special.guess realOps 2 0 ≤ 3 / 4 := by
  have hp1 := Real.pi_gt_d2
  have hp2 := Real.pi_lt_d2
  have et : Real.pi * ((((0 : ℕ) : ℝ)) + 3 / 4) / (((2 : ℕ) : ℝ) + 1 / 2) = 3 / 10 * Real.pi := by push_cast; ring
  have c1 : 1 - (3 / 10 * Real.pi) ^ 2 / 2 ≤ Real.cos (3 / 10 * Real.pi) := Real.one_sub_sq_div_two_le_cos
  have c2 : Real.cos (3 / 10 * Real.pi) ≤ Real.cos (Real.pi / 4) := Real.cos_le_cos_of_nonneg_of_le_pi (by positivity) (by linarith) (by linarith)
  rw [Real.cos_pi_div_four] at c2
  have h2 : Real.sqrt 2 ≤ 1.42 := by
    rw [Real.sqrt_le_left (by norm_num)]; norm_num
  have hq : 1 / ((3 / 10 * Real.pi) * (3 / 10 * Real.pi)) ≤ 2 := by
    rw [div_le_iff₀ (by positivity)]; nlinarith
  have hq0 : 0 < 1 / ((3 / 10 * Real.pi) * (3 / 10 * Real.pi)) := by positivity
  have c3 : 0.55 ≤ Real.cos (3 / 10 * Real.pi) := by nlinarith
  unfold Special.guess
  simp only [realOps, et]
  have e : (1 : ℝ) - 1 / 8 * (1 / ((2 : ℕ) : ℝ) * (1 / ((2 : ℕ) : ℝ))) + 5 / 38 * (1 / ((2 : ℕ) : ℝ)) * (1 / ((2 : ℕ) : ℝ) * (1 / ((2 : ℕ) : ℝ)))
      - 2 / 25 * (1 / ((2 : ℕ) : ℝ) * (1 / ((2 : ℕ) : ℝ))) * (1 / ((2 : ℕ) : ℝ) * (1 / ((2 : ℕ) : ℝ))) * (1 - 14 / 39 / (3 / 10 * Real.pi * (3 / 10 * Real.pi)))
      = 1 - 1 / 32 + 5 / 304 - 1 / 200 * (1 - 14 / 39 * (1 / (3 / 10 * Real.pi * (3 / 10 * Real.pi)))) := by
    push_cast
    ring
  rw [e]
  generalize 1 / (3 / 10 * Real.pi * (3 / 10 * Real.pi)) = q at *
  generalize Real.cos (3 / 10 * Real.pi) = c at *
  constructor <;> nlinarith

theorem quadrature_two : ∃ x w, 0 < w ∧ 1 / 2 ≤ x ∧ x ≤ 3 / 4 ∧ gaussLegendre realOps (100 + (16 + 1)) 2 (fun _ => 0, fun _ => 0)
    = some (fun i => if i = 0 then -x else if i = 1 then x else 0, fun i => if i = 0 then w else if i = 1 then w else 0) := by
  obtain ⟨pa, y, e, hpa, h1, h2⟩ := newton_start 16 100 (1 / 10 ^ 16) (Special.guess realOps 2 0) le_rfl guess_two.1 guess_two.2 (by positivity)
    (by norm_num)
  have hy : 0 < 1 - y * y := by nlinarith
  refine ⟨y, 2 * pa * pa * (1 - y * y), by positivity, h1, h2, ?_⟩
  unfold gaussLegendre Special.loopM
  simp only [Nat.reduceDiv, Nat.reduceMod, Nat.reduceAdd, List.range_succ, List.range_zero, List.nil_append, List.foldlM_cons, List.foldlM_nil]
  unfold Special.glBody
  norm_num [realOps] at e ⊢
  rw [e]
  simp
  constructor
  · funext i
    by_cases h0 : i = 0
    · subst h0; simp
    · by_cases h1 : i = 1
      · subst h1; simp
      · simp [h0, h1]
  · funext i
    by_cases h0 : i = 0
    · subst h0; simp
    · by_cases h1 : i = 1
      · subst h1; simp
      · simp [h0, h1]


/-- radial functions for the example: `z = 0`, `z' = 1` outside, `z = 1`, `z' = 0` inside -/
def const {F : Type} (a b : F) : Routine F := fun _ _ _ => (fun _ => a, fun _ => b)

theorem gives {F : Type} [Zero F] (a b : F) (nmax : Nat) : Gives (const a b) nmax (fun _ _ => a) (fun _ _ => b) :=
  fun _ _ _ _ _ _ => ⟨rfl, rfl⟩

/-- the quadrature points and weights of the object -/
theorem construct_points (absv : ℂ → ℝ) (jdj ydy : Routine ℝ) (jdjm : Routine ℂ) (fuel : Nat) (wl : ℝ) (mr : ℂ) (RV d : ℝ) (nmax ngauss : Nat)
    (g : (Nat → ℝ) × (Nat → ℝ)) (hg : gaussLegendre realOps fuel (2 * ngauss) (fun _ => 0, fun _ => 0) = some g) :
    ∃ o, construct realOps Complex.ofRealHom absv Complex.I jdj ydy jdjm fuel wl mr RV d nmax ngauss = some o
      ∧ o.costheta = g.1 ∧ o.weights = g.2 := by
  unfold construct tables
  simp only [blank]
  rw [hg]
  refine ⟨_, rfl, ?_, ?_⟩
  · exact (congrArg Obj.costheta (besselLoop_frame jdj ydy jdjm nmax ngauss _)).trans
      ((congrArg Obj.costheta (radiusLoop_spec RV mr ngauss _).2).trans rfl)
  · exact (congrArg Obj.weights (besselLoop_frame jdj ydy jdjm nmax ngauss _)).trans
      ((congrArg Obj.weights (radiusLoop_spec RV mr ngauss _).2).trans rfl)

/-- `Q` is regular for `m = 0` -/
theorem regular (θ w : Nat → ℝ) (r : ℝ → ℝ) (hθ : ∀ i < 2, 0 < θ i ∧ θ i < Real.pi) (hw : ∀ i < 2, 0 < w i) (hr : ∀ x, 0 < r x) (k : ℝ) (hk : 0 < k) :
    (QMatrix Complex.I (surface θ w r) (2 * 1) (fun n n' => (prefactor n n' : ℂ))
        ((k : ℂ) * (2 * (k : ℂ))) ((k : ℂ) ^ 2)
        (outgoingAt k (fun i => r (θ i)) (fun _ _ => 0) (fun _ _ => 1) (fun _ _ => 0) (fun _ _ => 0))
        (insideAt (2 * (k : ℂ)) (fun i => r (θ i)) (fun _ _ => 1) (fun _ _ => 0)) 0 1).det ≠ 0 := by
  have hd : deriv (wigner 0 1) = fun x => -Real.sin x := by
    rw [show wigner 0 1 = Real.cos from funext wigner_zero_one]
    exact Real.deriv_cos'
  have hs : ∀ i < 2, 0 < Real.sin (θ i) := fun i hi => Real.sin_pos_of_pos_of_lt_pi (hθ i hi).1 (hθ i hi).2
  have hp : 0 < prefactor 1 1 := by unfold prefactor; positivity
  let A : ℝ := w 0 * prefactor 1 1 * r (θ 0) ^ 2 * Real.sin (θ 0) ^ 2 + w 1 * prefactor 1 1 * r (θ 1) ^ 2 * Real.sin (θ 1) ^ 2
  have hA : 0 < A := by
    have := hs 0 (by omega)
    have := hs 1 (by omega)
    have := hw 0 (by omega)
    have := hw 1 (by omega)
    have := hr (θ 0)
    have := hr (θ 1)
    positivity
  have e : (QMatrix Complex.I (surface θ w r) (2 * 1) (fun n n' => (prefactor n n' : ℂ))
        ((k : ℂ) * (2 * (k : ℂ))) ((k : ℂ) ^ 2)
        (outgoingAt k (fun i => r (θ i)) (fun _ _ => 0) (fun _ _ => 1) (fun _ _ => 0) (fun _ _ => 0))
        (insideAt (2 * (k : ℂ)) (fun i => r (θ i)) (fun _ _ => 1) (fun _ _ => 0)) 0 1)
      = _root_.Matrix.diagonal (fun x => if x.1 = 0 then -((k : ℂ) ^ 2 * A) else -((k : ℂ) * (2 * (k : ℂ)) * A)) := by
    ext x y
    obtain ⟨x1, x2⟩ := x
    obtain ⟨y1, y2⟩ := y
    have ex : (x2 : Nat) = 0 := by have := x2.2; simp at this; omega
    have ey : (y2 : Nat) = 0 := by have := y2.2; simp at this; omega
    have exy : x2 = y2 := Fin.ext (by omega)
    subst exy
    simp only [QMatrix, Spec.Q, ex]
    fin_cases x1 <;> fin_cases y1 <;>
      simp [Spec.J, Finset.sum_range_succ, wave, waveM, waveN, πf, cross, dot, normal, surface, outgoingAt, insideAt, hd, A, wigner_zero_one]
    all_goals ring_nf
    all_goals simp
  rw [e, _root_.Matrix.det_diagonal, Finset.prod_ne_zero_iff]
  intro x _
  have h1 : (k : ℂ) ≠ 0 := by exact_mod_cast hk.ne'
  have h2 : (A : ℂ) ≠ 0 := by exact_mod_cast hA.ne'
  split_ifs <;> simp [h1, h2]

/-- a spheroid with axis ratio 2: the constructor ends, and the element of order 1 and degree 0 is that of the transition matrix -/
example : ∃ o, construct realOps Complex.ofRealHom norm Complex.I (const 0 1) (const 0 0) (const 1 0) (100 + (16 + 1)) 1 2 1 2 1 1 = some o
    ∧ ∃ (r : ℝ → ℝ) (θ : Nat → ℝ), (∀ x, 0 < r x) ∧ IsTransition Complex.I (surface θ o.weights r) 2 (fun n n' => (prefactor n n' : ℂ))
        (((2 * Real.pi / 1 : ℝ) : ℂ) * (2 * ((2 * Real.pi / 1 : ℝ) : ℂ))) (((2 * Real.pi / 1 : ℝ) : ℂ) ^ 2)
        (outgoingAt (2 * Real.pi / 1) (fun i => r (θ i)) (fun _ _ => 0) (fun _ _ => 1) (fun _ _ => 0) (fun _ _ => 0))
        (regularAt (2 * Real.pi / 1) (fun i => r (θ i)) (fun _ _ => 0) (fun _ _ => 1))
        (insideAt (2 * ((2 * Real.pi / 1 : ℝ) : ℂ)) (fun i => r (θ i)) (fun _ _ => 1) (fun _ _ => 0)) 0 1
        (fun i n i' n' => (additional realOps Complex.ofRealHom norm Complex.I o).res.get i n 0 i' n') := by
  obtain ⟨x, w, hw, h1, h2, e⟩ := quadrature_two
  obtain ⟨o, ho, e1, e2⟩ := construct_points norm (const 0 1) (const 0 0) (const 1 0) (100 + (16 + 1)) 1 2 1 2 1 1 _ e
  refine ⟨o, ho, ?_⟩
  have hc : ∀ i < 2 * 1, -1 < o.costheta i ∧ o.costheta i < 1 := by
    intro i hi
    rw [e1]
    dsimp only
    split_ifs <;> constructor <;> linarith
  obtain ⟨a, b, r, _, _, _, _, hr, H⟩ := c72_spheroid norm (fun x hx => by simpa using hx) (const 0 1) (const 0 0) (const 1 0) (le_refl 1)
    (gives 0 1 1) (gives 0 0 1) (gives 1 0 1) _ (by norm_num) (by norm_num) (by norm_num) (by norm_num) o ho hc
  refine ⟨r, fun i => Real.arccos (o.costheta i), fun x => (hr x).1, ?_⟩
  refine (H 0 (by omega)).2 ?_
  refine regular _ _ r ?_ ?_ (fun x => (hr x).1) _ (by positivity)
  · intro i hi
    refine ⟨Real.arccos_pos.mpr (hc i hi).2, lt_of_le_of_ne (Real.arccos_le_pi _) fun e => absurd (Real.arccos_eq_pi.mp e) (by linarith [(hc i hi).1])⟩
  · intro i hi
    rw [e2]
    interval_cases i <;> simpa using hw

open Verif.TMatrix.Example (F)

@[reducible] def order : LinearOrder F := LinearOrder.lift' (fun x : ZMod 13 => x.val) (ZMod.val_injective 13)

def ops13 : Special.Ops F := ⟨id, id, id, id, 1⟩

def obj13 : Obj F F where
  nmax := 1
  ngauss := 1
  dd := fun _ => 0
  ann := (Mat.new 1 1).set 0 0 1
  costheta := fun i => if i = 0 then 4 else -4
  sinv := fun _ => 2
  s2inv := fun _ => 4
  weights := fun _ => 1
  r2 := fun _ => 3
  drr := fun i => if i = 0 then 1 else -1
  kr := fun _ => 2
  krinv := fun _ => 7
  krmr := fun _ => 3
  krmrinv := fun _ => 9
  k := 1
  k2 := 1
  k2mr := 2
  j := fun _ _ => 3
  y := fun _ _ => 1
  dj := fun _ _ => 5
  dy := fun _ _ => 2
  jm := fun _ _ => 4
  djm := fun _ _ => 1
  T := fun m => Mat.new (2 * (1 + 1 - m)) (2 * (1 + 1 - m))

attribute [local instance] order

/-- the element of order 1 and degree 1 of this object is 0 before, 2 after one call and 4 after two -/
example : (additional ops13 (RingHom.id F) id 5 obj13).res.get 0 1 1 0 1 ≠ 0
    ∧ (additional ops13 (RingHom.id F) id 5 (additional ops13 (RingHom.id F) id 5 obj13)).res.get 0 1 1 0 1
      ≠ (additional ops13 (RingHom.id F) id 5 obj13).res.get 0 1 1 0 1 := by
  have h : (additional ops13 (RingHom.id F) id 5 obj13).res.get 0 1 1 0 1 ≠ 0 := by decide +kernel
  refine ⟨h, ?_⟩
  rw [c73_violated_twice ops13 (RingHom.id F) id 5 obj13 (m := 1) le_rfl le_rfl ⟨rfl, fun _ _ => rfl⟩ ⟨by decide, by decide, by decide, by decide⟩ ⟨by decide, by decide, by decide, by decide⟩]
  intro e
  apply h
  linear_combination e

end Example

end Verif.Direct
