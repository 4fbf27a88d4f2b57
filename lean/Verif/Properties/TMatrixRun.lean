import Verif.Properties.TMatrix
import Mathlib.Data.ZMod.Basic
import Mathlib.Algebra.Field.ZMod
import Mathlib.Tactic.IntervalCases
import Mathlib.Tactic.NormNum.Prime

/-!
# The tasks of one particle and wavelength together: C60
-/
namespace Verif.TMatrix

open Finset Verif.Matrix Spec

section

variable {K R : Type} [Field K]
  (jdj ydy jdjm : Nat → K → (Nat → K) × (Nat → K) → (Nat → K) × (Nat → K)) (cs : Consts K)

/-- called for the order `nmax`, a routine leaves the functions `z` and `dz` in its arrays, whatever they contained before -/
def Computes (f : Nat → K → (Nat → K) × (Nat → K) → (Nat → K) × (Nat → K)) (nmax : Nat) (z dz : Nat → K → K) : Prop :=
  ∀ x s n, 1 ≤ n → n ≤ nmax → (f nmax x s).1 (n - 1) = z n x ∧ (f nmax x s).2 (n - 1) = dz n x

/-- what `InteractionTask::execute` leaves in the interaction resource -/
theorem interaction_spec (pt : Points K) (nmax ngauss : Nat) (c : Conv K R) (it : Inter K) (hc : c.converged = false)
    {zj dzj zy dzy zm dzm : Nat → K → K} (h1 : Computes jdj nmax zj dzj) (h2 : Computes ydy nmax zy dzy)
    (h3 : Computes jdjm nmax zm dzm) :
    let it' := executeInteraction jdj ydy jdjm cs pt nmax ngauss c it
    ∀ ig, ig < 2 * ngauss →
      it'.kr ig = cs.k * pt.r ig * cs.RV ∧ it'.krmr ig = cs.kmr * pt.r ig * cs.RV
      ∧ it'.krinv ig = 1 / (cs.k * pt.r ig * cs.RV) ∧ it'.krmrinv ig = 1 / (cs.kmr * pt.r ig * cs.RV)
      ∧ ∀ n, 1 ≤ n → n ≤ nmax →
        it'.j ig (n - 1) = zj n (cs.k * pt.r ig * cs.RV) ∧ it'.dj ig (n - 1) = dzj n (cs.k * pt.r ig * cs.RV)
        ∧ it'.y ig (n - 1) = zy n (cs.k * pt.r ig * cs.RV) ∧ it'.dy ig (n - 1) = dzy n (cs.k * pt.r ig * cs.RV)
        ∧ it'.jm ig (n - 1) = zm n (cs.kmr * pt.r ig * cs.RV) ∧ it'.djm ig (n - 1) = dzm n (cs.kmr * pt.r ig * cs.RV) := by
  intro it'
  have he : it' = executeInteraction jdj ydy jdjm cs pt nmax ngauss c it := rfl
  unfold executeInteraction at he
  simp only [hc, Bool.false_eq_true, if_false] at he
  have A := loop_inv (fun q (it : Inter K) => ∀ ig, ig < q →
      it.kr ig = cs.k * pt.r ig * cs.RV ∧ it.krmr ig = cs.kmr * pt.r ig * cs.RV
      ∧ it.krinv ig = 1 / (cs.k * pt.r ig * cs.RV) ∧ it.krmrinv ig = 1 / (cs.kmr * pt.r ig * cs.RV))
    (Nat.zero_le (2 * ngauss)) (fun ig (it : Inter K) =>
      let it := { it with kr := Function.update it.kr ig (cs.k * pt.r ig * cs.RV) }
      let it := { it with krmr := Function.update it.krmr ig (cs.kmr * pt.r ig * cs.RV) }
      let it := { it with krinv := Function.update it.krinv ig (1 / it.kr ig) }
      { it with krmrinv := Function.update it.krmrinv ig (1 / it.krmr ig) }) it
    (fun ig h => absurd h (by omega))
    (by
      intro q s _ _ h ig hig
      dsimp only
      by_cases e : ig = q
      · subst e; simp
      · simp only [Function.update_of_ne e]
        exact h ig (by omega))
  generalize loop 0 (2 * ngauss) (fun ig (it : Inter K) =>
      let it := { it with kr := Function.update it.kr ig (cs.k * pt.r ig * cs.RV) }
      let it := { it with krmr := Function.update it.krmr ig (cs.kmr * pt.r ig * cs.RV) }
      let it := { it with krinv := Function.update it.krinv ig (1 / it.kr ig) }
      { it with krmrinv := Function.update it.krmrinv ig (1 / it.krmr ig) }) it = it1 at A he
  have B := loop_inv (fun q (it : Inter K) => it.kr = it1.kr ∧ it.krmr = it1.krmr ∧ it.krinv = it1.krinv ∧ it.krmrinv = it1.krmrinv
      ∧ ∀ ig, ig < q → ∀ n, 1 ≤ n → n ≤ nmax →
        it.j ig (n - 1) = zj n (it1.kr ig) ∧ it.dj ig (n - 1) = dzj n (it1.kr ig)
        ∧ it.y ig (n - 1) = zy n (it1.kr ig) ∧ it.dy ig (n - 1) = dzy n (it1.kr ig)
        ∧ it.jm ig (n - 1) = zm n (it1.krmr ig) ∧ it.djm ig (n - 1) = dzm n (it1.krmr ig))
    (Nat.zero_le (2 * ngauss)) (fun ig (it : Inter K) =>
      let p := jdj nmax (it.kr ig) (it.j ig, it.dj ig)
      let it := { it with
        j := setRow it.j ig p.1
        dj := setRow it.dj ig p.2 }
      let p := ydy nmax (it.kr ig) (it.y ig, it.dy ig)
      let it := { it with
        y := setRow it.y ig p.1
        dy := setRow it.dy ig p.2 }
      let p := jdjm nmax (it.krmr ig) (it.jm ig, it.djm ig)
      { it with
        jm := setRow it.jm ig p.1
        djm := setRow it.djm ig p.2 }) it1
    ⟨rfl, rfl, rfl, rfl, fun ig h => absurd h (by omega)⟩
    (by
      rintro q s _ _ ⟨e1, e2, e3, e4, h⟩
      refine ⟨e1, e2, e3, e4, ?_⟩
      intro ig hig n hn hn'
      by_cases e : ig = q
      · subst e
        simp only [setRow, if_true, e1, e2]
        exact ⟨(h1 _ _ n hn hn').1, (h1 _ _ n hn hn').2, (h2 _ _ n hn hn').1, (h2 _ _ n hn hn').2,
          (h3 _ _ n hn hn').1, (h3 _ _ n hn hn').2⟩
      · simp only [setRow, if_neg e]
        exact h ig (by omega) n hn hn')
  rw [← he] at B
  obtain ⟨e1, e2, e3, e4, h⟩ := B
  intro ig hig
  obtain ⟨a1, a2, a3, a4⟩ := A ig hig
  rw [e1, e2, e3, e4]
  refine ⟨a1, a2, a3, a4, fun n hn hn' => ?_⟩
  have := h ig hig n hn hn'
  rw [a1, a2] at this
  exact this

end

section

variable {K R Γ : Type} [Field K] [Field R] [LinearOrder R] [LinearOrder Γ] (absv : K → Γ) (im : K) (norm re : K → R)
  (jdj ydy jdjm : Nat → K → (Nat → K) × (Nat → K) → (Nat → K) × (Nat → K)) (cs : Consts K) (tol : R)

/-- the tasks keep the shape of the storage -/
theorem iterStep_shape {maxOrder : Nat} (w : Work K R) (q : Iter K) (hq : q.nmax ≤ maxOrder) (ha : q.a.Shape maxOrder)
    (ht : w.t.Shape maxOrder) :
    (iterStep absv im norm re jdj ydy jdjm cs tol w q).t.Shape maxOrder := by
  unfold iterStep executeM0
  generalize executeInteraction jdj ydy jdjm cs q.pt q.nmax q.ngauss w.c w.it = it
  by_cases hc : w.c.converged
  · simp only [hc, if_true]
    exact ht
  · simp only [hc, Bool.false_eq_true, if_false]
    obtain ⟨⟨k1, k2, k3, k4⟩, hz⟩ := reset_zero ha (show 2 * q.nmax ≤ 2 * maxOrder by omega)
    obtain ⟨_, _, g3, g4, g5, g6⟩ := m0Assemble_spec im cs it q.pt (ngauss := q.ngauss) (q.a.reset.Q, q.a.reset.RgQ)
      (by dsimp only; omega) (k4.trans k2.symm) hz
    generalize m0Assemble im cs it q.pt q.nmax q.ngauss (q.a.reset.Q, q.a.reset.RgQ) = p at *
    dsimp only at g3 g4 g5 g6
    obtain ⟨t1, t2⟩ := ht 0 (by omega)
    have hd := mult_spec p.2 (pluInverse absv (2 * q.nmax) p.1 q.a.reset.piv q.a.reset.work) (w.t.T 0) (nm := q.nmax)
      (show 2 * q.nmax ≤ (w.t.T 0).cols by omega)
    have hb := bookkeeping_T norm re q.pt q.nmax q.ngauss tol { w.t with
      T := Function.update w.t.T 0 (mult q.nmax p.2 (pluInverse absv (2 * q.nmax) p.1 q.a.reset.piv q.a.reset.work) (w.t.T 0)) } w.c
    generalize bookkeeping norm re q.pt q.nmax q.ngauss tol { w.t with
      T := Function.update w.t.T 0 (mult q.nmax p.2 (pluInverse absv (2 * q.nmax) p.1 q.a.reset.piv q.a.reset.work) (w.t.T 0)) } w.c = b at *
    intro l hl
    rw [hb.1]
    by_cases hlm : l = 0
    · subst hlm
      simp only [Function.update_self]
      exact ⟨hd.1.trans t1, hd.2.1.trans t2⟩
    · simp only [Function.update_of_ne hlm]
      exact ht l hl

theorem runIters_shape {maxOrder : Nat} (qs : List (Iter K)) (hq : ∀ q ∈ qs, q.nmax ≤ maxOrder) (ha : ∀ q ∈ qs, q.a.Shape maxOrder)
    (w : Work K R) (ht : w.t.Shape maxOrder) :
    (runIters absv im norm re jdj ydy jdjm cs tol qs w).t.Shape maxOrder := by
  induction qs generalizing w with
  | nil => exact ht
  | cons q qs ih =>
    exact ih (fun q' h => hq q' (by simp [h])) (fun q' h => ha q' (by simp [h])) _
      (iterStep_shape absv im norm re jdj ydy jdjm cs tol w q (hq q (by simp)) (ha q (by simp)) ht)

/-- `TMatrixMAllTask`s one after the other; each is executed by some thread, in an auxiliary space with unknown contents -/
def runMAll (it : Inter K) (c : Conv K R) : List (Nat × Aux K) → TRes K R → Option (TRes K R)
  | [], t => some t
  | (m, a) :: rest, t => match executeMAll absv im m cs it c (a, t) with
    | none => none
    | some (_, t) => runMAll it c rest t

/-- the radial functions on the surface: outgoing, regular and regular inside the particle -/
def outgoing (im : K) (cs : Consts K) (r : Nat → K) (zj dzj zy dzy : Nat → K → K) : Radial K :=
  ⟨fun ig n => zj n (cs.k * r ig * cs.RV) + im * zy n (cs.k * r ig * cs.RV),
    fun ig n => dzj n (cs.k * r ig * cs.RV) + im * dzy n (cs.k * r ig * cs.RV), fun ig => 1 / (cs.k * r ig * cs.RV)⟩

def regular (k : K) (cs : Consts K) (r : Nat → K) (zj dzj : Nat → K → K) : Radial K :=
  ⟨fun ig n => zj n (k * r ig * cs.RV), fun ig n => dzj n (k * r ig * cs.RV), fun ig => 1 / (k * r ig * cs.RV)⟩

variable [IsStrictOrderedRing R]

/-- **C60** The whole calculation for one particle and wavelength. Start from a reset T-matrix, carry out the tasks for the
orders `qs`, then the tasks for the degrees `ms` (in any order, by any thread). Let `q` be the last order carried out. If the
tables for that order describe a surface with a mirror plane, the Bessel routines compute `zj`, `zy`, `zm` and their
derivatives, and the matrices `Q` of all degrees up to `q.nmax` are regular, then no null pointer is followed, the T-matrix
has order `q.nmax`, and its elements of degree 0 and of every degree in `ms` are those of the transition matrix of the
extended boundary condition method with all `2 q.ngauss` quadrature points. The tables for the other orders, the contents of
the T-matrix, of the interaction resource and of the auxiliary spaces do not matter. -/
theorem c60_run (habs : ∀ x : K, x ≠ 0 → absv 0 < absv x) (him : im * im = -1) (h2 : (2 : K) ≠ 0)
    {maxOrder : Nat} (qs : List (Iter K)) (hq : ∀ q ∈ qs, q.nmax ≤ maxOrder) (ha : ∀ q ∈ qs, q.a.Shape maxOrder)
    (w : Work K R) (hw : Fresh w) (ht : w.t.Shape maxOrder) {zj dzj zy dzy zm dzm : Nat → K → K} (q : Iter K)
    (c1 : Computes jdj q.nmax zj dzj) (c2 : Computes ydy q.nmax zy dzy) (c3 : Computes jdjm q.nmax zm dzm)
    (hlast : qs[(runIters absv im norm re jdj ydy jdjm cs tol qs w).c.iteration - 1]? = some q) (hqn : 1 ≤ q.nmax)
    (S : Surface K) (hS : Mirror S (2 * q.ngauss) []) (hr : ∀ ig < 2 * q.ngauss, q.pt.r (2 * q.ngauss - 1 - ig) = q.pt.r ig)
    (hreads : ∀ m ≤ q.nmax, Reads q.pt S m q.nmax q.ngauss)
    (hdet : ∀ m ≤ q.nmax, (QMatrix im S (2 * q.ngauss) cs.ann cs.k2mr cs.k2 (outgoing im cs q.pt.r zj dzj zy dzy)
      (regular cs.kmr cs q.pt.r zm dzm) m q.nmax).det ≠ 0)
    (ms : List (Nat × Aux K)) (hms : ∀ x ∈ ms, 1 ≤ x.1 ∧ x.2.Shape maxOrder) :
    let f := runIters absv im norm re jdj ydy jdjm cs tol qs w
    ∃ t, runMAll absv im cs f.it f.c ms f.t = some t ∧ t.nmax = q.nmax ∧ t.ngauss = q.ngauss
      ∧ ∀ m, m ≤ q.nmax → (m = 0 ∨ m ∈ ms.map (·.1)) →
        IsTransition im S (2 * q.ngauss) cs.ann cs.k2mr cs.k2 (outgoing im cs q.pt.r zj dzj zy dzy)
          (regular cs.k cs q.pt.r zj dzj) (regular cs.kmr cs q.pt.r zm dzm) m q.nmax (fun i n i' n' => t.get i n m i' n') := by
  intro f
  obtain ⟨k, A⟩ := after absv im norm re jdj ydy jdjm cs tol qs w hw
  rw [A.iteration] at hlast
  have hqmem : q ∈ qs := List.mem_of_getElem? hlast
  have hk1 : 1 ≤ k := by
    by_contra h
    have h0 : k = 0 := by omega
    -- nothing was carried out although there is an order: impossible
    have hcv : f.c.converged = false := by
      have := A.conv
      by_contra hc
      have := A.conv.mp (by simpa using hc)
      exact absurd this.1 (by omega)
    have := A.all hcv
    rw [h0] at this
    have := List.length_eq_zero_iff.mp this.symm
    rw [this] at hqmem
    simp at hqmem
  obtain ⟨o1, o2, o3, o4, o5⟩ := A.order q hk1 hlast
  have st := runIters_shape absv im norm re jdj ydy jdjm cs tol qs hq ha w ht
  -- the last order that was carried out
  have hkl := A.le
  have hsplit : qs.take k = qs.take (k - 1) ++ [q] := by
    have hlt : k - 1 < qs.length := by omega
    have h1 : qs.take (k - 1 + 1) = qs.take (k - 1) ++ [qs[k - 1]] := List.take_succ_eq_append_getElem hlt
    rw [show k - 1 + 1 = k by omega] at h1
    rw [h1]
    congr 2
    have : qs[k - 1]? = some qs[k - 1] := List.getElem?_eq_getElem hlt
    rw [this] at hlast
    exact Option.some.inj hlast
  have hf : f = iterStep absv im norm re jdj ydy jdjm cs tol (runIters absv im norm re jdj ydy jdjm cs tol (qs.take (k - 1)) w) q := by
    rw [← runIters_snoc, ← hsplit]
    exact A.eq
  have hprev : (runIters absv im norm re jdj ydy jdjm cs tol (qs.take (k - 1)) w).c.converged = false := by
    by_contra hc
    have hc' : (runIters absv im norm re jdj ydy jdjm cs tol (qs.take (k - 1)) w).c.converged = true := by simpa using hc
    have e : f = runIters absv im norm re jdj ydy jdjm cs tol (qs.take (k - 1)) w := by
      rw [hf]
      exact c37_frozen absv im norm re jdj ydy jdjm cs tol [q] _ hc'
    obtain ⟨l, B⟩ := after absv im norm re jdj ydy jdjm cs tol (qs.take (k - 1)) w hw
    have h1 : f.c.iteration = l := by rw [e]; exact B.iteration
    have h2 : f.c.iteration = k := A.iteration
    have h3 := B.le
    rw [List.length_take] at h3
    omega
  generalize hp : runIters absv im norm re jdj ydy jdjm cs tol (qs.take (k - 1)) w = p at hf hprev
  have ptt := runIters_shape absv im norm re jdj ydy jdjm cs tol (qs.take (k - 1))
    (fun q' h => hq q' (List.mem_of_mem_take h)) (fun q' h => ha q' (List.mem_of_mem_take h)) w ht
  rw [hp] at ptt
  -- the interaction resource
  have I := interaction_spec jdj ydy jdjm cs q.pt q.nmax q.ngauss p.c p.it hprev c1 c2 c3
  have hfit : f.it = executeInteraction jdj ydy jdjm cs q.pt q.nmax q.ngauss p.c p.it := by rw [hf]; rfl
  rw [← hfit] at I
  have set : ∀ m ≤ q.nmax, Setting im cs f.it q.pt S (outgoing im cs q.pt.r zj dzj zy dzy)
      (regular cs.k cs q.pt.r zj dzj) (regular cs.kmr cs q.pt.r zm dzm) m q.nmax q.ngauss := by
    intro m hm
    refine ⟨hreads m hm, ⟨?_, ?_, ?_⟩, ⟨?_, ?_, ?_⟩, ⟨?_, ?_, ?_⟩, ?_, hdet m hm⟩
    · intro ig hig n hn hn'
      obtain ⟨_, _, _, _, h⟩ := I ig (by omega)
      obtain ⟨e1, e2, e3, e4, e5, e6⟩ := h n hn hn'
      simp only [hank, outgoing, e1, e3]
    · intro ig hig n hn hn'
      obtain ⟨_, _, _, _, h⟩ := I ig (by omega)
      obtain ⟨e1, e2, e3, e4, e5, e6⟩ := h n hn hn'
      simp only [hank, outgoing, e2, e4]
    · intro ig hig
      obtain ⟨_, _, h, _, _⟩ := I ig (by omega)
      exact h
    · intro ig hig n hn hn'
      obtain ⟨_, _, _, _, h⟩ := I ig (by omega)
      exact (h n hn hn').1
    · intro ig hig n hn hn'
      obtain ⟨_, _, _, _, h⟩ := I ig (by omega)
      exact (h n hn hn').2.1
    · intro ig hig
      obtain ⟨_, _, h, _, _⟩ := I ig (by omega)
      exact h
    · intro ig hig n hn hn'
      obtain ⟨_, _, _, _, h⟩ := I ig (by omega)
      exact (h n hn hn').2.2.2.2.1
    · intro ig hig n hn hn'
      obtain ⟨_, _, _, _, h⟩ := I ig (by omega)
      exact (h n hn hn').2.2.2.2.2
    · intro ig hig
      obtain ⟨_, _, _, h, _⟩ := I ig (by omega)
      exact h
    · refine ⟨hS.1, hS.2, hS.3, hS.4, hS.5, hS.6, ?_, ?_, ?_⟩
      all_goals
        intro Y hY ig hig
        simp only [List.mem_cons, List.not_mem_nil, or_false] at hY
        rcases hY with rfl | rfl | rfl <;> simp only [outgoing, regular, hr ig hig, implies_true]
  -- degree 0
  have hqo := hq q hqmem
  have M0 := c60_m0 absv im norm re habs him h2 cs f.it q.pt S _ _ _ tol p.c hprev hqn hqo (set 0 (by omega)) q.a (ha q hqmem) p.t ptt
  have hft : (executeM0 absv im norm re cs f.it q.pt q.nmax q.ngauss tol (q.a, p.t, p.c)).2 = (f.t, f.c) := by
    rw [hfit]
    rw [hf]
    rfl
  simp only [hft] at M0
  -- the other degrees
  suffices H : ∀ (ms : List (Nat × Aux K)) (t : TRes K R), (∀ x ∈ ms, 1 ≤ x.1 ∧ x.2.Shape maxOrder) → t.Shape maxOrder →
      t.nmax = q.nmax → t.ngauss = q.ngauss → ∃ t', runMAll absv im cs f.it f.c ms t = some t' ∧ t'.nmax = q.nmax ∧ t'.ngauss = q.ngauss
        ∧ (∀ m, m ∉ ms.map (·.1) → t'.T m = t.T m)
        ∧ ∀ m, m ≤ q.nmax → m ∈ ms.map (·.1) →
          IsTransition im S (2 * q.ngauss) cs.ann cs.k2mr cs.k2 (outgoing im cs q.pt.r zj dzj zy dzy)
          (regular cs.k cs q.pt.r zj dzj) (regular cs.kmr cs q.pt.r zm dzm) m q.nmax (fun i n i' n' => t'.get i n m i' n') by
    obtain ⟨t', r1, r2, r3, r4, r5⟩ := H ms f.t hms st o1 o2
    refine ⟨t', r1, r2, r3, fun m hm hor => ?_⟩
    by_cases hmem : m ∈ ms.map (·.1)
    · exact r5 m hm hmem
    · rcases hor with rfl | h
      · refine transition_congr im M0.1 fun i n i' n' _ _ _ _ _ _ => ?_
        simp only [TRes.get, r2, r4 0 hmem]
        rw [show f.t.nmax = q.nmax from o1]
      · exact absurd h hmem
  intro ms
  induction ms with
  | nil =>
    intro t _ _ h3 h4
    exact ⟨t, rfl, h3, h4, fun _ _ => rfl, fun m _ h => absurd h (by simp)⟩
  | cons x ms ih =>
    intro t hx hsh h3 h4
    obtain ⟨m, a⟩ := x
    obtain ⟨hm1, hma⟩ := hx (m, a) (by simp)
    by_cases hm : m ≤ q.nmax
    · obtain ⟨a', t1, e1, e2, _, e4, e5, e6⟩ := c60_mAll absv im habs him h2 cs f.it q.pt S _ _ _ f.c o5 hm1 (by rw [o3]; exact hm)
        (by rw [o3]; exact hqo) (by rw [o3, o4]; exact set m hm) a hma t hsh (by rw [o3, h3])
      have n1 : t1.nmax = q.nmax := by rw [e6]; exact h3
      have n2 : t1.ngauss = q.ngauss := by rw [e6]; exact h4
      obtain ⟨t', r1, r2, r3, r4, r5⟩ := ih t1 (fun y hy => hx y (by simp [hy])) e4 n1 n2
      refine ⟨t', ?_, r2, r3, ?_, ?_⟩
      · simp only [runMAll, e1, r1]
      · intro l hl
        simp only [List.map_cons, List.mem_cons, not_or] at hl
        rw [r4 l hl.2, e5 l hl.1]
      · intro l hl hmem
        by_cases hin : l ∈ ms.map (·.1)
        · exact r5 l hl hin
        · simp only [List.map_cons, List.mem_cons] at hmem
          rcases hmem with rfl | h
          · rw [o3, o4] at e2
            refine transition_congr im e2 fun i n i' n' _ _ _ _ _ _ => ?_
            simp only [TRes.get, r2, n1, r4 l hin]
          · exact absurd h hin
    · have e1 : executeMAll absv im m cs f.it f.c (a, t) = some (a, t) := by
        unfold executeMAll
        simp only [if_pos (show m > f.c.nmax by rw [o3]; omega)]
      obtain ⟨t', r1, r2, r3, r4, r5⟩ := ih t (fun y hy => hx y (by simp [hy])) hsh h3 h4
      refine ⟨t', ?_, r2, r3, ?_, ?_⟩
      · simp only [runMAll, e1, r1]
      · intro l hl
        simp only [List.map_cons, List.mem_cons, not_or] at hl
        exact r4 l hl.2
      · intro l hl hmem
        simp only [List.map_cons, List.mem_cons] at hmem
        rcases hmem with rfl | h
        · exact absurd hl hm
        · exact r5 l hl h

end

/-- the outgoing radial functions outside a particle of volume-equivalent radius `RV`, for wavenumber `k` -/
def waveOut {K : Type} [Field K] (im k RV : K) (r : Nat → K) (zj dzj zy dzy : Nat → K → K) : Radial K :=
  ⟨fun ig n => zj n (k * (RV * r ig)) + im * zy n (k * (RV * r ig)),
    fun ig n => dzj n (k * (RV * r ig)) + im * dzy n (k * (RV * r ig)), fun ig => (k * (RV * r ig))⁻¹⟩

/-- the regular radial functions for wavenumber `k` -/
def waveReg {K : Type} [Field K] (k RV : K) (r : Nat → K) (zj dzj : Nat → K → K) : Radial K :=
  ⟨fun ig n => zj n (k * (RV * r ig)), fun ig n => dzj n (k * (RV * r ig)), fun ig => (k * (RV * r ig))⁻¹⟩

/-- **C60** (constants) the constants of a particle with volume-equivalent radius `RV` and refractive index `mr` at wavenumber
`k`: with these, the specification of `c60_run` is the one with the wavenumber `k` outside, `mr k` inside, and the
factors `k · (mr k)` and `k²` -/
theorem c60_constants {K : Type} [Field K] (im RV k mr : K) (ann : Nat → Nat → K) (r : Nat → K)
    (S : Surface K) (npts m nmax : Nat) (zj dzj zy dzy zm dzm : Nat → K → K) (T : Nat → Nat → Nat → Nat → K) :
    let cs := interactionVariables RV k mr ann
    IsTransition im S npts cs.ann cs.k2mr cs.k2 (outgoing im cs r zj dzj zy dzy)
        (regular cs.k cs r zj dzj) (regular cs.kmr cs r zm dzm) m nmax T
    ↔ IsTransition im S npts ann (k * (mr * k)) (k ^ 2) (waveOut im k RV r zj dzj zy dzy) (waveReg k RV r zj dzj)
        (waveReg (mr * k) RV r zm dzm) m nmax T := by
  intro cs
  have e1 : ∀ κ ig, κ * r ig * RV = κ * (RV * r ig) := fun κ ig => by ring
  have e2 : outgoing im cs r zj dzj zy dzy = waveOut im k RV r zj dzj zy dzy := by
    simp only [outgoing, waveOut, cs, interactionVariables, e1, one_div]
  have e3 : regular cs.k cs r zj dzj = waveReg k RV r zj dzj := by
    simp only [regular, waveReg, cs, interactionVariables, e1, one_div]
  have e4 : regular cs.kmr cs r zm dzm = waveReg (mr * k) RV r zm dzm := by
    simp only [regular, waveReg, cs, interactionVariables, e1, one_div]
  have e5 : cs.k2mr = k * (mr * k) := by
    simp only [cs, interactionVariables]; ring
  have e6 : cs.k2 = k ^ 2 := by
    simp only [cs, interactionVariables]; ring
  rw [e2, e3, e4, e5, e6]
  exact Iff.rfl

/-- **C37** (start) after the reset task, with a newly created `ConvergedSizeResources`, the hypotheses `hw` and `ht` of
`c37_run` and `c60_run` hold, whatever an earlier use of the T-matrix left behind; all elements are zero -/
theorem c37_reset {K R : Type} [Field K] [Field R] {maxOrder : Nat} (it : Inter K) (t : TRes K R) (ht : t.Shape maxOrder) :
    Fresh ⟨it, resetT maxOrder t, Conv.new⟩ ∧ (resetT maxOrder t).Shape maxOrder
    ∧ (resetT maxOrder t).nmax = 0 ∧ (resetT maxOrder t).ngauss = 0
    ∧ ∀ m r c, m ≤ maxOrder → r < ((resetT maxOrder t).T m).rows → c < ((resetT maxOrder t).T m).cols → ((resetT maxOrder t).T m).get r c = 0 := by
  have key := loop_inv (σ := Nat → Mat K)
    (fun k T => ∀ m, (m < k → T m = (t.T m).reset) ∧ (k ≤ m → T m = t.T m)) (Nat.zero_le (maxOrder + 1))
    (fun m T => Function.update T m ((T m).reset)) t.T
    (fun m => ⟨fun h => absurd h (by omega), fun _ => rfl⟩)
    (by
      intro k T _ _ h m
      by_cases e : m = k
      · subst e
        rw [Function.update_self, (h m).2 le_rfl]
        exact ⟨fun _ => rfl, fun h => absurd h (by omega)⟩
      · rw [Function.update_of_ne e]
        exact ⟨fun h' => (h m).1 (by omega), fun h' => (h m).2 (by omega)⟩)
  have hT : ∀ m, m ≤ maxOrder → (resetT maxOrder t).T m = (t.T m).reset := fun m hm => (key m).1 (by omega)
  refine ⟨⟨rfl, rfl, rfl, rfl, rfl⟩, ?_, rfl, rfl, ?_⟩
  · intro m hm
    obtain ⟨h1, h2⟩ := ht m hm
    obtain ⟨_, e1, e2⟩ := c27_reset (t.T m) 0 0 (by omega) (by omega)
    rw [hT m hm, e1, e2]
    exact ⟨h1, h2⟩
  · intro m r c hm hr hc
    obtain ⟨h1, h2⟩ := ht m hm
    obtain ⟨_, e1, e2⟩ := c27_reset (t.T m) 0 0 (by omega) (by omega)
    rw [hT m hm] at hr hc ⊢
    exact (c27_reset _ r c (by omega) (by omega)).1

/-! ## The hypotheses are met

A small case with exact arithmetic: the field of integers modulo 13, in which 5 is a root of -1; one order `nmax = 1`, two
quadrature points, made-up tables. -/
namespace Example

instance : Fact (Nat.Prime 13) := ⟨by norm_num⟩

abbrev F := ZMod 13

def S : Surface F where
  weight _ := 1
  sinInv _ := 2
  r2 _ := 3
  slope ig := if ig = 0 then 1 else -1
  d m ig n := if ig = 0 then 1 else (-1) ^ (n + m)
  τ m ig n := if ig = 0 then 2 else -(-1) ^ (n + m) * 2

def pt : Points F where
  weight _ := 1
  sinv _ := 2
  s2inv _ := 4
  r _ := 1
  r2 _ := 3
  drr ig := if ig = 0 then 1 else -1
  w _ _ _ := 1
  dw _ _ _ := 2

def cs : Consts F := interactionVariables 1 1 2 fun _ _ => 1

def bessel (a b : F) (_nmax : Nat) (x : F) (_s : (Nat → F) × (Nat → F)) : (Nat → F) × (Nat → F) :=
  (fun n => a * x + (n : F), fun n => b * x + (n : F))

def q : Iter F := ⟨1, 1, pt, Aux.new 1⟩

def w : Work F ℚ := ⟨⟨0, 0, 0, 0, fun _ _ => 0, fun _ _ => 0, fun _ _ => 0, fun _ _ => 0, fun _ _ => 0, fun _ _ => 0⟩,
  TRes.new 1, Conv.new⟩

theorem computes (a b : F) : Computes (bessel a b) 1 (fun n x => a * x + ((n - 1 : Nat) : F)) (fun n x => b * x + ((n - 1 : Nat) : F)) :=
  fun _ _ _ _ _ => ⟨rfl, rfl⟩

theorem mirror : Mirror S (2 * q.ngauss) [] where
  weight _ _ := rfl
  sinInv _ _ := rfl
  r2 _ _ := rfl
  slope ig h := by
    have h : ig < 2 := h
    interval_cases ig <;> simp [S, q]
  d ig h m n _ _ := by
    have h : ig < 2 := h
    interval_cases ig
    · simp [S, q]
    · simp only [S, q]
      simp [← mul_pow]
  τ ig h m n _ _ := by
    have h : ig < 2 := h
    interval_cases ig
    · simp [S, q]
    · simp only [S, q]
      simp [← mul_assoc, ← mul_pow]
  z Y h := by simp at h
  dz Y h := by simp at h
  xinv Y h := by simp at h

theorem reads (m : Nat) : Reads q.pt S m q.nmax q.ngauss := by
  refine ⟨fun _ _ => rfl, fun _ _ => rfl, fun _ _ => by simp only [q, pt, S]; decide, fun _ _ => rfl, fun _ _ => rfl, ?_⟩
  intro ig h
  have h : ig < 1 := h
  refine ⟨1, by simp, fun n _ _ _ => ?_⟩
  interval_cases ig
  simp [q, pt, S]

example : ∃ t, runMAll (fun x : F => x.val) 5 cs
      (runIters (fun x : F => x.val) 5 (fun x : F => (x.val : ℚ)) (fun x => x.val) (bessel 1 2) (bessel 3 1) (bessel 2 2) cs (1 / 10) [q] w).it
      (runIters (fun x : F => x.val) 5 (fun x : F => (x.val : ℚ)) (fun x => x.val) (bessel 1 2) (bessel 3 1) (bessel 2 2) cs (1 / 10) [q] w).c
      [(1, Aux.new 1)]
      (runIters (fun x : F => x.val) 5 (fun x : F => (x.val : ℚ)) (fun x => x.val) (bessel 1 2) (bessel 3 1) (bessel 2 2) cs (1 / 10) [q] w).t
        = some t ∧ t.nmax = 1 := by
  have hi : (runIters (fun x : F => x.val) 5 (fun x : F => (x.val : ℚ)) (fun x => x.val) (bessel 1 2) (bessel 3 1) (bessel 2 2)
      cs (1 / 10) [q] w).c.iteration = 1 := by decide +kernel
  obtain ⟨t, h1, h2, _⟩ := c60_run (R := ℚ) (fun x : F => x.val) 5 (fun x => (x.val : ℚ)) (fun x => x.val)
    (bessel 1 2) (bessel 3 1) (bessel 2 2) cs (1 / 10)
    (by decide) (by decide) (by decide) (maxOrder := 1) [q] (by simp [q]) (fun _ h => by rw [List.mem_singleton.1 h]; exact ⟨rfl, rfl, rfl, rfl⟩)
    w ⟨rfl, rfl, rfl, rfl, rfl⟩ (fun m h => ⟨rfl, rfl⟩) q (computes 1 2) (computes 3 1) (computes 2 2) (by rw [hi]; rfl)
    (by simp [q]) S mirror (fun _ _ => rfl) (fun m _ => reads m)
    (by
      intro m hm
      have hm : m ≤ 1 := hm
      interval_cases m <;> decide +kernel)
    [(1, Aux.new 1)] (by simpa using ⟨rfl, rfl, rfl, rfl⟩)
  exact ⟨t, h1, h2⟩

end Example

end Verif.TMatrix
