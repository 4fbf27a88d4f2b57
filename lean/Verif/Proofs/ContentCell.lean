import Verif.Proofs.ContentRun

/-!
# One T-matrix: the memory while its tasks are executed
-/
namespace Verif.Content

set_option autoImplicit false

open Verif.Matrix (loop Mat loop_inv)
open Verif.Special (Ops realOps)
open Verif.TMatrix
open Verif.Graph
open Verif.Exec

variable {H : Problem} {q : Qty} {c : Cell}

/-- what is in shared memory -/
def env (m : Place Loc → Val) : Loc → Val := fun x => m (.inl x)

/-- quadrature points, geometry and Wigner functions of an order -/
noncomputable def pts (H : Problem) (ish ig : Nat) : Points ℂ := pointsAt (table H) ish ig

/-- the constants of the T-matrix tasks -/
noncomputable def csOf (H : Problem) (p : Par) : Consts ℂ := consts realOps H p (table H .nbased).toNfac

/-- the memory while the orders are tried: `w` are the objects of the T-matrix tasks -/
structure Inv (H : Problem) (q : Qty) (c : Cell) (m : Place Loc → Val) (w : Work ℂ ℝ) : Prop where
  tab : ∀ x, IsTable H.P q x → m (.inl x) = table H x
  it : (m (.inl (.inter 0))).toInter H.size H.P.maxOrder = w.it
  t : toT H (env m) 0 = w.t
  ctl : (m (.inl (.conv c))).toCtl.deref (pts H c.ish) = w.c
  ptr : ∀ i, (m (.inl (.conv c))).toCtl.ptr = some i → i < H.P.nq
  ens : toT H (env m) 1 = TRes.new H.P.maxOrder

theorem toT_congr {e e' : Loc → Val} {i : Nat} (hh : e (.head i) = e' (.head i)) (hb : ∀ m ≤ H.P.maxOrder, e (.block i m) = e' (.block i m)) :
    toT H e i = toT H e' i := by
  unfold toT
  rw [hh]
  simp only [TRes.mk.injEq, true_and, and_true]
  funext m
  by_cases h : m ≤ H.P.maxOrder
  · rw [hb m h]
  · rw [show 2 * (H.P.maxOrder + 1 - m) = 0 by omega]
    simp only [mat, Mat.mk.injEq, true_and]
    funext k
    simp [arr]

theorem deref_congr {f g : Nat → Points ℂ} (x : Ctl) (h : ∀ i, x.ptr = some i → f i = g i) : x.deref f = x.deref g := by
  unfold Ctl.deref
  cases e : x.ptr with
  | none => rfl
  | some i => simp [h i e]

/-- the tables as a task sees them -/
theorem pointsAt_seen {m : Place Loc → Val} (hm : ∀ x, IsTable H.P q x → m (.inl x) = table H x) {ish ig : Nat} (hs : ish < H.P.nshape) (hg : ig < H.P.nq) {t : Tk}
    (h1 : Loc.gauss ig ∈ reads (one H.P) t) (h2 : Loc.geom ish ig ∈ reads (one H.P) t) (h3 : Loc.wigner ig ∈ reads (one H.P) t) :
    pointsAt (seen H t m) ish ig = pts H ish ig := by
  have e1 : seen H t m (.gauss ig) = table H (.gauss ig) := by
    unfold seen; rw [if_pos (by simp [h1])]; exact hm _ hg
  have e2 : seen H t m (.geom ish ig) = table H (.geom ish ig) := by
    unfold seen; rw [if_pos (by simp [h2])]; exact hm _ ⟨hs, hg⟩
  have e3 : seen H t m (.wigner ig) = table H (.wigner ig) := by
    unfold seen; rw [if_pos (by simp [h3])]; exact hm _ hg
  unfold pts pointsAt
  rw [e1, e2, e3]

/-- the orders that are tried -/
noncomputable def iterAt (H : Problem) (ish ig : Nat) : Iter ℂ := ⟨H.order ig, H.ng ig, pts H ish ig, Aux.new H.P.maxOrder⟩

theorem inter_step {m : Place Loc → Val} {w : Work ℂ ℝ} (h : Inv H q c m w) {ig : Nat} (hs : c.ish < H.P.nshape) (hg : ig < H.P.nq)
    (ho : H.order ig ≤ H.P.maxOrder) :
    Inv H q c (step H (.inter c ig) m) ⟨executeInteraction (H.row H.jdj) (H.row H.ydy) (H.row H.jdjm) (csOf H c.par) (pts H c.ish ig) (H.order ig) (H.ng ig)
      w.c w.it, w.t, w.c⟩ := by
  have hw : ∀ x, x ∈ writes (one H.P) (.inter c ig) ↔ x = .inter 0 := by intro x; simp [writes, slot_one]
  have fr : ∀ x, x ≠ .inter 0 → step H (.inter c ig) m (.inl x) = m (.inl x) := fun x hx => by rw [step_at, if_neg (by rwa [hw])]
  have e1 : seen H (.inter c ig) m (.geom c.ish ig) = table H (.geom c.ish ig) := by
    unfold seen; rw [if_pos (by simp [reads])]; exact h.tab _ ⟨hs, hg⟩
  have e2 : seen H (.inter c ig) m (.conv c) = m (.inl (.conv c)) := by unfold seen; rw [if_pos (by simp [reads])]
  have e3 : seen H (.inter c ig) m (.inter 0) = m (.inl (.inter 0)) := by unfold seen; rw [if_pos (by simp [hw])]
  refine ⟨fun x hx => ?_, ?_, ?_, ?_, ?_, ?_⟩
  · rw [fr x (by rintro rfl; exact hx)]; exact h.tab x hx
  · rw [step_at, if_pos ((hw _).2 rfl)]
    unfold result
    dsimp only
    rw [e1, e2, e3]
    have ff := interaction_fits (size := H.size) (row_fits H H.jdj) (row_fits H H.ydy) (row_fits H H.jdjm) (csOf H c.par) (pts H c.ish ig) (H.order ig) (H.ng ig) (by
      unfold Problem.size Problem.ng
      unfold Problem.order at ho
      calc 2 * (H.minOrder * H.factor + ig * H.factor) = 2 * ((H.minOrder + ig) * H.factor) := by ring
        _ ≤ _ := Nat.mul_le_mul_left _ (Nat.mul_le_mul_right _ ho)) w.c (it := w.it) (h.it ▸ toInter_fits _ _ _)
    have e : executeInteraction (H.row H.jdj) (H.row H.ydy) (H.row H.jdjm) (consts realOps H c.par (Val.toNfac .unused))
        (points (Val.toGauss .unused) (table H (.geom c.ish ig)).toGeom (Val.toWigner .unused)) (H.order ig) (H.ng ig)
        ((m (.inl (.conv c))).toCtl.deref fun _ => points (Val.toGauss .unused) (Val.toGeom .unused) (Val.toWigner .unused))
        ((m (.inl (.inter 0))).toInter H.size H.P.maxOrder)
      = executeInteraction (H.row H.jdj) (H.row H.ydy) (H.row H.jdjm) (csOf H c.par) (pts H c.ish ig) (H.order ig) (H.ng ig) w.c w.it := by
      rw [h.it, ← h.ctl]
      rfl
    rw [e]
    exact ff
  · rw [← h.t]
    exact toT_congr (fr _ (by simp)) fun k _ => fr _ (by simp)
  · rw [fr _ (by simp)]; exact h.ctl
  · rw [fr _ (by simp)]; exact h.ptr
  · rw [← h.ens]
    exact toT_congr (fr _ (by simp)) fun k _ => fr _ (by simp)

/-- the elements of degree `m` of "my" T-matrix, as the object holds them -/
theorem toT_T (e : Loc → Val) (i m : Nat) : (toT H e i).T m = mat (2 * (H.P.maxOrder + 1 - m)) (e (.block i m)).toBlock := rfl

theorem m0_step {m : Place Loc → Val} {w : Work ℂ ℝ} (h : Inv H q c m w) {ig : Nat} (hs : c.ish < H.P.nshape) (hg : ig < H.P.nq)
    (ho : H.order ig ≤ H.P.maxOrder) :
    Inv H q c (step H (.m0 c ig) m) ⟨w.it,
      (executeM0 (fun z : ℂ => ‖z‖) Complex.I Complex.normSq Complex.re (csOf H c.par) w.it (pts H c.ish ig) (H.order ig) (H.ng ig) H.tol
        (Aux.new H.P.maxOrder, w.t, w.c)).2.1,
      (executeM0 (fun z : ℂ => ‖z‖) Complex.I Complex.normSq Complex.re (csOf H c.par) w.it (pts H c.ish ig) (H.order ig) (H.ng ig) H.tol
        (Aux.new H.P.maxOrder, w.t, w.c)).2.2⟩ := by
  have hw : ∀ x, x ∈ writes (one H.P) (.m0 c ig) ↔ x = .head 0 ∨ x = .block 0 0 ∨ x = .conv c := by intro x; simp [writes, slot_one]
  have fr : ∀ x, x ≠ .head 0 → x ≠ .block 0 0 → x ≠ .conv c → step H (.m0 c ig) m (.inl x) = m (.inl x) := fun x h1 h2 h3 => by
    rw [step_at, if_neg (by rw [hw]; simp [h1, h2, h3])]
  have sn : ∀ x, x ∈ reads (one H.P) (.m0 c ig) → seen H (.m0 c ig) m x = m (.inl x) := fun x hx => by unfold seen; rw [if_pos (by simp [hx])]
  have r : ∀ x, x = .nbased ∨ x = .inter 0 ∨ x = .conv c ∨ x = .head 0 ∨ x = .block 0 0 → seen H (.m0 c ig) m x = m (.inl x) := by
    intro x hx
    refine sn x ?_
    rcases hx with rfl | rfl | rfl | rfl | rfl <;> simp [reads, slot_one]
  -- what the task computes, with the T-matrix as it sees it
  set t' : TRes ℂ ℝ := toT H (seen H (.m0 c ig) m) 0 with ht'
  have hT : w.t = { t' with T := w.t.T } := by
    rw [← h.t, ht']
    unfold toT
    rw [r (.head 0) (by simp)]
    rfl
  have hT0 : w.t.T 0 = t'.T 0 := by
    rw [← h.t, ht', toT_T, toT_T, r (.block 0 0) (by simp)]
    rfl
  have hloc := executeM0_local (csOf H c.par) w.it (pts H c.ish ig) (H.order ig) (H.ng ig) H.tol (Aux.new H.P.maxOrder) t' w.t hT hT0 w.c
  have hpts : pointsAt (seen H (.m0 c ig) m) c.ish ig = pts H c.ish ig :=
    pointsAt_seen h.tab hs hg (by simp [reads]) (by simp [reads]) (by simp [reads])
  -- the pointers in the converged size are not followed
  have hderef : ∀ (X X' : Conv ℂ ℝ) (hX : X' = { X with points := X'.points }) (a : Aux ℂ),
      (executeM0 (fun z : ℂ => ‖z‖) Complex.I Complex.normSq Complex.re (csOf H c.par) w.it (pts H c.ish ig) (H.order ig) (H.ng ig) H.tol (a, t', X')).2
        = ((executeM0 (fun z : ℂ => ‖z‖) Complex.I Complex.normSq Complex.re (csOf H c.par) w.it (pts H c.ish ig) (H.order ig) (H.ng ig) H.tol (a, t', X)).2.1,
          { (executeM0 (fun z : ℂ => ‖z‖) Complex.I Complex.normSq Complex.re (csOf H c.par) w.it (pts H c.ish ig) (H.order ig) (H.ng ig) H.tol (a, t', X)).2.2 with
            points := if X.converged then X'.points else some (pts H c.ish ig) }) := by
    intro X X' hX a
    have hcv : X'.converged = X.converged := by rw [hX]
    unfold executeM0
    dsimp only
    by_cases hc : X.converged = true
    · rw [if_pos (hcv.trans hc), if_pos hc, if_pos hc]
      dsimp only
      rw [← hX]
    · rw [if_neg (fun e => hc (hcv.symm.trans e)), if_neg hc, if_neg hc]
      dsimp only
      generalize ({ nmax := _, ngauss := _, T := _, Qs := _, Qe := _, dQs := _, dQe := _ } : TRes ℂ ℝ) = u
      unfold bookkeeping
      dsimp only
      rw [hX]
      by_cases h1 : u.dQs = -2
      · simp only [if_pos h1]
        split_ifs <;> rfl
      · simp only [if_neg h1]
        split_ifs <;> rfl
  set s := executeM0 (fun z : ℂ => ‖z‖) Complex.I Complex.normSq Complex.re (csOf H c.par) w.it (pts H c.ish ig) (H.order ig) (H.ng ig) H.tol
    (Aux.new H.P.maxOrder, t', w.c) with hsd
  have hm0 : (m0Task realOps H c ig (m (.inr 0)) (seen H (.m0 c ig) m)).2 = (s.2.1, { s.2.2 with
      points := if w.c.converged then ((m (.inl (.conv c))).toCtl.deref (pointsAt (seen H (.m0 c ig) m) c.ish)).points else some (pts H c.ish ig) }) := by
    unfold m0Task
    rw [hpts, r .nbased (by simp), r (.inter 0) (by simp), r (.conv c) (by simp), h.it, h.tab .nbased trivial, ← ht']
    change (executeM0 (fun z : ℂ => ‖z‖) Complex.I Complex.normSq Complex.re (csOf H c.par) w.it (pts H c.ish ig) (H.order ig) (H.ng ig) H.tol _).2 = _
    rw [executeM0_aux (csOf H c.par) w.it (pts H c.ish ig) (H.order ig) (H.ng ig) H.tol _ (Aux.new H.P.maxOrder)
      ((aux_reset _ _).trans (aux_reset H.P.maxOrder .unused).symm), hderef w.c _ (by rw [← h.ctl]; rfl)]
  have hres : ∀ x, x ∈ writes (one H.P) (.m0 c ig) → step H (.m0 c ig) m (.inl x) = result realOps H (.m0 c ig) (m (.inr 0)) (seen H (.m0 c ig) m) x :=
    fun x hx => by rw [step_at, if_pos hx]
  have hnew : s.2.1.T 0 = mat (2 * (H.P.maxOrder + 1)) (s.2.1.T 0) := by
    have ht0 : mat (2 * (H.P.maxOrder + 1)) (t'.T 0) = t'.T 0 := mat_mat _ _
    rw [hsd]
    unfold executeM0
    dsimp only
    by_cases hc : w.c.converged = true
    · rw [if_pos hc]; exact ht0.symm
    · rw [if_neg hc]
      dsimp only
      rw [(bookkeeping_T _ _ _ _ _ _ _ _).1]
      simp only [Function.update_self]
      exact (mult_mat (by omega) _ _ ht0).symm
  refine ⟨fun x hx => ?_, ?_, ?_, ?_, ?_, ?_⟩
  · rw [fr x (by rintro rfl; exact hx) (by rintro rfl; exact hx) (by rintro rfl; exact hx)]; exact h.tab x hx
  · rw [fr _ (by simp) (by simp) (by simp)]; exact h.it
  · rw [hloc]
    dsimp only
    unfold toT
    have e1 : env (step H (.m0 c ig) m) (.head 0) = .head ⟨s.2.1.nmax, s.2.1.ngauss, s.2.1.Qs, s.2.1.Qe, s.2.1.dQs, s.2.1.dQe⟩ := by
      change step H (.m0 c ig) m (.inl (.head 0)) = _
      rw [hres _ (by simp [hw])]
      unfold result
      dsimp only
      rw [hm0]
      rfl
    have e2 : env (step H (.m0 c ig) m) (.block 0 0) = .block (s.2.1.T 0) := by
      change step H (.m0 c ig) m (.inl (.block 0 0)) = _
      rw [hres _ (by simp [hw])]
      unfold result
      dsimp only
      rw [hm0]
      rfl
    rw [e1]
    simp only [Val.toHead]
    congr 1
    funext k
    by_cases hk : k = 0
    · subst hk
      rw [e2, Function.update_self]
      exact hnew.symm
    · rw [Function.update_of_ne hk, ← h.t, toT_T]
      have : env (step H (.m0 c ig) m) (.block 0 k) = env m (.block 0 k) := fr _ (by simp) (by simpa using hk) (by simp)
      rw [this]
  · rw [hres _ (by simp [hw])]
    unfold result
    dsimp only
    rw [hm0, r (.conv c) (by simp), hloc]
    have hcv : (m (.inl (.conv c))).toCtl.converged = w.c.converged := by rw [← h.ctl]; rfl
    have hp : s.2.2.points = if w.c.converged then w.c.points else some (pts H c.ish ig) := by
      rw [hsd]
      unfold executeM0
      dsimp only
      by_cases hc : w.c.converged = true
      · rw [if_pos hc, if_pos hc]
      · rw [if_neg hc, if_neg hc]
        exact (bookkeeping_T _ _ _ _ _ _ _ _).2.2.2.2.2.1
    have key : ∀ (u : Conv ℂ ℝ) X, u.points = X → u = ⟨u.iteration, u.nmax, u.ngauss, X, u.converged, u.dQs, u.dQe⟩ := by rintro u _ rfl; rfl
    rw [hcv]
    by_cases hc : w.c.converged = true
    · rw [if_pos hc, if_pos hc]
      rw [if_pos hc, ← h.ctl] at hp
      exact (key s.2.2 _ hp).symm
    · rw [if_neg hc, if_neg hc]
      rw [if_neg hc] at hp
      exact (key s.2.2 _ hp).symm
  · rw [hres _ (by simp [hw])]
    unfold result
    dsimp only
    rw [r (.conv c) (by simp)]
    intro i hi
    by_cases hc : (m (.inl (.conv c))).toCtl.converged = true
    · exact h.ptr i ((if_pos hc).symm.trans hi)
    · have := (if_neg hc).symm.trans hi
      cases this
      exact hg
  · rw [← h.ens]
    exact toT_congr (fr _ (by simp) (by simp) (by simp)) fun k _ => fr _ (by simp) (by simp) (by simp)

/-! ## all orders -/

theorem orders_run {m : Place Loc → Val} {w : Work ℂ ℝ} (h : Inv H q c m w) (hs : c.ish < H.P.nshape) :
    ∀ n ≤ H.P.nq, (∀ ig < n, H.order ig ≤ H.P.maxOrder) →
      Inv H q c (seq (code realOps H) ((List.range n).flatMap fun ig => [.inter c ig, .m0 c ig]) m)
        (runIters (fun z : ℂ => ‖z‖) Complex.I Complex.normSq Complex.re (H.row H.jdj) (H.row H.ydy) (H.row H.jdjm) (csOf H c.par) H.tol
          ((List.range n).map (iterAt H c.ish)) w)
  | 0, _, _ => h
  | n + 1, hn, ho => by
    have ih := orders_run h hs n (by omega) fun ig hig => ho ig (by omega)
    rw [List.range_succ, List.flatMap_append, seq_append, List.map_append, List.map_cons, List.map_nil, runIters_snoc]
    exact m0_step (inter_step ih hs (show n < H.P.nq by omega) (ho n (by omega))) hs (by omega) (ho n (by omega))

/-! ## the other degrees -/

theorem mall_step {m : Place Loc → Val} {w : Work ℂ ℝ} (h : Inv H q c m w) {k : Nat} (hs : c.ish < H.P.nshape) (hn : w.c.nmax ≤ H.P.maxOrder)
    {a' : Aux ℂ} {t1 : TRes ℂ ℝ}
    (he : executeMAll (fun z : ℂ => ‖z‖) Complex.I k (csOf H c.par) w.it w.c (Aux.new H.P.maxOrder, w.t) = some (a', t1)) :
    Inv H q c (step H (.mall c k) m) ⟨w.it, t1, w.c⟩ := by
  have hw : ∀ x, x ∈ writes (one H.P) (.mall c k) ↔ x = .block 0 k := by intro x; simp [writes, slot_one]
  have fr : ∀ x, x ≠ .block 0 k → step H (.mall c k) m (.inl x) = m (.inl x) := fun x h1 => by
    rw [step_at, if_neg (by rw [hw]; simp [h1])]
  have r : ∀ x, x = .nbased ∨ x = .inter 0 ∨ x = .conv c ∨ x = .block 0 k → seen H (.mall c k) m x = m (.inl x) := by
    intro x hx
    unfold seen
    refine if_pos ?_
    rcases hx with rfl | rfl | rfl | rfl <;> simp [reads, writes, slot_one]
  set t' : TRes ℂ ℝ := toT H (seen H (.mall c k) m) 0 with ht'
  have hTk : w.t.T k = t'.T k := by
    rw [← h.t, ht', toT_T, toT_T, r (.block 0 k) (by simp)]
    rfl
  have hc : (m (.inl (.conv c))).toCtl.deref (pointsAt (seen H (.mall c k) m) c.ish) = w.c := by
    rw [← h.ctl]
    refine deref_congr _ fun i hi => pointsAt_seen h.tab hs (h.ptr i hi) ?_ ?_ ?_ <;>
    · simp only [reads, List.mem_append, List.mem_flatMap, List.mem_range]
      exact Or.inr ⟨i, h.ptr i hi, by simp⟩
  have hloc := executeMAll_local (csOf H c.par) w.it k (Aux.new H.P.maxOrder) t' w.t hTk w.c
  have haux := executeMAll_aux (csOf H c.par) w.it k ((m (.inr 0)).toAux H.P.maxOrder) (Aux.new H.P.maxOrder)
      ((aux_reset _ _).trans (aux_reset H.P.maxOrder .unused).symm) t' w.c
  rw [he] at hloc
  cases hE : executeMAll (fun z : ℂ => ‖z‖) Complex.I k (csOf H c.par) w.it w.c (Aux.new H.P.maxOrder, t') with
  | none => rw [hE] at hloc; simp at hloc
  | some s =>
    rw [hE] at hloc haux
    simp only [Option.map_some, Option.some.injEq] at hloc
    have htrim : mat (2 * (H.P.maxOrder + 1 - k)) (s.2.T k) = s.2.T k := by
      have ht0 : mat (2 * (H.P.maxOrder + 1 - k)) (t'.T k) = t'.T k := mat_mat _ _
      unfold executeMAll at hE
      dsimp only at hE
      by_cases hk : k > w.c.nmax
      · rw [if_pos hk] at hE
        cases hE
        exact ht0
      · rw [if_neg hk] at hE
        cases hp : w.c.points with
        | none => rw [hp] at hE; simp at hE
        | some pt =>
          rw [hp] at hE
          simp only [Option.some.injEq] at hE
          rw [← hE]
          simp only [Function.update_self]
          exact mult_mat (by omega) _ _ ht0
    have hval : step H (.mall c k) m (.inl (.block 0 k)) = .block (s.2.T k) := by
      rw [step_at, if_pos ((hw _).2 rfl)]
      have hm : (mAllTask realOps H c k (m (.inr 0)) (seen H (.mall c k) m)).map (·.2) = some s.2 := by
        unfold mAllTask
        rw [r .nbased (by simp), r (.inter 0) (by simp), r (.conv c) (by simp), h.it, h.tab .nbased trivial, ← ht', hc]
        exact haux
      unfold result
      dsimp only
      cases hM : mAllTask realOps H c k (m (.inr 0)) (seen H (.mall c k) m) with
      | none => rw [hM] at hm; simp at hm
      | some s' =>
        rw [hM] at hm
        simp only [Option.map_some, Option.some.injEq] at hm
        simp only [Option.map_some, Option.getD_some, hm]
        rfl
    refine ⟨fun x hx => ?_, ?_, ?_, ?_, ?_, ?_⟩
    · rw [fr x (by rintro rfl; exact hx)]; exact h.tab x hx
    · rw [fr _ (by simp)]; exact h.it
    · rw [hloc]
      dsimp only
      conv_rhs => rw [← h.t]
      unfold toT
      rw [show env (step H (.mall c k) m) (.head 0) = env m (.head 0) from fr _ (by simp)]
      dsimp only
      congr 1
      funext l
      by_cases hl : l = k
      · subst hl
        rw [Function.update_self, show env (step H (.mall c l) m) (.block 0 l) = .block (s.2.T l) from hval]
        exact htrim
      · rw [Function.update_of_ne hl, show env (step H (.mall c k) m) (.block 0 l) = env m (.block 0 l) from fr _ (by simpa using hl)]
    · rw [fr _ (by simp)]; exact h.ctl
    · rw [fr _ (by simp)]; exact h.ptr
    · rw [← h.ens]
      exact toT_congr (fr _ (by simp)) fun k _ => fr _ (by simp)

theorem malls_run (hs : c.ish < H.P.nshape) : ∀ (ks : List Nat) {m : Place Loc → Val} {w : Work ℂ ℝ}, Inv H q c m w → w.c.nmax ≤ H.P.maxOrder → ∀ {t : TRes ℂ ℝ},
    runMAll (fun z : ℂ => ‖z‖) Complex.I (csOf H c.par) w.it w.c (ks.map fun k => (k, Aux.new H.P.maxOrder)) w.t = some t →
      Inv H q c (seq (code realOps H) (ks.map fun k => .mall c k) m) ⟨w.it, t, w.c⟩
  | [], m, w, h, _, t, ht => by
    simp only [List.map_nil, runMAll, Option.some.injEq] at ht
    subst ht
    exact h
  | k :: ks, m, w, h, hn, t, ht => by
    rw [List.map_cons, runMAll] at ht
    cases he : executeMAll (fun z : ℂ => ‖z‖) Complex.I k (csOf H c.par) w.it w.c (Aux.new H.P.maxOrder, w.t) with
    | none => rw [he] at ht; simp at ht
    | some s =>
      rw [he] at ht
      exact malls_run hs ks (mall_step h hs hn he) hn ht

/-! ## orientations, coefficients -/

/-- averaging over the orientations -/
noncomputable def alignState (H : Problem) (c : Cell) (t : TRes ℂ ℝ) : Alignment.State ℂ ℝ :=
  Alignment.execute Real.sqrt (fun x : ℝ => (x : ℂ)) (H.aligned c) t
    ⟨Val.toCG H.P.maxOrder .unused, ⟨(H.coeff c).size, (H.coeff c).v, true⟩, TRes.new H.P.maxOrder⟩

/-- the T-matrix of the ensemble -/
noncomputable def aligned (H : Problem) (c : Cell) (t : TRes ℂ ℝ) : TRes ℂ ℝ := (alignState H c t).out

theorem one_max (P : Params) : (one P).maxOrder = P.maxOrder := rfl

theorem align_step {m : Place Loc → Val} {w : Work ℂ ℝ} (h : Inv H q c m w) (hok : (alignState H c w.t).C.ok = true ∧ (alignState H c w.t).p.ok = true) :
    (∀ x, IsTable H.P q x → step H (.align c) m (.inl x) = table H x) ∧
      toT H (env (step H (.align c) m)) 1 = { aligned H c w.t with T := fun k => mat (2 * (H.P.maxOrder + 1 - k)) ((aligned H c w.t).T k) } := by
  have hw : ∀ x, x ∈ writes (one H.P) (.align c) ↔ x = .head 1 ∨ ∃ k ≤ H.P.maxOrder, .block 1 k = x := by
    intro x
    simp [writes, slot_one, whole, one_max, Nat.lt_succ_iff]
  have hr : ∀ x, x = .head 0 ∨ (∃ k ≤ H.P.maxOrder, .block 0 k = x) ∨ x = .head 1 ∨ (∃ k ≤ H.P.maxOrder, .block 1 k = x) → seen H (.align c) m x = m (.inl x) := by
    intro x hx
    unfold seen
    refine if_pos ?_
    rw [List.mem_append, hw]
    rcases hx with rfl | ⟨k, hk, rfl⟩ | rfl | ⟨k, hk, rfl⟩
    · left; simp [reads, slot_one, whole]
    · left; simp [reads, slot_one, whole, one_max, Nat.lt_succ_iff, hk]
    · right; simp
    · right; exact Or.inr ⟨k, hk, rfl⟩
  have e0 : toT H (seen H (.align c) m) 0 = w.t := by
    rw [← h.t]
    exact toT_congr (hr _ (by simp)) fun k hk => hr _ (by simp [hk])
  have e1 : toT H (seen H (.align c) m) 1 = TRes.new H.P.maxOrder := by
    rw [← h.ens]
    exact toT_congr (hr _ (by simp)) fun k hk => hr _ (by simp [hk])
  have hs : ∀ v : Val, (v.toCG H.P.maxOrder).size = (Val.toCG H.P.maxOrder .unused).size ∧ (v.toCG H.P.maxOrder).ok = (Val.toCG H.P.maxOrder .unused).ok := by
    intro v; cases v <;> exact ⟨rfl, rfl⟩
  obtain ⟨hout, -, -, hC, -, hP⟩ := align_workspace (H.aligned c) w.t (TRes.new H.P.maxOrder) ((m (.inr 0)).toCG H.P.maxOrder) (Val.toCG H.P.maxOrder .unused)
    ⟨(H.coeff c).size, (H.coeff c).v, true⟩ (hs _).1 (hs _).2
  have hres : ∀ x, x ∈ writes (one H.P) (.align c) → step H (.align c) m (.inl x) = ofT (aligned H c w.t) x := by
    intro x hx
    rw [step_at, if_pos hx]
    unfold result alignTask
    dsimp only
    rw [e0, e1, show realOps.sqrt = Real.sqrt by simp only [realOps], hC, hP, hout, show (Alignment.execute Real.sqrt (fun x : ℝ => (x : ℂ)) (H.aligned c) w.t
      ⟨Val.toCG H.P.maxOrder .unused, ⟨(H.coeff c).size, (H.coeff c).v, true⟩, TRes.new H.P.maxOrder⟩) = alignState H c w.t from rfl, hok.1, hok.2]
    rfl
  refine ⟨fun x hx => ?_, ?_⟩
  · rw [step_at, if_neg]
    · exact h.tab x hx
    · rw [hw]
      rintro (rfl | ⟨k, _, rfl⟩) <;> exact hx
  · unfold toT
    rw [show env (step H (.align c) m) (.head 1) = ofT (aligned H c w.t) (.head 1) from hres _ (by simp [hw])]
    simp only [ofT, Val.toHead]
    congr 1
    funext k
    by_cases hk : k ≤ H.P.maxOrder
    · rw [show env (step H (.align c) m) (.block 1 k) = ofT (aligned H c w.t) (.block 1 k) from hres _ ((hw _).2 (Or.inr ⟨k, hk, rfl⟩))]
      rfl
    · rw [show 2 * (H.P.maxOrder + 1 - k) = 0 by omega]
      simp only [mat, Mat.mk.injEq, true_and]
      funext j
      simp [arr]

theorem meas_step {m : Place Loc → Val} (h : ∀ x, IsTable H.P q x → m (.inl x) = table H x) :
    step H (.meas q c) m (.inl (.unav q c)) = measTask realOps H q c (env m) := by
  have hr : ∀ x, x = .nbased ∨ x = .grid q ∨ x = .swig q ∨ x = .head 1 ∨ (∃ k ≤ H.P.maxOrder, .block 1 k = x) → seen H (.meas q c) m x = m (.inl x) := by
    intro x hx
    unfold seen
    refine if_pos ?_
    rw [List.mem_append]
    left
    rcases hx with rfl | rfl | rfl | rfl | ⟨k, hk, rfl⟩ <;> simp [reads, slot_one, whole, one_max, Nat.lt_succ_iff] <;> assumption
  rw [step_at, if_pos (by simp [writes])]
  change measTask realOps H q c (seen H (.meas q c) m) = _
  unfold measTask
  rw [hr .nbased (by simp), hr (.grid q) (by simp), hr (.swig q) (by simp), toT_congr (e' := env m) (hr _ (by simp)) fun k hk => hr _ (by simp [hk])]
  rfl

end Verif.Content
