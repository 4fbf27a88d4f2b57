import Verif.Model.Account
import Verif.Properties.Table
import Mathlib.Algebra.Order.BigOperators.Group.List

/-!
# C25, C26, C59: the dry run counts what is created, the memory limit, and the look-up of shared objects
-/
namespace Verif.Account

open Verif.Graph Verif.Table

variable {P : Params}

/-! ## Counting -/

/-- what one event adds to the counters -/
def add (f : Ev → Nat) (evs : List Ev) : Nat := (evs.map f).sum

def fTasks : Ev → Nat | .computable _ _ | .task _ _ => 1 | _ => 0
def fResources : Ev → Nat | .task _ _ => 0 | _ => 1
def fDeps : Ev → Nat | .computable _ d | .task _ d => d | _ => 0
def fRw : Ev → Nat | .computable t _ | .task t _ => rwOf t | _ => 0
def fRo : Ev → Nat | .computable t _ | .task t _ => roOf t | _ => 0
def fRes : Ev → Nat | .resource => 1 | _ => 0
def fResult : Ev → Nat | .result => 1 | _ => 0

theorem fold_step (evs : List Ev) : ∀ a, evs.foldl step a =
    ⟨a.tasks + add fTasks evs, a.resources + add fResources evs, a.depLinks + add fDeps evs, a.rwLinks + add fRw evs,
     a.roLinks + add fRo evs, a.taskPtrs + add fTasks evs, a.resPtrs + add fRes evs,
     a.resultPtrs + add fResult evs⟩ := by
  induction evs with
  | nil => intro a; simp [add]
  | cons e evs ih =>
    intro a
    rw [List.foldl_cons, ih]
    cases e <;> simp [add, step, fTasks, fResources, fDeps, fRw, fRo, fRes, fResult, Nat.add_assoc]

theorem add_append (f : Ev → Nat) (a b : List Ev) : add f (a ++ b) = add f a + add f b := by simp [add]

theorem add_flatMap {γ} (f : Ev → Nat) (l : List γ) (g : γ → List Ev) :
    add f (l.flatMap g) = (l.map fun x => add f (g x)).sum := by
  induction l with
  | nil => rfl
  | cons a l ih => simp [List.flatMap_cons, add_append, ih]

theorem add_map {γ} (f : Ev → Nat) (l : List γ) (g : γ → Ev) : add f (l.map g) = (l.map fun x => f (g x)).sum := by
  simp [add, Function.comp_def]

theorem sum_const {γ} (l : List γ) (n : Nat) : (l.map fun _ => n).sum = l.length * n := by
  simp

theorem length_pars : (pars P).length = P.nc * (P.ns * P.nl) := by
  simp [pars, List.length_flatMap, Function.comp_def]

theorem count_cells (f : Call → Bool) (K : Nat) (h : ∀ c s u, (cellCalls P c s u).countP f = K) (cs : List Cell) :
    ∀ k, (cellsOut P k cs).countP f = cs.length * K := by
  induction cs with
  | nil => intro k; simp [cellsOut]
  | cons c cs ih => intro k; simp [cellsOut, h, ih, Nat.add_mul, Nat.add_comm]

theorem count_cells_le (f : Call → Bool) (K : Nat) (h : ∀ c s u, (cellCalls P c s u).countP f ≤ K) (cs : List Cell) :
    ∀ k, (cellsOut P k cs).countP f ≤ cs.length * K := by
  induction cs with
  | nil => intro k; simp [cellsOut]
  | cons c cs ih =>
    intro k
    have := h c (k % P.nt) (unl P k)
    have := ih (k + 1)
    simp only [cellsOut, List.countP_append, List.length_cons, Nat.add_mul, Nat.one_mul]
    omega

theorem count_pars (f : Call → Bool) (H K : Nat) (hh : ∀ p, (headCalls P p).countP f = H)
    (h : ∀ c s u, (cellCalls P c s u).countP f = K) (ps : List Par) :
    ∀ k, (parsOut P k ps).countP f = ps.length * (H + P.nshape * K) := by
  induction ps with
  | nil => intro k; simp [parsOut]
  | cons p ps ih =>
    intro k
    simp only [parsOut, List.countP_append, hh, count_cells f K h, ih, List.length_map, List.length_range,
      List.length_cons]
    ring

theorem count_pars_le (f : Call → Bool) (H K : Nat) (hh : ∀ p, (headCalls P p).countP f ≤ H)
    (h : ∀ c s u, (cellCalls P c s u).countP f ≤ K) (ps : List Par) :
    ∀ k, (parsOut P k ps).countP f ≤ ps.length * (H + P.nshape * K) := by
  induction ps with
  | nil => intro k; simp [parsOut]
  | cons p ps ih =>
    intro k
    have h1 := hh p
    have h2 := ih (k + P.nshape)
    have h3 := count_cells_le f K h ((List.range P.nshape).map fun ish => (⟨p, ish⟩ : Cell)) k
    simp only [List.length_map, List.length_range] at h3
    simp only [parsOut, List.countP_append, List.length_cons, Nat.add_mul, Nat.one_mul] at h2 ⊢
    omega

theorem generate_calls (hn : 0 < P.nt) {l : List Call} (h : generate P = some l) :
    l = fixedCalls P ++ parsOut P 0 (pars P) := by
  unfold generate at h
  split at h
  · cases h
  cases h
  rw [loop_calls hn]

/-- number of calls of each kind in a list -/
def isTask : Call → Bool | .task _ => true | _ => false
def isRes : Call → Bool | .res _ _ => true | _ => false
def isLink : Call → Bool | .link _ _ => true | _ => false
def isLock : Call → Bool | .lock _ _ => true | _ => false
def isUse : Call → Bool | .use _ _ => true | _ => false

theorem countP_flatMap_const {γ} (f : Call → Bool) (l : List γ) (g : γ → List Call) (K : Nat)
    (h : ∀ x, (g x).countP f = K) : (l.flatMap g).countP f = l.length * K := by
  rw [List.countP_flatMap, show (List.countP f ∘ g) = fun _ => K from funext h, sum_const]

theorem add_flatMap_const {γ} (f : Ev → Nat) (l : List γ) (g : γ → List Ev) (K : Nat)
    (h : ∀ x, add f (g x) = K) : add f (l.flatMap g) = l.length * K := by
  rw [add_flatMap, show (fun x => add f (g x)) = fun _ => K from funext h, sum_const]

theorem add_map_const {γ} (f : Ev → Nat) (l : List γ) (g : γ → Ev) (K : Nat)
    (h : ∀ x, f (g x) = K) : add f (l.map g) = l.length * K := by
  rw [add_map, show (fun x => f (g x)) = fun _ => K from funext h, sum_const]

theorem countP_toList {γ} (f : Call → Bool) (g : γ → Call) (u : Option γ) (h : ∀ x, f (g x) = false) :
    ((u.map g).toList).countP f = 0 := by
  cases u <;> simp [h]

/-- counts of calls other than `link_tasks` in one T-matrix -/
theorem count_cell (f : Call → Bool) (hf : ∀ a b, f (.link a b) = false) (c : Cell) (s : Nat) (u : Option Tk)
    (r t1 l1 : Nat) (hr : ∀ x y, (if f (.res x y) then 1 else 0) = r) (ht : ∀ t, (if f (.task t) then 1 else 0) = t1)
    (hl : ∀ t x, (if f (.lock t x) then 1 else 0) = l1) (u1 : Nat) (hu : ∀ t x, (if f (.use t x) then 1 else 0) = u1) :
    (cellCalls P c s u).countP f = (qtys P).length * r + r + P.nq * (2 * t1 + 3 * l1 + 9 * u1) + (t1 + l1 + u1)
      + (qtys P).length * (t1 + l1 + 6 * u1) + (3 * t1 + 3 * l1) + P.maxOrder * (t1 + l1 + 4 * u1) := by
  have ho : ∀ ig, (orderCalls c s u ig).countP f = 2 * t1 + 3 * l1 + 9 * u1 := by
    intro ig
    unfold orderCalls
    rw [List.countP_append, List.countP_append, List.countP_append, countP_toList _ _ _ fun _ => hf _ _]
    have h3 : (if ig = 0 then (u.map fun t => Call.link t (.m0 c ig)).toList
        else [Call.link (.m0 c (ig - 1)) (.inter c ig)]).countP f = 0 := by
      split
      · exact countP_toList _ _ _ fun _ => hf _ _
      · simp [hf]
    rw [h3]
    simp only [List.countP_cons, List.countP_nil, hf, hr, ht, hl, hu]
    simp; ring
  have hm : ∀ q, (measCalls c s q).countP f = t1 + l1 + 6 * u1 := by
    intro q
    simp only [measCalls, List.countP_cons, List.countP_nil, hf, hr, ht, hl, hu]
    simp; ring
  have hM : ∀ i, (mallCalls P c s i).countP f = t1 + l1 + 4 * u1 := by
    intro q
    simp only [mallCalls, List.countP_cons, List.countP_nil, hf, hr, ht, hl, hu]
    simp; ring
  have hR : (resetCalls P c s).countP f = 3 * t1 + 3 * l1 := by
    simp only [resetCalls, List.countP_append, List.countP_cons, List.countP_nil, hf, hr, ht, hl, hu]
    have : ((qtys P).map fun q => Call.link (.meas q c) (.reset2 c)).countP f = 0 := by
      rw [List.countP_eq_zero]; simp [hf]
    rw [this]
    simp; ring
  have h0 : ((qtys P).map fun q => Call.res (.unav q c) none).countP f = (qtys P).length * r := by
    rw [← List.flatMap_singleton' (l := (qtys P).map _), List.flatMap_map, countP_flatMap_const (K := r)]
    intro x
    simpa [List.countP_cons] using hr _ _
  unfold cellCalls
  simp only [List.countP_append, h0, hR, countP_flatMap_const f _ _ _ ho, countP_flatMap_const f _ _ _ hm,
    countP_flatMap_const f _ _ _ hM, List.length_range]
  simp only [List.countP_cons, List.countP_nil, hf, hr, ht, hl, hu]
  ring

theorem count_head (f : Call → Bool) (p : Par) (r t1 l1 : Nat) (hr : ∀ x y, (if f (.res x y) then 1 else 0) = r)
    (ht : ∀ t, (if f (.task t) then 1 else 0) = t1) (hl : ∀ t x, (if f (.lock t x) then 1 else 0) = l1) :
    (headCalls P p).countP f = r + (qtys P).length * (r + t1 + l1) := by
  unfold headCalls
  rw [List.countP_cons, hr, countP_flatMap_const f _ _ (r + t1 + l1)]
  · ring
  · intro q
    simp only [List.countP_cons, List.countP_nil, hr, ht, hl]
    ring

/-- counts in the first part -/
theorem count_fixed (f : Call → Bool) (r t1 l1 u1 d : Nat) (hr : ∀ x y, (if f (.res x y) then 1 else 0) = r)
    (ht : ∀ t, (if f (.task t) then 1 else 0) = t1) (hl : ∀ t x, (if f (.lock t x) then 1 else 0) = l1)
    (hu : ∀ t x, (if f (.use t x) then 1 else 0) = u1) (hd : ∀ a b, (if f (.link a b) then 1 else 0) = d) :
    (fixedCalls P).countP f = (1 + 2 * P.nq + 2 * (qtys P).length + P.nshape * P.nq) * (r + t1 + l1)
      + (P.nq + (qtys P).length + P.nshape * P.nq) * (u1 + d) + P.nt * r + 2 * P.nt * (r + (P.maxOrder + 1) * r) := by
  have e1 : ∀ i, ([Call.res (.gauss i) none, .task (.gauss i), .lock (.gauss i) (.gauss i)]).countP f = r + t1 + l1 := by
    intro i; simp only [List.countP_cons, List.countP_nil, hr, ht, hl]; ring
  have e2 : ∀ q, ([Call.res (.grid q) none, .task (.grid q), .lock (.grid q) (.grid q)]).countP f = r + t1 + l1 := by
    intro i; simp only [List.countP_cons, List.countP_nil, hr, ht, hl]; ring
  have e3 : ∀ q, ([Call.res (.swig q) none, .task (.swig q), .lock (.swig q) (.swig q),
      .use (.swig q) (.grid q), .link (.grid q) (.swig q)]).countP f = r + t1 + l1 + u1 + d := by
    intro i; simp only [List.countP_cons, List.countP_nil, hr, ht, hl, hu, hd]; ring
  have e4 : ∀ i, ([Call.res (.wigner i) none, .task (.wigner i), .lock (.wigner i) (.wigner i),
      .use (.wigner i) (.gauss i), .link (.gauss i) (.wigner i)]).countP f = r + t1 + l1 + u1 + d := by
    intro i; simp only [List.countP_cons, List.countP_nil, hr, ht, hl, hu, hd]; ring
  have e5 : ∀ is, ((List.range P.nq).flatMap fun ig =>
      [Call.res (.geom is ig) none, .task (.geom is ig), .lock (.geom is ig) (.geom is ig),
       .use (.geom is ig) (.gauss ig), .link (.gauss ig) (.geom is ig)]).countP f = P.nq * (r + t1 + l1 + u1 + d) := by
    intro is
    rw [countP_flatMap_const f _ _ (r + t1 + l1 + u1 + d), List.length_range]
    intro i; simp only [List.countP_cons, List.countP_nil, hr, ht, hl, hu, hd]; ring
  have e6 : ((List.range P.nt).map fun i => Call.res (.inter i) none).countP f = P.nt * r := by
    rw [← List.flatMap_singleton' (l := (List.range P.nt).map _), List.flatMap_map, countP_flatMap_const (K := r),
      List.length_range]
    intro x
    simpa [List.countP_cons] using hr _ _
  have e7 : ∀ i, (Call.res (.tm i) none ::
      (List.range (P.maxOrder + 1)).map fun m => Call.res (.tmM i m) (some (.tm i))).countP f
        = r + (P.maxOrder + 1) * r := by
    intro i
    rw [List.countP_cons, hr, ← List.flatMap_singleton' (l := (List.range (P.maxOrder + 1)).map _), List.flatMap_map,
      countP_flatMap_const (K := r), List.length_range]
    · ring
    · intro x
      simpa [List.countP_cons] using hr _ _
  unfold fixedCalls
  simp only [List.countP_append, countP_flatMap_const f _ _ _ e1, countP_flatMap_const f _ _ _ e2,
    countP_flatMap_const f _ _ _ e3, countP_flatMap_const f _ _ _ e4, countP_flatMap_const f _ _ _ e5, e6,
    countP_flatMap_const f _ _ _ e7, List.length_range]
  simp only [List.countP_cons, List.countP_nil, hr, ht, hl]
  ring


/-! ## The vector `resources` -/

theorem stored_append (a b : List Call) : stored (a ++ b) = stored a ++ stored b := by simp [stored]

theorem stored_flatMap {γ} (l : List γ) (f : γ → List Call) :
    stored (l.flatMap f) = l.flatMap fun a => stored (f a) := by
  induction l with
  | nil => rfl
  | cons a l ih => simp [List.flatMap_cons, stored_append, ih]

/-- calls that store nothing in `resources` -/
theorem stored_nil {l : List Call} (h : ∀ x ∈ l, stored [x] = []) : stored l = [] := by
  induction l with
  | nil => rfl
  | cons a l ih =>
    rw [← List.singleton_append, stored_append, h a (by simp), ih fun x hx => h x (by simp [hx])]; rfl

theorem stored_fixed : stored (fixedCalls P) = (List.range P.nt).map .inter ++ (List.range (2 * P.nt)).map .tm := by
  unfold fixedCalls
  rw [stored_append, stored_append]
  rw [stored_nil (l := _ ++ _ ++ _ ++ _ ++ _ ++ _)]
  · have h1 : stored ((List.range P.nt).map fun i => Call.res (.inter i) none) = (List.range P.nt).map .inter := by
      induction List.range P.nt with
      | nil => rfl
      | cons a l ih =>
        rw [List.map_cons, ← List.singleton_append, stored_append, ih]; rfl
    have h2 : ∀ i, stored (Call.res (.tm i) none ::
      (List.range (P.maxOrder + 1)).map fun m => Call.res (.tmM i m) (some (.tm i))) = [.tm i] := by
      intro i
      rw [← List.singleton_append, stored_append, stored_nil (l := List.map _ _)]
      · rfl
      · intro x hx
        obtain ⟨m, _, rfl⟩ := List.mem_map.1 hx
        rfl
    rw [h1, stored_flatMap]
    simp only [h2]
    rw [List.nil_append]
    congr 1
    induction List.range (2 * P.nt) with
    | nil => rfl
    | cons a l ih => rw [List.flatMap_cons, ih]; rfl
  · intro x hx
    simp only [List.mem_append, List.mem_flatMap, List.mem_cons, List.not_mem_nil, or_false] at hx
    rcases hx with ((((h | ⟨_, _, h⟩) | ⟨_, _, h⟩) | ⟨_, _, h⟩) | ⟨_, _, h⟩) | ⟨_, _, _, _, h⟩
    all_goals rcases h with rfl | rfl | h <;> first | rfl | (try rcases h with rfl | rfl | rfl) <;> first | rfl | (subst h; rfl)

theorem stored_head (p : Par) : stored (headCalls P p) = [.intvars p] := by
  unfold headCalls
  rw [← List.singleton_append, stored_append, stored_nil (l := List.flatMap _ _)]
  · rfl
  · intro x hx
    simp only [List.mem_flatMap, List.mem_cons, List.not_mem_nil, or_false] at hx
    obtain ⟨q, _, rfl | rfl | rfl⟩ := hx <;> rfl

theorem stored_cell (c : Cell) (s : Nat) (u : Option Tk) :
    (stored (cellCalls P c s u)).length = (qtys P).length + 1 := by
  have nores : ∀ l : List Call, (∀ x ∈ l, ∀ r y, x ≠ .res r y) → stored l = [] := by
    intro l h
    apply stored_nil
    intro x hx
    have := h x hx
    cases x with
    | res r y => exact absurd rfl (this r y)
    | _ => rfl
  unfold cellCalls
  simp only [stored_append]
  rw [nores ((List.range P.nq).flatMap (orderCalls c s u)), nores [.task (.align c), _, _],
    nores ((qtys P).flatMap (measCalls c s)), nores (resetCalls P c s),
    nores ((List.range P.maxOrder).flatMap (mallCalls P c s))]
  · have : stored ((qtys P).map fun q => Call.res (.unav q c) none) = (qtys P).map fun q => .unav q c := by
      induction qtys P with
      | nil => rfl
      | cons a l ih => rw [List.map_cons, ← List.singleton_append, stored_append, ih]; rfl
    rw [this]
    simp [stored]
  all_goals
    intro x hx r y hy
    subst hy
    simp [mallCalls, resetCalls, measCalls, orderCalls] at hx
  obtain ⟨a, _, h⟩ := hx
  split at h <;> simp at h

theorem stored_cells (cs : List Cell) : ∀ k, (stored (cellsOut P k cs)).length = cs.length * ((qtys P).length + 1) := by
  induction cs with
  | nil => intro k; simp [cellsOut, stored]
  | cons c cs ih => intro k; simp only [cellsOut, stored_append, List.length_append, stored_cell, ih, List.length_cons]; ring

theorem stored_pars (ps : List Par) : ∀ k,
    (stored (parsOut P k ps)).length = ps.length * (1 + P.nshape * ((qtys P).length + 1)) := by
  induction ps with
  | nil => intro k; simp [parsOut, stored]
  | cons p ps ih =>
    intro k
    simp only [parsOut, stored_append, List.length_append, stored_head, stored_cells, ih, List.length_cons,
      List.length_map, List.length_range, List.length_nil]
    ring

/-! ## C25 -/

theorem length_tasksIn (l : List Call) : (tasksIn l).length = l.countP isTask := by
  induction l with
  | nil => rfl
  | cons a l ih => cases a <;> simp_all [tasksIn, isTask, List.countP_cons]

theorem length_resIn (l : List Call) : (resIn l).length = l.countP isRes := by
  induction l with
  | nil => rfl
  | cons a l ih => cases a <;> simp_all [resIn, isRes, List.countP_cons]

theorem sum_orders (n : Nat) : ((List.range n).map fun ig => 2 + (4 + if 0 < ig then 1 else 0)).sum + (if n = 0 then 0 else 1)
    = 7 * n := by
  induction n with
  | zero => rfl
  | succ n ih =>
    rw [List.range_succ, List.map_append, List.sum_append]
    simp only [List.map_cons, List.map_nil, List.sum_cons, List.sum_nil]
    cases n with
    | zero => simp
    | succ n => simp at ih ⊢; omega

/-- the links of one T-matrix are covered by what is reserved for it -/
theorem link_cell (c : Cell) (s : Nat) (u : Option Tk) : (cellCalls P c s u).countP isLink ≤ add fDeps (cellEvs P c) := by
  have ho : ∀ ig, (orderCalls c s u ig).countP isLink ≤ 2 + (4 + if 0 < ig then 1 else 0) := by
    intro ig
    unfold orderCalls
    by_cases h : ig = 0
    · subst h
      cases u <;> simp [isLink, List.countP_cons]
    · cases u <;> simp [isLink, h, List.countP_cons] <;> rw [if_pos (by omega)] <;> omega
  have hO : ((List.range P.nq).flatMap (orderCalls c s u)).countP isLink ≤
      ((List.range P.nq).map fun ig => 2 + (4 + if 0 < ig then 1 else 0)).sum := by
    rw [List.countP_flatMap]
    exact List.sum_le_sum fun i _ => ho i
  have hm : ∀ q, (measCalls c s q).countP isLink = 3 := by intro q; rfl
  have hM : ∀ i, (mallCalls P c s i).countP isLink = 2 := by intro i; rfl
  have hR : (resetCalls P c s).countP isLink = 3 + (qtys P).length := by
    simp only [resetCalls, List.countP_append]
    have : ((qtys P).map fun q => Call.link (.meas q c) (.reset2 c)).countP isLink = (qtys P).length := by
      rw [List.countP_eq_length.2, List.length_map]; simp [isLink]
    rw [this]
    simp [isLink, List.countP_cons]; omega
  have h0 : ((qtys P).map fun q => Call.res (.unav q c) none).countP isLink = 0 := by
    rw [List.countP_eq_zero]; simp [isLink]
  have e1 : add fDeps ((List.range P.nq).flatMap fun ig => [.task (.inter c ig) 2,
      .task (.m0 c ig) (4 + if 0 < ig then 1 else 0)]) =
      ((List.range P.nq).map fun ig => 2 + (4 + if 0 < ig then 1 else 0)).sum := by
    rw [add_flatMap]; simp [add, fDeps]
  have e2 : add fDeps ((qtys P).map fun _ => .resource) = 0 := by rw [add_map_const (K := 0)]; simp; simp [fDeps]
  have e3 : add fDeps ((qtys P).map fun q => .task (.meas q c) 3) = (qtys P).length * 3 := by
    rw [add_map_const (K := 3)]; simp [fDeps]
  have e4 : add fDeps ((List.range P.maxOrder).map fun i => .task (.mall c (i + 1)) 2) = P.maxOrder * 2 := by
    rw [add_map_const (K := 2), List.length_range]; simp [fDeps]
  unfold cellCalls cellEvs
  simp only [List.countP_append, h0, hR, countP_flatMap_const isLink _ _ _ hm, countP_flatMap_const isLink _ _ _ hM,
    List.length_range, add_append, e1, e2, e3, e4]
  have f1 : [Call.res (.conv c) none].countP isLink = 0 := rfl
  have f2 : [Call.task (.align c), .lock (.align c) (.tm (2 * s)), .use (.align c) (.tm (2 * s + 1))].countP isLink = 0 :=
    rfl
  have f3 : add fDeps [.resource] = 0 := rfl
  have f4 : add fDeps [.task (.align c) 0] = 0 := rfl
  have f5 : add fDeps [.task (.reset1 c) 1, .task (.reset2 c) (1 + (qtys P).length), .task (.reset3 c) 1]
      = 3 + (qtys P).length := by simp [add, fDeps]; omega
  rw [f1, f2, f3, f4, f5]
  omega

/-- **C25**: after the dry run, the vectors `tasks`, `resources` and `results` have exactly as many elements as objects
are stored in them; the numbers of tasks and of read/write links reserved in the scheduler are exact and the number of
dependencies is sufficient.  The resources and read-only links are not all reserved: each T-matrix also has `maximum
order + 1` sub-resources, and the averaging tasks use the results of each shape; the scheduler grows these two tables
(C12). -/
theorem c25_accounting (hn : 0 < P.nt) {l : List Call} (h : generate P = some l) :
    (tasksIn l).length = (dryRun P).tasks ∧
    (tasksIn l).length = (dryRun P).taskPtrs ∧
    (stored l).length = (dryRun P).resPtrs ∧
    (resultsIn l).length = (dryRun P).resultPtrs ∧
    l.countP isLock = (dryRun P).rwLinks ∧
    l.countP isLink ≤ (dryRun P).depLinks ∧
    l.countP isUse = (dryRun P).roLinks + (qtys P).length * (cells P).length ∧
    (resIn l).length = (dryRun P).resources + 2 * P.nt * (P.maxOrder + 1) := by
  have hcells : (cells P).length = (pars P).length * P.nshape := by
    simp [cells, List.length_flatMap, Function.comp_def]
  have hl := generate_calls hn h
  have hres := resultsIn_generate hn h
  -- the dry run
  have A : ∀ (f : Ev → Nat) (F H C : Nat), add f (fixedEvs P) = F →
      (∀ p, add f (.resource :: (qtys P).flatMap fun q => [.result, .task (.avg q p) 0]) = H) →
      (∀ c, add f (cellEvs P c) = C) →
      add f (fixedEvs P ++ (pars P).flatMap (parEvs P) ++ (List.range P.nt).flatMap fun _ => slotEvs) =
        F + (pars P).length * (H + P.nshape * C) + P.nt * add f slotEvs := by
    intro f F H C h1 h2 h3
    rw [add_append, add_append, h1, add_flatMap_const (K := H + P.nshape * C),
      add_flatMap_const (K := add f slotEvs), List.length_range]
    · intro _; rfl
    · intro p
      unfold parEvs
      rw [add_append, h2, add_flatMap_const (K := C), List.length_range]
      intro ish
      exact h3 _
  unfold dryRun
  rw [fold_step]
  simp only [Acc.zero, Nat.zero_add]
  have evs : ∀ (f : Ev → Nat) (a b c' : Nat), f .resource = a → f .result = b → (∀ q p, f (.task (.avg q p) 0) = c') →
      ∀ p, add f (.resource :: (qtys P).flatMap fun q => [.result, .task (.avg q p) 0]) =
        a + (qtys P).length * (b + c') := by
    intro f a b c' h1 h2 h3 p
    rw [← List.singleton_append, add_append, add_flatMap_const (K := b + c')]
    · simp [add, h1]
    · intro q; simp [add, h2, h3]
  have fixed : ∀ (f : Ev → Nat) (x1 x2 x3 x4 x5 x6 : Nat), f (.computable .nbased 0) = x1 →
      (∀ i, f (.computable (.gauss i) 0) = x2) → (∀ q, f (.computable (.grid q) 0) = x3) →
      (∀ q, f (.computable (.swig q) 1) = x4) → (∀ i, f (.computable (.wigner i) 1) = x5) →
      (∀ i j, f (.computable (.geom i j) 1) = x6) →
      add f (fixedEvs P) = x1 + P.nq * x2 + (qtys P).length * x3 + (qtys P).length * x4 + P.nq * x5
        + P.nshape * (P.nq * x6) := by
    intro f x1 x2 x3 x4 x5 x6 h1 h2 h3 h4 h5 h6
    unfold fixedEvs
    simp only [add_append, add_map_const f _ _ _ h2, add_map_const f _ _ _ h3, add_map_const f _ _ _ h4,
      add_map_const f _ _ _ h5, List.length_range]
    rw [add_flatMap_const (K := P.nq * x6), List.length_range]
    · simp [add, h1]
    · intro is
      rw [add_map_const (K := x6), List.length_range]
      exact h6 is
  have cell : ∀ (f : Ev → Nat) (x1 x2 x3 x4 x5 x6 x7 x8 x9 : Nat), f .resource = x1 →
      (∀ c ig, f (.task (.inter c ig) 2) = x2) → (∀ c ig d, f (.task (.m0 c ig) d) = x3) →
      (∀ c, f (.task (.align c) 0) = x4) → (∀ q c, f (.task (.meas q c) 3) = x5) →
      (∀ c, f (.task (.reset1 c) 1) = x6) → (∀ c d, f (.task (.reset2 c) d) = x7) →
      (∀ c, f (.task (.reset3 c) 1) = x8) → (∀ c m, f (.task (.mall c m) 2) = x9) →
      ∀ c, add f (cellEvs P c) = (qtys P).length * x1 + x1 + P.nq * (x2 + x3) + x4 + (qtys P).length * x5
        + (x6 + x7 + x8) + P.maxOrder * x9 := by
    intro f x1 x2 x3 x4 x5 x6 x7 x8 x9 h1 h2 h3 h4 h5 h6 h7 h8 h9 c
    unfold cellEvs
    simp only [add_append]
    rw [add_map_const (K := x1), add_flatMap_const (K := x2 + x3), add_map_const (K := x5), add_map_const (K := x9),
      List.length_range, List.length_range]
    · simp [add, h1, h4, h6, h7, h8]; ring
    · intro i; exact h9 _ _
    · intro q; exact h5 _ _
    · intro ig; simp [add, h2, h3]
    · intro _; exact h1
  have tt : (tasksIn l).length = add fTasks (fixedEvs P ++ (pars P).flatMap (parEvs P) ++
      (List.range P.nt).flatMap fun _ => slotEvs) := by
    rw [length_tasksIn, hl, List.countP_append,
      count_fixed isTask 0 1 0 0 0 (by intros; rfl) (by intros; rfl) (by intros; rfl) (by intros; rfl) (by intros; rfl),
      count_pars isTask _ _ (fun p => count_head isTask p 0 1 0 (by intros; rfl) (by intros; rfl) (by intros; rfl))
        (fun c s u => count_cell isTask (by intros; rfl) c s u 0 1 0 (by intros; rfl) (by intros; rfl)
          (by intros; rfl) 0 (by intros; rfl)),
      A fTasks _ _ _ (fixed fTasks 1 1 1 1 1 1 rfl (by intros; rfl) (by intros; rfl) (by intros; rfl) (by intros; rfl)
        (by intros; rfl)) (evs fTasks 0 0 1 rfl rfl (by intros; rfl))
        (cell fTasks 0 1 1 1 1 1 1 1 1 rfl (by intros; rfl) (by intros; rfl) (by intros; rfl) (by intros; rfl)
          (by intros; rfl) (by intros; rfl) (by intros; rfl) (by intros; rfl)),
      show add fTasks slotEvs = 0 from rfl]
    ring
  refine ⟨tt, tt, ?_, ?_, ?_, ?_, ?_, ?_⟩
  · rw [hl, stored_append, List.length_append, stored_fixed, stored_pars,
      A fRes _ _ _ (fixed fRes 0 0 0 0 0 0 rfl (by intros; rfl) (by intros; rfl) (by intros; rfl) (by intros; rfl)
        (by intros; rfl)) (evs fRes 1 0 0 rfl rfl (by intros; rfl))
        (cell fRes 1 0 0 0 0 0 0 0 0 rfl (by intros; rfl) (by intros; rfl) (by intros; rfl) (by intros; rfl)
          (by intros; rfl) (by intros; rfl) (by intros; rfl) (by intros; rfl)),
      show add fRes slotEvs = 3 from rfl]
    simp only [List.length_append, List.length_map, List.length_range]
    ring
  · rw [hres, List.length_flatMap, show (fun p : Par => ((qtys P).map fun q => (q, p)).length) =
        fun _ => (qtys P).length from funext fun _ => List.length_map _, sum_const,
      A fResult _ _ _ (fixed fResult 0 0 0 0 0 0 rfl (by intros; rfl) (by intros; rfl) (by intros; rfl) (by intros; rfl)
        (by intros; rfl)) (evs fResult 0 1 0 rfl rfl (by intros; rfl))
        (cell fResult 0 0 0 0 0 0 0 0 0 rfl (by intros; rfl) (by intros; rfl) (by intros; rfl) (by intros; rfl)
          (by intros; rfl) (by intros; rfl) (by intros; rfl) (by intros; rfl)),
      show add fResult slotEvs = 0 from rfl]
    ring
  · rw [hl, List.countP_append,
      count_fixed isLock 0 0 1 0 0 (by intros; rfl) (by intros; rfl) (by intros; rfl) (by intros; rfl) (by intros; rfl),
      count_pars isLock _ _ (fun p => count_head isLock p 0 0 1 (by intros; rfl) (by intros; rfl) (by intros; rfl))
        (fun c s u => count_cell isLock (by intros; rfl) c s u 0 0 1 (by intros; rfl) (by intros; rfl)
          (by intros; rfl) 0 (by intros; rfl)),
      A fRw _ _ _ (fixed fRw 1 1 1 1 1 1 rfl (by intros; rfl) (by intros; rfl) (by intros; rfl) (by intros; rfl)
        (by intros; rfl)) (evs fRw 0 0 1 rfl rfl (by intros; rfl))
        (cell fRw 0 1 2 1 1 1 1 1 1 rfl (by intros; rfl) (by intros; rfl) (by intros; rfl) (by intros; rfl)
          (by intros; rfl) (by intros; rfl) (by intros; rfl) (by intros; rfl)),
      show add fRw slotEvs = 0 from rfl]
    ring
  · rw [hl, List.countP_append,
      count_fixed isLink 0 0 0 0 1 (by intros; rfl) (by intros; rfl) (by intros; rfl) (by intros; rfl) (by intros; rfl)]
    have hc : ∀ c c' s u, (cellCalls P c s u).countP isLink ≤ add fDeps (cellEvs P c') := by
      intro c c' s u
      refine (link_cell c s u).trans (le_of_eq ?_)
      unfold cellEvs
      simp only [add_append, add_map, add_flatMap]
      simp [add, fDeps]
    let c0 : Cell := ⟨⟨0, 0, 0⟩, 0⟩
    have h1 := count_pars_le (P := P) isLink 0 (add fDeps (cellEvs P c0))
      (fun p => by rw [count_head isLink p 0 0 0 (by intros; rfl) (by intros; rfl) (by intros; rfl)]; simp)
      (fun c s u => hc c c0 s u) (pars P) 0
    rw [A fDeps _ _ (add fDeps (cellEvs P c0)) (fixed fDeps 0 0 0 1 1 1 rfl (by intros; rfl) (by intros; rfl)
        (by intros; rfl) (by intros; rfl) (by intros; rfl)) (evs fDeps 0 0 0 rfl rfl (by intros; rfl))
        (by
          intro c
          unfold cellEvs
          simp only [add_append, add_map, add_flatMap]
          simp [add, fDeps]),
      show add fDeps slotEvs = 0 from rfl]
    refine (Nat.add_le_add_left h1 _).trans (le_of_eq ?_)
    ring
  · rw [hl, List.countP_append,
      count_fixed isUse 0 0 0 1 0 (by intros; rfl) (by intros; rfl) (by intros; rfl) (by intros; rfl) (by intros; rfl),
      count_pars isUse _ _ (fun p => count_head isUse p 0 0 0 (by intros; rfl) (by intros; rfl) (by intros; rfl))
        (fun c s u => count_cell isUse (by intros; rfl) c s u 0 0 0 (by intros; rfl) (by intros; rfl)
          (by intros; rfl) 1 (by intros; rfl)),
      A fRo _ _ _ (fixed fRo 0 0 0 1 1 1 rfl (by intros; rfl) (by intros; rfl) (by intros; rfl) (by intros; rfl)
        (by intros; rfl)) (evs fRo 0 0 0 rfl rfl (by intros; rfl))
        (cell fRo 0 3 6 1 5 0 0 0 4 rfl (by intros; rfl) (by intros; rfl) (by intros; rfl) (by intros; rfl)
          (by intros; rfl) (by intros; rfl) (by intros; rfl) (by intros; rfl)),
      show add fRo slotEvs = 0 from rfl, hcells]
    ring
  · rw [length_resIn, hl, List.countP_append,
      count_fixed isRes 1 0 0 0 0 (by intros; rfl) (by intros; rfl) (by intros; rfl) (by intros; rfl) (by intros; rfl),
      count_pars isRes _ _ (fun p => count_head isRes p 1 0 0 (by intros; rfl) (by intros; rfl) (by intros; rfl))
        (fun c s u => count_cell isRes (by intros; rfl) c s u 1 0 0 (by intros; rfl) (by intros; rfl)
          (by intros; rfl) 0 (by intros; rfl)),
      A fResources _ _ _ (fixed fResources 1 1 1 1 1 1 rfl (by intros; rfl) (by intros; rfl) (by intros; rfl)
        (by intros; rfl) (by intros; rfl)) (evs fResources 1 1 0 rfl rfl (by intros; rfl))
        (cell fResources 1 0 0 0 0 0 0 0 0 rfl (by intros; rfl) (by intros; rfl) (by intros; rfl) (by intros; rfl)
          (by intros; rfl) (by intros; rfl) (by intros; rfl) (by intros; rfl)),
      show add fResources slotEvs = 3 from rfl]
    ring

/-! ## C59: look-up by offset -/

theorem tasksIn_append (a b : List Call) : tasksIn (a ++ b) = tasksIn a ++ tasksIn b := by simp [tasksIn]

theorem tasksIn_flatMap {γ} (l : List γ) (f : γ → List Call) :
    tasksIn (l.flatMap f) = l.flatMap fun a => tasksIn (f a) := by
  induction l with
  | nil => rfl
  | cons a l ih => simp [List.flatMap_cons, tasksIn_append, ih]

theorem flatMap_one {γ δ} (l : List γ) (f : γ → δ) : (l.flatMap fun a => [f a]) = l.map f := by
  induction l with
  | nil => rfl
  | cons a l ih => rw [List.flatMap_cons, ih]; rfl

theorem tasksIn_fixed : tasksIn (fixedCalls P) = [Tk.nbased] ++ (List.range P.nq).map .gauss ++ (qtys P).map .grid
    ++ (qtys P).map .swig ++ (List.range P.nq).map .wigner
    ++ (List.range P.nshape).flatMap (fun is => (List.range P.nq).map fun ig => .geom is ig) := by
  unfold fixedCalls
  simp only [tasksIn_append, tasksIn_flatMap]
  have h1 : tasksIn ((List.range P.nt).map fun i => Call.res (.inter i) none) = [] := by
    unfold tasksIn
    rw [List.filterMap_eq_nil_iff]
    intro x hx
    obtain ⟨m, _, rfl⟩ := List.mem_map.1 hx
    rfl
  have h2 : ∀ i, tasksIn (Call.res (.tm i) none ::
      (List.range (P.maxOrder + 1)).map fun m => Call.res (.tmM i m) (some (.tm i))) = [] := by
    intro i
    unfold tasksIn
    rw [List.filterMap_eq_nil_iff]
    intro x hx
    rcases List.mem_cons.1 hx with rfl | hx
    · rfl
    · obtain ⟨m, _, rfl⟩ := List.mem_map.1 hx
      rfl
  simp only [h1, h2]
  have e : ∀ n : Nat, ((List.range n).flatMap fun _ => ([] : List Tk)) = [] := by intro n; simp
  rw [e, List.append_nil, List.append_nil]
  simp only [← flatMap_one]
  rfl

/-- **C59**: the objects that `generate_tasks` fetches from the vectors `tasks` and `resources` by offset and index are
the quadrature points, Wigner functions and geometry of that order and shape, and the interaction and T-matrix
resources with that number - so they are also of the class that the pointer is cast to. -/
theorem c59_lookup (hn : 0 < P.nt) {l : List Call} (h : generate P = some l) :
    (∀ ig < P.nq, (tasksIn l)[gaussOffset + ig]? = some (.gauss ig)) ∧
    (∀ ig < P.nq, (tasksIn l)[wignerOffset P + ig]? = some (.wigner ig)) ∧
    (∀ is < P.nshape, ∀ ig < P.nq, (tasksIn l)[geomOffset P + is * P.nq + ig]? = some (.geom is ig)) ∧
    (∀ s < P.nt, (stored l)[interOffset + s]? = some (.inter s)) ∧
    (∀ i < 2 * P.nt, (stored l)[tmOffset P + i]? = some (.tm i)) := by
  have hl := generate_calls hn h
  subst hl
  rw [tasksIn_append, stored_append, tasksIn_fixed, stored_fixed]
  set T := tasksIn (parsOut P 0 (pars P))
  set S := stored (parsOut P 0 (pars P))
  have look : ∀ {γ : Type} (A B C : List γ) (n i : Nat) (x : γ), A.length = n → B[i]? = some x →
      (A ++ B ++ C)[n + i]? = some x := by
    intro γ A B C n i x h1 h2
    have := (List.getElem?_eq_some_iff.1 h2).1
    rw [List.append_assoc, List.getElem?_append_right (by omega), h1, Nat.add_sub_cancel_left,
      List.getElem?_append_left this, h2]
  refine ⟨?_, ?_, ?_, ?_, ?_⟩
  · intro ig hig
    have := look [Tk.nbased] ((List.range P.nq).map .gauss) ((qtys P).map .grid
      ++ (qtys P).map .swig ++ (List.range P.nq).map .wigner
      ++ (List.range P.nshape).flatMap (fun is => (List.range P.nq).map fun ig => .geom is ig) ++ T) 1 ig (.gauss ig) rfl
      (by simp [hig])
    simpa [gaussOffset, List.append_assoc] using this
  · intro ig hig
    have := look ([Tk.nbased] ++ (List.range P.nq).map .gauss ++ (qtys P).map .grid ++ (qtys P).map .swig)
      ((List.range P.nq).map .wigner)
      ((List.range P.nshape).flatMap (fun is => (List.range P.nq).map fun ig => .geom is ig) ++ T) (wignerOffset P) ig
      (.wigner ig) (by simp [wignerOffset, gaussOffset]; omega) (by simp [hig])
    simpa [List.append_assoc] using this
  · intro is his ig hig
    have := look ([Tk.nbased] ++ (List.range P.nq).map .gauss ++ (qtys P).map .grid ++ (qtys P).map .swig
      ++ (List.range P.nq).map .wigner)
      ((List.range P.nshape).flatMap (fun is => (List.range P.nq).map fun ig => .geom is ig)) T (geomOffset P)
      (is * P.nq + ig) (.geom is ig) (by simp [geomOffset, wignerOffset, gaussOffset]; omega) (by
        rw [getElem?_flatMap_const P.nq (by omega) _ (by intro a; simp)]
        rw [show is * P.nq + ig = ig + P.nq * is by ring, Nat.add_mul_div_left _ _ (by omega), Nat.div_eq_of_lt hig,
          Nat.add_mul_mod_self_left, Nat.mod_eq_of_lt hig]
        simp [his, hig])
    simpa [List.append_assoc, Nat.add_assoc] using this
  · intro s hs
    have := look [] ((List.range P.nt).map Rs.inter) ((List.range (2 * P.nt)).map Rs.tm ++ S) 0 s (.inter s) rfl
      (by simp [hs])
    simpa [interOffset] using this
  · intro s hs
    have := look ((List.range P.nt).map Rs.inter) ((List.range (2 * P.nt)).map Rs.tm) S (tmOffset P) s (.tm s)
      (by simp [tmOffset, interOffset]) (by simp [hs])
    simpa using this


/-! ## C26: the memory limit -/

/-- values that fit in `size_t`, at least one T-matrix, and the first slot fits in the limit -/
structure Mem.Fits (m : Mem) : Prop where
  max_lt : m.max < W
  fits : used1 m ≤ m.max
  total_pos : 0 < m.total
  total_lt : m.total < W

theorem left_eq {m : Mem} (h : m.Fits) : left m = m.max - used1 m := by
  unfold left
  have h1 := h.max_lt
  have h2 := h.fits
  rw [show m.max + (W - used1 m) = (m.max - used1 m) + W by omega, Nat.add_mod_right, Nat.mod_eq_of_lt (by omega)]

theorem extra_eq {m : Mem} (h : m.Fits) : extra m = min ((m.max - used1 m) / perSlot m) (m.total - 1) := by
  unfold extra
  have h3 := h.total_pos
  have h4 := h.total_lt
  rw [left_eq h, show m.total + (W - 1) = (m.total - 1) + W by omega, Nat.add_mod_right, Nat.mod_eq_of_lt (by omega)]

theorem perSlot_eq (m : Mem) : perSlot m =
    2 * m.tm + m.inter + 24 + (resTable m (m.res + 3) - resTable m m.res) := by
  unfold perSlot used1 sizeofPtr
  omega

/-- **C26**: if the first slot fits, the number of slots is the largest that fits in the limit by the estimate per slot,
and there are never more slots than T-matrices. -/
theorem c26_slots (m : Mem) (h : m.Fits) :
    extra m + 1 ≤ m.total ∧ used1 m + extra m * perSlot m ≤ m.max ∧
      (extra m + 1 = m.total ∨ m.max < used1 m + (extra m + 1) * perSlot m) := by
  have h2 := h.fits
  have h3 := h.total_pos
  have hp : 0 < perSlot m := by rw [perSlot_eq]; omega
  rw [extra_eq h]
  set q := (m.max - used1 m) / perSlot m with hq
  have hd := Nat.div_add_mod (m.max - used1 m) (perSlot m)
  have hm := Nat.mod_lt (m.max - used1 m) hp
  rw [← hq] at hd
  have hc : perSlot m * q = q * perSlot m := Nat.mul_comm _ _
  refine ⟨by omega, ?_, ?_⟩
  · have : min q (m.total - 1) * perSlot m ≤ q * perSlot m := Nat.mul_le_mul_right _ (by omega)
    omega
  · by_cases hqt : q ≤ m.total - 1
    · right
      rw [Nat.min_eq_left hqt, Nat.add_mul, Nat.one_mul]
      omega
    · left; omega

/-- **C26** (partial: the limit is exact only if there is at least one extra slot and the resource table of the scheduler
is already full, see the counterexamples below): the memory that has been accounted for in the end. -/
theorem c26_limit_partial (m : Mem) (h : m.Fits) (hfull : m.rsize ≤ m.res) :
    (0 < extra m → used2 m ≤ m.max) ∧ used2 m ≤ m.max + 24 := by
  have h0 := c26_slots m h
  have e1 : resTable m (m.res + 3) - resTable m m.res = 48 := by
    unfold resTable sizeofRes
    rw [Nat.max_eq_right (by omega), Nat.max_eq_right hfull]; omega
  have e2 : resTable m (m.res + 3 + 3 * extra m) - resTable m (m.res + 3) = 48 * extra m := by
    unfold resTable sizeofRes
    rw [Nat.max_eq_right (by omega), Nat.max_eq_right (by omega)]; omega
  have hp : extra m * perSlot m = extra m * (2 * m.tm + m.inter) + 72 * extra m := by
    rw [perSlot_eq, e1]; ring
  unfold used2 sizeofPtr
  rw [e2]
  have := h0.2.1
  omega

/-- **C26** does not hold in general: with room for exactly one slot the accounted memory exceeds the limit (the three
pointers are added even if there is no extra slot). -/
theorem c26_violated_pointers : ∃ m : Mem, m.Fits ∧ m.rsize ≤ m.res ∧ m.max < used2 m := by
  refine ⟨⟨10072, 0, 4000, 2000, 5, 2000, 2000⟩, ⟨by decide, by decide, by decide, by decide⟩, by decide, by decide⟩

/-- **C26** does not hold in general: as long as the initial resource table of the scheduler is large enough for the
first slot, its growth for the extra slots is not part of the estimate per slot, and the limit is exceeded. -/
theorem c26_violated_table : ∃ m : Mem, m.Fits ∧ 0 < extra m ∧ m.max < used2 m := by
  refine ⟨⟨124000, 0, 50, 0, 1000, 2000, 1990⟩, ⟨by decide, by decide, by decide, by decide⟩, by decide, by decide⟩

/-- **C26** does not hold in general: without assertions, a limit below the minimal requirement is not noticed; the
subtraction wraps around and the slots for *all* T-matrices are allocated (if their size is realistic). -/
theorem c26_violated_wrap (m : Mem) (h1 : m.max < used1 m) (h2 : used1 m ≤ W) (h3 : 0 < m.total)
    (h4 : (m.total - 1) * perSlot m + used1 m ≤ W) : extra m + 1 = m.total := by
  have hp : 0 < perSlot m := by rw [perSlot_eq]; omega
  unfold extra left
  have ht : m.total ≤ W := by
    have : (m.total - 1) * 1 ≤ (m.total - 1) * perSlot m := Nat.mul_le_mul_left _ hp
    have : 0 < used1 m := by omega
    omega
  rw [show m.total + (W - 1) = (m.total - 1) + W by omega, Nat.add_mod_right, Nat.mod_eq_of_lt (by omega),
    Nat.mod_eq_of_lt (by omega)]
  have : m.total - 1 ≤ (m.max + (W - used1 m)) / perSlot m := by
    rw [Nat.le_div_iff_mul_le hp]; omega
  omega

/-- **C26**: the estimate for a scattering result is too small for every grid. -/
theorem c26_violated_scattering (nth : Nat) (h : 0 < nth) : scatAccounted nth < scatReal nth := by
  unfold scatAccounted scatReal
  nlinarith [Nat.mul_le_mul h h]

/-! ## Examples -/

/-- two orders, two shapes, six interactions, all quantities, two slots -/
def exP : Params := ⟨2, 3, 2, 1, 2, 3, 2, fun _ => true⟩

example : 0 < exP.nt ∧ (generate exP).isSome ∧ (dryRun exP).tasks = 201 := by
  refine ⟨by decide, ?_, ?_⟩
  · unfold generate
    rw [if_neg (by rintro ⟨h, _⟩; cases h)]
    rfl
  · decide +kernel

example : ∃ m : Mem, m.Fits ∧ m.rsize ≤ m.res ∧ 0 < extra m ∧ extra m + 1 < m.total :=
  ⟨⟨30000, 0, 4000, 2000, 5, 2000, 2000⟩, ⟨by decide, by decide, by decide, by decide⟩, by decide, by decide, by decide⟩

example : ∃ m : Mem, m.max < used1 m ∧ used1 m ≤ W ∧ 0 < m.total ∧ (m.total - 1) * perSlot m + used1 m ≤ W :=
  ⟨⟨10, 0, 4000, 2000, 5, 2000, 2000⟩, by decide, by decide, by decide, by decide⟩

end Verif.Account
