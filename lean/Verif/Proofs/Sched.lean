import Verif.Model.Sched
import Verif.Proofs.Queue
import Mathlib.Algebra.Order.BigOperators.Group.Finset
import Mathlib.Tactic.Linarith

/-!
# Invariants of the worker model
-/
namespace Verif.Sched
open Verif Finset

variable {C : Cfg}

/-- indicator -/
abbrev ind (p : Prop) [Decidable p] : Nat := if p then 1 else 0

/-- all ancestors of a list of resources -/
def hs (C : Cfg) (l : List Nat) : List Nat := l.flatMap (anc C.parent)

@[simp] theorem hs_nil : hs C [] = [] := rfl
@[simp] theorem hs_cons (r l) : hs C (r :: l) = anc C.parent r ++ hs C l := rfl

/-- locks on resource `x` taken inside `lockres` -/
def rLocked (x : Nat) : RPc → Nat
  | .chk1 _ => 0
  | .tryl _ => 0
  | .chk2 r => ind (x = r)
  | .climb r _ _ => ind (x = r)
  | .inc r _ f _ => ind (x = r) + ind (x = f)
  | .relf r _ f _ => ind (x = r) + ind (x = f)
  | .failU r _ => ind (x = r)
  | .failD _ => 0

def uLocked (x : Nat) : UPc → Nat
  | .unl r => ind (x = r)
  | .dec _ => 0

/-- number of locks on resource `x` a worker at this position has taken -/
def lockedBy (C : Cfg) (x : Nat) : Pc → Nat
  | .lockNext _ _ _ got _ => got.count x
  | .lockIn _ _ _ got _ rp => got.count x + rLocked x rp
  | .rollNext _ _ _ got => got.count x
  | .rollIn _ _ _ got up => got.count x + uLocked x up
  | .take _ _ t => (C.locks t).count x
  | .relq _ (some t) => (C.locks t).count x
  | .setq t => (C.locks t).count x
  | .call t => (C.locks t).count x
  | .run t _ => (C.locks t).count x
  | .relNext _ todo => todo.count x
  | .relIn _ todo up => todo.count x + uLocked x up
  | _ => 0

def rHolds (x : Nat) : RPc → Nat
  | .climb _ up _ => up.count x
  | .inc _ up _ _ => up.count x
  | .relf _ up f _ => up.count x + ind (x = f)
  | .failU _ up => up.count x
  | .failD todo => todo.count x
  | _ => 0

def uHolds (C : Cfg) (x : Nat) : UPc → Nat
  | .unl r => (anc C.parent r).count x
  | .dec todo => todo.count x

/-- number of holds on resource `x` a worker at this position has taken -/
def holdsBy (C : Cfg) (x : Nat) : Pc → Nat
  | .lockNext _ _ _ got _ => (hs C got).count x
  | .lockIn _ _ _ got _ rp => (hs C got).count x + rHolds x rp
  | .rollNext _ _ _ got => (hs C got).count x
  | .rollIn _ _ _ got up => (hs C got).count x + uHolds C x up
  | .take _ _ t => (hs C (C.locks t)).count x
  | .relq _ (some t) => (hs C (C.locks t)).count x
  | .setq t => (hs C (C.locks t)).count x
  | .call t => (hs C (C.locks t)).count x
  | .run t _ => (hs C (C.locks t)).count x
  | .relNext _ todo => (hs C todo).count x
  | .relIn _ todo up => (hs C todo).count x + uHolds C x up
  | _ => 0

def rPassed (x : Nat) : RPc → Nat
  | .climb r _ _ => ind (x = r)
  | .inc r _ _ _ => ind (x = r)
  | .relf r _ _ _ => ind (x = r)
  | _ => 0

/-- locks for which the hold counter has been checked (after locking) -/
def passedBy (C : Cfg) (x : Nat) : Pc → Nat
  | .lockNext _ _ _ got _ => got.count x
  | .lockIn _ _ _ got _ rp => got.count x + rPassed x rp
  | .rollNext _ _ _ got => got.count x
  | .rollIn _ _ _ got _ => got.count x
  | .take _ _ t => (C.locks t).count x
  | .relq _ (some t) => (C.locks t).count x
  | .setq t => (C.locks t).count x
  | .call t => (C.locks t).count x
  | .run t _ => (C.locks t).count x
  | .relNext _ todo => todo.count x
  | .relIn _ todo _ => todo.count x
  | _ => 0

/-- number of queue locks on queue `q` a worker at this position has taken -/
def qlBy (q : Nat) : Pc → Nat
  | .scan c _ => ind (q = c.q)
  | .lockNext c _ _ _ _ => ind (q = c.q)
  | .lockIn c _ _ _ _ _ => ind (q = c.q)
  | .rollNext c _ _ _ => ind (q = c.q)
  | .rollIn c _ _ _ _ => ind (q = c.q)
  | .take c _ _ => ind (q = c.q)
  | .relq c _ => ind (q = c.q)
  | .putQ _ _ _ q' => ind (q = q')
  | .putU _ _ q' => ind (q = q')
  | _ => 0

/-- task `x` is in the hands of the worker: taken from a queue and not yet started, or released and
not yet in a queue -/
def pendBy (x : Nat) : Pc → Nat
  | .relq _ (some t) => ind (x = t)
  | .setq t => ind (x = t)
  | .call t => ind (x = t)
  | .enq _ _ u => ind (x = u)
  | .putL _ _ u _ => ind (x = u)
  | .putQ _ _ u _ => ind (x = u)
  | _ => 0

def runBy (x : Nat) : Pc → Nat
  | .run t _ => ind (x = t)
  | _ => 0

/-- decrements of `wait` of task `x` still to be done by a worker in `qsched_done` -/
def todoBy (C : Cfg) (x : Nat) : Pc → Nat
  | .relNext t _ => (C.unlocks t).count x
  | .relIn t _ _ => (C.unlocks t).count x
  | .deps _ us => us.count x
  | .enq _ us _ => us.count x
  | .putL _ us _ _ => us.count x
  | .putQ _ us _ _ => us.count x
  | .putU _ us _ => us.count x
  | _ => 0

/-- the worker still has to decrement `waiting` -/
def finBy : Pc → Nat
  | .relNext _ _ => 1
  | .relIn _ _ _ => 1
  | .deps _ _ => 1
  | .enq _ _ _ => 1
  | .putL _ _ _ _ => 1
  | .putQ _ _ _ _ => 1
  | .putU _ _ _ => 1
  | .fin _ => 1
  | _ => 0

/-- shape of the local data inside `lockres` for the resource `r` -/
def RWf (C : Cfg) (r : Nat) : RPc → Prop
  | .chk1 r' => r' = r
  | .tryl r' => r' = r
  | .chk2 r' => r' = r
  | .climb r' up todo => r' = r ∧ up ++ todo = anc C.parent r
  | .inc r' up f fs => r' = r ∧ up ++ f :: fs = anc C.parent r
  | .relf r' up f fs => r' = r ∧ up ++ f :: fs = anc C.parent r
  | .failU r' _ => r' = r
  | .failD _ => True

def CtxWf (C : Cfg) (c : Ctx) : Prop :=
  c.q < C.nq ∧ (∀ l, c.cont = some l → ∀ q ∈ l, q < C.nq)

/-- inside the search loop: the captured count is still right and `k` is the entry of task `t` -/
def ScanWf (C : Cfg) (s : St C) (c : Ctx) (k t : Nat) : Prop :=
  CtxWf C c ∧ c.n = (s.queue c.q).count ∧ k < c.n ∧ (s.queue c.q).inds k = t

/-- well-formedness of a position -/
def PcWf (C : Cfg) (s : St C) : Pc → Prop
  | .collect _ acc => ∀ q ∈ acc, q < C.nq
  | .others qs => ∀ q ∈ qs, q < C.nq
  | .acq q cont => q < C.nq ∧ (∀ l, cont = some l → ∀ q ∈ l, q < C.nq)
  | .scan c _ => CtxWf C c ∧ c.n = (s.queue c.q).count
  | .lockNext c k t got todo => ScanWf C s c k t ∧ got.reverse ++ todo = C.locks t
  | .lockIn c k t got todo rp =>
    ScanWf C s c k t ∧ ∃ r, got.reverse ++ r :: todo = C.locks t ∧ RWf C r rp
  | .rollNext c k t _ => ScanWf C s c k t
  | .rollIn c k t _ _ => ScanWf C s c k t
  | .take c k t => ScanWf C s c k t
  | .relq c o => CtxWf C c ∧ (o = none → c.n = (s.queue c.q).count)
  | .putL _ _ _ q => q < C.nq
  | .putQ _ _ _ q => q < C.nq
  | .putU _ _ q => q < C.nq
  | _ => True

/-- the invariant -/
structure Inv (C : Cfg) (s : St C) : Prop where
  L : ∀ x, ind (s.lock x = true) = ∑ th, lockedBy C x (s.pc th)
  H : ∀ x, s.hold x = ((∑ th, holdsBy C x (s.pc th) : Nat) : Int)
  P : ∀ x th, 0 < passedBy C x (s.pc th) → s.hold x = 0
  QL : ∀ q, ind (s.qlock q = true) = ∑ th, qlBy q (s.pc th)
  heap : ∀ q, Queue.IsHeap C.weight (s.queue q).inds (s.queue q).count
  wf : ∀ th, PcWf C s (s.pc th)
  tok : ∀ t, ∑ q ∈ range C.nq, Queue.cnt (s.queue q).inds (s.queue q).count t
    + ∑ th, pendBy t (s.pc th) + s.starts t = ind (t < C.count ∧ s.wait t = 0)
  runs : ∀ t, s.starts t = s.ends t + ∑ th, runBy t (s.pc th)
  waits : ∀ t, s.wait t = ((∑ a ∈ range C.count, (ind (s.ends a = 0)) * (C.unlocks a).count t
    + ∑ th, todoBy C t (s.pc th) : Nat) : Int)
  dom : ∀ th t, 0 < todoBy C t (s.pc th) → t < C.count
  left : s.waiting = ((∑ a ∈ range C.count, ind (s.ends a = 0) + ∑ th, finBy (s.pc th) : Nat) : Int)

theorem sum_update {n : Nat} (f : Pc → Nat) (pc : Fin n → Pc) (th : Fin n) (p : Pc) :
    ∑ i, f (Function.update pc th p i) + f (pc th) = ∑ i, f (pc i) + f p := by
  rw [← Finset.add_sum_erase univ _ (mem_univ th), ← Finset.add_sum_erase univ (fun i => f (pc i)) (mem_univ th)]
  have : ∑ i ∈ univ.erase th, f (Function.update pc th p i) = ∑ i ∈ univ.erase th, f (pc i) := by
    apply Finset.sum_congr rfl
    intro i hi
    rw [Function.update_of_ne (Finset.ne_of_mem_erase hi)]
  rw [this, Function.update_self]; omega

theorem le_sum {n : Nat} (f : Fin n → Nat) (th : Fin n) : f th ≤ ∑ i, f i :=
  Finset.single_le_sum (fun _ _ => Nat.zero_le _) (mem_univ th)

theorem two_le_sum {n : Nat} (f : Fin n → Nat) (a b : Fin n) (h : a ≠ b) : f a + f b ≤ ∑ i, f i := by
  rw [← Finset.add_sum_erase univ f (mem_univ a)]
  have := Finset.single_le_sum (f := f) (s := univ.erase a) (fun _ _ => Nat.zero_le _)
    (Finset.mem_erase.2 ⟨h.symm, mem_univ b⟩)
  omega

theorem mem_set_dropLast {l : List Nat} {i x : Nat} (hl : l ≠ [])
    (h : x ∈ (l.set i (l.getLastD 0)).dropLast) : x ∈ l := by
  have h := List.mem_of_mem_dropLast h
  rcases List.mem_or_eq_of_mem_set h with h | h
  · exact h
  · subst h
    rw [List.getLastD_eq_getLast?, List.getLast?_eq_some_getLast hl]
    exact List.getLast_mem hl

/-! ## Single steps as a relation -/

/-- `act` case by case. -/
inductive Act (C : Cfg) (s : St C) (th : Fin C.nth) : Pc → St C → Pc → Prop
  | topX (h : s.waiting = 0) : Act C s th .top s .exited
  | topO (h : s.waiting ≠ 0) : Act C s th .top s .own
  | ownE (h : (s.queue (qid C th)).count = 0) : Act C s th .own s (.collect 0 [])
  | ownA (h : (s.queue (qid C th)).count ≠ 0) : Act C s th .own s (.acq (qid C th) none)
  | colA (k acc) (hk : k < C.nq) (h1 : k ≠ qid C th) (h2 : (s.queue k).count > 0) :
      Act C s th (.collect k acc) s (.collect (k + 1) (acc ++ [k]))
  | colS (k acc) (hk : k < C.nq) (h : k = qid C th ∨ (s.queue k).count = 0) :
      Act C s th (.collect k acc) s (.collect (k + 1) acc)
  | colE (k acc) (hk : ¬ k < C.nq) : Act C s th (.collect k acc) s (.others acc)
  | othT : Act C s th (.others []) s .top
  | othE (l : List Nat) (i : Nat) (hi : i < l.length) (h : (s.queue (l.getD i 0)).count = 0) :
      Act C s th (.others l) s (.others (l.set i (l.getLastD 0)).dropLast)
  | othA (l : List Nat) (i : Nat) (hi : i < l.length) (h : (s.queue (l.getD i 0)).count ≠ 0) :
      Act C s th (.others l) s (.acq (l.getD i 0) (some (l.set i (l.getLastD 0)).dropLast))
  | acqF (q qs) (h : s.qlock q = true) : Act C s th (.acq q (some qs)) s (.others qs)
  | acqL (q cont) (h : s.qlock q = false) :
      Act C s th (.acq q cont) { s with qlock := Function.update s.qlock q true }
        (.scan ⟨q, cont, (s.queue q).count⟩ 0)
  | scanT (c k) (h : k < c.n) : Act C s th (.scan c k) s
      (.lockNext c k ((s.queue c.q).inds k) [] (C.locks ((s.queue c.q).inds k)))
  | scanE (c k) (h : ¬ k < c.n) : Act C s th (.scan c k) s (.relq c none)
  | lnT (c k t got) : Act C s th (.lockNext c k t got []) s (.take c k t)
  | lnI (c k t got r todo) :
      Act C s th (.lockNext c k t got (r :: todo)) s (.lockIn c k t got todo (.chk1 r))
  | chk1F (c k t got todo r) (h : s.hold r ≠ 0) :
      Act C s th (.lockIn c k t got todo (.chk1 r)) s (.rollNext c k t got)
  | chk1S (c k t got todo r) (h : s.hold r = 0) :
      Act C s th (.lockIn c k t got todo (.chk1 r)) s (.lockIn c k t got todo (.tryl r))
  | trylF (c k t got todo r) (h : s.lock r = true) :
      Act C s th (.lockIn c k t got todo (.tryl r)) s (.rollNext c k t got)
  | trylS (c k t got todo r) (h : s.lock r = false) :
      Act C s th (.lockIn c k t got todo (.tryl r)) { s with lock := Function.update s.lock r true }
        (.lockIn c k t got todo (.chk2 r))
  | chk2F (c k t got todo r) (h : s.hold r ≠ 0) :
      Act C s th (.lockIn c k t got todo (.chk2 r)) s (.lockIn c k t got todo (.failU r []))
  | chk2S (c k t got todo r) (h : s.hold r = 0) :
      Act C s th (.lockIn c k t got todo (.chk2 r)) s
        (.lockIn c k t got todo (.climb r [] (anc C.parent r)))
  | climbO (c k t got todo r up) :
      Act C s th (.lockIn c k t got todo (.climb r up [])) s (.lockNext c k t (r :: got) todo)
  | climbF (c k t got todo r up f fs) (h : s.lock f = true) :
      Act C s th (.lockIn c k t got todo (.climb r up (f :: fs))) s
        (.lockIn c k t got todo (.failU r up))
  | climbS (c k t got todo r up f fs) (h : s.lock f = false) :
      Act C s th (.lockIn c k t got todo (.climb r up (f :: fs)))
        { s with lock := Function.update s.lock f true } (.lockIn c k t got todo (.inc r up f fs))
  | inc (c k t got todo r up f fs) :
      Act C s th (.lockIn c k t got todo (.inc r up f fs))
        { s with hold := Function.update s.hold f (s.hold f + 1) }
        (.lockIn c k t got todo (.relf r up f fs))
  | relf (c k t got todo r up f fs) :
      Act C s th (.lockIn c k t got todo (.relf r up f fs))
        { s with lock := Function.update s.lock f false }
        (.lockIn c k t got todo (.climb r (up ++ [f]) fs))
  | failU (c k t got todo r up) :
      Act C s th (.lockIn c k t got todo (.failU r up))
        { s with lock := Function.update s.lock r false } (.lockIn c k t got todo (.failD up))
  | failE (c k t got todo) :
      Act C s th (.lockIn c k t got todo (.failD [])) s (.rollNext c k t got)
  | failD (c k t got todo f fs) :
      Act C s th (.lockIn c k t got todo (.failD (f :: fs)))
        { s with hold := Function.update s.hold f (s.hold f - 1) } (.lockIn c k t got todo (.failD fs))
  | rnE (c k t) : Act C s th (.rollNext c k t []) s (.scan c (k + 1))
  | rnI (c k t r got) : Act C s th (.rollNext c k t (r :: got)) s (.rollIn c k t got (.unl r))
  | riU (c k t got r) : Act C s th (.rollIn c k t got (.unl r))
      { s with lock := Function.update s.lock r false } (.rollIn c k t got (.dec (anc C.parent r)))
  | riE (c k t got) : Act C s th (.rollIn c k t got (.dec [])) s (.rollNext c k t got)
  | riD (c k t got f fs) : Act C s th (.rollIn c k t got (.dec (f :: fs)))
      { s with hold := Function.update s.hold f (s.hold f - 1) } (.rollIn c k t got (.dec fs))
  | take (c k t) : Act C s th (.take c k t)
      { s with queue := Function.update s.queue c.q (Queue.remove C.weight (s.queue c.q) k) }
      (.relq c (some t))
  | relqS (c t) : Act C s th (.relq c (some t))
      { s with qlock := Function.update s.qlock c.q false } (.setq t)
  | relqN (c) : Act C s th (.relq c none)
      { s with qlock := Function.update s.qlock c.q false } (afterFail c.cont)
  | setq (t) : Act C s th (.setq t) { s with tqid := Function.update s.tqid t (qid C th) } (.call t)
  | call (t) : Act C s th (.call t)
      { s with starts := Function.update s.starts t (s.starts t + 1) } (.run t (s.tqid t))
  | run (t id) : Act C s th (.run t id)
      { s with ends := Function.update s.ends t (s.ends t + 1) } (.relNext t (C.locks t))
  | relE (t) : Act C s th (.relNext t []) s (.deps t (C.unlocks t))
  | relI (t r rs) : Act C s th (.relNext t (r :: rs)) s (.relIn t rs (.unl r))
  | reU (t todo r) : Act C s th (.relIn t todo (.unl r))
      { s with lock := Function.update s.lock r false } (.relIn t todo (.dec (anc C.parent r)))
  | reE (t todo) : Act C s th (.relIn t todo (.dec [])) s (.relNext t todo)
  | reD (t todo f fs) : Act C s th (.relIn t todo (.dec (f :: fs)))
      { s with hold := Function.update s.hold f (s.hold f - 1) } (.relIn t todo (.dec fs))
  | depsE (t) : Act C s th (.deps t []) s (.fin t)
  | depsQ (t u us) (h : s.wait u = 1) : Act C s th (.deps t (u :: us))
      { s with wait := Function.update s.wait u (s.wait u - 1) } (.enq t us u)
  | depsN (t u us) (h : s.wait u ≠ 1) : Act C s th (.deps t (u :: us))
      { s with wait := Function.update s.wait u (s.wait u - 1) } (.deps t us)
  | enq (t us u ch) : Act C s th (.enq t us u) s (.putL t us u (ch % C.nq))
  | putL (t us u q) (h : s.qlock q = false) : Act C s th (.putL t us u q)
      { s with qlock := Function.update s.qlock q true } (.putQ t us u q)
  | putQ (t us u q) : Act C s th (.putQ t us u q)
      { s with queue := Function.update s.queue q (Queue.put C.weight (s.queue q) u) } (.putU t us q)
  | putU (t us q) : Act C s th (.putU t us q)
      { s with qlock := Function.update s.qlock q false } (.deps t us)
  | fin (t) : Act C s th (.fin t) { s with waiting := s.waiting - 1 } .top

theorem act_Act {s : St C} {th : Fin C.nth} {ch : Nat} {s' : St C} {p : Pc}
    (h : act C s th ch = some (s', p)) : Act C s th (s.pc th) s' p := by
  cases hp : s.pc th with
  | exited => simp [act, hp] at h
  | top => 
    simp only [act, hp] at h
    split at h <;> simp at h <;> obtain ⟨rfl, rfl⟩ := h <;> constructor <;> assumption
  | own => 
    simp only [act, hp] at h
    split at h <;> simp at h <;> obtain ⟨rfl, rfl⟩ := h <;> constructor <;> assumption
  | collect k acc =>
    simp only [act, hp] at h
    split at h
    · rename_i hk
      split at h <;> simp only [Option.some.injEq, Prod.mk.injEq] at h <;> obtain ⟨rfl, rfl⟩ := h
      · rename_i h'; exact .colA _ _ hk h'.1 h'.2
      · rename_i h'; exact .colS _ _ hk (by omega)
    · simp only [Option.some.injEq, Prod.mk.injEq] at h; obtain ⟨rfl, rfl⟩ := h
      exact .colE _ _ (by assumption)
  | others qs =>
    cases qs with
    | nil => simp [act, hp] at h; obtain ⟨rfl, rfl⟩ := h; constructor
    | cons q0 qs =>
      simp only [act, hp] at h
      have hi := Nat.mod_lt ch (show 0 < (q0 :: qs).length by simp)
      split at h <;> simp only [Option.some.injEq, Prod.mk.injEq] at h <;> obtain ⟨rfl, rfl⟩ := h
      · exact .othE _ _ hi (by assumption)
      · exact .othA _ _ hi (by assumption)
  | acq q cont =>
    simp only [act, hp] at h
    split at h
    · cases cont <;> simp at h
      obtain ⟨rfl, rfl⟩ := h; constructor; assumption
    · simp at h; obtain ⟨rfl, rfl⟩ := h; constructor; simp_all
  | scan c k =>
    simp only [act, hp] at h
    split at h <;> simp at h <;> obtain ⟨rfl, rfl⟩ := h <;> constructor <;> assumption
  | lockNext c k t got todo =>
    cases todo <;> simp [act, hp] at h <;> obtain ⟨rfl, rfl⟩ := h <;> constructor
  | lockIn c k t got todo rp =>
    cases rp with
    | climb r up todo =>
      cases todo <;> simp only [act, hp, stepR] at h
      · simp at h; obtain ⟨rfl, rfl⟩ := h; constructor
      · split at h <;> simp at h <;> obtain ⟨rfl, rfl⟩ := h <;> constructor <;> simp_all
    | failD todo => cases todo <;> simp [act, hp, stepR] at h <;> obtain ⟨rfl, rfl⟩ := h <;> constructor
    | inc r up f fs => simp [act, hp, stepR] at h; obtain ⟨rfl, rfl⟩ := h; constructor
    | relf r up f fs => simp [act, hp, stepR] at h; obtain ⟨rfl, rfl⟩ := h; constructor
    | failU r up => simp [act, hp, stepR] at h; obtain ⟨rfl, rfl⟩ := h; constructor
    | chk1 r => 
      simp only [act, hp, stepR] at h
      split at h <;> simp at h <;> obtain ⟨rfl, rfl⟩ := h <;> constructor <;> simp_all
    | tryl r => 
      simp only [act, hp, stepR] at h
      split at h <;> simp at h <;> obtain ⟨rfl, rfl⟩ := h <;> constructor <;> simp_all
    | chk2 r => 
      simp only [act, hp, stepR] at h
      split at h <;> simp at h <;> obtain ⟨rfl, rfl⟩ := h <;> constructor <;> simp_all
  | rollNext c k t got => cases got <;> simp [act, hp] at h <;> obtain ⟨rfl, rfl⟩ := h <;> constructor
  | rollIn c k t got up =>
    cases up with
    | unl r => simp [act, hp, stepU] at h; obtain ⟨rfl, rfl⟩ := h; constructor
    | dec l => cases l <;> simp [act, hp, stepU] at h <;> obtain ⟨rfl, rfl⟩ := h <;> constructor
  | take c k t => simp [act, hp] at h; obtain ⟨rfl, rfl⟩ := h; constructor
  | relq c o => cases o <;> simp [act, hp] at h <;> obtain ⟨rfl, rfl⟩ := h <;> constructor
  | setq t => simp [act, hp] at h; obtain ⟨rfl, rfl⟩ := h; constructor
  | call t => simp [act, hp] at h; obtain ⟨rfl, rfl⟩ := h; constructor
  | run t id => simp [act, hp] at h; obtain ⟨rfl, rfl⟩ := h; constructor
  | relNext t todo => cases todo <;> simp [act, hp] at h <;> obtain ⟨rfl, rfl⟩ := h <;> constructor
  | relIn t todo up =>
    cases up with
    | unl r => simp [act, hp, stepU] at h; obtain ⟨rfl, rfl⟩ := h; constructor
    | dec l => cases l <;> simp [act, hp, stepU] at h <;> obtain ⟨rfl, rfl⟩ := h <;> constructor
  | deps t us =>
    cases us <;> simp only [act, hp] at h
    · simp at h; obtain ⟨rfl, rfl⟩ := h; constructor
    · split at h <;> simp at h <;> obtain ⟨rfl, rfl⟩ := h <;> constructor <;> assumption
  | enq t us u => simp [act, hp] at h; obtain ⟨rfl, rfl⟩ := h; constructor
  | putL t us u q => 
    simp only [act, hp] at h
    split at h <;> simp at h
    obtain ⟨rfl, rfl⟩ := h; constructor; simp_all
  | putQ t us u q => simp [act, hp] at h; obtain ⟨rfl, rfl⟩ := h; constructor
  | putU t us q => simp [act, hp] at h; obtain ⟨rfl, rfl⟩ := h; constructor
  | fin t => simp [act, hp] at h; obtain ⟨rfl, rfl⟩ := h; constructor

/-! ## Effects of single steps -/

section effects
variable {s s' : St C} {th : Fin C.nth} {p p' : Pc}

theorem act_lock (hL : ∀ y, 0 < lockedBy C y p → s.lock y = true) (hw : PcWf C s p)
    (h : Act C s th p s' p') (y : Nat) :
    ind (s'.lock y = true) + lockedBy C y p = ind (s.lock y = true) + lockedBy C y p' := by
  cases h
  case lnT c k t got =>
    obtain ⟨_, hw⟩ := hw
    simp only [lockedBy, ← hw]; simp
  case relqN c => cases hc : c.cont <;> simp [lockedBy, afterFail]
  all_goals first
    | rfl
    | (simp only [lockedBy, rLocked, uLocked, Function.update_apply, List.count_cons, beq_iff_eq] at hL ⊢
       have := hL y
       split_ifs at * <;> simp_all <;> omega)

theorem hs_count_reverse (C : Cfg) (l : List Nat) (y : Nat) :
    (hs C l.reverse).count y = (hs C l).count y := by
  apply List.Perm.count_eq
  exact List.Perm.flatMap_right _ (List.reverse_perm l)

theorem act_hold (hw : PcWf C s p) (h : Act C s th p s' p') (y : Nat) :
    s'.hold y + (holdsBy C y p : Int) = s.hold y + (holdsBy C y p' : Int) := by
  cases h
  case lnT c k t got =>
    obtain ⟨_, hw⟩ := hw
    simp only [holdsBy, ← hw]; simp [hs_count_reverse]
  case climbO c k t got todo r up =>
    obtain ⟨_, r', _, hw⟩ := hw
    simp only [RWf, List.append_nil] at hw
    obtain ⟨rfl, rfl⟩ := hw
    simp [holdsBy, rHolds]; omega
  case relqN c => cases hc : c.cont <;> simp [holdsBy, afterFail]
  all_goals clear hw
  all_goals first
    | rfl
    | (simp only [holdsBy, rHolds, uHolds, Function.update_apply, List.count_cons, beq_iff_eq,
        hs_cons, List.count_append, List.count_nil, ind, Nat.cast_add]
       try (split_ifs <;> (try subst_vars) <;> push_cast <;> first | omega | (simp_all; done))
       try omega)

theorem act_qlock (hQ : ∀ y, 0 < qlBy y p → s.qlock y = true) 
    (h : Act C s th p s' p') (y : Nat) :
    ind (s'.qlock y = true) + qlBy y p = ind (s.qlock y = true) + qlBy y p' := by
  cases h
  case relqN c => 
    have := hQ y
    cases hc : c.cont <;> simp [qlBy, afterFail, Function.update_apply, ind] at this ⊢ <;> split_ifs at * <;> simp_all
  all_goals first
    | rfl
    | (simp only [qlBy, Function.update_apply] at hQ ⊢
       have := hQ y
       split_ifs at * <;> simp_all)

theorem act_passed (hw : PcWf C s p) (h : Act C s th p s' p') (y : Nat) 
    (hn : passedBy C y p < passedBy C y p') : s.hold y = 0 ∧ s'.hold = s.hold := by
  cases h
  case lnT c k t got =>
    obtain ⟨_, hw⟩ := hw
    simp only [passedBy, ← hw] at hn; simp at hn
  case relqN c => cases hc : c.cont <;> simp [passedBy, afterFail, hc] at hn
  all_goals clear hw
  all_goals first
    | (simp [passedBy, rPassed] at hn; done)
    | (simp only [passedBy, rPassed, List.count_cons, beq_iff_eq, ind] at hn
       split_ifs at * <;> (try subst_vars) <;> first | omega | simp_all)

theorem act_inc (h : Act C s th p s' p') (y : Nat) 
    (hn : s.hold y < s'.hold y) : passedBy C y p + 1 ≤ lockedBy C y p ∧ passedBy C y p' = passedBy C y p := by
  cases h
  all_goals first
    | (simp at hn; done)
    | (simp only [passedBy, rPassed, lockedBy, rLocked, Function.update_apply, ind] at hn ⊢
       split_ifs at * <;> (try subst_vars) <;> first | omega | simp_all)

theorem passed_le_locked (y : Nat) : passedBy C y p ≤ lockedBy C y p := by
  cases p with
  | relq c o => cases o <;> simp [passedBy, lockedBy]
  | lockIn c k t got todo rp => cases rp <;> simp [passedBy, lockedBy, rPassed, rLocked]
  | _ => simp [passedBy, lockedBy]

/-! what a step does to tokens -/

theorem act_starts (h : Act C s th p s' p') (y : Nat) :
    s'.starts y + s.ends y + runBy y p = s.starts y + s'.ends y + runBy y p' := by
  cases h
  case relqN c => cases hc : c.cont <;> simp [runBy, afterFail]
  all_goals first
    | rfl
    | (simp only [runBy, Function.update_apply, ind]
       split_ifs <;> (try subst_vars) <;> omega)

/-- `ends` changes only when a worker leaves the user function -/
theorem act_ends (h : Act C s th p s' p') :
    s'.ends = s.ends ∨ ∃ t id, p = .run t id ∧ p' = .relNext t (C.locks t) ∧ s'.wait = s.wait ∧
      s'.waiting = s.waiting ∧ s'.ends = Function.update s.ends t (s.ends t + 1) := by
  cases h <;> first | exact .inl rfl | exact .inr ⟨_, _, rfl, rfl, rfl, rfl, rfl⟩

theorem act_wait (h : Act C s th p s' p') (he : s'.ends = s.ends) (y : Nat) :
    s'.wait y + (todoBy C y p : Int) = s.wait y + (todoBy C y p' : Int) := by
  cases h
  case relqN c => cases hc : c.cont <;> simp [todoBy, afterFail]
  case run t id => simp at he
  all_goals first
    | rfl
    | (simp only [todoBy, Function.update_apply, List.count_cons, beq_iff_eq]
       split_ifs <;> (try subst_vars) <;> push_cast <;> first | omega | (simp_all; done))

theorem act_todo (h : Act C s th p s' p') (he : s'.ends = s.ends) (y : Nat) :
    todoBy C y p' ≤ todoBy C y p := by
  cases h
  case relqN c => cases hc : c.cont <;> simp [todoBy, afterFail]
  case run t id => simp at he
  all_goals first
    | exact le_refl _
    | (simp only [todoBy, List.count_cons]; omega)

theorem act_waiting (h : Act C s th p s' p') (he : s'.ends = s.ends) :
    s'.waiting + (finBy p : Int) = s.waiting + (finBy p' : Int) := by
  cases h
  case relqN c => cases hc : c.cont <;> simp [finBy, afterFail]
  case run t id => simp at he
  all_goals first
    | rfl
    | (simp [finBy])

/-- number of entries for `t` in all queues -/
def qcnt (C : Cfg) (s : St C) (t : Nat) : Nat :=
  ∑ q ∈ range C.nq, Queue.cnt (s.queue q).inds (s.queue q).count t

theorem sum_queue_update (C : Cfg) (queue : Nat → Queue.Q) (q : Nat) (hq : q < C.nq) (Q : Queue.Q) (t : Nat) :
    ∑ i ∈ range C.nq, Queue.cnt (Function.update queue q Q i).inds (Function.update queue q Q i).count t
      + Queue.cnt (queue q).inds (queue q).count t
    = ∑ i ∈ range C.nq, Queue.cnt (queue i).inds (queue i).count t + Queue.cnt Q.inds Q.count t := by
  rw [← Finset.add_sum_erase _ _ (mem_range.2 hq),
    ← Finset.add_sum_erase _ (fun i => Queue.cnt (queue i).inds (queue i).count t) (mem_range.2 hq)]
  have : ∑ i ∈ (range C.nq).erase q, Queue.cnt (Function.update queue q Q i).inds (Function.update queue q Q i).count t
      = ∑ i ∈ (range C.nq).erase q, Queue.cnt (queue i).inds (queue i).count t := by
    apply Finset.sum_congr rfl
    intro i hi
    rw [Function.update_of_ne (Finset.ne_of_mem_erase hi)]
  rw [this, Function.update_self]; omega

/-- `queue + hands + started` changes exactly when a wait counter reaches zero -/
theorem act_tok (hw : PcWf C s p) (hh : ∀ q, Queue.IsHeap C.weight (s.queue q).inds (s.queue q).count)
    (hpos : ∀ u, 0 < todoBy C u p → 0 < s.wait u)
    (h : Act C s th p s' p') (y : Nat) :
    qcnt C s' y + pendBy y p' + s'.starts y + ind (s.wait y = 0)
     = qcnt C s y + pendBy y p + s.starts y + ind (s'.wait y = 0) := by
  cases h
  case relqN c => cases hc : c.cont <;> simp [pendBy, afterFail, qcnt]
  case take c k t =>
    obtain ⟨⟨hc, _⟩, hn, hk, ht⟩ := hw
    have h1 := sum_queue_update C s.queue c.q hc (Queue.remove C.weight (s.queue c.q) k) y
    have h2 := Queue.cnt_remove C.weight (s.queue c.q) k y (hn ▸ hk) (hh _)
    simp only [qcnt, pendBy, ind]
    rw [ht] at h2
    split_ifs at * <;> (try subst_vars) <;> first | omega | simp_all
  case putQ t us u q =>
    have h1 := sum_queue_update C s.queue q hw (Queue.put C.weight (s.queue q) u) y
    have h2 := Queue.cnt_put C.weight (s.queue q) u y
    simp only [qcnt, pendBy, ind]
    split_ifs at * <;> (try subst_vars) <;> first | omega | simp_all
  case depsQ t u us hu =>
    simp only [qcnt, pendBy, ind, Function.update_apply]
    split_ifs at * <;> (try subst_vars) <;> first | omega | simp_all
  case depsN t u us hu =>
    have := hpos u (by simp [todoBy])
    simp only [qcnt, pendBy, ind, Function.update_apply]
    split_ifs at * <;> (try subst_vars) <;> first | omega | simp_all
  all_goals first
    | rfl
    | (simp only [pendBy, Function.update_apply, qcnt, ind]
       split_ifs <;> (try subst_vars) <;> first | omega | simp_all)

/-- only the worker that holds the lock of a queue changes it -/
theorem act_queue (h : Act C s th p s' p') (q : Nat) (hq : qlBy q p = 0) : s'.queue q = s.queue q := by
  cases h
  all_goals first
    | rfl
    | (simp only [qlBy, ind, ite_eq_right_iff, one_ne_zero, imp_false] at hq
       simp [Function.update_of_ne hq])

theorem act_heap (hw : PcWf C s p) (hh : ∀ q, Queue.IsHeap C.weight (s.queue q).inds (s.queue q).count)
    (h : Act C s th p s' p') (q : Nat) : Queue.IsHeap C.weight (s'.queue q).inds (s'.queue q).count := by
  cases h
  case take c k t =>
    obtain ⟨⟨hc, _⟩, hn, hk, ht⟩ := hw
    simp only [Function.update_apply]
    split_ifs with e
    · exact Queue.heap_remove _ _ _ (hn ▸ hk) (hh _)
    · exact hh q
  case putQ t us u q' =>
    simp only [Function.update_apply]
    split_ifs with e
    · exact Queue.heap_put _ _ _ (hh _)
    · exact hh q
  all_goals exact hh q

/-- well-formedness only looks at the queue whose lock the worker has -/
theorem wf_congr (hw : PcWf C s p) (h : ∀ q, 0 < qlBy q p → s'.queue q = s.queue q) : PcWf C s' p := by
  cases p <;> simp only [PcWf, ScanWf, qlBy, ind] at * <;> first
    | exact hw
    | (rename_i c _; have := h c.q (by simp); rw [this]; exact hw)
    | (rename_i c _ _; have := h c.q (by simp); rw [this]; exact hw)
    | (rename_i c _ _ _; have := h c.q (by simp); rw [this]; exact hw)
    | (rename_i c _ _ _ _; have := h c.q (by simp); rw [this]; exact hw)
    | (rename_i c _ _ _ _ _; have := h c.q (by simp); rw [this]; exact hw)

theorem act_wf (hnq : 0 < C.nq) (hw : PcWf C s p) (h : Act C s th p s' p') : PcWf C s' p' := by
  cases h
  case ownA => exact ⟨Nat.mod_lt _ hnq, by simp⟩
  case colA k acc hk h1 h2 =>
    intro q hq
    rcases List.mem_append.1 hq with hq | hq
    · exact hw q hq
    · simp at hq; omega
  case othE l i hi h0 =>
    intro q hq
    exact hw q (mem_set_dropLast (by intro e; simp [e] at hi) hq)
  case othA l i hi h0 =>
    have hl : l ≠ [] := by intro e; simp [e] at hi
    refine ⟨hw _ ?_, ?_⟩
    · simp [List.getD, List.getElem?_eq_getElem hi]
    · intro l' hl' q hq
      cases hl'
      exact hw q (mem_set_dropLast hl hq)
  case acqF q qs hl => exact hw.2 _ rfl
  case acqL q cont hl => exact ⟨⟨hw.1, hw.2⟩, rfl⟩
  case scanT c k hk => exact ⟨⟨hw.1, hw.2, hk, rfl⟩, by simp⟩
  case scanE c k hk => exact ⟨hw.1, fun _ => hw.2⟩
  case lnT c k t got => exact hw.1
  case lnI c k t got r todo => exact ⟨hw.1, r, hw.2, rfl⟩
  case chk1F => exact hw.1
  case trylF => exact hw.1
  case failE => exact hw.1
  case climbO c k t got todo r up =>
    obtain ⟨h1, r', h2, h3, h4⟩ := hw
    subst h3
    exact ⟨h1, by simpa using h2⟩
  case relf c k t got todo r up f fs =>
    obtain ⟨h1, r', h2, h3, h4⟩ := hw
    exact ⟨h1, r', h2, h3, by simpa using h4⟩
  case climbS c k t got todo r up f fs hl =>
    obtain ⟨h1, r', h2, h3, h4⟩ := hw
    exact ⟨h1, r', h2, h3, by simpa using h4⟩
  case inc c k t got todo r up f fs =>
    obtain ⟨h1, r', h2, h3, h4⟩ := hw
    exact ⟨h1, r', h2, h3, by simpa using h4⟩
  case chk2S c k t got todo r hl =>
    obtain ⟨h1, r', h2, h3⟩ := hw
    simp only [RWf] at h3
    subst h3
    exact ⟨h1, r, h2, rfl, by simp⟩
  case chk1S => obtain ⟨h1, r', h2, h3⟩ := hw; exact ⟨h1, r', h2, h3⟩
  case trylS => obtain ⟨h1, r', h2, h3⟩ := hw; exact ⟨h1, r', h2, h3⟩
  case chk2F => obtain ⟨h1, r', h2, h3⟩ := hw; exact ⟨h1, r', h2, h3⟩
  case climbF => obtain ⟨h1, r', h2, h3, h4⟩ := hw; exact ⟨h1, r', h2, h3⟩
  case failU => obtain ⟨h1, r', h2, h3⟩ := hw; exact ⟨h1, r', h2, trivial⟩
  case failD => obtain ⟨h1, r', h2, h3⟩ := hw; exact ⟨h1, r', h2, trivial⟩
  case rnE => exact ⟨hw.1, hw.2.1⟩
  case take => exact ⟨hw.1, by simp⟩
  case relqN c => 
    cases hc : c.cont
    · simp [afterFail, PcWf]
    · exact hw.1.2 _ hc
  case enq => exact Nat.mod_lt _ hnq
  all_goals first
    | trivial
    | exact hw
    | (simp [PcWf]; done)

end effects

/-! ## The invariant is preserved -/

theorem inv_step (hnq : 0 < C.nq) (hu : ∀ a < C.count, ∀ u ∈ C.unlocks a, u < C.count)
    {s s1 : St C} {th : Fin C.nth} {ch : Nat} (I : Inv C s)
    (h : step C s th ch = some s1) : Inv C s1 := by
  simp only [step, Option.map_eq_some_iff] at h
  obtain ⟨⟨s', p'⟩, ha, rfl⟩ := h
  have ha := act_Act ha
  have hw := I.wf th
  have hL : ∀ y, 0 < lockedBy C y (s.pc th) → s.lock y = true := by
    intro y hy
    have h1 := I.L y
    have h2 := le_sum (fun i => lockedBy C y (s.pc i)) th
    by_contra hc
    rw [ind, if_neg hc] at h1
    omega
  have hQ : ∀ y, 0 < qlBy y (s.pc th) → s.qlock y = true := by
    intro y hy
    have h1 := I.QL y
    have h2 := le_sum (fun i => qlBy y (s.pc i)) th
    by_contra hc
    rw [ind, if_neg hc] at h1
    omega
  have hpos : ∀ u, 0 < todoBy C u (s.pc th) → 0 < s.wait u := by
    intro u hu
    have h1 := I.waits u
    have h2 := le_sum (fun i => todoBy C u (s.pc i)) th
    omega
  have hQexcl : ∀ q th', th' ≠ th → 0 < qlBy q (s.pc th') → qlBy q (s.pc th) = 0 := by
    intro q th' hne hq
    have h1 := I.QL q
    have h2 := two_le_sum (fun i => qlBy q (s.pc i)) th' th hne
    have h3 : ind (s.qlock q = true) ≤ 1 := by simp only [ind]; split <;> omega
    omega
  have hstart1 : ∀ t, s.starts t ≤ 1 := by
    intro t
    have h1 := I.tok t
    have h3 : ind (t < C.count ∧ s.wait t = 0) ≤ 1 := by simp only [ind]; split <;> omega
    omega
  have hrunc : ∀ t id, s.pc th = .run t id → s.ends t = 0 ∧ t < C.count := by
    intro t id hp
    have h2 := I.runs t
    have h3 := le_sum (fun i => runBy t (s.pc i)) th
    have h7 : runBy t (s.pc th) = 1 := by simp [hp, runBy]
    simp only [h7] at h3
    have h4 := hstart1 t
    refine ⟨by omega, ?_⟩
    have h1 := I.tok t
    by_contra hc
    simp only [ind, hc, false_and, if_false] at h1
    omega
  constructor
  · intro x
    have h1 := act_lock hL hw ha x
    have h2 := sum_update (lockedBy C x) s.pc th p'
    have h3 := I.L x
    show ind (s'.lock x = true) = ∑ i, lockedBy C x (Function.update s.pc th p' i)
    omega
  · intro x
    have h1 := act_hold hw ha x
    have h2 := sum_update (holdsBy C x) s.pc th p'
    have h3 := I.H x
    show s'.hold x = ((∑ i, holdsBy C x (Function.update s.pc th p' i) : Nat) : Int)
    omega
  · intro x i hi
    change 0 < passedBy C x (Function.update s.pc th p' i) at hi
    show s'.hold x = 0
    have hh := act_hold hw ha x
    -- the number of holds only grows in `inc`
    have hold_nonneg : ∀ j, 0 < passedBy C x (s.pc j) → ¬ s.hold x < s'.hold x := by
      intro j hj hlt
      have h5 := (act_inc ha x hlt).1
      have h1 := I.L x
      have h3 : ind (s.lock x = true) ≤ 1 := by simp only [ind]; split <;> omega
      by_cases hij : j = th
      · subst hij
        have h2 := le_sum (fun i => lockedBy C x (s.pc i)) j
        omega
      · have h2 := two_le_sum (fun i => lockedBy C x (s.pc i)) j th hij
        have h6 := passed_le_locked (C := C) (p := s.pc j) x
        omega
    have hge : 0 ≤ s'.hold x := by
      have h2 := sum_update (holdsBy C x) s.pc th p'
      have h3 := I.H x
      omega
    by_cases hij : i = th
    · subst hij
      rw [Function.update_self] at hi
      by_cases hlt : passedBy C x (s.pc i) < passedBy C x p'
      · obtain ⟨h1, h2⟩ := act_passed hw ha x hlt
        rw [h2]; exact h1
      · have h0 := I.P x i (by omega)
        have := hold_nonneg i (by omega)
        omega
    · rw [Function.update_of_ne hij] at hi
      have h0 := I.P x i hi
      have := hold_nonneg i hi
      omega
  · intro x
    have h1 := act_qlock hQ ha x
    have h2 := sum_update (qlBy x) s.pc th p'
    have h3 := I.QL x
    show ind (s'.qlock x = true) = ∑ i, qlBy x (Function.update s.pc th p' i)
    omega
  · intro q; exact act_heap hw I.heap ha q
  · intro i
    show PcWf C _ (Function.update s.pc th p' i)
    have key : ∀ p, PcWf C s' p → PcWf C { s' with pc := Function.update s.pc th p' } p := by
      intro p hp
      exact wf_congr hp (fun _ _ => rfl)
    apply key
    by_cases hij : i = th
    · subst hij
      rw [Function.update_self]
      exact act_wf hnq hw ha
    · rw [Function.update_of_ne hij]
      exact wf_congr (I.wf i) (fun q hq => act_queue ha q (hQexcl q i hij hq))
  · intro t
    have h1 := act_tok hw I.heap hpos ha t
    have h2 := sum_update (pendBy t) s.pc th p'
    have h3 := I.tok t
    show qcnt C s' t + ∑ i, pendBy t (Function.update s.pc th p' i) + s'.starts t
      = ind (t < C.count ∧ s'.wait t = 0)
    change qcnt C s t + ∑ i, pendBy t (s.pc i) + s.starts t = _ at h3
    by_cases ht : t < C.count
    · simp only [ht, true_and] at h3 ⊢
      omega
    · simp only [ht, false_and, ind, if_false] at h3 ⊢
      -- a task that does not exist is never unlocked
      have hnz : s'.wait t = s.wait t := by
        by_contra hne
        have : ∃ tt u us, s.pc th = .deps tt (u :: us) ∧ t = u := by
          revert hne ha
          generalize s.pc th = p
          intro ha hne
          cases ha <;> first
            | exact absurd rfl hne
            | (simp only [Function.update_apply] at hne
               split_ifs at hne with e
               · exact ⟨_, _, _, rfl, e⟩
               · exact absurd rfl hne)
        obtain ⟨tt, u, us, hp, rfl⟩ := this
        exact ht (I.dom th t (by simp [hp, todoBy]))
      simp only [hnz] at h1
      omega
  · intro t
    have h1 := act_starts ha t
    have h2 := sum_update (runBy t) s.pc th p'
    have h3 := I.runs t
    show s'.starts t = s'.ends t + ∑ i, runBy t (Function.update s.pc th p' i)
    omega
  · intro t
    show s'.wait t = ((∑ a ∈ range C.count, (ind (s'.ends a = 0)) * (C.unlocks a).count t
      + ∑ i, todoBy C t (Function.update s.pc th p' i) : Nat) : Int)
    have h2 := sum_update (todoBy C t) s.pc th p'
    have h3 := I.waits t
    rcases act_ends ha with he | ⟨tt, id, hp, hp', hwt, _, he⟩
    · have h1 := act_wait ha he t
      rw [he]
      omega
    · obtain ⟨h5, h6⟩ := hrunc tt id hp
      have hsum : ∑ a ∈ range C.count, (ind (s'.ends a = 0)) * (C.unlocks a).count t + (C.unlocks tt).count t
          = ∑ a ∈ range C.count, (ind (s.ends a = 0)) * (C.unlocks a).count t := by
        rw [← Finset.add_sum_erase _ _ (mem_range.2 h6),
          ← Finset.add_sum_erase _ (fun a => (ind (s.ends a = 0)) * (C.unlocks a).count t) (mem_range.2 h6)]
        have : ∑ a ∈ (range C.count).erase tt, (ind (s'.ends a = 0)) * (C.unlocks a).count t
            = ∑ a ∈ (range C.count).erase tt, (ind (s.ends a = 0)) * (C.unlocks a).count t := by
          apply Finset.sum_congr rfl
          intro a ha
          rw [he, Function.update_of_ne (Finset.ne_of_mem_erase ha)]
        rw [this, he]
        simp [ind, h5, Nat.add_comm]
      have e1 : todoBy C t (s.pc th) = 0 := by simp [hp, todoBy]
      have e2 : todoBy C t p' = (C.unlocks tt).count t := by simp [hp', todoBy]
      rw [hwt]
      omega
  · intro i t hi
    change 0 < todoBy C t (Function.update s.pc th p' i) at hi
    by_cases hij : i = th
    · subst hij
      rw [Function.update_self] at hi
      rcases act_ends ha with he | ⟨tt, id, hp, hp', hwt, _, he⟩
      · have h1 := act_todo ha he t
        exact I.dom i t (by omega)
      · obtain ⟨h5, h6⟩ := hrunc tt id hp
        simp only [hp', todoBy] at hi
        exact hu tt h6 t (List.count_pos_iff.1 hi)
    · rw [Function.update_of_ne hij] at hi
      exact I.dom i t hi
  · show s'.waiting = ((∑ a ∈ range C.count, ind (s'.ends a = 0)
      + ∑ i, finBy (Function.update s.pc th p' i) : Nat) : Int)
    have h2 := sum_update finBy s.pc th p'
    have h3 := I.left
    rcases act_ends ha with he | ⟨tt, id, hp, hp', _, hwt, he⟩
    · have h1 := act_waiting ha he
      rw [he]
      omega
    · obtain ⟨h5, h6⟩ := hrunc tt id hp
      have hsum : ∑ a ∈ range C.count, (ind (s'.ends a = 0)) + 1
          = ∑ a ∈ range C.count, (ind (s.ends a = 0)) := by
        rw [← Finset.add_sum_erase _ _ (mem_range.2 h6),
          ← Finset.add_sum_erase _ (fun a => (ind (s.ends a = 0))) (mem_range.2 h6)]
        have : ∑ a ∈ (range C.count).erase tt, (ind (s'.ends a = 0))
            = ∑ a ∈ (range C.count).erase tt, (ind (s.ends a = 0)) := by
          apply Finset.sum_congr rfl
          intro a ha
          rw [he, Function.update_of_ne (Finset.ne_of_mem_erase ha)]
        rw [this, he]
        simp [ind, h5, Nat.add_comm]
      have e1 : finBy (s.pc th) = 0 := by simp [hp, finBy]
      have e2 : finBy p' = 1 := by simp [hp', finBy]
      rw [hwt]
      omega

end Verif.Sched
