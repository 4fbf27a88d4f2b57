import Verif.Properties.Sched
import Mathlib.Order.WellFoundedSet
import Mathlib.Data.Prod.Lex
import Mathlib.Tactic.IntervalCases
import Mathlib.Data.Finite.Prod

/-!
# C05: no deadlock

Under arbitrary fair schedules the workers may retry for ever (all task locks are taken with `trylock`, so two
workers can keep disturbing each other); what holds, and is proved here, is that no reachable state is stuck:
from every reachable state every task can still be completed.
-/
namespace Verif.Sched
open Verif Finset

variable {C : Cfg} {s0 s : St C}

/-- lexicographic measure -/
abbrev M := ℕ ×ₗ ℕ ×ₗ ℕ ×ₗ ℕ ×ₗ ℕ ×ₗ ℕ ×ₗ ℕ

def mk (a b c d e f g : ℕ) : M := toLex (a, toLex (b, toLex (c, toLex (d, toLex (e, toLex (f, g))))))

theorem mk_lt {a b c d e f g a' b' c' d' e' f' g' : ℕ} :
    mk a b c d e f g < mk a' b' c' d' e' f' g' ↔
      a < a' ∨ a = a' ∧ (b < b' ∨ b = b' ∧ (c < c' ∨ c = c' ∧ (d < d' ∨ d = d' ∧ (e < e' ∨ e = e' ∧
        (f < f' ∨ f = f' ∧ g < g'))))) := by
  simp [mk, Prod.Lex.toLex_lt_toLex]

def cA : Option (List Nat) → ℕ
  | none => 20
  | some _ => 18

def cB : Option (List Nat) → ℕ
  | none => 0
  | some l => 2 * l.length + 1

def rM (C : Cfg) : RPc → ℕ
  | .chk1 r => 4 * (anc C.parent r).length + 6
  | .tryl r => 4 * (anc C.parent r).length + 5
  | .chk2 r => 4 * (anc C.parent r).length + 4
  | .climb _ up todo => 4 * todo.length + up.length + 3
  | .inc _ up _ fs => 4 * fs.length + up.length + 6
  | .relf _ up _ fs => 4 * fs.length + up.length + 5
  | .failU _ up => up.length + 1
  | .failD todo => todo.length

def uM (C : Cfg) : UPc → ℕ
  | .unl r => (anc C.parent r).length + 1
  | .dec todo => todo.length

/-- distance to the top of the loop -/
def m (C : Cfg) : Pc → M
  | .exited => mk 0 0 0 0 0 0 0
  | .top => mk 1 0 0 0 0 0 0
  | .own => mk 20 1 0 0 0 0 0
  | .collect k _ => mk 19 (C.nq - k) 0 0 0 0 0
  | .others qs => mk 18 (2 * qs.length) 0 0 0 0 0
  | .acq _ cont => mk (cA cont) (cB cont) 2 0 0 0 0
  | .scan c k => mk (cA c.cont) (cB c.cont) 1 (2 * (c.n - k)) 0 0 0
  | .lockNext c k _ _ todo => mk (cA c.cont) (cB c.cont) 1 (2 * (c.n - k) - 1) 1 (2 * todo.length) 0
  | .lockIn c k _ _ todo rp => mk (cA c.cont) (cB c.cont) 1 (2 * (c.n - k) - 1) 1 (2 * todo.length + 1) (rM C rp)
  | .rollNext c k _ got => mk (cA c.cont) (cB c.cont) 1 (2 * (c.n - k) - 1) 0 (2 * got.length) 0
  | .rollIn c k _ got up => mk (cA c.cont) (cB c.cont) 1 (2 * (c.n - k) - 1) 0 (2 * got.length + 1) (uM C up)
  | .take c k _ => mk (cA c.cont) (cB c.cont) 1 (2 * (c.n - k) - 1) 0 0 0
  | .relq c _ => mk (cA c.cont) (cB c.cont) 0 0 0 0 0
  | .setq _ => mk 17 0 0 0 0 0 0
  | .call _ => mk 16 0 0 0 0 0 0
  | .run _ _ => mk 15 0 0 0 0 0 0
  | .relNext _ todo => mk 14 (2 * todo.length) 0 0 0 0 0
  | .relIn _ todo up => mk 14 (2 * todo.length + 1) (uM C up) 0 0 0 0
  | .deps _ us => mk 13 (2 * us.length) 0 0 0 0 0
  | .enq _ us _ => mk 13 (2 * us.length + 1) 3 0 0 0 0
  | .putL _ us _ _ => mk 13 (2 * us.length + 1) 2 0 0 0 0
  | .putQ _ us _ _ => mk 13 (2 * us.length + 1) 1 0 0 0 0
  | .putU _ us _ => mk 13 (2 * us.length + 1) 0 0 0 0 0
  | .fin _ => mk 12 0 0 0 0 0 0

theorem act_measure {th : Fin C.nth} {p p' : Pc} {s' : St C} (hw : PcWf C s p)
    (h : Act C s th p s' p') (hp : p = .top → s.waiting = 0) : m C p' < m C p := by
  cases h
  case topO h => exact absurd (hp rfl) h
  case relqN c => cases hc : c.cont <;> simp [afterFail, m, mk_lt, cA, cB, hc]
  case rnE c k t => 
    have := hw.2.2.1
    simp only [m]; rw [mk_lt]; omega
  case scanE c k hk => simp [m, mk_lt]
  case relqS c t => cases hc : c.cont <;> simp [m, mk_lt, cA, hc]
  case othE l i hi h0 => 
    simp only [m]; rw [mk_lt]; simp; omega
  case othA l i hi h0 => 
    simp only [m]; rw [mk_lt]; simp [cA, cB]; omega
  all_goals
    first
    | (simp [m, mk_lt, cA, cB, rM, uM]; done)
    | (simp [m, mk_lt, cA, cB, rM, uM]; omega)

theorem act_some {th : Fin C.nth} (ch : Nat) (h1 : s.pc th ≠ .exited)
    (h2 : ∀ q, s.pc th = .acq q none → s.qlock q = false)
    (h3 : ∀ t us u q, s.pc th = .putL t us u q → s.qlock q = false) :
    ∃ x, act C s th ch = some x := by
  cases hp : s.pc th with
  | exited => exact absurd hp h1
  | others qs => cases qs <;> simp [act, hp]
  | acq q cont =>
    cases cont with
    | none => simp [act, hp, h2 q hp]
    | some l => cases hq : s.qlock q <;> simp [act, hp, hq]
  | lockNext c k t got todo => cases todo <;> simp [act, hp]
  | rollNext c k t got => cases got <;> simp [act, hp]
  | relNext t todo => cases todo <;> simp [act, hp]
  | deps t us => cases us <;> simp [act, hp]
  | putL t us u q => simp [act, hp, h3 t us u q hp]
  | _ => simp [act, hp]

/-- vector of measures -/
def vec (s : St C) : Fin C.nth → M := fun i => m C (s.pc i)

instance : WellFoundedLT M := inferInstance

theorem step_of_act {th : Fin C.nth} {ch : Nat} {x} (h : act C s th ch = some x) :
    step C s th ch = some { x.1 with pc := Function.update s.pc th x.2 } := by
  simp [step, h]

theorem canFinish_step (th : Fin C.nth) (h : ∀ ch, ∃ s', step C s th ch = some s' ∧ CanFinish C s') :
    CanFinish C s := by
  refine .step th (fun ch => ?_) (fun ch s' hs => ?_)
  · obtain ⟨s', h1, _⟩ := h ch; simp [h1]
  · obtain ⟨s'', h1, h2⟩ := h ch
    rw [hs] at h1; cases h1; exact h2

theorem act_waiting_le {th : Fin C.nth} {p p' : Pc} {s' : St C} (h : Act C s th p s' p') :
    s'.waiting ≤ s.waiting := by
  cases h <;> simp

/-- Strategy 1: drive all workers to the top of the loop (or out of it). -/
theorem to_quiet (hC : WfCfg C) (h0 : Prepared C s0) (w : Int)
    (hq : ∀ s, Reach C s0 s → (∀ th, s.pc th = .top) → s.waiting ≠ 0 → s.waiting ≤ w → CanFinish C s) :
    ∀ s, Reach C s0 s → s.waiting ≤ w → CanFinish C s := by
  have wf : WellFounded (fun a b : Fin C.nth → M => a < b) := wellFounded_lt
  intro s
  induction hv : vec s using wf.induction generalizing s with
  | _ v ih =>
  subst hv
  intro hr hle
  have I := reach_inv hC h0 hr
  -- running a worker that can step and is not at the top (or nothing is waiting) is progress
  have go : ∀ th, (s.pc th = .top → s.waiting = 0) → s.pc th ≠ .exited →
      (∀ q, s.pc th = .acq q none → s.qlock q = false) →
      (∀ t us u q, s.pc th = .putL t us u q → s.qlock q = false) → CanFinish C s := by
    intro th h1 h2 h3 h4
    refine canFinish_step th fun ch => ?_
    obtain ⟨x, hx⟩ := act_some ch h2 h3 h4
    have hs := step_of_act hx
    have hle' := act_waiting_le (act_Act hx)
    refine ⟨_, hs, ih _ ?_ _ rfl (.step th ch hr hs) (le_trans hle' hle)⟩
    have hm := act_measure (I.wf th) (act_Act hx) h1
    refine Pi.lt_def.2 ⟨?_, th, ?_⟩
    · intro i
      by_cases hi : i = th
      · subst hi; simpa [vec] using hm.le
      · simp [vec, Function.update_of_ne hi]
    · simpa [vec] using hm
  by_cases hex : AllExited s
  · exact .done hex
  by_cases hql : ∃ th q, 0 < qlBy q (s.pc th)
  · obtain ⟨th, q, hq⟩ := hql
    apply go th
    all_goals intros
    all_goals first
      | (intro hc; rw [hc] at hq; simp [qlBy] at hq; done)
      | (rename_i hc; rw [hc] at hq; simp [qlBy] at hq; done)
  · simp only [not_exists, not_lt, Nat.le_zero] at hql
    have hfree : ∀ q, s.qlock q = false := by
      intro q
      have h := I.QL q
      rw [Finset.sum_eq_zero (fun i _ => hql i q)] at h
      simpa [ind] using h
    by_cases hnt : ∃ th, s.pc th ≠ .top ∧ s.pc th ≠ .exited
    · obtain ⟨th, h1, h2⟩ := hnt
      exact go th (fun h => absurd h h1) h2 (fun q _ => hfree q) (fun _ _ _ q _ => hfree q)
    · by_cases hw : s.waiting = 0
      · simp only [AllExited, not_forall] at hex
        obtain ⟨th, h⟩ := hex
        exact go th (fun _ => hw) h (fun q _ => hfree q) (fun _ _ _ q _ => hfree q)
      · refine hq s hr ?_ hw hle
        intro th
        by_contra hc
        have he : s.pc th = .exited := by
          by_contra hc2; exact hnt ⟨th, hc, hc2⟩
        exact hw (exited_waiting hC h0 hr ⟨th, he⟩)

/-- **C05 (progress at rest).** Whenever all threads are between tasks and tasks are waiting, some queue
contains a task. -/
theorem c05_ready_task (hC : WfCfg C) (hA : AcyclicLinks C) (h0 : Prepared C s0) (hr : Reach C s0 s)
    (ht : ∀ th, s.pc th = .top) (hw : s.waiting ≠ 0) : ∃ q < C.nq, 0 < (s.queue q).count := by
  have I := reach_inv hC h0 hr
  obtain ⟨rank, hrank⟩ := hA
  have hleft := I.left
  have hex : ∃ a, a < C.count ∧ s.ends a = 0 := by
    by_contra hc
    apply hw
    rw [hleft, Finset.sum_eq_zero (s := range C.count), Finset.sum_eq_zero (s := univ)]
    · rfl
    · intro i _; simp [ht i, finBy]
    · intro a ha
      simp only [ind]
      split
      · rename_i e; exact absurd ⟨a, mem_range.1 ha, e⟩ hc
      · rfl
  -- a minimal unfinished task
  obtain ⟨a, ⟨ha, hea⟩, hmin⟩ : ∃ a, (a < C.count ∧ s.ends a = 0) ∧
      ∀ b, b < C.count ∧ s.ends b = 0 → rank a ≤ rank b := by
    have hwf := (measure rank).wf
    obtain ⟨a, ha, h⟩ := hwf.has_min {a | a < C.count ∧ s.ends a = 0} hex
    exact ⟨a, ha, fun b hb => Nat.not_lt.1 (h b hb)⟩
  have hwait : s.wait a = 0 := by
    rw [I.waits a, Finset.sum_eq_zero (s := range C.count), Finset.sum_eq_zero (s := univ)]
    · rfl
    · intro i _; simp [ht i, todoBy]
    · intro b hb
      simp only [ind]
      split
      · rename_i e
        rw [List.count_eq_zero_of_not_mem, mul_zero]
        intro hm
        have := hmin b ⟨mem_range.1 hb, e⟩
        have := hrank b (mem_range.1 hb) a hm
        omega
      · simp
  have htok := I.tok a
  have hruns := I.runs a
  rw [ind, if_pos ⟨ha, hwait⟩] at htok
  rw [Finset.sum_eq_zero (s := univ) (fun i _ => by simp [ht i, pendBy])] at htok
  rw [hea, Finset.sum_eq_zero (s := univ) (fun i _ => by simp [ht i, runBy])] at hruns
  have hpos : 0 < ∑ q ∈ range C.nq, Queue.cnt (s.queue q).inds (s.queue q).count a := by omega
  obtain ⟨q, hq, hqp⟩ := Finset.exists_ne_zero_of_sum_ne_zero hpos.ne'
  refine ⟨q, mem_range.1 hq, ?_⟩
  by_contra hc
  have : (s.queue q).count = 0 := by omega
  rw [this, Queue.cnt_zero] at hqp
  exact hqp rfl

/-- positions of a worker that runs alone and is going to complete a task -/
def Good (C : Cfg) (s : St C) (th : Fin C.nth) : Pc → Prop
  | .top => False
  | .exited => False
  | .own => ∃ q < C.nq, 0 < (s.queue q).count
  | .collect k acc => (∃ q < C.nq, q ≠ qid C th ∧ 0 < (s.queue q).count ∧ (q < k → q ∈ acc)) ∧
      ∀ q ∈ acc, 0 < (s.queue q).count
  | .others qs => qs ≠ [] ∧ ∀ q ∈ qs, 0 < (s.queue q).count
  | .acq q _ => 0 < (s.queue q).count
  | .scan c k => k = 0 ∧ 0 < c.n
  | .lockIn _ _ _ _ _ rp => (match rp with | .failU _ _ => False | .failD _ => False | _ => True)
  | .rollNext _ _ _ _ => False
  | .rollIn _ _ _ _ _ => False
  | .relq _ none => False
  | _ => True

theorem good_step (hC : WfCfg C) (hN : NoSelfConflict C) (I : Inv C s) {th : Fin C.nth}
    (hoth : ∀ i, i ≠ th → s.pc i = .top) {p : Pc} (hp : s.pc th = p) (hg : Good C s th p) {s' p'}
    (ha : Act C s th p s' p') : Good C s' th p' ∨ (∃ t, p = .fin t) := by
  -- memory is what this worker made of it
  have hsum : ∀ f : Pc → Nat, f .top = 0 → ∑ i, f (s.pc i) = f p := by
    intro f hf
    rw [Finset.sum_eq_single th]
    · rw [hp]
    · intro i _ hi; rw [hoth i hi, hf]
    · intro h; exact absurd (mem_univ _) h
  have hlock : ∀ x, s.lock x = true → 0 < lockedBy C x p := by
    intro x hx
    have := I.L x
    rw [hsum _ (by simp [lockedBy])] at this
    simp only [ind, hx, if_true] at this
    omega
  have hhold : ∀ x, s.hold x = (holdsBy C x p : Int) := by
    intro x
    have := I.H x
    rwa [hsum _ (by simp [holdsBy])] at this
  have hqlock : ∀ q, s.qlock q = true → 0 < qlBy q p := by
    intro x hx
    have := I.QL x
    rw [hsum _ (by simp [qlBy])] at this
    simp only [ind, hx, if_true] at this
    omega
  have hwf := I.wf th
  rw [hp] at hwf
  -- tasks in queues exist
  have htask : ∀ c k t, ScanWf C s c k t → t < C.count := by
    intro c k t hs
    by_contra hc
    have h := I.tok t
    rw [ind, if_neg (by tauto)] at h
    have h1 : ∑ q ∈ range C.nq, Queue.cnt (s.queue q).inds (s.queue q).count t = 0 := by omega
    have h2 := (Finset.sum_eq_zero_iff.1 h1) c.q (mem_range.2 hs.1.1)
    rw [← Queue.toList_count] at h2
    exact List.count_eq_zero.1 h2 ((Queue.mem_toList _ _).2 ⟨k, hs.2.1 ▸ hs.2.2.1, hs.2.2.2⟩)
  -- no conflicts among the locks of the task
  have hconf : ∀ {c k t} {got : List Nat} {r todo}, ScanWf C s c k t → got.reverse ++ r :: todo = C.locks t →
      ∀ g ∈ got, ¬ Conflict C.parent g r := by
    intro c k t got r todo hs hl g hgm
    have h := hN t (htask _ _ _ hs)
    rw [← hl, List.pairwise_append] at h
    exact h.2.2 g (by simpa using hgm) r (by simp)
  have hholdr : ∀ {c k t} {got : List Nat} {r todo}, ScanWf C s c k t → got.reverse ++ r :: todo = C.locks t →
      (hs C got).count r = 0 := by
    intro c k t got r todo hs hl
    apply List.count_eq_zero_of_not_mem
    intro hm
    obtain ⟨g, hg1, hg2⟩ := List.mem_flatMap.1 hm
    exact hconf hs hl g hg1 (.inr (.inr ((mem_anc hC r g).1 hg2)))
  cases ha
  case fin t => exact .inr ⟨t, rfl⟩
  case ownE h =>
    obtain ⟨q, hq, hqc⟩ := hg
    refine .inl ⟨⟨q, hq, ?_, hqc, by simp⟩, by simp⟩
    rintro rfl; omega
  case ownA h => exact .inl (Nat.pos_of_ne_zero h)
  case colA k acc hk h1 h2 =>
    obtain ⟨⟨q, hq, hne, hqc, him⟩, hacc⟩ := hg
    refine .inl ⟨⟨q, hq, hne, hqc, ?_⟩, ?_⟩
    · intro hlt
      by_cases hqk : q = k
      · simp [hqk]
      · simp [him (by omega)]
    · intro q' hq'
      rcases List.mem_append.1 hq' with h | h
      · exact hacc q' h
      · simp at h; rw [h]; exact h2
  case colS k acc hk h1 =>
    obtain ⟨⟨q, hq, hne, hqc, him⟩, hacc⟩ := hg
    refine .inl ⟨⟨q, hq, hne, hqc, ?_⟩, hacc⟩
    intro hlt
    by_cases hqk : q = k
    · subst hqk
      rcases h1 with h1 | h1
      · exact absurd h1 hne
      · omega
    · exact him (by omega)
  case colE k acc hk =>
    obtain ⟨⟨q, hq, hne, hqc, him⟩, hacc⟩ := hg
    refine .inl ⟨?_, hacc⟩
    have := him (by omega)
    intro h; rw [h] at this; cases this
  case othT => exact absurd rfl hg.1
  case othE l i hi h =>
    have := hg.2 (l.getD i 0) (by simp [List.getD, List.getElem?_eq_getElem hi])
    omega
  case othA l i hi h => exact .inl (Nat.pos_of_ne_zero h)
  case acqF q qs h => have := hqlock q h; simp [qlBy] at this
  case acqL q cont h => exact .inl ⟨rfl, hg⟩
  case scanT c k h => exact .inl trivial
  case scanE c k h => obtain ⟨h1, h2⟩ := hg; omega
  case chk1F c k t got todo r h =>
    obtain ⟨h1, r', h2, h3⟩ := hwf
    cases h3
    have := hhold r
    simp only [holdsBy, rHolds, hholdr h1 h2] at this
    exact absurd this h
  case trylF c k t got todo r h =>
    obtain ⟨h1, r', h2, h3⟩ := hwf
    cases h3
    have := hlock r h
    simp only [lockedBy, rLocked] at this
    have := List.count_pos_iff.1 (by omega : 0 < List.count r got)
    exact absurd (.inl rfl) (hconf h1 h2 r this)
  case chk2F c k t got todo r h =>
    obtain ⟨h1, r', h2, h3⟩ := hwf
    cases h3
    have := hhold r
    simp only [holdsBy, rHolds, hholdr h1 h2] at this
    exact absurd this h
  case climbF c k t got todo r up f fs h =>
    obtain ⟨h1, r', h2, h3, h4⟩ := hwf
    subst h3
    have hanc : f ∈ anc C.parent r := by rw [← h4]; simp
    have := hlock f h
    simp only [lockedBy, rLocked] at this
    have hfr : f ≠ r := by
      intro e
      have := anc_lt hC hanc
      omega
    simp only [ind, hfr, if_false, add_zero] at this
    have := List.count_pos_iff.1 this
    exact absurd (.inr (.inl ((mem_anc hC f r).1 hanc))) (hconf h1 h2 f this)
  case relqN c => exact absurd hg id
  case failU => exact absurd hg id
  case failE => exact absurd hg id
  case failD => exact absurd hg id
  case rnE => exact absurd hg id
  case rnI => exact absurd hg id
  case riU => exact absurd hg id
  case riE => exact absurd hg id
  case riD => exact absurd hg id
  case topX => exact absurd hg id
  case topO => exact absurd hg id
  all_goals exact .inl trivial

/-- Strategy 2: from rest, one worker alone completes one more task. -/
theorem solo (hC : WfCfg C) (hN : NoSelfConflict C) (h0 : Prepared C s0) (th : Fin C.nth) (w : Int)
    (hq : ∀ s, Reach C s0 s → (∀ th, s.pc th = .top) → s.waiting < w → CanFinish C s) :
    ∀ s, Reach C s0 s → (∀ i, i ≠ th → s.pc i = .top) → Good C s th (s.pc th) → s.waiting ≤ w →
      CanFinish C s := by
  have wf : WellFounded (fun a b : M => a < b) := wellFounded_lt
  intro s
  induction hv : m C (s.pc th) using wf.induction generalizing s with
  | _ v ih =>
  subst hv
  intro hr hoth hg hw
  have I := reach_inv hC h0 hr
  have hfree : ∀ q, qlBy q (s.pc th) = 0 → s.qlock q = false := by
    intro q hq0
    have := I.QL q
    rw [Finset.sum_eq_single th (fun i _ hi => by simp [hoth i hi, qlBy]) (by simp), hq0] at this
    simpa [ind] using this
  refine canFinish_step th fun ch => ?_
  obtain ⟨x, hx⟩ := act_some (s := s) (th := th) ch (by intro h; rw [h] at hg; exact hg)
    (fun q h => hfree q (by rw [h]; rfl)) (fun _ _ _ q h => hfree q (by rw [h]; rfl))
  have hs := step_of_act hx
  have ha := act_Act hx
  have hr' := Reach.step th ch hr hs
  refine ⟨_, hs, ?_⟩
  have hle : x.1.waiting ≤ s.waiting := act_waiting_le ha
  rcases good_step hC hN I hoth rfl hg ha with hg' | ⟨t, hfin⟩
  · refine ih _ ?_ _ rfl hr' ?_ ?_ ?_
    · simp only [Function.update_self]
      refine act_measure (I.wf th) ha ?_
      intro h; rw [h] at hg; exact absurd hg id
    · intro i hi; simp [Function.update_of_ne hi, hoth i hi]
    · simp only [Function.update_self]
      revert hg'
      cases x.2 with
      | relq c o => cases o <;> exact id
      | _ => exact id
    · exact le_trans hle hw
  · obtain ⟨s', p'⟩ := x
    rw [hfin] at ha
    cases ha
    refine hq _ hr' ?_ ?_
    · intro i
      by_cases hi : i = th
      · subst hi; simp
      · simp [Function.update_of_ne hi, hoth i hi]
    · simp only; omega

/-- **C05 (no deadlock).** From every reachable state the run can be brought to its end, whatever the random
choices are. -/
theorem c05_can_finish (hC : WfCfg C) (hN : NoSelfConflict C) (hA : AcyclicLinks C) (h0 : Prepared C s0)
    (hr : Reach C s0 s) : CanFinish C s := by
  refine to_quiet hC h0 s.waiting ?_ s hr (le_refl _)
  clear hr
  intro s hr htop hw hle0
  clear hle0
  by_cases hth : C.nth = 0
  · exact .done (fun th => absurd th.2 (by omega))
  let th : Fin C.nth := ⟨0, by omega⟩
  have hge : ∀ s, Reach C s0 s → 0 ≤ s.waiting := by
    intro s hr; rw [(reach_inv hC h0 hr).left]; omega
  induction hn : s.waiting.toNat using Nat.strong_induction_on generalizing s with
  | _ n ih =>
  subst hn
  have I := reach_inv hC h0 hr
  refine canFinish_step th fun ch => ?_
  have hx : act C s th ch = some (s, .own) := by simp [act, htop, hw]
  have hs := step_of_act hx
  refine ⟨_, hs, ?_⟩
  refine solo hC hN h0 th s.waiting ?_ _ (.step th ch hr hs) ?_ ?_ (le_refl _)
  · intro s1 hr1 htop1 hlt
    have h1 := hge s1 hr1
    by_cases hw1 : s1.waiting = 0
    · refine to_quiet hC h0 0 (fun s2 hr2 ht2 hw2 hle2 => ?_) s1 hr1 (by omega)
      have := hge s2 hr2
      omega
    · exact ih _ (by omega) s1 hr1 htop1 hw1 rfl
  · intro i hi; simp [Function.update_of_ne hi, htop]
  · simp only [Function.update_self]
    have := c05_ready_task hC hA h0 hr htop hw
    exact this

/-- **C05 (no stuck state).** In every reachable state in which some thread has not left, some thread can
take a step. -/
theorem c05_not_stuck (hC : WfCfg C) (hN : NoSelfConflict C) (hA : AcyclicLinks C) (h0 : Prepared C s0)
    (hr : Reach C s0 s) (hne : ¬ AllExited s) : ∃ th ch s', step C s th ch = some s' := by
  cases c05_can_finish hC hN hA h0 hr with
  | done h => exact absurd h hne
  | step th able _ => exact ⟨th, 0, Option.isSome_iff_exists.1 (able 0)⟩

/-- **C05 (termination with one thread).** With one thread every execution ends: there is no infinite sequence
of steps. -/
theorem c05_one_thread_terminates (hC : WfCfg C) (hN : NoSelfConflict C) (hA : AcyclicLinks C)
    (h0 : Prepared C s0) (h1 : C.nth = 1) :
    ¬ ∃ run : Nat → St C, run 0 = s0 ∧ ∀ n, ∃ th ch, step C (run n) th ch = some (run (n + 1)) := by
  rintro ⟨run, hr0, hrun⟩
  have key : ∀ s, CanFinish C s → ∀ n, run n = s → False := by
    intro s hs
    induction hs with
    | done hex =>
      rintro n rfl
      obtain ⟨th, ch, hs⟩ := hrun n
      simp [step, act, hex th] at hs
    | step th able _ ih =>
      rintro n rfl
      obtain ⟨th', ch, hs⟩ := hrun n
      have : th' = th := by
        apply Fin.ext; have := th.2; have := th'.2; omega
      subst this
      exact ih ch _ hs (n + 1) rfl
  exact key s0 (c05_can_finish hC hN hA h0 .refl) 0 hr0

/-- **C01 (a complete run exists).** From every reachable state a state can be reached in which all threads have
left and every task has been executed exactly once. -/
theorem c01_reaches_end (hC : WfCfg C) (hN : NoSelfConflict C) (hA : AcyclicLinks C) (hth : 0 < C.nth)
    (h0 : Prepared C s0) (hr : Reach C s0 s) :
    ∃ s', Reach C s s' ∧ AllExited s' ∧ ∀ t < C.count, s'.starts t = 1 ∧ s'.ends t = 1 := by
  have trans : ∀ {a b c : St C}, Reach C a b → Reach C b c → Reach C a c := by
    intro a b c hab hbc
    induction hbc with
    | refl => exact hab
    | step th ch _ hs ih => exact .step th ch ih hs
  have hf := c05_can_finish hC hN hA h0 hr
  induction hf with
  | done hex =>
    exact ⟨_, .refl, hex, fun t ht => c01_exactly_once hC h0 hr ⟨⟨0, hth⟩, hex _⟩ t ht⟩
  | step th able _ ih =>
    obtain ⟨s', hs⟩ := Option.isSome_iff_exists.1 (able 0)
    obtain ⟨s'', h1, h2⟩ := ih 0 s' hs (.step th 0 hr hs)
    exact ⟨s'', trans (.step th 0 .refl hs) h1, h2⟩

end Verif.Sched

namespace Verif.Sched
open Verif Finset
variable {C : Cfg} {s0 s : St C}

/-- **C05 (necessity).** The hypothesis on the locks cannot be dropped: a task that locks two conflicting resources
(or one resource twice) is never started, so no thread ever leaves the loop. -/
theorem c05_self_conflict_hangs (hC : WfCfg C) (h0 : Prepared C s0) (hr : Reach C s0 s) (t : Nat)
    (ht : t < C.count) (hconf : ¬ (C.locks t).Pairwise fun r r' => ¬ Conflict C.parent r r') :
    s.starts t = 0 ∧ ∀ th, s.pc th ≠ .exited := by
  have hstart : ∀ s, Reach C s0 s → s.starts t = 0 := by
    intro s hr
    induction hr with
    | refl => exact h0.starts t
    | step th ch hr1 hs ih =>
      rename_i s1 s2
      have I := reach_inv hC h0 hr1
      have hnocall : s1.pc th ≠ .call t := by
        intro hp
        apply hconf
        have hL := I.L
        have hH := I.H
        have hP := I.P
        rw [List.pairwise_iff_getElem]
        intro i j hi hj hij
        have anc_case : ∀ {a b}, a ∈ C.locks t → b ∈ C.locks t → ¬ Ancestor C.parent a b := by
          intro a b ha hb hab
          have p := hP a th (by rw [hp]; exact List.count_pos_iff.2 ha)
          have h3 := le_sum (fun i => holdsBy C a (s1.pc i)) th
          have h4 : 0 < holdsBy C a (s1.pc th) := by
            rw [hp]; exact List.count_pos_iff.2 (mem_hs hb ((mem_anc hC _ _).2 hab))
          have := hH a
          omega
        rintro (he | ha | ha)
        · have h1 := hL (C.locks t)[i]
          have h2 := le_sum (fun k => lockedBy C (C.locks t)[i] (s1.pc k)) th
          have h3 : 2 ≤ lockedBy C (C.locks t)[i] (s1.pc th) := by
            rw [hp]
            simp only [lockedBy]
            by_contra hc
            have hd : (C.locks t).count (C.locks t)[i] ≤ 1 := by omega
            have hmem : (C.locks t)[i] ∈ (C.locks t).drop (i + 1) := by
              rw [he]
              refine List.mem_iff_getElem.2 ⟨j - (i + 1), by simp; omega, ?_⟩
              simp only [List.getElem_drop]
              congr 1
              omega
            have hsplit : (C.locks t).take (i + 1) ++ (C.locks t).drop (i + 1) = C.locks t :=
              List.take_append_drop _ _
            have hcount := congrArg (List.count (C.locks t)[i]) hsplit
            rw [List.count_append] at hcount
            have e1 : 0 < ((C.locks t).take (i + 1)).count (C.locks t)[i] := by
              apply List.count_pos_iff.2
              exact List.mem_iff_getElem.2 ⟨i, by simp; omega, by simp⟩
            have e2 := List.count_pos_iff.2 hmem
            omega
          have h4 : ind (s1.lock (C.locks t)[i] = true) ≤ 1 := by simp only [ind]; split <;> omega
          omega
        · exact anc_case (List.getElem_mem _) (List.getElem_mem _) ha
        · exact anc_case (List.getElem_mem _) (List.getElem_mem _) ha
      simp only [step, Option.map_eq_some_iff] at hs
      obtain ⟨⟨s', p'⟩, ha, rfl⟩ := hs
      have ha := act_Act ha
      revert ha hnocall
      generalize s1.pc th = p
      intro hnocall ha
      cases ha <;> first
        | exact ih
        | (simp only [Function.update_apply]
           split
           · subst_vars; exact absurd rfl hnocall
           · exact ih)
  refine ⟨hstart s hr, ?_⟩
  intro th hex
  have := (c01_exactly_once hC h0 hr ⟨th, hex⟩ t ht).1
  rw [hstart s hr] at this
  omega

/-! ## A concrete run

Two threads, two queues, three tasks: tasks 0 and 1 lock the children 1 and 2 of resource 0, task 2 locks the
parent and waits for task 0. -/

def exC : Cfg where
  count := 3
  locks := fun t => [[1], [2], [0]].getD t []
  unlocks := fun t => [[2], [], []].getD t []
  parent := fun r => if r = 1 ∨ r = 2 then some 0 else none
  nq := 2
  nth := 2
  weight := fun t => [3, 1, 2].getD t 0

def exS : St exC where
  lock := fun _ => false
  hold := fun _ => 0
  qlock := fun _ => false
  queue := fun q => if q = 0 then ⟨fun _ => 0, 1, 3⟩ else if q = 1 then ⟨fun _ => 1, 1, 3⟩ else ⟨fun _ => 0, 0, 3⟩
  wait := fun t => if t = 2 then 1 else 0
  waiting := 3
  tqid := fun _ => 0
  starts := fun _ => 0
  ends := fun _ => 0
  pc := fun _ => .top

theorem exC_wf : WfCfg exC where
  nq_pos := by decide
  links := by decide
  tree := by
    intro r p h
    simp only [exC] at h
    split at h
    · rename_i h'; cases h; omega
    · cases h

theorem exC_anc (a r : Nat) : Ancestor exC.parent a r → a = 0 ∧ (r = 1 ∨ r = 2) := by
  intro h
  rw [← mem_anc exC_wf] at h
  unfold anc at h
  simp only [exC] at h
  split at h
  · cases h
  · rename_i p hp
    split at hp
    · cases hp
      rename_i h12
      have : anc (fun r => if r = 1 ∨ r = 2 then some 0 else none) 0 = [] := by
        unfold anc; simp
      rw [this] at h
      split at h
      · simp at h; exact ⟨h, h12⟩
      · cases h
    · cases hp

theorem exC_noself : NoSelfConflict exC := by
  intro t ht
  change t < 3 at ht
  interval_cases t <;> simp [exC]

theorem exC_acyclic : AcyclicLinks exC := ⟨id, by decide⟩

theorem exS_prepared : Prepared exC exS where
  lock := fun _ => rfl
  hold := fun _ => rfl
  qlock := fun _ => rfl
  wait := by
    intro t
    simp only [exS, inLinks, exC, Finset.sum_range_succ, Finset.sum_range_zero]
    by_cases h : t = 2
    · subst h; decide
    · have : ¬ (2 = t) := fun h' => h h'.symm
      simp [h, this]
  waiting := rfl
  starts := fun _ => rfl
  ends := fun _ => rfl
  queued := by
    intro t
    simp only [exS, inLinks, exC, Finset.sum_range_succ, Finset.sum_range_zero, Queue.Q.toList]
    by_cases h : t < 3
    · interval_cases t <;> decide
    · have h0 : ¬ (0 = t) := by omega
      have h1 : ¬ (1 = t) := by omega
      simp [h, h0, h1, List.range_succ]
  heap := by
    intro q i h0 hi
    have : (exS.queue q).count ≤ 1 := by
      simp only [exS]; split
      · simp
      · split <;> simp
    omega
  pc := fun _ => rfl

/-- The example meets all hypotheses, and it has a complete run. -/
example : ∃ s, Reach exC exS s ∧ AllExited s ∧ ∀ t < 3, s.starts t = 1 ∧ s.ends t = 1 :=
  c01_reaches_end exC_wf exC_noself exC_acyclic (by decide) exS_prepared .refl

/-- Tasks 0 and 2 lock a resource and its parent. -/
example : Conflict exC.parent 1 0 := .inr (.inr (.single rfl))

/-- A task with a self conflict: it locks a child and its parent. -/
example : ¬ ([1, 0] : List Nat).Pairwise fun r r' => ¬ Conflict exC.parent r r' := by
  simp only [List.pairwise_cons]
  intro h
  exact h.1 0 (by simp) (.inr (.inr (.single rfl)))

end Verif.Sched
