import Verif.Spec.Exec
import Verif.Properties.Graph

/-!
# C80: the results do not depend on the schedule
-/
namespace Verif.Exec
open Verif.Sched

variable {L V : Type} [DecidableEq L]

/-! ## programs -/

theorem run_frame {R W : L → Prop} {id : Nat} : ∀ {p : Prog (Place L) V}, Within R W id p → ∀ (m : Place L → V) x, ¬ W x →
    p.run m (.inl x) = m (.inl x)
  | .done, _, _, _, _ => rfl
  | .read (.inl y) k, h, m, x, hx => run_frame (h.2 (m (.inl y))) m x hx
  | .read (.inr i) k, h, m, x, hx => run_frame (h.2 (m (.inr i))) m x hx
  | .write (.inl y) v k, h, m, x, hx => by
    have := run_frame h.2 (Function.update m (.inl y) v) x hx
    refine this.trans (Function.update_of_ne ?_ _ _)
    intro e
    cases e
    exact hx h.1
  | .write (.inr i) v k, h, m, x, hx => by
    have := run_frame h.2 (Function.update m (.inr i) v) x hx
    exact this.trans (Function.update_of_ne (by simp) _ _)

theorem run_congr {R W : L → Prop} {id : Nat} : ∀ {p : Prog (Place L) V}, Within R W id p → ∀ (m m' : Place L → V),
    (∀ x, R x ∨ W x → m (.inl x) = m' (.inl x)) → m (.inr id) = m' (.inr id) → ∀ x, R x ∨ W x → p.run m (.inl x) = p.run m' (.inl x)
  | .done, _, _, _, h, _, x, hx => h x hx
  | .read (.inl y) k, h, m, m', e, e', x, hx => by
    change (k (m (.inl y))).run m _ = (k (m' (.inl y))).run m' _
    rw [e y h.1]
    exact run_congr (h.2 _) m m' e e' x hx
  | .read (.inr i) k, h, m, m', e, e', x, hx => by
    change (k (m (.inr i))).run m _ = (k (m' (.inr i))).run m' _
    rw [h.1, e']
    exact run_congr (h.2 _) m m' e e' x hx
  | .write (.inl y) v k, h, m, m', e, e', x, hx => by
    refine run_congr h.2 _ _ (fun z hz => ?_) ?_ x hx
    · by_cases hzy : z = y
      · subst hzy
        rw [Function.update_self, Function.update_self]
      · rw [Function.update_of_ne (by simpa using hzy), Function.update_of_ne (by simpa using hzy)]
        exact e z hz
    · rw [Function.update_of_ne (by simp), Function.update_of_ne (by simp)]
      exact e'
  | .write (.inr i) v k, h, m, m', e, e', x, hx => by
    refine run_congr h.2 _ _ (fun z hz => ?_) ?_ x hx
    · rw [Function.update_of_ne (by simp), Function.update_of_ne (by simp)]
      exact e z hz
    · rw [h.1, Function.update_self, Function.update_self]

/-! ## sequential execution: the order of independent tasks does not matter -/

section
variable {R W : Nat → L → Prop} {body : Nat → Nat → Prog (Place L) V}

theorem seq_frame (hb : WellBehaved R W body) : ∀ (l : List Nat) (m : Place L → V) x, (∀ t ∈ l, ¬ W t x) → seq body l m (.inl x) = m (.inl x) := by
  intro l
  induction l with
  | nil => intro m x _; rfl
  | cons t l ih =>
    intro m x h
    refine (ih _ x (fun t' ht' => h t' (List.mem_cons_of_mem _ ht'))).trans ?_
    exact run_frame (hb.within t 0) m x (h t (List.mem_cons_self ..))

theorem seq_congr (hb : WellBehaved R W body) : ∀ (l : List Nat) (m m' : Place L → V), (∀ x, m (.inl x) = m' (.inl x)) →
    ∀ x, seq body l m (.inl x) = seq body l m' (.inl x) := by
  intro l
  induction l with
  | nil => intro m m' h x; exact h x
  | cons t l ih =>
    intro m m' h x
    refine ih _ _ (fun y => ?_) x
    by_cases hy : W t y
    · exact hb.results t 0 0 m m' (fun z _ => h z) y hy
    · refine (run_frame (hb.within t 0) m y hy).trans ((h y).trans (run_frame (hb.within t 0) m' y hy).symm)

/-- two tasks without conflict can be exchanged -/
theorem swap (hb : WellBehaved R W body) {a b : Nat} (hab : ∀ x, W a x → ¬ W b x ∧ ¬ R b x) (hba : ∀ x, W b x → ¬ W a x ∧ ¬ R a x)
    (m : Place L → V) (x : L) : (body b 0).run ((body a 0).run m) (.inl x) = (body a 0).run ((body b 0).run m) (.inl x) := by
  by_cases hb' : W b x
  · rw [run_frame (hb.within a 0) _ x (hba x hb').1]
    refine hb.results b 0 0 _ _ (fun y hy => run_frame (hb.within a 0) _ y ?_) x hb'
    intro ha
    rcases hy with hy | hy
    · exact (hab y ha).2 hy
    · exact (hab y ha).1 hy
  · rw [run_frame (hb.within b 0) _ x hb']
    by_cases ha : W a x
    · refine (hb.results a 0 0 _ _ (fun y hy => run_frame (hb.within b 0) _ y ?_) x ha).symm
      intro hbb
      rcases hy with hy | hy
      · exact (hba y hbb).2 hy
      · exact (hba y hbb).1 hy
    · rw [run_frame (hb.within a 0) _ x ha, run_frame (hb.within a 0) _ x ha, run_frame (hb.within b 0) _ x hb']

/-- tasks that conflict are ordered -/
def Ordered (n : Nat) (dep : Nat → Nat → Prop) (R W : Nat → L → Prop) : Prop :=
  ∀ a b, a < n → b < n → a ≠ b → ∀ x, W a x → W b x ∨ R b x → dep a b ∨ dep b a

theorem Ordered.free {n : Nat} {dep : Nat → Nat → Prop} (h : Ordered n dep R W) {a b : Nat} (ha : a < n) (hb : b < n) (hne : a ≠ b)
    (h1 : ¬ dep a b) (h2 : ¬ dep b a) : ∀ x, W a x → ¬ W b x ∧ ¬ R b x := by
  intro x hx
  constructor
  · intro h'
    rcases h a b ha hb hne x hx (.inl h') with h | h
    · exact h1 h
    · exact h2 h
  · intro h'
    rcases h a b ha hb hne x hx (.inr h') with h | h
    · exact h1 h
    · exact h2 h

/-- a task that is independent of the tasks before it can be moved to the front -/
theorem to_front (hb : WellBehaved R W body) {n : Nat} {dep : Nat → Nat → Prop} (ho : Ordered n dep R W) {a : Nat} (ha : a < n) :
    ∀ (l l' : List Nat) (m : Place L → V), (∀ b ∈ l, b < n ∧ b ≠ a ∧ ¬ dep a b ∧ ¬ dep b a) →
      ∀ x, seq body (l ++ a :: l') m (.inl x) = seq body (a :: (l ++ l')) m (.inl x) := by
  intro l
  induction l with
  | nil => intro l' m _ x; rfl
  | cons b l ih =>
    intro l' m h x
    obtain ⟨hbn, hne, h1, h2⟩ := h b (List.mem_cons_self ..)
    have := ih l' ((body b 0).run m) (fun c hc => h c (List.mem_cons_of_mem _ hc)) x
    refine this.trans ?_
    change seq body (l ++ l') ((body a 0).run ((body b 0).run m)) _ = seq body (l ++ l') ((body b 0).run ((body a 0).run m)) _
    exact seq_congr hb _ _ _ (fun y => swap hb (ho.free hbn ha hne h2 h1) (ho.free ha hbn (Ne.symm hne) h1 h2) m y) x

/-- all orders that respect the dependencies give the same result -/
theorem seq_perm (hb : WellBehaved R W body) {n : Nat} {dep : Nat → Nat → Prop} (ho : Ordered n dep R W) :
    ∀ (l l' : List Nat), l.Perm l' → l.Nodup → (∀ t ∈ l, t < n) → l.Pairwise (fun a b => ¬ dep b a) → l'.Pairwise (fun a b => ¬ dep b a) →
      ∀ m x, seq body l m (.inl x) = seq body l' m (.inl x) := by
  intro l
  induction l with
  | nil =>
    intro l' hp _ _ _ _ m x
    rw [List.nil_perm.mp hp]
  | cons a l ih =>
    intro l' hp hnd hlt h1 h2 m x
    obtain ⟨p, q, rfl⟩ := List.append_of_mem (hp.mem_iff.mp (List.mem_cons_self ..))
    have hnd' := hp.nodup_iff.mp hnd
    have hpq : (a :: l).Perm (a :: (p ++ q)) := hp.trans List.perm_middle
    have hl : l.Perm (p ++ q) := List.Perm.cons_inv hpq
    rw [List.nodup_cons] at hnd
    rw [List.pairwise_cons] at h1
    have h2' := List.pairwise_append.mp h2
    have key := to_front hb ho (hlt a (List.mem_cons_self ..)) p q m (fun b hbp => by
      have hbl : b ∈ l := hl.mem_iff.mpr (List.mem_append_left _ hbp)
      refine ⟨hlt b (List.mem_cons_of_mem _ hbl), fun e => hnd.1 (e ▸ hbl), ?_, h1.1 b hbl⟩
      exact h2'.2.2 b hbp a (List.mem_cons_self ..)) x
    rw [key]
    refine ih (p ++ q) hl hnd.2 (fun t ht => hlt t (List.mem_cons_of_mem _ ht)) h1.2 ?_ _ x
    refine List.pairwise_append.mpr ⟨h2'.1, (List.pairwise_cons.mp h2'.2.1).2, fun b hbp c hc => ?_⟩
    exact h2'.2.2 b hbp c (List.mem_cons_of_mem _ hc)

end

/-! ## steps of the scheduler -/

theorem stepR_ends {C : Cfg} (s : St C) (ok : Nat → Pc) (fail : Pc) (k : RPc → Pc) (rp : RPc) :
    (stepR s ok fail k rp).1.ends = s.ends ∧ ((stepR s ok fail k rp).2 = fail ∨ (∃ r, (stepR s ok fail k rp).2 = ok r)
      ∨ ∃ q, (stepR s ok fail k rp).2 = k q) := by
  cases rp with
  | climb r up todo =>
    cases todo with
    | nil => exact ⟨rfl, .inr (.inl ⟨r, rfl⟩)⟩
    | cons f fs =>
      unfold stepR
      dsimp only
      by_cases h : s.lock f
      · rw [if_pos h]; exact ⟨rfl, .inr (.inr ⟨_, rfl⟩)⟩
      · rw [if_neg h]; exact ⟨rfl, .inr (.inr ⟨_, rfl⟩)⟩
  | failD todo =>
    cases todo with
    | nil => exact ⟨rfl, .inl rfl⟩
    | cons f fs => exact ⟨rfl, .inr (.inr ⟨_, rfl⟩)⟩
  | chk1 r =>
    unfold stepR
    dsimp only
    by_cases h : s.hold r ≠ 0
    · rw [if_pos h]; exact ⟨rfl, .inl rfl⟩
    · rw [if_neg h]; exact ⟨rfl, .inr (.inr ⟨_, rfl⟩)⟩
  | tryl r =>
    unfold stepR
    dsimp only
    by_cases h : s.lock r
    · rw [if_pos h]; exact ⟨rfl, .inl rfl⟩
    · rw [if_neg h]; exact ⟨rfl, .inr (.inr ⟨_, rfl⟩)⟩
  | chk2 r =>
    unfold stepR
    dsimp only
    by_cases h : s.hold r ≠ 0
    · rw [if_pos h]; exact ⟨rfl, .inr (.inr ⟨_, rfl⟩)⟩
    · rw [if_neg h]; exact ⟨rfl, .inr (.inr ⟨_, rfl⟩)⟩
  | inc r up f fs => exact ⟨rfl, .inr (.inr ⟨_, rfl⟩)⟩
  | relf r up f fs => exact ⟨rfl, .inr (.inr ⟨_, rfl⟩)⟩
  | failU r up => exact ⟨rfl, .inr (.inr ⟨_, rfl⟩)⟩

theorem stepU_ends {C : Cfg} (s : St C) (done : Pc) (k : UPc → Pc) (u : UPc) :
    (stepU s done k u).1.ends = s.ends ∧ ((stepU s done k u).2 = done ∨ ∃ q, (stepU s done k u).2 = k q) := by
  cases u with
  | unl r => exact ⟨rfl, .inr ⟨_, rfl⟩⟩
  | dec todo =>
    cases todo with
    | nil => exact ⟨rfl, .inl rfl⟩
    | cons f fs => exact ⟨rfl, .inr ⟨_, rfl⟩⟩

/-- what a step of the scheduler does to the position of the worker and to the counter of ended tasks -/
theorem step_pc {C : Cfg} {s s' : St C} {th : Fin C.nth} {ch : Nat} (h : step C s th ch = some s') :
    ∃ p, s'.pc = Function.update s.pc th p ∧ ((∀ t, s.pc th ≠ .call t) → ∀ t id, p ≠ .run t id)
      ∧ (∀ t, s.pc th = .call t → p = .run t (s.tqid t)) ∧ ((∀ t id, s.pc th ≠ .run t id) → s'.ends = s.ends)
      ∧ (∀ t id, s.pc th = .run t id → s'.ends = Function.update s.ends t (s.ends t + 1)) := by
  unfold step at h
  obtain ⟨⟨s1, p⟩, h1, h2⟩ := Option.map_eq_some_iff.mp h
  subst h2
  refine ⟨p, rfl, ?_⟩
  unfold act at h1
  cases hpc : s.pc th <;> simp only [hpc] at h1
  case run t id =>
    cases h1
    exact ⟨(fun _ => by simp), (fun t h => by simp at h), (fun h => absurd rfl (h t id)), (fun t' id' h => by cases h; rfl)⟩
  case call t =>
    cases h1
    exact ⟨(fun h => absurd rfl (h t)), (fun t' h => by cases h; rfl), (fun _ => rfl), (fun t' id' h => by simp at h)⟩
  case lockIn c k t got todo rp =>
    have e := stepR_ends s (fun r => .lockNext c k t (r :: got) todo) (.rollNext c k t got) (.lockIn c k t got todo) rp
    rw [Option.some.inj h1] at e
    refine ⟨fun _ t' id hp => ?_, (fun t' h => by simp at h), (fun _ => e.1), (fun t' id' h => by simp at h)⟩
    rcases e.2 with e | ⟨r, e⟩ | ⟨r, e⟩ <;> simp [hp] at e
  case rollIn c k t got up =>
    have e := stepU_ends s (.rollNext c k t got) (.rollIn c k t got) up
    rw [Option.some.inj h1] at e
    refine ⟨fun _ t' id hp => ?_, (fun t' h => by simp at h), (fun _ => e.1), (fun t' id' h => by simp at h)⟩
    rcases e.2 with e | ⟨r, e⟩ <;> simp [hp] at e
  case relIn t todo up =>
    have e := stepU_ends s (.relNext t todo) (.relIn t todo) up
    rw [Option.some.inj h1] at e
    refine ⟨fun _ t' id hp => ?_, (fun t' h => by simp at h), (fun _ => e.1), (fun t' id' h => by simp at h)⟩
    rcases e.2 with e | ⟨r, e⟩ <;> simp [hp] at e
  all_goals
    suffices hs : s1.ends = s.ends ∧ ∀ t id, p ≠ .run t id from
      ⟨(fun _ => hs.2), (fun t h => by simp at h), (fun _ => hs.1), (fun t id h => by simp at h)⟩
  case exited => cases h1
  case others l => cases l <;> simp only at h1 <;> cases h1 <;> (refine ⟨rfl, fun t id => ?_⟩; (repeat' split) <;> simp)
  case lockNext c k t got todo => cases todo <;> cases h1 <;> exact ⟨rfl, fun t id => by simp⟩
  case rollNext c k t got => cases got <;> cases h1 <;> exact ⟨rfl, fun t id => by simp⟩
  case relNext t todo => cases todo <;> cases h1 <;> exact ⟨rfl, fun t id => by simp⟩
  case deps t todo => cases todo <;> cases h1 <;> (refine ⟨rfl, fun t id => ?_⟩; (repeat' split) <;> simp)
  case relq c o =>
    cases h1
    refine ⟨rfl, fun t id => ?_⟩
    cases o with
    | some t => simp
    | none =>
      change afterFail c.cont ≠ _
      unfold afterFail
      split <;> simp
  case acq q cont =>
    split at h1
    · cases cont <;> cases h1
      exact ⟨rfl, fun t id => by simp⟩
    · cases h1
      exact ⟨rfl, fun t id => by simp⟩
  case putL t us u q =>
    split at h1
    · cases h1
    · cases h1
      exact ⟨rfl, fun t id => by simp⟩
  all_goals
    cases h1
    refine ⟨rfl, fun t id => ?_⟩
    (repeat' split) <;> simp

/-! ## every execution is equivalent to a sequential one -/

theorem XReach.reach {C : Cfg} {body : Nat → Nat → Prog (Place L) V} {x0 x : XSt C L V} (h : XReach C body x0 x) : Reach C x0.st x.st := by
  induction h with
  | refl => exact .refl
  | step _ hs ih =>
    cases hs with
    | sched th ch h _ _ => exact .step th ch ih h
    | call th ch t h _ => exact .step th ch ih h
    | read th _ _ => exact ih
    | write th _ _ => exact ih

/-- what the scheduler guarantees (C01, C02, C18) about a set of `n` tasks with dependencies `dep` -/
structure Guarantees (C : Cfg) (s0 : St C) (n : Nat) (dep : Nat → Nat → Prop) : Prop where
  start : ∀ th t id, ¬ Runs s0 th t id
  none : ∀ t, s0.ends t = 0
  counts : ∀ s, Reach C s0 s → ∀ t, s.ends t ≤ s.starts t ∧ s.starts t ≤ 1
  runs : ∀ s, Reach C s0 s → ∀ th t id, Runs s th t id → t < n ∧ s.starts t = 1 ∧ s.ends t = 0 ∧ ∀ th' id', Runs s th' t id' → th' = th
  deps : ∀ s, Reach C s0 s → ∀ a b, dep a b → s.starts b ≠ 0 → s.ends a = 1
  ids : ∀ s, Reach C s0 s → ∀ th th' t t' id id', th ≠ th' → Runs s th t id → Runs s th' t' id' → id ≠ id'
  exit : ∀ s, Reach C s0 s → (∃ th, s.pc th = .exited) → ∀ t < n, s.ends t = 1

section
variable {C : Cfg} {R W : Nat → L → Prop} {body : Nat → Nat → Prog (Place L) V} {n : Nat} {dep : Nat → Nat → Prop}

/-- the memory is that of a sequential execution of the ended tasks `l`, except for what the running tasks write, and each running task
will leave what it would leave if it started now -/
structure Sim (R W : Nat → L → Prop) (body : Nat → Nat → Prog (Place L) V) (n : Nat) (dep : Nat → Nat → Prop) (m0 : Place L → V)
    (x : XSt C L V) (l : List Nat) : Prop where
  nodup : l.Nodup
  mem : ∀ t, t ∈ l ↔ x.st.ends t = 1
  lt : ∀ t ∈ l, t < n
  order : l.Pairwise fun a b => ¬ dep b a
  running : ∀ th t id, Runs x.st th t id → Within (R t) (W t) id (x.prog th)
    ∧ ∀ y, W t y → (x.prog th).run x.mem (.inl y) = (body t 0).run (seq body l m0) (.inl y)
  rest : ∀ y, (∀ th t id, Runs x.st th t id → ¬ W t y) → x.mem (.inl y) = seq body l m0 (.inl y)

/-- tasks that run at the same time do not conflict -/
theorem Guarantees.free {s0 : St C} (g : Guarantees C s0 n dep) (ho : Ordered n dep R W) {s : St C} (hr : Reach C s0 s)
    {th th' : Fin C.nth} {a b id id' : Nat} (hne : th ≠ th') (h1 : Runs s th a id) (h2 : Runs s th' b id') :
    ∀ y, W a y → ¬ W b y ∧ ¬ R b y := by
  have ra := g.runs s hr th a id h1
  have rb := g.runs s hr th' b id' h2
  have hab : a ≠ b := by
    rintro rfl
    exact hne (ra.2.2.2 th' id' h2).symm
  refine ho.free ra.1 rb.1 hab (fun h => ?_) (fun h => ?_)
  · have := g.deps s hr a b h (by omega)
    omega
  · have := g.deps s hr b a h (by omega)
    omega

theorem sim_step (hb : WellBehaved R W body) (ho : Ordered n dep R W) {s0 : St C} (g : Guarantees C s0 n dep) {m0 : Place L → V}
    {x x' : XSt C L V} (hr : Reach C s0 x.st) (hr' : Reach C s0 x'.st) (hs : XStep C body x x') {l : List Nat}
    (h : Sim R W body n dep m0 x l) : ∃ l', Sim R W body n dep m0 x' l' := by
  cases hs with
  | read th hpc hp =>
    rename_i t id p k
    refine ⟨l, h.nodup, h.mem, h.lt, h.order, fun th' t' id' hrun => ?_, h.rest⟩
    by_cases he : th' = th
    · subst he
      obtain ⟨w, e⟩ := h.running th' t' id' hrun
      rw [hp] at w e
      simp only [Function.update_self]
      refine ⟨?_, e⟩
      cases p with
      | inl y => exact w.2 _
      | inr i => exact w.2 _
    · simp only [Function.update_of_ne he]
      exact h.running th' t' id' hrun
  | write th hpc hp =>
    rename_i t id p v k
    have hrun0 : Runs x.st th t id := hpc
    obtain ⟨w0, e0⟩ := h.running th t id hrun0
    rw [hp] at w0 e0
    refine ⟨l, h.nodup, h.mem, h.lt, h.order, fun th' t' id' hrun => ?_, fun y hy => ?_⟩
    · by_cases he : th' = th
      · subst he
        have e : t' = t ∧ id' = id := by
          have : Pc.run t' id' = Pc.run t id := hrun.symm.trans hpc
          cases this
          exact ⟨rfl, rfl⟩
        obtain ⟨rfl, rfl⟩ := e
        simp only [Function.update_self]
        refine ⟨?_, e0⟩
        cases p with
        | inl y => exact w0.2
        | inr i => exact w0.2
      · simp only [Function.update_of_ne he]
        obtain ⟨w, e⟩ := h.running th' t' id' hrun
        refine ⟨w, fun y hy => ?_⟩
        rw [← e y hy]
        refine run_congr w _ _ (fun z hz => ?_) ?_ y (.inr hy)
        · cases p with
          | inl q =>
            refine Function.update_of_ne ?_ _ _
            intro hq
            cases hq
            have := g.free ho hr (Ne.symm he) hrun0 hrun z w0.1
            rcases hz with hz | hz
            · exact this.2 hz
            · exact this.1 hz
          | inr i => exact Function.update_of_ne (by simp) _ _
        · cases p with
          | inl q => exact Function.update_of_ne (by simp) _ _
          | inr i =>
            refine Function.update_of_ne ?_ _ _
            intro hq
            cases hq
            exact g.ids x.st hr th th' t t' id id' (Ne.symm he) hrun0 hrun w0.1.symm
    · have : x.mem (.inl y) = _ := h.rest y hy
      rw [← this]
      cases p with
      | inl q =>
        refine Function.update_of_ne ?_ _ _
        intro hq
        cases hq
        exact hy th t id hrun0 w0.1
      | inr i => exact Function.update_of_ne (a' := Sum.inr i) (a := Sum.inl y) (fun h => by cases h) v x.mem
  | call th ch t hst hpc =>
    rename_i s'
    obtain ⟨p, hp1, -, hp2, hp3, -⟩ := step_pc hst
    have hp := hp2 t hpc
    subst hp
    have hends := hp3 (fun t' id h' => by rw [hpc] at h'; cases h')
    have hold : ∀ th', th' ≠ th → s'.pc th' = x.st.pc th' := fun th' he => by rw [hp1, Function.update_of_ne he]
    have hnew : Runs s' th t (x.st.tqid t) := by
      change s'.pc th = _
      rw [hp1, Function.update_self]
    have hno : ∀ t' id, ¬ Runs x.st th t' id := fun t' id h' => by
      have : x.st.pc th = _ := h'
      rw [hpc] at this
      cases this
    refine ⟨l, h.nodup, fun t' => ?_, h.lt, h.order, fun th' t' id' hrun => ?_, fun y hy => ?_⟩
    · rw [h.mem]
      change _ ↔ s'.ends t' = 1
      rw [hends]
    · by_cases he : th' = th
      · subst he
        have e : t' = t ∧ id' = x.st.tqid t := by
          have : Pc.run t' id' = Pc.run t (x.st.tqid t) := hrun.symm.trans hnew
          cases this
          exact ⟨rfl, rfl⟩
        obtain ⟨rfl, rfl⟩ := e
        simp only [Function.update_self]
        refine ⟨hb.within _ _, fun y hy => ?_⟩
        refine hb.results t' _ 0 _ _ (fun z hz => h.rest z ?_) y hy
        intro th2 t2 id2 hrun2
        have hne : th2 ≠ th' := by
          rintro rfl
          exact hno t2 id2 hrun2
        have hrun2' : Runs s' th2 t2 id2 := (hold th2 hne).trans hrun2
        intro hW
        have := g.free ho hr' hne hrun2' hnew z hW
        rcases hz with hz | hz
        · exact this.2 hz
        · exact this.1 hz
      · simp only [Function.update_of_ne he]
        exact h.running th' t' id' ((hold th' he).symm.trans hrun)
    · refine h.rest y (fun th2 t2 id2 hrun2 => ?_)
      have hne : th2 ≠ th := by
        rintro rfl
        exact hno t2 id2 hrun2
      exact hy th2 t2 id2 ((hold th2 hne).trans hrun2)
  | sched th ch hst hncall hdone =>
    rename_i s'
    obtain ⟨p, hp1, hp2, -, hp3, hp4⟩ := step_pc hst
    have hnrun := hp2 hncall
    have hold : ∀ th', th' ≠ th → s'.pc th' = x.st.pc th' := fun th' he => by rw [hp1, Function.update_of_ne he]
    have hno' : ∀ t' id, ¬ Runs s' th t' id := fun t' id h' => by
      have : s'.pc th = _ := h'
      rw [hp1, Function.update_self] at this
      exact hnrun t' id this
    by_cases hrun : ∃ t id, x.st.pc th = .run t id
    · -- a task ends
      obtain ⟨t, id, hpc⟩ := hrun
      have hends := hp4 t id hpc
      have hrun0 : Runs x.st th t id := hpc
      have rt := g.runs x.st hr th t id hrun0
      have hd := hdone t id hpc
      obtain ⟨-, e0⟩ := h.running th t id hrun0
      rw [hd] at e0
      have hseq : seq body (l ++ [t]) m0 = (body t 0).run (seq body l m0) := by
        unfold seq
        rw [List.foldl_append]
        rfl
      refine ⟨l ++ [t], ?_, fun t' => ?_, ?_, ?_, fun th' t' id' hrun' => ?_, fun y hy => ?_⟩
      · refine List.nodup_append.mpr ⟨h.nodup, by simp, ?_⟩
        intro a ha b hb' hab
        rw [List.mem_singleton] at hb'
        subst hab hb'
        have := (h.mem a).mp ha
        omega
      · rw [List.mem_append, List.mem_singleton, h.mem]
        change _ ↔ s'.ends t' = 1
        rw [hends]
        by_cases ht : t' = t
        · subst ht
          rw [Function.update_self]
          omega
        · rw [Function.update_of_ne ht]
          constructor
          · rintro (h | h)
            · exact h
            · exact absurd h ht
          · exact .inl
      · intro a ha
        rcases List.mem_append.mp ha with ha | ha
        · exact h.lt a ha
        · rw [List.mem_singleton.mp ha]
          exact rt.1
      · refine List.pairwise_append.mpr ⟨h.order, by simp, fun a ha b hb' => ?_⟩
        rw [List.mem_singleton.mp hb']
        intro hdep
        have h1 := (h.mem a).mp ha
        have h2 := g.counts x.st hr a
        have := g.deps x.st hr t a hdep (by omega)
        omega
      · have hne : th' ≠ th := by
          rintro rfl
          exact hno' t' id' hrun'
        have hrun1 : Runs x.st th' t' id' := (hold th' hne).symm.trans hrun'
        obtain ⟨w, e⟩ := h.running th' t' id' hrun1
        refine ⟨w, fun y hy => ?_⟩
        refine (e y hy).trans ?_
        rw [hseq]
        refine hb.results t' 0 0 _ _ (fun z hz => ?_) y hy
        refine (run_frame (hb.within t 0) _ z ?_).symm
        intro hW
        have := g.free ho hr (Ne.symm hne) hrun0 hrun1 z hW
        rcases hz with hz | hz
        · exact this.2 hz
        · exact this.1 hz
      · rw [hseq]
        by_cases hW : W t y
        · exact e0 y hW
        · rw [run_frame (hb.within t 0) _ y hW]
          refine h.rest y (fun th2 t2 id2 hrun2 => ?_)
          by_cases he : th2 = th
          · subst he
            have : Pc.run t2 id2 = Pc.run t id := hrun2.symm.trans hpc
            cases this
            exact hW
          · exact hy th2 t2 id2 ((hold th2 he).trans hrun2)
    · -- nothing the tasks can notice
      have hnr : ∀ t id, x.st.pc th ≠ .run t id := fun t id h' => hrun ⟨t, id, h'⟩
      have hends := hp3 hnr
      refine ⟨l, h.nodup, fun t' => ?_, h.lt, h.order, fun th' t' id' hrun' => ?_, fun y hy => ?_⟩
      · rw [h.mem]
        change _ ↔ s'.ends t' = 1
        rw [hends]
      · have hne : th' ≠ th := by
          rintro rfl
          exact hno' t' id' hrun'
        exact h.running th' t' id' ((hold th' hne).symm.trans hrun')
      · refine h.rest y (fun th2 t2 id2 hrun2 => ?_)
        have hne : th2 ≠ th := by
          rintro rfl
          exact hnr t2 id2 hrun2
        exact hy th2 t2 id2 ((hold th2 hne).trans hrun2)

theorem sim_reach (hb : WellBehaved R W body) (ho : Ordered n dep R W) {x0 x : XSt C L V} (g : Guarantees C x0.st n dep)
    (hr : XReach C body x0 x) : ∃ l, Sim R W body n dep x0.mem x l := by
  induction hr with
  | refl =>
    refine ⟨[], List.nodup_nil, fun t => ?_, by simp, List.Pairwise.nil, fun th t id h => absurd h (g.start th t id), fun y _ => rfl⟩
    rw [g.none t]
    simp
  | step h hs ih =>
    obtain ⟨l, hl⟩ := ih
    exact sim_step hb ho g h.reach (XReach.step h hs).reach hs hl

/-- all threads, all interleavings of all reads and writes: once a thread has left, the memory is what the tasks leave if they are run one by
one, in any order that respects the dependencies -/
theorem final (hb : WellBehaved R W body) (ho : Ordered n dep R W) {x0 x : XSt C L V} (g : Guarantees C x0.st n dep)
    (hr : XReach C body x0 x) (he : ∃ th, x.st.pc th = .exited) (order : List Nat) (hord : Order (List.range n) dep order) (y : L) :
    x.mem (.inl y) = seq body order x0.mem (.inl y) := by
  obtain ⟨l, h⟩ := sim_reach hb ho g hr
  have hend := g.exit x.st hr.reach he
  have hnone : ∀ th t id, ¬ Runs x.st th t id := by
    intro th t id hrun
    have := g.runs x.st hr.reach th t id hrun
    have := hend t this.1
    omega
  rw [h.rest y (fun th t id hrun => absurd hrun (hnone th t id))]
  have hperm : l.Perm (List.range n) := by
    refine (List.perm_ext_iff_of_nodup h.nodup List.nodup_range).mpr (fun t => ?_)
    rw [List.mem_range]
    exact ⟨h.lt t, fun ht => (h.mem t).mpr (hend t ht)⟩
  exact seq_perm hb ho l order (hperm.trans hord.1.symm) h.nodup h.lt h.order hord.2 x0.mem y

end

/-! ## executions can be completed -/

theorem XReach.trans {C : Cfg} {body : Nat → Nat → Prog (Place L) V} {x y z : XSt C L V} (h1 : XReach C body x y) (h2 : XReach C body y z) :
    XReach C body x z := by
  induction h2 with
  | refl => exact h1
  | step _ hs ih => exact .step ih hs

/-- a task that executes can always come to its end -/
theorem drain {C : Cfg} {body : Nat → Nat → Prog (Place L) V} {t id : Nat} {th : Fin C.nth} : ∀ (p : Prog (Place L) V) (x : XSt C L V),
    x.prog th = p → x.st.pc th = .run t id → ∃ x', XReach C body x x' ∧ x'.st = x.st ∧ x'.prog th = .done
  | .done, x, hp, _ => ⟨x, .refl, rfl, hp⟩
  | .read q k, x, hp, hpc => by
    obtain ⟨x', h1, h2, h3⟩ := drain (k (x.mem q)) { x with prog := Function.update x.prog th (k (x.mem q)) } (by simp) hpc
    exact ⟨x', (XReach.step .refl (.read th hpc hp)).trans h1, h2, h3⟩
  | .write q v k, x, hp, hpc => by
    obtain ⟨x', h1, h2, h3⟩ := drain k { x with mem := Function.update x.mem q v, prog := Function.update x.prog th k } (by simp) hpc
    exact ⟨x', (XReach.step .refl (.write th hpc hp)).trans h1, h2, h3⟩

theorem can_finish {C : Cfg} {body : Nat → Nat → Prog (Place L) V} {s : St C} (h : CanFinish C s) :
    ∀ x : XSt C L V, x.st = s → ∃ x', XReach C body x x' ∧ AllExited x'.st := by
  induction h with
  | done h => intro x hx; exact ⟨x, .refl, hx ▸ h⟩
  | step th able next ih =>
    rename_i s
    intro x hx
    subst hx
    obtain ⟨s', hs'⟩ := Option.isSome_iff_exists.mp (able 0)
    by_cases hc : ∃ t, x.st.pc th = .call t
    · obtain ⟨t, hc⟩ := hc
      obtain ⟨x', h1, h2⟩ := ih 0 s' hs' { x with st := s', prog := Function.update x.prog th (body t (x.st.tqid t)) } rfl
      exact ⟨x', (XReach.step .refl (.call th 0 t hs' hc)).trans h1, h2⟩
    · have hc' : ∀ t, x.st.pc th ≠ .call t := fun t h => hc ⟨t, h⟩
      by_cases hrun : ∃ t id, x.st.pc th = .run t id
      · obtain ⟨t, id, hpc⟩ := hrun
        obtain ⟨y, g1, g2, g3⟩ := drain (body := body) (x.prog th) x rfl hpc
        obtain ⟨x', h1, h2⟩ := ih 0 s' hs' { y with st := s' } rfl
        refine ⟨x', g1.trans ((XReach.step .refl (.sched th 0 (by rw [g2]; exact hs') (by rw [g2]; exact hc') (fun _ _ _ => g3))).trans h1), h2⟩
      · obtain ⟨x', h1, h2⟩ := ih 0 s' hs' { x with st := s' } rfl
        exact ⟨x', (XReach.step .refl (.sched th 0 hs' hc' (fun t id h => absurd ⟨t, id, h⟩ hrun))).trans h1, h2⟩

end Verif.Exec

namespace Verif.Api
open Verif.Exec Verif.Store

/-- the dependencies between task ids that a sequence of calls declares -/
def DependsOn (ops : List Op) : Nat → Nat → Prop := Relation.TransGen fun a b => Op.link .deps a b ∈ ops

/-- **C80** for every user of the scheduler: take any properly used sequence of calls without circular dependencies, and tasks whose conflicting
accesses are ordered by the declared dependencies, and which use the auxiliary space of the thread number they are told.  With any number of
queues and at most that many threads, every interleaving of every single read and write of the tasks, once one thread has left, has produced
in every shared location the value that the tasks produce when they are run one after the other on one thread, in whatever order respects the
dependencies; and this point can always be reached. -/
theorem c80_api {L V : Type} [DecidableEq L] (J Jp : Junk) (l : List (Op × Junk)) (ops : List Op) (hl : l.map Prod.fst = ops)
    (hfit : PayloadsAtMost 8000 ops) (hv : Proper ops) (nq nth : Nat) (hq : 0 < nq) (hth : nth ≤ nq) (weight0 : Nat → Int)
    {R W : Nat → L → Prop} {body : Nat → Nat → Prog (Place L) V} (hb : WellBehaved R W body)
    (ho : Ordered (tasksOf ops).length (DependsOn ops) R W) (m0 : Place L → V) :
    ∃ s, exec (l ++ [(.prepare, Jp)]) (init J) = some s ∧
      (prepareOf s nq weight0 = none ↔ Prepare.HasCycle (tasksOf ops).length (fun t => linksOf .deps t ops)) ∧
      ∀ r, prepareOf s nq weight0 = some r → ∀ pr x, XReach _ body ⟨startOf s nq nth r, m0, pr⟩ x →
        ((∃ th, x.st.pc th = .exited) → ∀ order, Order (List.range (tasksOf ops).length) (DependsOn ops) order →
          ∀ y, x.mem (.inl y) = seq body order m0 (.inl y)) ∧
        ((∀ t, (linksOf .locks t ops).Pairwise fun x x' => ¬ Sched.Conflict (parentOf ops) x x') →
          ∃ x', XReach _ body x x' ∧ Sched.AllExited x'.st) := by
  obtain ⟨s, hs, hcyc, hrun⟩ := api_run J Jp l ops hl hfit hv nq nth hq weight0
  refine ⟨s, hs, hcyc, fun r hr pr x hx => ?_⟩
  have hall := hrun r hr
  refine ⟨fun he order hord y => ?_, fun hN => ?_⟩
  · refine final (x0 := ⟨startOf s nq nth r, m0, pr⟩) hb ho ?_ hx he order hord y
    refine ⟨?_, ?_, fun st h => (hall st h).1, fun st h => (hall st h).2.1, ?_, ?_, ?_⟩
    · intro th t id h
      cases h
    · intro t
      rfl
    · intro st h a b hab
      have h1 := (hall st h).1
      have h3 := (hall st h).2.2.1
      induction hab with
      | single hl => intro hb; exact h3 _ _ hl hb
      | tail _ hl ih =>
        intro hb
        have := h3 _ _ hl hb
        refine ih (fun h0 => ?_)
        have h9 := fun t => (h1 t).1
        have := Nat.le_trans (Nat.le_of_eq this.symm) (h9 _)
        omega
    · intro st h th th' t t' id id' hne g1 g2
      exact ((hall st h).2.2.2.2.2.2 hth th th' t t' id id' hne g1 g2).1
    · intro st h hex t ht
      exact ((hall st h).2.2.2.2.1 hex t ht).2
  · exact can_finish ((hall x.st hx.reach).2.2.2.2.2.1 hN) x rfl

end Verif.Api

namespace Verif.Graph
open Verif.Exec Verif.Store Verif.Api

variable {P : Params} {l : List Call}

/-- there is an order in which the tasks of a table calculation can be run one by one -/
theorem order_exists (hn : 0 < P.nt) (h : generate P = some l) : ∃ order, Order (tasksIn l) (Before l) order := by
  obtain ⟨rank, hrank⟩ : ∃ rank : Tk → Nat, ∀ a b, Before l a b → rank a < rank b :=
    ⟨_, fun a b hab => trans_rank hn (gen_nq h) ((before_iff hn h).mp hab)⟩
  refine ⟨(tasksIn l).mergeSort (fun a b => decide (rank a ≤ rank b)), List.mergeSort_perm _ _, ?_⟩
  have := List.pairwise_mergeSort (le := fun a b => decide (rank a ≤ rank b))
    (fun a b c h1 h2 => by simp only [decide_eq_true_eq] at *; omega) (fun a b => by simp; omega) (tasksIn l)
  refine this.imp (fun hab hba => ?_)
  have := hrank _ _ hba
  simp only [decide_eq_true_eq] at hab
  omega

/-- the program of the task with a given id -/
def bodyOf {V : Type} (l : List Call) (body : Tk → Nat → Prog (Place Loc) V) (i : Nat) : Nat → Prog (Place Loc) V :=
  match (tasksIn l)[i]? with
  | some t => body t
  | none => fun _ => .done

theorem bodyOf_tid {V : Type} (body : Tk → Nat → Prog (Place Loc) V) {t : Tk} (h : t ∈ tasksIn l) : bodyOf l body (tid l t) = body t := by
  have : (tasksIn l)[tid l t]? = some t := by
    unfold tid
    rw [List.getElem?_eq_getElem (List.idxOf_lt_length_of_mem h), List.getElem_idxOf]
  unfold bodyOf
  rw [this]

theorem seq_ids {V : Type} (body : Tk → Nat → Prog (Place Loc) V) : ∀ (o : List Tk), (∀ t ∈ o, t ∈ tasksIn l) →
    ∀ m, seq (bodyOf l body) (o.map (tid l)) m = seq body o m := by
  intro o
  induction o with
  | nil => intro _ m; rfl
  | cons t o ih =>
    intro ho m
    have := ih (fun t' ht' => ho t' (List.mem_cons_of_mem _ ht')) ((body t 0).run m)
    rw [← bodyOf_tid body (ho t (List.mem_cons_self ..))] at this
    refine this.trans ?_
    rw [bodyOf_tid body (ho t (List.mem_cons_self ..))]
    rfl

/-- **C80** for a table calculation: for all inputs, all numbers of queues and at most as many threads, and all interleavings of the threads,
down to single reads and writes: when the first thread leaves, every piece of data (in particular all results) is what the tasks produce when they are run one by one
on a single thread, in any order that respects the dependencies; so it does not depend on the number of threads, the timing, the random
choices or the weights.  That point can always be reached, and such an order exists (`order_exists`). -/
theorem c80_table {V : Type} (hP : Sensible P) (h : generate P = some l) {body : Tk → Nat → Prog (Place Loc) V}
    (hb : WellBehaved (fun t x => x ∈ reads P t) (fun t x => x ∈ writes P t) body) (m0 : Place Loc → V)
    (ty : Tk → Nat) (pl : Tk → List Nat) (hpl : ∀ t, (pl t).length ≤ 8000) (J Jp : Junk) (hist : List (Op × Junk))
    (hh : hist.map Prod.fst = toOps ty pl l) (nq nth : Nat) (hq : 0 < nq) (hth : nth ≤ nq) (weight0 : Nat → Int) :
    ∃ s r, exec (hist ++ [(.prepare, Jp)]) (init J) = some s ∧ prepareOf s nq weight0 = some r ∧
      ∀ pr x, XReach _ (bodyOf l body) ⟨startOf s nq nth r, m0, pr⟩ x →
        ((∃ th, x.st.pc th = .exited) → ∀ order, Order (tasksIn l) (Before l) order → ∀ y, x.mem (.inl y) = seq body order m0 (.inl y)) ∧
        ∃ x', XReach _ (bodyOf l body) x x' ∧ Sched.AllExited x'.st := by
  have hn := hP.slots
  have hnd := nodup_tasksIn hn h
  have hfit : PayloadsAtMost 8000 (toOps ty pl l) := by
    intro a b c d hm
    unfold toOps at hm
    obtain ⟨x, hx, e⟩ := List.mem_map.1 hm
    cases x <;> simp [toOp] at e
    rw [← e.2.2.2]
    exact hpl _
  have hlen : (tasksOf (toOps ty pl l)).length = (tasksIn l).length := by
    unfold toOps; rw [tasksOf_toOps, List.length_map]
  -- dependencies between ids and between tasks
  have hfrom : ∀ i j, DependsOn (toOps ty pl l) i j → ∃ a b, a ∈ tasksIn l ∧ b ∈ tasksIn l ∧ Before l a b ∧ i = tid l a ∧ j = tid l b := by
    intro i j hij
    induction hij with
    | single hl =>
      obtain ⟨a, b, h1, h2, h3⟩ := (link_ids ty pl).1 hl
      exact ⟨a, b, (link_mem hn h h1).1, (link_mem hn h h1).2, .single h1, h2, h3⟩
    | tail _ hl ih =>
      obtain ⟨a, b, ha, hb, h1, rfl, rfl⟩ := ih
      obtain ⟨b', c, h4, h5, rfl⟩ := (link_ids ty pl).1 hl
      have := tid_inj hb h5
      subst this
      exact ⟨a, c, ha, (link_mem hn h h4).2, .tail h1 h4, rfl, rfl⟩
  have hto : ∀ a b, Before l a b → DependsOn (toOps ty pl l) (tid l a) (tid l b) := by
    intro a b hab
    induction hab with
    | single hl => exact .single ((link_ids ty pl).2 ⟨_, _, hl, rfl, rfl⟩)
    | tail _ hl ih => exact .tail ih ((link_ids ty pl).2 ⟨_, _, hl, rfl, rfl⟩)
  have hget : ∀ i, i < (tasksIn l).length → ∃ t, t ∈ tasksIn l ∧ tid l t = i ∧ (tasksIn l)[i]? = some t := by
    intro i hi
    refine ⟨(tasksIn l)[i], List.getElem_mem hi, hnd.idxOf_getElem i hi, List.getElem?_eq_getElem hi⟩
  -- accesses of the task with a given id
  have hwb : WellBehaved (fun i x => ∃ t, (tasksIn l)[i]? = some t ∧ x ∈ reads P t) (fun i x => ∃ t, (tasksIn l)[i]? = some t ∧ x ∈ writes P t)
      (bodyOf l body) := by
    constructor
    · intro i id
      unfold bodyOf
      cases hi : (tasksIn l)[i]? with
      | none => trivial
      | some t =>
        have := hb.within t id
        simpa using this
    · intro i id id' m m' hm x hx
      obtain ⟨t, ht, hx⟩ := hx
      unfold bodyOf
      rw [ht]
      refine hb.results t id id' m m' (fun y hy => hm y ?_) x hx
      rcases hy with hy | hy
      · exact .inl ⟨t, ht, hy⟩
      · exact .inr ⟨t, ht, hy⟩
  have hord : Ordered (tasksOf (toOps ty pl l)).length (DependsOn (toOps ty pl l))
      (fun i x => ∃ t, (tasksIn l)[i]? = some t ∧ x ∈ reads P t) (fun i x => ∃ t, (tasksIn l)[i]? = some t ∧ x ∈ writes P t) := by
    intro i j hi hj hne x hxi hxj
    rw [hlen] at hi hj
    obtain ⟨a, ha, rfl, ea⟩ := hget i hi
    obtain ⟨b, hb', rfl, eb⟩ := hget j hj
    have hab : a ≠ b := fun e => hne (by rw [e])
    have h1 : x ∈ writes P a := by
      obtain ⟨t, ht, hx⟩ := hxi
      rw [ea] at ht
      cases ht
      exact hx
    have h2 : x ∈ writes P b ∨ x ∈ reads P b := by
      rcases hxj with ⟨t, ht, hx⟩ | ⟨t, ht, hx⟩
      · rw [eb] at ht
        cases ht
        exact .inl hx
      · rw [eb] at ht
        cases ht
        exact .inr hx
    rcases c24_ordered hP h (mem_tasksIn.1 ha) (mem_tasksIn.1 hb') hab h1 h2 with g | g
    · exact .inl (hto _ _ g)
    · exact .inr (hto _ _ g)
  obtain ⟨s, hs, hcyc, hrun⟩ := c80_api J Jp hist (toOps ty pl l) hh hfit (proper hn h ty pl) nq nth hq hth weight0 hwb hord m0
  cases hr : prepareOf s nq weight0 with
  | none => exact absurd (hcyc.1 hr) (no_cycle_ids hn h ty pl _)
  | some r =>
    refine ⟨s, r, hs, hr, fun pr x hx => ?_⟩
    obtain ⟨h1, h2⟩ := hrun r hr pr x hx
    refine ⟨fun he order ho y => ?_, h2 (no_self_conflict hn h ty pl)⟩
    have hmem : ∀ t ∈ order, t ∈ tasksIn l := fun t ht => ho.1.mem_iff.mp ht
    have := h1 he (order.map (tid l)) ⟨?_, ?_⟩ y
    · rw [this, seq_ids body order hmem]
    · rw [hlen]
      refine (ho.1.map (tid l)).trans ?_
      refine List.Perm.of_eq (List.ext_getElem (by simp) (fun i h1 h2 => ?_))
      simp only [List.getElem_map, List.getElem_range]
      exact hnd.idxOf_getElem i (by simpa using h1)
    · rw [List.pairwise_map]
      refine List.Pairwise.imp_of_mem ?_ ho.2
      intro a b ha hb' hnot hd
      obtain ⟨b', a', hbm, ham, hba, e1, e2⟩ := hfrom _ _ hd
      have := tid_inj hbm e1.symm
      have := tid_inj ham e2.symm
      subst_vars
      exact hnot hba

/-- **C80** two runs of the same calculation, with different numbers of queues and threads, different timing, different random choices, different
contents of uninitialised memory, end with the same data -/
theorem c80_same {V : Type} (hP : Sensible P) (h : generate P = some l) {body : Tk → Nat → Prog (Place Loc) V}
    (hb : WellBehaved (fun t x => x ∈ reads P t) (fun t x => x ∈ writes P t) body) (m0 m0' : Place Loc → V) (hm : ∀ y, m0 (.inl y) = m0' (.inl y))
    (ty : Tk → Nat) (pl : Tk → List Nat) (hpl : ∀ t, (pl t).length ≤ 8000)
    (J Jp : Junk) (hist : List (Op × Junk)) (hh : hist.map Prod.fst = toOps ty pl l) (nq nth : Nat) (hq : 0 < nq) (hth : nth ≤ nq) (weight0 : Nat → Int)
    (J' Jp' : Junk) (hist' : List (Op × Junk)) (hh' : hist'.map Prod.fst = toOps ty pl l) (nq' nth' : Nat) (hq' : 0 < nq') (hth' : nth' ≤ nq')
    (weight0' : Nat → Int) (s s' r r') (hs : exec (hist ++ [(.prepare, Jp)]) (init J) = some s)
    (hs' : exec (hist' ++ [(.prepare, Jp')]) (init J') = some s') (hr : prepareOf s nq weight0 = some r) (hr' : prepareOf s' nq' weight0' = some r')
    (pr pr' x x') (hx : XReach _ (bodyOf l body) ⟨startOf s nq nth r, m0, pr⟩ x) (hx' : XReach _ (bodyOf l body) ⟨startOf s' nq' nth' r', m0', pr'⟩ x')
    (he : ∃ th, x.st.pc th = .exited) (he' : ∃ th, x'.st.pc th = .exited) (y : Loc) : x.mem (.inl y) = x'.mem (.inl y) := by
  obtain ⟨order, ho⟩ := order_exists hP.slots h
  obtain ⟨s1, r1, e1, e2, key⟩ := c80_table hP h hb m0 ty pl hpl J Jp hist hh nq nth hq hth weight0
  obtain ⟨s2, r2, e3, e4, key'⟩ := c80_table hP h hb m0' ty pl hpl J' Jp' hist' hh' nq' nth' hq' hth' weight0'
  obtain rfl : s = s1 := Option.some.inj (hs.symm.trans e1)
  obtain rfl : s' = s2 := Option.some.inj (hs'.symm.trans e3)
  obtain rfl : r = r1 := Option.some.inj (hr.symm.trans e2)
  obtain rfl : r' = r2 := Option.some.inj (hr'.symm.trans e4)
  rw [(key pr x hx).1 he order ho y, (key' pr' x' hx').1 he' order ho y]
  clear key key'
  revert y
  -- only the shared locations matter
  have gen : ∀ (o : List Tk) (m m' : Place Loc → V), (∀ y, m (.inl y) = m' (.inl y)) → ∀ y, seq body o m (.inl y) = seq body o m' (.inl y) := by
    intro o
    induction o with
    | nil => intro m m' h y; exact h y
    | cons t o ih =>
      intro m m' h y
      refine ih _ _ (fun z => ?_) y
      by_cases hz : z ∈ writes P t
      · exact hb.results t 0 0 m m' (fun w _ => h w) z hz
      · exact (run_frame (hb.within t 0) m z hz).trans ((h z).trans (run_frame (hb.within t 0) m' z hz).symm)
  exact gen order m0 m0' hm

/-! ## tasks that meet the hypotheses: each adds up all its inputs in the auxiliary space, and stores the sum in all its outputs -/

def sumRead : List Loc → Nat → (Nat → Prog (Place Loc) Nat) → Prog (Place Loc) Nat
  | [], acc, k => k acc
  | x :: xs, acc, k => .read (.inl x) fun v => sumRead xs (acc + v) k

def sumWrite : List Loc → Nat → Prog (Place Loc) Nat
  | [], _ => .done
  | x :: xs, v => .write (.inl x) v (sumWrite xs v)

def sumBody (P : Params) (t : Tk) (id : Nat) : Prog (Place Loc) Nat :=
  sumRead (reads P t) 1 fun acc => .write (.inr id) acc (.read (.inr id) fun v => sumWrite (writes P t) v)

theorem sumRead_run (m : Place Loc → Nat) (k : Nat → Prog (Place Loc) Nat) :
    ∀ xs acc, (sumRead xs acc k).run m = (k (acc + (xs.map fun x => m (.inl x)).sum)).run m := by
  intro xs
  induction xs with
  | nil => intro acc; simp [sumRead]
  | cons x xs ih =>
    intro acc
    change (sumRead xs (acc + m (.inl x)) k).run m = _
    rw [ih, List.map_cons, List.sum_cons, Nat.add_assoc]

theorem sumWrite_run (v : Nat) : ∀ (xs : List Loc) (m : Place Loc → Nat) x, (sumWrite xs v).run m (.inl x) = if x ∈ xs then v else m (.inl x) := by
  intro xs
  induction xs with
  | nil => intro m x; simp [sumWrite, Prog.run]
  | cons y xs ih =>
    intro m x
    change (sumWrite xs v).run (Function.update m (.inl y) v) (.inl x) = _
    rw [ih]
    by_cases hx : x ∈ xs
    · simp [hx]
    · by_cases hxy : x = y
      · subst hxy
        simp [hx]
      · simp [hx, hxy]

theorem sum_wellBehaved (P : Params) : WellBehaved (fun t x => x ∈ reads P t) (fun t x => x ∈ writes P t) (sumBody P) := by
  constructor
  · intro t id
    have hw : ∀ (xs : List Loc) v, (∀ x ∈ xs, x ∈ writes P t) → Within (fun x => x ∈ reads P t) (fun x => x ∈ writes P t) id (sumWrite xs v) := by
      intro xs
      induction xs with
      | nil => intro v _; trivial
      | cons y xs ih => intro v h; exact ⟨h y (List.mem_cons_self ..), ih v (fun x hx => h x (List.mem_cons_of_mem _ hx))⟩
    have hr : ∀ (xs : List Loc) acc, (∀ x ∈ xs, x ∈ reads P t) → Within (fun x => x ∈ reads P t) (fun x => x ∈ writes P t) id
        (sumRead xs acc fun acc => .write (.inr id) acc (.read (.inr id) fun v => sumWrite (writes P t) v)) := by
      intro xs
      induction xs with
      | nil => intro acc _; exact ⟨rfl, rfl, fun v => hw _ v (fun x hx => hx)⟩
      | cons y xs ih => intro acc h; exact ⟨.inl (h y (List.mem_cons_self ..)), fun v => ih _ (fun x hx => h x (List.mem_cons_of_mem _ hx))⟩
    exact hr (reads P t) 1 (fun x hx => hx)
  · intro t id id' m m' hm x hx
    have e : ∀ id (m : Place Loc → Nat), (sumBody P t id).run m (.inl x) = 1 + ((reads P t).map fun x => m (.inl x)).sum := by
      intro id m
      unfold sumBody
      rw [sumRead_run]
      generalize 1 + ((reads P t).map fun x => m (.inl x)).sum = acc
      change (sumWrite (writes P t) ((Function.update m (.inr id) acc) (.inr id))).run (Function.update m (.inr id) acc) (.inl x) = acc
      rw [sumWrite_run, if_pos hx, Function.update_self]
    rw [e, e]
    congr 2
    exact List.map_congr_left fun y hy => hm y (.inl hy)

example : ∃ l order, generate exP = some l ∧ Order (tasksIn l) (Before l) order ∧ order ≠ [] := by
  obtain ⟨l, hl⟩ := c19_total (P := exP) (by decide)
  obtain ⟨order, ho⟩ := order_exists (P := exP) (by decide) hl
  refine ⟨l, order, hl, ho, fun e => ?_⟩
  have : Tk.nbased ∈ tasksIn l := mem_tasksIn.2 ((task_iff (by decide) hl).2 trivial)
  rw [e] at ho
  have := ho.1.mem_iff.mpr this
  simp at this

end Verif.Graph
