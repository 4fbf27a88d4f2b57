import Verif.Proofs.GraphData
import Verif.Properties.Api

/-!
# The task graph of CosTuuM (C19, C22, C23, C24)
-/
namespace Verif.Graph
open Verif Verif.Store Verif.Api

variable {P : Params} {l : List Call}

theorem before_iff (hn : 0 < P.nt) (h : generate P = some l) {a b : Tk} :
    Before l a b ↔ Relation.TransGen (Lk P) a b := by
  unfold Before
  have : (fun a b => Call.link a b ∈ l) = Lk P := by
    funext a b; exact propext (link_iff hn h)
  rw [this]

/-- **C19.** For all numbers of orders, shapes, compositions, sizes, wavelengths, slots, and all choices of quantities:
no task of the generated graph depends on itself. -/
theorem c19_acyclic (hn : 0 < P.nt) (h : generate P = some l) (t : Tk) : ¬ Before l t t := by
  rw [before_iff hn h]
  intro ht
  exact Nat.lt_irrefl _ (trans_rank hn (gen_nq h) ht)

/-- **C19, violated.** If the minimum order equals the maximum order (no orders to try) and there is anything to
compute, the null pointer `previous_m0task` is dereferenced. -/
theorem c19_violated : generate ⟨0, 1, 1, 1, 1, 1, 1, fun _ => true⟩ = none := by
  unfold generate
  rw [if_pos]
  refine ⟨rfl, by decide, ?_⟩
  decide

/-- With at least one order there is no such problem. -/
theorem c19_total (hq : 0 < P.nq) : ∃ l, generate P = some l := by
  unfold generate
  rw [if_neg (by omega)]
  exact ⟨_, rfl⟩

/-- **C22.** Whatever a task reads was written by the task it is meant to be written by, and by no other task in
between, in every order of execution that respects the dependencies. -/
theorem c22_reads (hP : Sensible P) (h : generate P = some l) {b : Tk} (hb : Call.task b ∈ l) {x : Loc}
    (hx : x ∈ reads P b) : Sees P l b x := by
  have e : ∀ a b, Before l a b ↔ Relation.TransGen (Lk P) a b := fun a b => before_iff hP.slots h
  have t : ∀ a, Call.task a ∈ l ↔ Tsk P a := fun a => task_iff hP.slots h
  unfold Sees
  simp only [e, t]
  rcases sees hP ((t b).1 hb) hx with ⟨a, h1, h2⟩ | ⟨h1, h2⟩
  · rw [h1]; exact h2
  · rw [h1]; exact h2

/-- **C23.** Two T-matrix calculations that use the same slot do not overlap: all tasks of the one that was created
first end before any task of the other one starts. -/
theorem c23_slots (hP : Sensible P) (h : generate P = some l) {a b : Tk} (ha : Call.task a ∈ l) (hb : Call.task b ∈ l)
    {c c' : Cell} (hca : cellOf a = some c) (hcb : cellOf b = some c') (hs : slot P c = slot P c')
    (hlt : pos P c < pos P c') : Before l a b :=
  (before_iff hP.slots h).2 (before_cell hP ((task_iff hP.slots h).1 ha) ((task_iff hP.slots h).1 hb) hca hcb hs hlt)

/-- **C24.** Two different tasks that access the same data, at least one of them writing, are ordered by the
dependencies. -/
theorem c24_ordered (hP : Sensible P) (h : generate P = some l) {a b : Tk} (ha : Call.task a ∈ l)
    (hb : Call.task b ∈ l) (hne : a ≠ b) {x : Loc} (hxa : x ∈ writes P a) (hxb : x ∈ writes P b ∨ x ∈ reads P b) :
    Before l a b ∨ Before l b a := by
  rcases hxb with hxb | hxb
  · have := writers_ordered hP ((task_iff hP.slots h).1 ha) ((task_iff hP.slots h).1 hb) hxa hxb
    simp only [before_iff hP.slots h]
    rcases this with h | h
    · exact absurd h hne
    · exact h
  · have := c22_reads hP h hb hxb
    unfold Sees at this
    split at this
    · rename_i s _
      obtain ⟨h1, h2, h3, h4⟩ := this
      rcases h4 a ha hxa with rfl | rfl | h5 | h5
      · exact .inl h3
      · exact absurd rfl hne
      · exact .inl (.trans h5 h3)
      · exact .inr h5
    · rcases this a ha hxa with h | h
      · exact absurd h hne
      · exact .inr h

/-! ## Ids -/

theorem tasksIn_append (a b : List Call) : tasksIn (a ++ b) = tasksIn a ++ tasksIn b := by simp [tasksIn]
theorem resIn_append (a b : List Call) : resIn (a ++ b) = resIn a ++ resIn b := by simp [resIn]

theorem tasksIn_regs (l : List Call) : (tasksIn l).map Reg.t = (regs l).filter fun | .t _ => true | _ => false := by
  induction l with
  | nil => rfl
  | cons x l ih =>
    cases x <;> simp_all [tasksIn, regs, regOf, List.filterMap_cons]

theorem resIn_regs (l : List Call) : (resIn l).map Reg.r = (regs l).filter fun | .r _ => true | _ => false := by
  induction l with
  | nil => rfl
  | cons x l ih =>
    cases x <;> simp_all [resIn, regs, regOf, List.filterMap_cons]

/-- Every task object is registered once. -/
theorem nodup_tasksIn (hn : 0 < P.nt) (h : generate P = some l) : (tasksIn l).Nodup := by
  have := (nodup_regs hn h).filter fun | .t _ => true | _ => false
  rw [← tasksIn_regs] at this
  exact List.Nodup.of_map _ this

/-- Every resource object is registered once. -/
theorem nodup_resIn (hn : 0 < P.nt) (h : generate P = some l) : (resIn l).Nodup := by
  have := (nodup_regs hn h).filter fun | .r _ => true | _ => false
  rw [← resIn_regs] at this
  exact List.Nodup.of_map _ this

theorem Sc_split {T : Tk → Prop} {R : Rs → Prop} {pre post : List Call} {x : Call} (h : Sc T R (pre ++ x :: post)) :
    match x with
    | .res _ p => ∀ r', p = some r' → R r' ∨ HasRes pre r'
    | .task _ => True
    | .link a b => (T a ∨ Call.task a ∈ pre) ∧ (T b ∨ Call.task b ∈ pre)
    | .lock t r => (T t ∨ Call.task t ∈ pre) ∧ (R r ∨ HasRes pre r)
    | .use t r => (T t ∨ Call.task t ∈ pre) ∧ (R r ∨ HasRes pre r) := by
  rw [Sc_append] at h
  have h2 := h.2
  cases x with
  | task _ => trivial
  | _ => exact h2.1

theorem mem_resIn {r : Rs} : r ∈ resIn l ↔ HasRes l r := by
  unfold resIn HasRes
  rw [List.mem_filterMap]
  constructor
  · rintro ⟨x, h1, h2⟩
    cases x <;> simp at h2
    subst h2; exact ⟨_, h1⟩
  · rintro ⟨p, h⟩; exact ⟨_, h, rfl⟩

theorem tasksOf_toOps (ts : List Tk) (rs : List Rs) (ty : Tk → Nat) (pl : Tk → List Nat) (l : List Call) :
    tasksOf (l.map (toOp ts rs ty pl)) = (tasksIn l).map fun t => (ty t, 0, 1, pl t) := by
  induction l with
  | nil => rfl
  | cons x l ih =>
    cases x <;> simp_all [tasksIn, tasksOf, toOp, List.filterMap_cons]

/-- registered resources with their parents -/
def resPairs (l : List Call) : List (Rs × Option Rs) := l.filterMap fun | .res r p => some (r, p) | _ => none

theorem resIn_pairs (l : List Call) : resIn l = (resPairs l).map Prod.fst := by
  induction l with
  | nil => rfl
  | cons x l ih =>
    cases x <;> simp_all [resIn, resPairs, List.filterMap_cons]

theorem resOf_toOps (ts : List Tk) (rs : List Rs) (ty : Tk → Nat) (pl : Tk → List Nat) (l : List Call) :
    resOf (l.map (toOp ts rs ty pl)) = (resPairs l).map fun x => (none, x.2.map fun r => rs.idxOf r) := by
  induction l with
  | nil => rfl
  | cons x l ih =>
    cases x <;> simp_all [resPairs, resOf, toOp, List.filterMap_cons]

theorem mem_resPairs {r : Rs} {p : Option Rs} : (r, p) ∈ resPairs l ↔ Call.res r p ∈ l := by
  unfold resPairs
  rw [List.mem_filterMap]
  constructor
  · rintro ⟨x, h1, h2⟩
    cases x <;> simp at h2
    obtain ⟨rfl, rfl⟩ := h2; exact h1
  · intro h; exact ⟨_, h, rfl⟩

theorem idxOf_pre {α} [DecidableEq α] {a b : List α} {x : α} (h : x ∈ a) : (a ++ b).idxOf x < a.length := by
  rw [List.idxOf_append_of_mem h]
  exact List.idxOf_lt_length_of_mem h

/-- **Well-formed history.** The calls of the task generation use the scheduler as documented. -/
theorem proper (hn : 0 < P.nt) (h : generate P = some l) (ty : Tk → Nat) (pl : Tk → List Nat) :
    Proper (toOps ty pl l) := by
  have hsc := sc_generate hn h
  have key : ∀ pre post k t v, toOps ty pl l = pre ++ Op.link k t v :: post →
      ∃ pre' x post', l = pre' ++ x :: post' ∧ pre'.map (toOp (tasksIn l) (resIn l) ty pl) = pre ∧
        toOp (tasksIn l) (resIn l) ty pl x = Op.link k t v := by
    intro pre post k t v hx
    unfold toOps at hx
    obtain ⟨l1, l2, h1, h2, h3⟩ := List.map_eq_append_iff.1 hx
    obtain ⟨x, l3, h4, h5, h6⟩ := List.map_eq_cons_iff.1 h3
    exact ⟨l1, x, l3, by rw [h1, h4], h2, h5⟩
  refine ⟨?_, ?_, ?_⟩
  · intro pre post k t v hx
    obtain ⟨pre', x, post', h1, h2, h3⟩ := key pre post k t v hx
    have hs := hsc
    rw [h1] at hs
    have hs := Sc_split hs
    rw [← h2, tasksOf_toOps, List.length_map]
    have fin : ∀ a, Call.task a ∈ pre' → (tasksIn l).idxOf a < (tasksIn pre').length := by
      intro a ha
      conv_lhs => rw [h1, tasksIn_append]
      exact idxOf_pre (mem_tasksIn.2 ha)
    cases x with
    | res _ _ => simp [toOp] at h3
    | task _ => simp [toOp] at h3
    | link a b =>
      simp only [toOp, Op.link.injEq] at h3
      rw [← h3.2.1]
      exact fin a (by simpa using hs.1)
    | lock a b =>
      simp only [toOp, Op.link.injEq] at h3
      rw [← h3.2.1]
      exact fin a (by simpa using hs.1)
    | use a b =>
      simp only [toOp, Op.link.injEq] at h3
      rw [← h3.2.1]
      exact fin a (by simpa using hs.1)
  · intro t v hm
    obtain ⟨pre, post, hx⟩ := List.append_of_mem hm
    obtain ⟨pre', x, post', h1, h2, h3⟩ := key pre post .deps t v hx
    have hs := hsc
    rw [h1] at hs
    have hs := Sc_split hs
    unfold toOps
    rw [tasksOf_toOps, List.length_map]
    cases x with
    | link a b =>
      simp only [toOp, Op.link.injEq] at h3
      rw [← h3.2.2]
      refine List.idxOf_lt_length_of_mem (mem_tasksIn.2 ?_)
      have : Call.task b ∈ pre' := by simpa using hs.2
      rw [h1]
      simp [this]
    | _ => simp [toOp] at h3
  · intro pre post o p hx
    unfold toOps at hx
    obtain ⟨l1, l2, h1, h2, h3⟩ := List.map_eq_append_iff.1 hx
    obtain ⟨x, l3, h4, h5, h6⟩ := List.map_eq_cons_iff.1 h3
    have hl : l = l1 ++ x :: l3 := by rw [h1, h4]
    have hs := hsc
    rw [hl] at hs
    have hs := Sc_split hs
    cases x with
    | res r q =>
      simp only [toOp, Op.res.injEq] at h5
      obtain ⟨r', rfl, h7⟩ := Option.map_eq_some_iff.1 h5.2
      rw [← h2, resOf_toOps, List.length_map, ← h7]
      have h8 : HasRes l1 r' := by simpa using hs r' rfl
      have e : (resPairs l1).length = (resIn l1).length := by rw [resIn_pairs, List.length_map]
      rw [e]
      conv_lhs => rw [hl, resIn_append]
      exact idxOf_pre (mem_resIn.2 h8)
    | _ => simp [toOp] at h5

/-! ## No task locks conflicting resources itself -/

/-- the only task with two locks is the m = 0 task -/
theorem two_locks (hn : 0 < P.nt) (h : generate P = some l) {t : Tk} {r r' : Rs} (h1 : Call.lock t r ∈ l)
    (h2 : Call.lock t r' ∈ l) (hne : r ≠ r') :
    ∃ i c, (r = .tmM i 0 ∧ r' = .conv c) ∨ (r = .conv c ∧ r' = .tmM i 0) := by
  have one : ∀ {r}, Call.lock t r ∈ l →
      (match t with
        | .nbased => r = .nbased
        | .gauss i => r = .gauss i
        | .grid q => r = .grid q
        | .swig q => r = .swig q
        | .wigner i => r = .wigner i
        | .geom is ig => r = .geom is ig
        | .avg q p => r = .result q p
        | .inter c _ => r = .inter (slot P c)
        | .m0 c _ => r = .tmM (2 * slot P c) 0 ∨ r = .conv c
        | .align c => r = .tm (2 * slot P c)
        | .meas q c => r = .unav q c
        | .reset1 c => r = .tm (2 * slot P c)
        | .reset2 c => r = .tm (2 * slot P c + 1)
        | .reset3 c => r = .inter (slot P c)
        | .mall c m => r = .tmM (2 * slot P c) m) := by
    intro r hr
    rw [mem_generate hn h] at hr
    rcases hr with hr | ⟨p, hp, hr⟩ | ⟨c, hc, hr⟩
    · simp only [fixedCalls, List.mem_append, List.mem_cons, List.mem_flatMap, List.mem_map, List.not_mem_nil,
        or_false, reduceCtorEq, false_or, Call.lock.injEq, and_false, exists_false, exists_const] at hr
      rcases hr with ((((h | ⟨_, _, h⟩) | ⟨_, _, h⟩) | ⟨_, _, h⟩) | ⟨_, _, h⟩) | ⟨_, _, _, _, h⟩ <;>
        obtain ⟨rfl, rfl⟩ := h <;> rfl
    · simp only [headCalls, List.mem_cons, List.mem_flatMap, List.not_mem_nil,
        or_false, reduceCtorEq, false_or, Call.lock.injEq] at hr
      obtain ⟨_, _, rfl, rfl⟩ := hr
      rfl
    · have hr' : Reg.l t r ∈ cellRegs P c (slot P c) := by
        rw [← regs_cell c (slot P c) (unl P (pos P c))]
        exact List.mem_filterMap.2 ⟨_, hr, rfl⟩
      simp only [cellRegs, List.mem_append, List.mem_map, List.mem_flatMap, List.mem_cons, List.not_mem_nil,
        or_false, reduceCtorEq, false_or, Reg.l.injEq, and_false, exists_false] at hr'
      rcases hr' with (((⟨_, _, h | h | h⟩ | h) | ⟨_, _, h⟩) | (h | h | h)) | ⟨_, _, h⟩ <;>
        obtain ⟨rfl, rfl⟩ := h <;> simp
  have o1 := one h1
  have o2 := one h2
  cases t <;> simp only at o1 o2
  case m0 c ig =>
    rcases o1 with rfl | rfl <;> rcases o2 with rfl | rfl
    · exact absurd rfl hne
    · exact ⟨_, _, .inl ⟨rfl, rfl⟩⟩
    · exact ⟨_, _, .inr ⟨rfl, rfl⟩⟩
    · exact absurd rfl hne
  all_goals exact absurd (o1.trans o2.symm) hne

theorem res_parent (hn : 0 < P.nt) (h : generate P = some l) {r y : Rs} (hr : Call.res r (some y) ∈ l) :
    ∃ i m, r = .tmM i m ∧ y = .tm i := by
  rw [mem_generate hn h] at hr
  rcases hr with hr | ⟨p, hp, hr⟩ | ⟨c, hc, hr⟩
  · simp [fixedCalls] at hr
    obtain ⟨i, _, m, _, rfl, rfl⟩ := hr
    exact ⟨i, m, rfl, rfl⟩
  · simp [headCalls] at hr
  · have hord : ∀ ig, Call.res r (some y) ∉ orderCalls c (slot P c) (unl P (pos P c)) ig := by
      intro ig
      by_cases h : ig = 0 <;> cases unl P (pos P c) <;> simp [orderCalls, h]
    simp [cellCalls, hord, measCalls, resetCalls, mallCalls] at hr

theorem parentOf_rid (hn : 0 < P.nt) (h : generate P = some l) (ty : Tk → Nat) (pl : Tk → List Nat) {r : Rs}
    (hr : r ∈ resIn l) {p : Nat} (hp : parentOf (toOps ty pl l) (rid l r) = some p) :
    ∃ i m, r = .tmM i m ∧ p = rid l (.tm i) := by
  unfold parentOf toOps at hp
  rw [resOf_toOps] at hp
  obtain ⟨x, hx, hxp⟩ := Option.bind_eq_some_iff.1 hp
  rw [List.getElem?_map] at hx
  obtain ⟨⟨r', p'⟩, h1, h2⟩ := Option.map_eq_some_iff.1 hx
  subst h2
  obtain ⟨y, h3, h4⟩ := Option.map_eq_some_iff.1 hxp
  simp only at h3
  subst h3
  have h5 : (resIn l)[rid l r]? = some r' := by
    rw [resIn_pairs, List.getElem?_map, h1]; rfl
  have h6 : (resIn l)[rid l r]? = some r := by
    unfold rid
    rw [List.getElem?_eq_getElem (List.idxOf_lt_length_of_mem hr), List.getElem_idxOf]
  rw [h6] at h5
  cases h5
  obtain ⟨i, m, rfl, rfl⟩ := res_parent hn h (mem_resPairs.1 (List.mem_of_getElem? h1))
  exact ⟨i, m, rfl, h4.symm⟩

theorem rid_inj {r r' : Rs} (hr : r ∈ resIn l) (h : rid l r = rid l r') : r = r' :=
  (List.idxOf_inj hr).1 h

theorem tid_inj {t t' : Tk} (ht : t ∈ tasksIn l) (h : tid l t = tid l t') : t = t' :=
  (List.idxOf_inj ht).1 h

/-- every lock mentions a registered task and a registered resource -/
theorem lock_mem (hn : 0 < P.nt) (h : generate P = some l) {t : Tk} {r : Rs} (hl : Call.lock t r ∈ l) :
    t ∈ tasksIn l ∧ r ∈ resIn l := by
  obtain ⟨pre, post, rfl⟩ := List.append_of_mem hl
  have hs := Sc_split (sc_generate hn h)
  simp only [false_or] at hs
  refine ⟨mem_tasksIn.2 (by simp [hs.1]), mem_resIn.2 ?_⟩
  obtain ⟨p, hp⟩ := hs.2
  exact ⟨p, by simp [hp]⟩

theorem link_mem (hn : 0 < P.nt) (h : generate P = some l) {a b : Tk} (hl : Call.link a b ∈ l) :
    a ∈ tasksIn l ∧ b ∈ tasksIn l := by
  obtain ⟨pre, post, rfl⟩ := List.append_of_mem hl
  have hs := Sc_split (sc_generate hn h)
  simp only [false_or] at hs
  exact ⟨mem_tasksIn.2 (by simp [hs.1]), mem_tasksIn.2 (by simp [hs.2])⟩

/-- a resource without children that has no parent conflicts with nothing else -/
theorem no_conflict (hn : 0 < P.nt) (h : generate P = some l) (ty : Tk → Nat) (pl : Tk → List Nat) {i : Nat} {c : Cell}
    (h1 : Rs.tmM i 0 ∈ resIn l) (h2 : Rs.conv c ∈ resIn l) :
    ¬ Sched.Conflict (parentOf (toOps ty pl l)) (rid l (.tmM i 0)) (rid l (.conv c)) := by
  rintro (h3 | h3 | h3)
  · cases rid_inj h1 h3
  · obtain ⟨b, -, hb⟩ := Relation.TransGen.tail'_iff.1 h3
    obtain ⟨i, m, h4, -⟩ := parentOf_rid hn h ty pl h2 hb
    cases h4
  · obtain ⟨b, hb1, hb2⟩ := Relation.TransGen.tail'_iff.1 h3
    obtain ⟨i', m, h4, rfl⟩ := parentOf_rid hn h ty pl h1 hb2
    cases h4
    rcases Relation.reflTransGen_iff_eq_or_transGen.1 hb1 with h5 | h5
    · cases rid_inj h2 h5.symm
    · obtain ⟨b', -, hb'⟩ := Relation.TransGen.tail'_iff.1 h5
      by_cases h6 : Rs.tm i ∈ resIn l
      · obtain ⟨_, _, h7, -⟩ := parentOf_rid hn h ty pl h6 hb'
        cases h7
      · -- not registered: no parent
        unfold parentOf at hb'
        unfold rid at hb'
        rw [List.idxOf_eq_length h6] at hb'
        unfold toOps at hb'
        rw [resOf_toOps, List.getElem?_eq_none (by rw [List.length_map, resIn_pairs, List.length_map])] at hb'
        cases hb'

/-- the locks of one task -/
def locksIn (t : Tk) (l : List Call) : List Rs :=
  l.filterMap fun | .lock t' r => if t' = t then some r else none | _ => none

theorem locksIn_regs (t : Tk) (l : List Call) : (locksIn t l).map (Reg.l t) =
    (regs l).filter fun | .l t' _ => decide (t' = t) | _ => false := by
  induction l with
  | nil => rfl
  | cons x l ih =>
    cases x <;> simp_all [locksIn, regs, regOf, List.filterMap_cons]
    case lock t' r =>
      by_cases e : t' = t
      · subst e; simp [ih]
      · simp [e, ih]

theorem mem_locksIn {t : Tk} {r : Rs} : r ∈ locksIn t l ↔ Call.lock t r ∈ l := by
  unfold locksIn
  rw [List.mem_filterMap]
  constructor
  · rintro ⟨x, h1, h2⟩
    cases x <;> simp at h2
    obtain ⟨rfl, rfl⟩ := h2; exact h1
  · intro h; exact ⟨_, h, by simp⟩

theorem linksOf_locks (hn : 0 < P.nt) (h : generate P = some l) (ty : Tk → Nat) (pl : Tk → List Nat) {t : Tk}
    (ht : t ∈ tasksIn l) : linksOf .locks (tid l t) (toOps ty pl l) = (locksIn t l).map (rid l) := by
  unfold linksOf toOps locksIn
  rw [List.filterMap_map, List.map_filterMap]
  apply List.filterMap_congr
  intro x hx
  cases x <;> simp [toOp]
  case lock t' r =>
    have h1 := (lock_mem hn h hx).1
    by_cases e : t' = t
    · subst e; simp [tid, rid]
    · rw [if_neg (show ¬ List.idxOf t' (tasksIn l) = tid l t from fun e2 => e (tid_inj h1 e2)), if_neg e]

theorem no_self_conflict (hn : 0 < P.nt) (h : generate P = some l) (ty : Tk → Nat) (pl : Tk → List Nat) (k : Nat) :
    (linksOf .locks k (toOps ty pl l)).Pairwise fun x x' =>
      ¬ Sched.Conflict (parentOf (toOps ty pl l)) x x' := by
  by_cases hk : ∃ t ∈ tasksIn l, k = tid l t
  · obtain ⟨t, ht, rfl⟩ := hk
    rw [linksOf_locks hn h ty pl ht, List.pairwise_map]
    have hnd : (locksIn t l).Nodup := by
      have := (nodup_regs hn h).filter fun | .l t' _ => decide (t' = t) | _ => false
      rw [← locksIn_regs] at this
      exact List.Nodup.of_map _ this
    refine List.Pairwise.imp_of_mem ?_ hnd
    intro r r' hr hr' hne
    have m1 := lock_mem hn h (mem_locksIn.1 hr)
    have m2 := lock_mem hn h (mem_locksIn.1 hr')
    obtain ⟨i, c, ⟨rfl, rfl⟩ | ⟨rfl, rfl⟩⟩ := two_locks hn h (mem_locksIn.1 hr) (mem_locksIn.1 hr') hne
    · exact no_conflict hn h ty pl m1.2 m2.2
    · intro hc
      refine no_conflict hn h ty pl m2.2 m1.2 ?_
      rcases hc with h | h | h
      · exact .inl h.symm
      · exact .inr (.inr h)
      · exact .inr (.inl h)
  · have : linksOf .locks k (toOps ty pl l) = [] := by
      rw [List.eq_nil_iff_forall_not_mem]
      intro v hv
      rw [mem_linksOf] at hv
      unfold toOps at hv
      obtain ⟨x, hx, hx2⟩ := List.mem_map.1 hv
      cases x <;> simp [toOp] at hx2
      exact hk ⟨_, (lock_mem hn h hx).1, hx2.1.symm⟩
    rw [this]
    exact List.Pairwise.nil

/-! ## The run -/

theorem link_ids (ty : Tk → Nat) (pl : Tk → List Nat) {i j : Nat} :
    Op.link .deps i j ∈ toOps ty pl l ↔ ∃ a b, Call.link a b ∈ l ∧ i = tid l a ∧ j = tid l b := by
  unfold toOps
  rw [List.mem_map]
  constructor
  · rintro ⟨x, hx, e⟩
    cases x <;> simp [toOp] at e
    exact ⟨_, _, hx, e.1.symm, e.2.symm⟩
  · rintro ⟨a, b, hx, rfl, rfl⟩
    exact ⟨_, hx, rfl⟩

theorem no_cycle_ids (hn : 0 < P.nt) (h : generate P = some l) (ty : Tk → Nat) (pl : Tk → List Nat) (n : Nat) :
    ¬ Prepare.HasCycle n (fun t => linksOf .deps t (toOps ty pl l)) := by
  rintro ⟨i, hi⟩
  have key : ∀ i j, Relation.TransGen (Prepare.Link n (fun t => linksOf .deps t (toOps ty pl l))) i j →
      ∃ a b, a ∈ tasksIn l ∧ b ∈ tasksIn l ∧ Before l a b ∧ i = tid l a ∧ j = tid l b := by
    intro i j hij
    induction hij with
    | single hl =>
      obtain ⟨a, b, h1, h2, h3⟩ := (link_ids ty pl).1 (mem_linksOf.1 hl.2)
      exact ⟨a, b, (link_mem hn h h1).1, (link_mem hn h h1).2, .single h1, h2, h3⟩
    | tail _ hl ih =>
      obtain ⟨a, b, ha, hb, h1, rfl, rfl⟩ := ih
      obtain ⟨b', c, h4, h5, rfl⟩ := (link_ids ty pl).1 (mem_linksOf.1 hl.2)
      have := tid_inj hb h5
      subst this
      exact ⟨a, c, ha, (link_mem hn h h4).2, .tail h1 h4, rfl, rfl⟩
  obtain ⟨a, b, ha, hb, h1, h2, h3⟩ := key i i hi
  have := tid_inj ha (h2.symm.trans h3)
  subst this
  exact c19_acyclic hn h a h1

/-- **A complete calculation.**  For all sensible parameters, all payloads the wrapper could hand over (at most 8000
bytes), all contents of uninitialised memory, any positive number of queues and any number of threads: the calls
that `TaskManager` makes leave a valid scheduler, the run starts, and in every state that any interleaving of the
threads can reach: no task has been started twice; two tasks that execute at the same time never touch the same data
with one of them writing; a task that executes finds in all its inputs exactly what the intended task wrote (which has
ended; other tasks that write the same data ended before that one started, or have not started); when the first
thread leaves, all tasks have been executed exactly once; and the calculation can always be completed. -/
theorem graph_run (hP : Sensible P) (h : generate P = some l) (ty : Tk → Nat) (pl : Tk → List Nat)
    (hpl : ∀ t, (pl t).length ≤ 8000) (J Jp : Junk) (hist : List (Op × Junk))
    (hh : hist.map Prod.fst = toOps ty pl l) (nq nth : Nat) (hq : 0 < nq) (weight0 : Nat → Int) :
    ∃ s r, exec (hist ++ [(.prepare, Jp)]) (init J) = some s ∧ prepareOf s nq weight0 = some r ∧
      ∀ st, Sched.Reach _ (startOf s nq nth r) st →
        (∀ t, st.starts (tid l t) ≤ 1) ∧
        (∀ th th' a b id id', Call.task a ∈ l → Call.task b ∈ l → th ≠ th' → Sched.Runs st th (tid l a) id →
          Sched.Runs st th' (tid l b) id' → ∀ x ∈ writes P a, x ∉ writes P b ∧ x ∉ reads P b) ∧
        (∀ th b id, Call.task b ∈ l → Sched.Runs st th (tid l b) id → ∀ x ∈ reads P b,
          (∀ a, source P b x = some a → x ∈ writes P a ∧ st.ends (tid l a) = 1) ∧
          ∀ w, Call.task w ∈ l → x ∈ writes P w → w ≠ b → source P b x ≠ some w →
            st.starts (tid l w) = 0 ∨
            ∃ a, source P b x = some a ∧ Before l w a ∧ st.ends (tid l w) = 1) ∧
        ((∃ th, st.pc th = .exited) → ∀ t, Call.task t ∈ l → st.starts (tid l t) = 1 ∧ st.ends (tid l t) = 1) ∧
        Sched.CanFinish _ st := by
  have hn := hP.slots
  have hfit : PayloadsAtMost 8000 (toOps ty pl l) := by
    intro a b c d hm
    unfold toOps at hm
    obtain ⟨x, hx, e⟩ := List.mem_map.1 hm
    cases x <;> simp [toOp] at e
    rw [← e.2.2.2]
    exact hpl _
  obtain ⟨s, hs, hcyc, hrun⟩ := api_run J Jp hist (toOps ty pl l) hh hfit (proper hn h ty pl) nq nth hq weight0
  have hlen : (tasksOf (toOps ty pl l)).length = (tasksIn l).length := by
    unfold toOps; rw [tasksOf_toOps, List.length_map]
  cases hr : prepareOf s nq weight0 with
  | none => exact absurd (hcyc.1 hr) (no_cycle_ids hn h ty pl _)
  | some r =>
    refine ⟨s, r, hs, hr, ?_⟩
    intro st hreach
    obtain ⟨h1, h2, h3, h4, h5, h6, -⟩ := hrun r hr st hreach
    have hbef : ∀ a b, Before l a b → st.starts (tid l b) ≠ 0 → st.ends (tid l a) = 1 := by
      intro a b hab
      induction hab with
      | single hl => intro hb; exact h3 _ _ ((link_ids ty pl).2 ⟨_, _, hl, rfl, rfl⟩) hb
      | tail _ hl ih =>
        intro hb
        have := h3 _ _ ((link_ids ty pl).2 ⟨_, _, hl, rfl, rfl⟩) hb
        refine ih (fun h0 => ?_)
        have h9 := fun t => (h1 t).1
        have := Nat.le_trans (Nat.le_of_eq this.symm) (h9 _)
        omega
    have hnot : ∀ a b, Before l a b → st.ends (tid l a) = 0 → st.starts (tid l b) = 0 := by
      intro a b hab he
      by_contra hc
      have := hbef a b hab hc
      omega
    refine ⟨fun t => (h1 (tid l t)).2, ?_, ?_, ?_, h6 (no_self_conflict hn h ty pl)⟩
    · intro th th' a b id id' ha hb hne hra hrb x hx
      have hne' : a ≠ b := by
        rintro rfl
        exact hne ((h2 th _ _ hra).2.2.2 th' _ hrb).symm
      have ra := h2 th _ _ hra
      have rb := h2 th' _ _ hrb
      constructor
      · intro hx'
        rcases c24_ordered hP h ha hb hne' hx (.inl hx') with hb' | hb'
        · have := hbef _ _ hb' (by omega); omega
        · have := hbef _ _ hb' (by omega); omega
      · intro hx'
        rcases c24_ordered hP h ha hb hne' hx (.inr hx') with hb' | hb'
        · have := hbef _ _ hb' (by omega); omega
        · have := hbef _ _ hb' (by omega); omega
    · intro th b id hb hrb x hx
      have rb := h2 th _ _ hrb
      have hsee := c22_reads hP h hb hx
      unfold Sees at hsee
      split at hsee
      · rename_i a hsrc
        obtain ⟨g1, g2, g3, g4⟩ := hsee
        refine ⟨?_, ?_⟩
        · intro a' ha'
          rw [hsrc] at ha'
          cases ha'
          exact ⟨g2, hbef _ _ g3 (by omega)⟩
        · intro w hw hxw hwb hws
          rcases g4 w hw hxw with rfl | rfl | g | g
          · exact absurd hsrc hws
          · exact absurd rfl hwb
          · right
            refine ⟨a, hsrc, g, hbef _ _ (.trans g g3) (by omega)⟩
          · left; exact hnot _ _ g (by omega)
      · rename_i hsrc
        refine ⟨fun a ha => absurd (hsrc.symm.trans ha) (by simp), ?_⟩
        intro w hw hxw hwb hws
        rcases hsee w hw hxw with rfl | g
        · exact absurd rfl hwb
        · left; exact hnot _ _ g (by omega)
    · intro he t ht
      refine h5 he _ ?_
      rw [hlen]
      exact List.idxOf_lt_length_of_mem (mem_tasksIn.2 ht)

/-! ## A concrete calculation: two orders, two shapes, two wavelengths, two slots, extinction and scattering -/

def exP : Params := ⟨2, 5, 2, 1, 1, 2, 2, fun q => q ≠ .abs⟩

example : Sensible exP := ⟨by decide, by decide, by decide⟩

example : (generate exP).isSome = true := by
  unfold generate
  rw [if_neg (by decide)]
  rfl

/-- the third T-matrix reuses the slot of the first one, and its m = 0 task reads what the reset wrote -/
example : cells exP = [⟨⟨0, 0, 0⟩, 0⟩, ⟨⟨0, 0, 0⟩, 1⟩, ⟨⟨0, 0, 1⟩, 0⟩, ⟨⟨0, 0, 1⟩, 1⟩] := by decide

example : slot exP ⟨⟨0, 0, 1⟩, 0⟩ = slot exP ⟨⟨0, 0, 0⟩, 0⟩ := by decide

example : source exP (.m0 ⟨⟨0, 0, 1⟩, 0⟩ 0) (.head 0) = some (.reset1 ⟨⟨0, 0, 0⟩, 0⟩) := by decide

example : Loc.head 0 ∈ reads exP (.m0 ⟨⟨0, 0, 1⟩, 0⟩ 0) := by decide

example {l : List Call} (h : generate exP = some l) : Call.task (.m0 ⟨⟨0, 0, 1⟩, 0⟩ 0) ∈ l :=
  (task_iff (by decide) h).2 ⟨by decide, by decide⟩

/-- the number of tasks: 1 + 2 + 2 + 2 + 2 + 4 shared ones, 4 averages, and 4 (2·2 + 1 + 2 + 3 + 5) for the T-matrices -/
example : (generate exP).map (fun l => (tasksIn l).length) = some 77 := by decide

end Verif.Graph
