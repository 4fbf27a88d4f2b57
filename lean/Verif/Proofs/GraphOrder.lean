import Verif.Proofs.Graph
import Mathlib.Tactic.Linarith

/-!
# The dependency relation of the task graph
-/
namespace Verif.Graph

variable {P : Params}

/-- the dependencies, without the program order -/
inductive Lk (P : Params) : Tk → Tk → Prop
  | swig {q} : P.want q = true → Lk P (.grid q) (.swig q)
  | wigner {i} : i < P.nq → Lk P (.gauss i) (.wigner i)
  | geom {is ig} : is < P.nshape → ig < P.nq → Lk P (.gauss ig) (.geom is ig)
  | gi {c ig} : c ∈ cells P → ig < P.nq → Lk P (.geom c.ish ig) (.inter c ig)
  | unlI {c c' ig} : c ∈ cells P → c' ∈ cells P → pos P c = pos P c' + P.nt → ig < P.nq →
      Lk P (.reset3 c') (.inter c ig)
  | unlM {c c'} : c ∈ cells P → c' ∈ cells P → pos P c = pos P c' + P.nt → 0 < P.nq →
      Lk P (.reset3 c') (.m0 c 0)
  | nb {c ig} : c ∈ cells P → ig < P.nq → Lk P .nbased (.m0 c ig)
  | wm {c ig} : c ∈ cells P → ig < P.nq → Lk P (.wigner ig) (.m0 c ig)
  | im {c ig} : c ∈ cells P → ig < P.nq → Lk P (.inter c ig) (.m0 c ig)
  | mi {c ig} : c ∈ cells P → ig + 1 < P.nq → Lk P (.m0 c ig) (.inter c (ig + 1))
  | ma {c m} : c ∈ cells P → 0 < m → m ≤ P.maxOrder → Lk P (.m0 c (P.nq - 1)) (.mall c m)
  | al {c m} : c ∈ cells P → 0 < m → m ≤ P.maxOrder → Lk P (.mall c m) (.align c)
  | am {c q} : c ∈ cells P → P.want q = true → Lk P (.align c) (.meas q c)
  | sm {c q} : c ∈ cells P → P.want q = true → Lk P (.swig q) (.meas q c)
  | mv {c q} : c ∈ cells P → P.want q = true → Lk P (.meas q c) (.avg q c.par)
  | r1 {c} : c ∈ cells P → Lk P (.align c) (.reset1 c)
  | r2 {c} : c ∈ cells P → Lk P (.reset1 c) (.reset2 c)
  | mr {c q} : c ∈ cells P → P.want q = true → Lk P (.meas q c) (.reset2 c)
  | r3 {c} : c ∈ cells P → Lk P (.reset2 c) (.reset3 c)

/-- the tasks -/
def Tsk (P : Params) : Tk → Prop
  | .nbased => True
  | .gauss i => i < P.nq
  | .grid q => P.want q = true
  | .swig q => P.want q = true
  | .wigner i => i < P.nq
  | .geom is ig => is < P.nshape ∧ ig < P.nq
  | .avg q p => P.want q = true ∧ p ∈ pars P
  | .inter c ig => c ∈ cells P ∧ ig < P.nq
  | .m0 c ig => c ∈ cells P ∧ ig < P.nq
  | .align c => c ∈ cells P
  | .meas q c => c ∈ cells P ∧ P.want q = true
  | .reset1 c => c ∈ cells P
  | .reset2 c => c ∈ cells P
  | .reset3 c => c ∈ cells P
  | .mall c m => c ∈ cells P ∧ 0 < m ∧ m ≤ P.maxOrder

theorem mem_qtys {q : Qty} : q ∈ qtys P ↔ P.want q = true := by
  cases q <;> simp [qtys]

theorem unl_some {k : Nat} {t : Tk} : unl P k = some t ↔
    ∃ c' ∈ cells P, t = .reset3 c' ∧ k = pos P c' + P.nt := by
  unfold unl
  constructor
  · intro h
    split at h
    · obtain ⟨c', h1, h2⟩ := Option.map_eq_some_iff.1 h
      exact ⟨c', List.mem_of_getElem? h1, h2.symm, by rw [pos_of_get h1]; omega⟩
    · cases h
  · rintro ⟨c', h1, rfl, rfl⟩
    rw [if_pos (by omega), Nat.add_sub_cancel, get_pos h1]; rfl

theorem range_shift {n m : Nat} : (∃ i < n, i + 1 = m) ↔ 0 < m ∧ m ≤ n := by
  constructor
  · rintro ⟨i, h, rfl⟩; omega
  · rintro ⟨h1, h2⟩; exact ⟨m - 1, by omega, by omega⟩

theorem link_fixed {a b : Tk} : Call.link a b ∈ fixedCalls P ↔
    (∃ q, P.want q = true ∧ a = .grid q ∧ b = .swig q) ∨ (∃ i < P.nq, a = .gauss i ∧ b = .wigner i) ∨
    (∃ is < P.nshape, ∃ ig < P.nq, a = .gauss ig ∧ b = .geom is ig) := by
  simp [fixedCalls, mem_qtys]

theorem link_head {a b : Tk} {p : Par} : Call.link a b ∉ headCalls P p := by
  simp [headCalls]

theorem link_cell {a b : Tk} {c : Cell} {s : Nat} {u : Option Tk} : Call.link a b ∈ cellCalls P c s u ↔
    (∃ ig < P.nq, (a = .geom c.ish ig ∧ b = .inter c ig) ∨ (u = some a ∧ b = .inter c ig) ∨
      (a = .nbased ∧ b = .m0 c ig) ∨ (a = .wigner ig ∧ b = .m0 c ig) ∨ (a = .inter c ig ∧ b = .m0 c ig) ∨
      (ig = 0 ∧ u = some a ∧ b = .m0 c ig) ∨ (ig ≠ 0 ∧ a = .m0 c (ig - 1) ∧ b = .inter c ig)) ∨
    (∃ q, P.want q = true ∧ ((a = .align c ∧ b = .meas q c) ∨ (a = .swig q ∧ b = .meas q c) ∨
      (a = .meas q c ∧ b = .avg q c.par) ∨ (a = .meas q c ∧ b = .reset2 c))) ∨
    (a = .align c ∧ b = .reset1 c) ∨ (a = .reset1 c ∧ b = .reset2 c) ∨ (a = .reset2 c ∧ b = .reset3 c) ∨
    (∃ m, 0 < m ∧ m ≤ P.maxOrder ∧
      ((a = .m0 c (P.nq - 1) ∧ b = .mall c m) ∨ (a = .mall c m ∧ b = .align c))) := by
  have hord : ∀ ig, Call.link a b ∈ orderCalls c s u ig ↔
      ((a = .geom c.ish ig ∧ b = .inter c ig) ∨ (u = some a ∧ b = .inter c ig) ∨
      (a = .nbased ∧ b = .m0 c ig) ∨ (a = .wigner ig ∧ b = .m0 c ig) ∨ (a = .inter c ig ∧ b = .m0 c ig) ∨
      (ig = 0 ∧ u = some a ∧ b = .m0 c ig) ∨ (ig ≠ 0 ∧ a = .m0 c (ig - 1) ∧ b = .inter c ig)) := by
    intro ig
    by_cases h : ig = 0 <;> cases u <;> simp [orderCalls, h, eq_comm] <;> try tauto
  have hmall : (∃ i < P.maxOrder, Call.link a b ∈ mallCalls P c s i) ↔ (∃ m, 0 < m ∧ m ≤ P.maxOrder ∧
      ((a = .m0 c (P.nq - 1) ∧ b = .mall c m) ∨ (a = .mall c m ∧ b = .align c))) := by
    simp only [mallCalls, List.mem_cons, Call.link.injEq, reduceCtorEq, false_or, List.not_mem_nil, or_false]
    constructor
    · rintro ⟨i, h, h2⟩; exact ⟨i + 1, by omega, by omega, h2⟩
    · rintro ⟨m, h, h1, h2⟩
      refine ⟨m - 1, by omega, ?_⟩
      rw [Nat.sub_add_cancel h]; exact h2
  simp only [cellCalls, List.mem_append, List.mem_flatMap, List.mem_range, hord, hmall]
  simp only [measCalls, resetCalls, List.mem_append, List.mem_map, List.mem_cons, List.not_mem_nil, mem_qtys,
    Call.link.injEq, reduceCtorEq, false_or, or_false, and_false, exists_false]
  constructor
  · rintro (((h | ⟨q, h1, h2⟩) | ((h | h) | ⟨q, h1, h2, h3⟩) | h) | h)
    · exact .inl h
    · refine .inr (.inl ⟨q, h1, ?_⟩)
      rcases h2 with h2 | h2 | h2
      · exact .inl h2
      · exact .inr (.inl h2)
      · exact .inr (.inr (.inl h2))
    · exact .inr (.inr (.inl h))
    · exact .inr (.inr (.inr (.inl h)))
    · exact .inr (.inl ⟨q, h1, .inr (.inr (.inr ⟨h2.symm, h3.symm⟩))⟩)
    · exact .inr (.inr (.inr (.inr (.inl h))))
    · exact .inr (.inr (.inr (.inr (.inr h))))
  · rintro (h | ⟨q, h1, h2⟩ | h | h | h | h)
    · exact .inl (.inl (.inl h))
    · rcases h2 with h2 | h2 | h2 | h2
      · exact .inl (.inl (.inr ⟨q, h1, .inl h2⟩))
      · exact .inl (.inl (.inr ⟨q, h1, .inr (.inl h2)⟩))
      · exact .inl (.inl (.inr ⟨q, h1, .inr (.inr h2)⟩))
      · exact .inl (.inr (.inl (.inr ⟨q, h1, h2.1.symm, h2.2.symm⟩)))
    · exact .inl (.inr (.inl (.inl (.inl h))))
    · exact .inl (.inr (.inl (.inl (.inr h))))
    · exact .inl (.inr (.inr h))
    · exact .inr h

theorem link_iff (hn : 0 < P.nt) {l : List Call} (h : generate P = some l) {a b : Tk} :
    Call.link a b ∈ l ↔ Lk P a b := by
  rw [mem_generate hn h]
  simp only [link_fixed, link_head, and_false, exists_false, false_or, link_cell, unl_some]
  constructor
  · rintro ((⟨q, h1, rfl, rfl⟩ | ⟨i, h1, rfl, rfl⟩ | ⟨is, h1, ig, h2, rfl, rfl⟩) | ⟨c, hc, h⟩)
    · exact .swig h1
    · exact .wigner h1
    · exact .geom h1 h2
    · rcases h with ⟨ig, hi, h⟩ | ⟨q, hq, h⟩ | h
      · rcases h with ⟨rfl, rfl⟩ | ⟨⟨c', h1, rfl, h2⟩, rfl⟩ | ⟨rfl, rfl⟩ | ⟨rfl, rfl⟩ | ⟨rfl, rfl⟩ |
          ⟨rfl, ⟨c', h1, rfl, h2⟩, rfl⟩ | ⟨h0, rfl, rfl⟩
        · exact .gi hc hi
        · exact .unlI hc h1 h2 hi
        · exact .nb hc hi
        · exact .wm hc hi
        · exact .im hc hi
        · exact .unlM hc h1 h2 hi
        · obtain ⟨j, rfl⟩ : ∃ j, ig = j + 1 := ⟨ig - 1, by omega⟩
          exact .mi hc hi
      · rcases h with ⟨rfl, rfl⟩ | ⟨rfl, rfl⟩ | ⟨rfl, rfl⟩ | ⟨rfl, rfl⟩
        · exact .am hc hq
        · exact .sm hc hq
        · exact .mv hc hq
        · exact .mr hc hq
      · rcases h with ⟨rfl, rfl⟩ | ⟨rfl, rfl⟩ | ⟨rfl, rfl⟩ | ⟨m, h1, h2, ⟨rfl, rfl⟩ | ⟨rfl, rfl⟩⟩
        · exact .r1 hc
        · exact .r2 hc
        · exact .r3 hc
        · exact .ma hc h1 h2
        · exact .al hc h1 h2
  · intro h
    cases h with
    | swig h1 => exact .inl (.inl ⟨_, h1, rfl, rfl⟩)
    | wigner h1 => exact .inl (.inr (.inl ⟨_, h1, rfl, rfl⟩))
    | geom h1 h2 => exact .inl (.inr (.inr ⟨_, h1, _, h2, rfl, rfl⟩))
    | @gi c ig hc h1 => exact .inr ⟨c, hc, .inl ⟨ig, h1, .inl ⟨rfl, rfl⟩⟩⟩
    | @unlI c c' ig hc h1 h2 h3 => exact .inr ⟨c, hc, .inl ⟨ig, h3, .inr (.inl ⟨⟨c', h1, rfl, h2⟩, rfl⟩)⟩⟩
    | @unlM c c' hc h1 h2 h3 =>
      exact .inr ⟨c, hc, .inl ⟨0, h3, .inr (.inr (.inr (.inr (.inr (.inl ⟨rfl, ⟨c', h1, rfl, h2⟩, rfl⟩)))))⟩⟩
    | @nb c ig hc h1 => exact .inr ⟨c, hc, .inl ⟨ig, h1, .inr (.inr (.inl ⟨rfl, rfl⟩))⟩⟩
    | @wm c ig hc h1 => exact .inr ⟨c, hc, .inl ⟨ig, h1, .inr (.inr (.inr (.inl ⟨rfl, rfl⟩)))⟩⟩
    | @im c ig hc h1 => exact .inr ⟨c, hc, .inl ⟨ig, h1, .inr (.inr (.inr (.inr (.inl ⟨rfl, rfl⟩))))⟩⟩
    | @mi c ig hc h1 =>
      exact .inr ⟨c, hc, .inl ⟨ig + 1, h1, .inr (.inr (.inr (.inr (.inr (.inr ⟨by omega, rfl, rfl⟩)))))⟩⟩
    | @ma c m hc h1 h2 => exact .inr ⟨c, hc, .inr (.inr (.inr (.inr (.inr ⟨m, h1, h2, .inl ⟨rfl, rfl⟩⟩))))⟩
    | @al c m hc h1 h2 => exact .inr ⟨c, hc, .inr (.inr (.inr (.inr (.inr ⟨m, h1, h2, .inr ⟨rfl, rfl⟩⟩))))⟩
    | @am c q hc h1 => exact .inr ⟨c, hc, .inr (.inl ⟨q, h1, .inl ⟨rfl, rfl⟩⟩)⟩
    | @sm c q hc h1 => exact .inr ⟨c, hc, .inr (.inl ⟨q, h1, .inr (.inl ⟨rfl, rfl⟩)⟩)⟩
    | @mv c q hc h1 => exact .inr ⟨c, hc, .inr (.inl ⟨q, h1, .inr (.inr (.inl ⟨rfl, rfl⟩))⟩)⟩
    | @mr c q hc h1 => exact .inr ⟨c, hc, .inr (.inl ⟨q, h1, .inr (.inr (.inr ⟨rfl, rfl⟩))⟩)⟩
    | @r1 c hc => exact .inr ⟨c, hc, .inr (.inr (.inl ⟨rfl, rfl⟩))⟩
    | @r2 c hc => exact .inr ⟨c, hc, .inr (.inr (.inr (.inl ⟨rfl, rfl⟩)))⟩
    | @r3 c hc => exact .inr ⟨c, hc, .inr (.inr (.inr (.inr (.inl ⟨rfl, rfl⟩))))⟩

theorem task_fixed {t : Tk} : Call.task t ∈ fixedCalls P ↔
    t = .nbased ∨ (∃ i < P.nq, t = .gauss i) ∨ (∃ q, P.want q = true ∧ t = .grid q) ∨
    (∃ q, P.want q = true ∧ t = .swig q) ∨ (∃ i < P.nq, t = .wigner i) ∨
    (∃ is < P.nshape, ∃ ig < P.nq, t = .geom is ig) := by
  simp [fixedCalls, mem_qtys, or_assoc]

theorem task_head {t : Tk} {p : Par} : Call.task t ∈ headCalls P p ↔ ∃ q, P.want q = true ∧ t = .avg q p := by
  simp [headCalls, mem_qtys]

theorem task_cell {t : Tk} {c : Cell} {s : Nat} {u : Option Tk} : Call.task t ∈ cellCalls P c s u ↔
    (∃ ig < P.nq, t = .inter c ig ∨ t = .m0 c ig) ∨ t = .align c ∨ (∃ q, P.want q = true ∧ t = .meas q c) ∨
    t = .reset1 c ∨ t = .reset2 c ∨ t = .reset3 c ∨ ∃ m, 0 < m ∧ m ≤ P.maxOrder ∧ t = .mall c m := by
  have hord : ∀ ig, Call.task t ∈ orderCalls c s u ig ↔ (t = .inter c ig ∨ t = .m0 c ig) := by
    intro ig
    by_cases h : ig = 0 <;> cases u <;> simp [orderCalls, h]
  have hmall : (∃ i < P.maxOrder, Call.task t ∈ mallCalls P c s i) ↔
      ∃ m, 0 < m ∧ m ≤ P.maxOrder ∧ t = .mall c m := by
    simp only [mallCalls, List.mem_cons, Call.task.injEq, reduceCtorEq, or_false, List.not_mem_nil]
    constructor
    · rintro ⟨i, h, h2⟩; exact ⟨i + 1, by omega, by omega, h2⟩
    · rintro ⟨m, h, h1, h2⟩
      refine ⟨m - 1, by omega, ?_⟩
      rw [Nat.sub_add_cancel h]; exact h2
  simp only [cellCalls, List.mem_append, List.mem_flatMap, List.mem_range, hord, hmall]
  simp only [measCalls, resetCalls, List.mem_append, List.mem_map, List.mem_cons, List.not_mem_nil, mem_qtys,
    Call.task.injEq, reduceCtorEq, false_or, or_false, and_false, exists_false, or_assoc]

theorem task_iff (hn : 0 < P.nt) {l : List Call} (h : generate P = some l) {t : Tk} :
    Call.task t ∈ l ↔ Tsk P t := by
  rw [mem_generate hn h]
  simp only [task_fixed, task_head, task_cell]
  cases t <;> simp [Tsk, and_comm]

theorem mem_tasksIn {l : List Call} {t : Tk} : t ∈ tasksIn l ↔ Call.task t ∈ l := by
  unfold tasksIn
  rw [List.mem_filterMap]
  constructor
  · rintro ⟨x, h1, h2⟩
    cases x <;> simp at h2
    subst h2; exact h1
  · intro h; exact ⟨_, h, rfl⟩

/-! ## The tasks of one slot, in a line -/

/-- stage within the T-matrix calculation -/
def stg (P : Params) : Tk → Nat
  | .inter _ ig => 2 * ig
  | .m0 _ ig => 2 * ig + 1
  | .mall _ _ => 2 * P.nq
  | .align _ => 2 * P.nq + 1
  | .meas _ _ | .reset1 _ => 2 * P.nq + 2
  | .reset2 _ => 2 * P.nq + 3
  | .reset3 _ => 2 * P.nq + 4
  | _ => 0

/-- task `t` has position `L` in the line of tasks for slot `s` -/
structure On (P : Params) (t : Tk) (c : Cell) (L : Nat) : Prop where
  tsk : Tsk P t
  cell : cellOf t = some c
  lvl : L = pos P c / P.nt * (2 * P.nq + 5) + stg P t

theorem tsk_cell {t : Tk} {c : Cell} (h : Tsk P t) (hc : cellOf t = some c) : c ∈ cells P := by
  cases t <;> simp [cellOf] at hc <;> subst hc <;> simp [Tsk] at h <;> first | exact h | exact h.1

theorem stg_lt {t : Tk} {c : Cell} (h : Tsk P t) (hc : cellOf t = some c) : stg P t < 2 * P.nq + 5 := by
  cases t <;> simp [cellOf] at hc <;> subst hc <;> simp [Tsk] at h <;> simp [stg] <;> omega

theorem canon (hq : 0 < P.nq) (hm : 0 < P.maxOrder) {c : Cell} (hc : c ∈ cells P) {n : Nat} (hn : n < 2 * P.nq + 5) :
    ∃ t, Tsk P t ∧ cellOf t = some c ∧ stg P t = n := by
  by_cases h1 : n < 2 * P.nq
  · rcases Nat.even_or_odd' n with ⟨i, rfl | rfl⟩
    · exact ⟨.inter c i, ⟨hc, by omega⟩, rfl, rfl⟩
    · exact ⟨.m0 c i, ⟨hc, by omega⟩, rfl, rfl⟩
  · obtain rfl | rfl | rfl | rfl | rfl : n = 2 * P.nq ∨ n = 2 * P.nq + 1 ∨ n = 2 * P.nq + 2 ∨ n = 2 * P.nq + 3 ∨
        n = 2 * P.nq + 4 := by omega
    · exact ⟨.mall c 1, ⟨hc, by omega, by omega⟩, rfl, rfl⟩
    · exact ⟨.align c, hc, rfl, rfl⟩
    · exact ⟨.reset1 c, hc, rfl, rfl⟩
    · exact ⟨.reset2 c, hc, rfl, rfl⟩
    · exact ⟨.reset3 c, hc, rfl, rfl⟩

/-- consecutive stages of one calculation are linked -/
theorem lk_next {a b : Tk} {c : Cell} (ha : Tsk P a) (hb : Tsk P b) (hca : cellOf a = some c)
    (hcb : cellOf b = some c) (h : stg P b = stg P a + 1) : Lk P a b := by
  cases a <;> simp [cellOf] at hca <;> subst hca <;> cases b <;> simp [cellOf] at hcb <;> subst hcb <;>
    simp only [Tsk] at ha hb <;> simp only [stg] at h <;> first | omega | skip
  case inter.m0 i c j =>
    obtain rfl : i = j := by omega
    exact .im ha.1 ha.2
  case m0.inter i c j =>
    obtain rfl : j = i + 1 := by omega
    exact .mi ha.1 hb.2
  case m0.mall i c m =>
    obtain rfl : i = P.nq - 1 := by omega
    exact .ma ha.1 hb.2.1 hb.2.2
  case mall.align m c => exact .al hb ha.2.1 ha.2.2
  case align.meas c q => exact .am ha hb.2
  case align.reset1 c => exact .r1 ha
  case meas.reset2 q c => exact .mr hb ha.2
  case reset1.reset2 c => exact .r2 ha
  case reset2.reset3 c => exact .r3 ha

theorem lvl_div {W k s k' s' : Nat} (hs : s < W) (hs' : s' < W) (h : k' * W + s' = k * W + s + 1) :
    (k' = k ∧ s' = s + 1) ∨ (k' = k + 1 ∧ s' = 0 ∧ s + 1 = W) := by
  rcases Nat.lt_trichotomy k' k with h1 | h1 | h1
  · obtain ⟨d, rfl⟩ := Nat.exists_eq_add_of_lt h1
    have : (k' + d + 1) * W = k' * W + d * W + W := by ring
    have := Nat.zero_le (d * W)
    omega
  · subst h1; left; omega
  · obtain ⟨d, rfl⟩ := Nat.exists_eq_add_of_lt h1
    have e : (k + d + 1) * W = k * W + d * W + W := by ring
    rcases Nat.eq_zero_or_pos d with rfl | hd
    · have e' : (k + 0 + 1) * W = k * W + W := by ring
      right; omega
    · have : W ≤ d * W := Nat.le_mul_of_pos_left W hd
      omega

theorem pos_eq {c c' : Cell} (hs : slot P c = slot P c') (h : pos P c / P.nt = pos P c' / P.nt) :
    pos P c = pos P c' := by
  have h1 := Nat.div_add_mod (pos P c) P.nt
  have h2 := Nat.div_add_mod (pos P c') P.nt
  unfold slot at hs
  rw [h, hs] at h1
  omega

theorem pos_inj {c c' : Cell} (hc : c ∈ cells P) (hc' : c' ∈ cells P) (h : pos P c = pos P c') : c = c' := by
  have h1 := get_pos hc
  have h2 := get_pos hc'
  rw [h, h2] at h1
  exact (Option.some.inj h1).symm

theorem lk_line (hq : 0 < P.nq) {a b : Tk} {c c' : Cell} {L : Nat} (ha : On P a c L) (hb : On P b c' (L + 1))
    (hs : slot P c = slot P c') : Lk P a b := by
  have hc := tsk_cell ha.tsk ha.cell
  have hc' := tsk_cell hb.tsk hb.cell
  have h := hb.lvl
  rw [ha.lvl] at h
  rcases lvl_div (stg_lt ha.tsk ha.cell) (stg_lt hb.tsk hb.cell) h.symm with ⟨h1, h2⟩ | ⟨h1, h2, h3⟩
  · have := pos_inj hc hc' (pos_eq hs h1.symm)
    subst this
    exact lk_next ha.tsk hb.tsk ha.cell hb.cell h2
  · have hp : pos P c' = pos P c + P.nt := by
      have e1 := Nat.div_add_mod (pos P c) P.nt
      have e2 := Nat.div_add_mod (pos P c') P.nt
      unfold slot at hs
      rw [h1, ← hs, Nat.mul_add] at e2
      omega
    have hA : a = .reset3 c := by
      have h4 := ha.cell
      have h5 := ha.tsk
      revert h3
      cases a <;> simp [cellOf] at h4 <;> subst h4 <;> simp only [Tsk] at h5 <;> simp only [stg] <;> intro h3 <;>
        first | omega | rfl
    subst hA
    have h4 := hb.cell
    have h5 := hb.tsk
    cases b <;> simp [cellOf] at h4 <;> subst h4 <;> simp only [Tsk] at h5 <;> simp only [stg] at h2 <;>
      first | omega | skip
    case inter c'' i => exact .unlI hc' hc hp h5.2

theorem on_prev (hn : 0 < P.nt) (hq : 0 < P.nq) (hm : 0 < P.maxOrder) {b : Tk} {c : Cell} {L : Nat}
    (hb : On P b c (L + 1)) : ∃ a c', On P a c' L ∧ slot P c' = slot P c := by
  have hc := tsk_cell hb.tsk hb.cell
  have h := hb.lvl
  rcases Nat.eq_zero_or_pos (stg P b) with h0 | h0
  · -- the previous user of the slot
    rw [h0] at h
    have hd : 0 < pos P c / P.nt := by
      rcases Nat.eq_zero_or_pos (pos P c / P.nt) with h1 | h1
      · rw [h1] at h; omega
      · exact h1
    have hge : P.nt ≤ pos P c := (Nat.div_pos_iff.1 hd).2
    obtain ⟨hlt, -⟩ := List.getElem?_eq_some_iff.1 (get_pos hc)
    have hg : (cells P)[pos P c - P.nt]? = some ((cells P)[pos P c - P.nt]'(by omega)) :=
      List.getElem?_eq_getElem _
    generalize (cells P)[pos P c - P.nt]'(by omega) = c' at hg
    have hp := pos_of_get hg
    have hp' : pos P c = pos P c' + P.nt := by omega
    refine ⟨.reset3 c', c', ⟨List.mem_of_getElem? hg, rfl, ?_⟩, ?_⟩
    · rw [hp', Nat.add_div_right _ hn, Nat.succ_mul] at h
      simp only [stg]
      omega
    · unfold slot
      rw [hp', Nat.add_mod_right]
  · obtain ⟨a, h1, h2, h3⟩ := canon hq hm hc (n := stg P b - 1) (by have := stg_lt hb.tsk hb.cell; omega)
    exact ⟨a, c, ⟨h1, h2, by rw [h3]; omega⟩, rfl⟩

/-- on one slot, a smaller position means earlier -/
theorem line_before (hn : 0 < P.nt) (hq : 0 < P.nq) (hm : 0 < P.maxOrder) {a : Tk} {c : Cell} {L : Nat}
    (ha : On P a c L) : ∀ (n : Nat) {b : Tk} {c' : Cell}, On P b c' (L + n + 1) → slot P c = slot P c' →
    Relation.TransGen (Lk P) a b
  | 0, _, _, hb, hs => .single (lk_line hq ha hb hs)
  | n + 1, _, _, hb, hs => by
    obtain ⟨k, c2, hk, hs2⟩ := on_prev hn hq hm hb
    exact .tail (line_before hn hq hm ha n hk (by rw [hs, hs2])) (lk_line hq hk hb hs2)

theorem line_lt (hn : 0 < P.nt) (hq : 0 < P.nq) (hm : 0 < P.maxOrder) {a b : Tk} {c c' : Cell} {L L' : Nat}
    (ha : On P a c L) (hb : On P b c' L') (hs : slot P c = slot P c') (hl : L < L') :
    Relation.TransGen (Lk P) a b := by
  obtain ⟨d, rfl⟩ := Nat.exists_eq_add_of_lt hl
  exact line_before hn hq hm ha d hb hs

end Verif.Graph
