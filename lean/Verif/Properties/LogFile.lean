import Verif.Spec.LogFile
import Verif.Properties.Text
import Verif.Properties.Store
import Verif.Properties.Wrapper

/-!
# C107: the log files
-/
namespace Verif.LogFile
open Verif Store Text
open Text.Spec

/-! ## Lines and fields -/

theorem cut_ne_nil (sep : Char) (s : Str) : cut sep s ≠ [] := by
  cases s with
  | nil => simp [cut]
  | cons c l =>
    unfold cut
    split
    · simp
    · split <;> simp

theorem cut_append (sep : Char) (w rest : Str) (h : ∀ c ∈ w, c ≠ sep) : cut sep (w ++ sep :: rest) = w :: cut sep rest := by
  induction w with
  | nil => simp [cut]
  | cons c w ih =>
    rw [List.cons_append, cut, if_neg (h c (by simp)), ih fun c' hc => h c' (by simp [hc])]

theorem cut_plain (sep : Char) (w : Str) (h : ∀ c ∈ w, c ≠ sep) : cut sep w = [w] := by
  induction w with
  | nil => rfl
  | cons c w ih => rw [cut, if_neg (h c (by simp)), ih fun c' hc => h c' (by simp [hc])]

/-- joining fields with tabs -/
def join : List Str → Str
  | [] => []
  | [w] => w
  | w :: w' :: ws => w ++ '\t' :: join (w' :: ws)

theorem cut_join (ws : List Str) (hne : ws ≠ []) (h : ∀ w ∈ ws, Plain w) : cut '\t' (join ws) = ws := by
  induction ws with
  | nil => exact absurd rfl hne
  | cons w ws ih =>
    cases ws with
    | nil => exact cut_plain _ _ fun c hc => (h w (by simp) c hc).1
    | cons w' ws =>
      rw [join, cut_append _ _ _ fun c hc => (h w (by simp) c hc).1, ih (by simp) fun v hv => h v (by simp [hv])]

theorem join_line (ws : List Str) (h : ∀ w ∈ ws, Plain w) : ∀ c ∈ join ws, c ≠ '\n' := by
  induction ws with
  | nil => simp [join]
  | cons w ws ih =>
    cases ws with
    | nil => exact fun c hc => (h w (by simp) c hc).2
    | cons w' ws =>
      intro c hc
      rw [join, List.mem_append, List.mem_cons] at hc
      rcases hc with hc | rfl | hc
      · exact (h w (by simp) c hc).2
      · decide
      · exact ih (fun v hv => h v (by simp [hv])) c hc

theorem rows_line (ws : List Str) (hne : ws ≠ []) (h : ∀ w ∈ ws, Plain w) (rest : Str) :
    rows (join ws ++ '\n' :: rest) = ws :: rows rest := by
  unfold rows
  rw [cut_append _ _ _ (join_line ws h), List.dropLast_cons_of_ne_nil (cut_ne_nil _ _), List.map_cons,
    cut_join ws hne h]

theorem rows_nil : rows [] = [] := by simp [rows, cut]

theorem rows_row (a b c rest : Str) (ha : Plain a) (hb : Plain b) (hc : Plain c) :
    rows (row a b c ++ rest) = [a, b, c] :: rows rest := by
  have : row a b c ++ rest = join [a, b, c] ++ '\n' :: rest := by simp [row, join]
  rw [this, rows_line _ (by simp) (by simp [ha, hb, hc])]

/-! ## Numbers -/

theorem digitChar_plain (d : Nat) (h : d < 10) : digitChar d ≠ '\t' ∧ digitChar d ≠ '\n' ∧ digit (digitChar d) = d := by
  interval_cases d <;> decide

theorem plain_showNat (n : Nat) : Plain (showNat n) := by
  obtain ⟨ds, -, hd, ht, -⟩ := showNat_spec n
  rw [ht]
  intro c hc
  obtain ⟨d, hd', rfl⟩ := List.mem_map.1 hc
  have := digitChar_plain d (hd d hd')
  exact ⟨this.1, this.2.1⟩

/-- a printed number is read back -/
theorem number_showNat (n : Nat) : number (showNat n) = n := by
  obtain ⟨ds, -, hd, ht, hv, -⟩ := showNat_spec n
  rw [ht, ← hv, number, value, List.foldl_map]
  have : ∀ (l : List Nat) (v : Nat), (∀ d ∈ l, d < 10) →
      l.foldl (fun v d => 10 * v + digit (digitChar d)) v = l.foldl (fun v d => v * 10 + d) v := by
    intro l
    induction l with
    | nil => intros; rfl
    | cons d l ih =>
      intro v h
      rw [List.foldl_cons, List.foldl_cons, (digitChar_plain d (h d (by simp))).2.2, Nat.mul_comm,
        ih _ fun d hd => h d (by simp [hd])]
  exact this ds 0 hd

theorem showNat_inj {m n : Nat} (h : showNat m = showNat n) : m = n := by
  rw [← number_showNat m, h, number_showNat]

theorem plain_words : Plain "resource".toList ∧ Plain "child".toList ∧ Plain "task".toList ∧ Plain "writelink".toList ∧
    Plain "readlink".toList ∧ Plain "tasklink".toList := by
  simp [Plain]

/-! ## The graph log -/

/-- what the calls are expected to leave -/
def records (nr nt : Nat) : List Call → List (List Str)
  | [] => []
  | c :: l => record nr nt c ++ records (nr + (isResource c).toNat) (nt + (isTask c).toNat) l

theorem graph_rows (l : List Call) (h : Names l) : ∀ nr nt, rows (graphLog nr nt l) = records nr nt l := by
  obtain ⟨w1, w2, w3, w4, w5, w6⟩ := plain_words
  induction l with
  | nil => intro nr nt; exact rows_nil
  | cons c l ih =>
    intro nr nt
    have ih := ih (fun c' hc => h c' (by simp [hc]))
    have hc := h c (by simp)
    rw [graphLog, records, ← ih]
    cases c with
    | resource name parent =>
      have hn := hc.1 name parent rfl
      cases parent with
      | none =>
        simp only [entry, record, List.append_nil]
        rw [rows_row _ _ _ _ w1 (plain_showNat _) hn]; rfl
      | some p =>
        simp only [entry, record, List.append_assoc]
        rw [rows_row _ _ _ _ w1 (plain_showNat _) hn, rows_row _ _ _ _ w2 (plain_showNat _) (plain_showNat _)]; rfl
    | task name =>
      simp only [entry, record]
      rw [rows_row _ _ _ _ w3 (plain_showNat _) (hc.2 name rfl)]; rfl
    | access t r write =>
      cases write
      · simp only [entry, record]
        rw [if_neg (by decide), rows_row _ _ _ _ w5 (plain_showNat _) (plain_showNat _)]; rfl
      · simp only [entry, record]
        rw [if_pos trivial, rows_row _ _ _ _ w4 (plain_showNat _) (plain_showNat _)]; rfl
    | order a b =>
      simp only [entry, record]
      rw [rows_row _ _ _ _ w6 (plain_showNat _) (plain_showNat _)]; rfl

/-- **C107 (graph log).** Call number `i` of the wrapper left exactly its record in the graph log, after the records of
the calls before it and before those of the calls after it; tasks and resources appear under their numbers. -/
theorem c107_graph_rows (pre : List Call) (c : Call) (post : List Call) (h : Names (pre ++ c :: post)) :
    ∃ before after, rows (graphLog 0 0 (pre ++ c :: post))
        = before ++ record (resources pre) (tasks pre) c ++ after ∧
      before = rows (graphLog 0 0 pre) := by
  rw [graph_rows _ h]
  rw [graph_rows pre fun c' hc => h c' (by simp [hc])]
  have key : ∀ (pre : List Call) nr nt, records nr nt (pre ++ c :: post)
      = records nr nt pre ++ record (nr + resources pre) (nt + tasks pre) c ++
        records (nr + resources (pre ++ [c])) (nt + tasks (pre ++ [c])) post := by
    intro pre
    induction pre with
    | nil =>
      intro nr nt
      simp only [records, List.nil_append, resources, tasks, List.countP_nil, Nat.add_zero, List.countP_cons]
      congr 2 <;> cases isResource c <;> cases isTask c <;> rfl
    | cons d pre ih =>
      intro nr nt
      have e1 : ∀ l, nr + (isResource d).toNat + resources l = nr + resources (d :: l) := by
        intro l; simp only [resources, List.countP_cons]; cases isResource d <;> simp; omega
      have e2 : ∀ l, nt + (isTask d).toNat + tasks l = nt + tasks (d :: l) := by
        intro l; simp only [tasks, List.countP_cons]; cases isTask d <;> simp; omega
      rw [List.cons_append, records, records, ih, e1, e1, e2, e2]
      simp only [List.append_assoc, List.cons_append]
  refine ⟨records 0 0 pre, records (resources (pre ++ [c])) (tasks (pre ++ [c])) post, ?_, rfl⟩
  have := key pre 0 0
  simpa using this

/-- the kind of the first row -/
theorem records_inj (l : List Call) : ∀ (l' : List Call) nr nt, records nr nt l = records nr nt l' → l = l' := by
  induction l with
  | nil =>
    intro l' nr nt h
    cases l' with
    | nil => rfl
    | cons c l' =>
      exfalso
      cases c with
      | resource name parent => cases parent <;> simp [records, record] at h
      | task name => simp [records, record] at h
      | access t r w => cases w <;> simp [records, record] at h
      | order a b => simp [records, record] at h
  | cons c l ih =>
    intro l' nr nt h
    cases l' with
    | nil =>
      exfalso
      cases c with
      | resource name parent => cases parent <;> simp [records, record] at h
      | task name => simp [records, record] at h
      | access t r w => cases w <;> simp [records, record] at h
      | order a b => simp [records, record] at h
    | cons c' l' =>
      have nochild : ∀ (l : List Call) nr nt a b rest, records nr nt l ≠ ["child".toList, a, b] :: rest := by
        intro l nr nt a b rest
        cases l with
        | nil => simp [records]
        | cons c l =>
          cases c with
          | resource name parent => cases parent <;> simp [records, record]
          | task name => simp [records, record]
          | access t r w => cases w <;> simp [records, record]
          | order a b => simp [records, record]
      have tail : c = c' → c :: l = c' :: l' := by
        rintro rfl
        rw [records, records] at h
        rw [ih l' _ _ (List.append_cancel_left h)]
      apply tail
      rw [records, records] at h
      rcases c with ⟨name, _ | p⟩ | ⟨name⟩ | ⟨t, r, _ | _⟩ | ⟨a, b⟩ <;>
        rcases c' with ⟨name', _ | p'⟩ | ⟨name'⟩ | ⟨t', r', _ | _⟩ | ⟨a', b'⟩ <;>
        simp [record] at h
      · rw [h.1]
      · exact absurd h.2 (nochild _ _ _ _ _ _)
      · exact absurd h.2.symm (nochild _ _ _ _ _ _)
      · rw [h.1, showNat_inj h.2.1]
      · rw [h.1]
      · rw [showNat_inj h.1.1, showNat_inj h.1.2]
      · rw [showNat_inj h.1.1, showNat_inj h.1.2]
      · rw [showNat_inj h.1.1, showNat_inj h.1.2]

/-- **C107 (graph log).** The calls can be recovered from the graph log: different sequences of calls leave different
logs. -/
theorem c107_graph_injective (l l' : List Call) (h : Names l) (h' : Names l') (he : graphLog 0 0 l = graphLog 0 0 l') :
    l = l' := by
  refine records_inj l l' 0 0 ?_
  rw [← graph_rows l h, ← graph_rows l' h', he]

/-! ## The graph log and the scheduler -/

theorem ne_resource_writelink : ("resource".toList = "writelink".toList) = False := eq_false (by decide)
theorem ne_resource_readlink : ("resource".toList = "readlink".toList) = False := eq_false (by decide)
theorem ne_resource_tasklink : ("resource".toList = "tasklink".toList) = False := eq_false (by decide)
theorem ne_child_writelink : ("child".toList = "writelink".toList) = False := eq_false (by decide)
theorem ne_child_readlink : ("child".toList = "readlink".toList) = False := eq_false (by decide)
theorem ne_child_tasklink : ("child".toList = "tasklink".toList) = False := eq_false (by decide)
theorem ne_task_writelink : ("task".toList = "writelink".toList) = False := eq_false (by decide)
theorem ne_task_readlink : ("task".toList = "readlink".toList) = False := eq_false (by decide)
theorem ne_task_tasklink : ("task".toList = "tasklink".toList) = False := eq_false (by decide)
theorem ne_readlink_writelink : ("readlink".toList = "writelink".toList) = False := eq_false (by decide)
theorem ne_readlink_tasklink : ("readlink".toList = "tasklink".toList) = False := eq_false (by decide)
theorem ne_writelink_readlink : ("writelink".toList = "readlink".toList) = False := eq_false (by decide)
theorem ne_writelink_tasklink : ("writelink".toList = "tasklink".toList) = False := eq_false (by decide)
theorem ne_tasklink_readlink : ("tasklink".toList = "readlink".toList) = False := eq_false (by decide)
theorem ne_tasklink_writelink : ("tasklink".toList = "writelink".toList) = False := eq_false (by decide)
theorem ne_resource_task : ("resource".toList = "task".toList) = False := eq_false (by decide)
theorem ne_child_task : ("child".toList = "task".toList) = False := eq_false (by decide)
theorem ne_writelink_task : ("writelink".toList = "task".toList) = False := eq_false (by decide)
theorem ne_readlink_task : ("readlink".toList = "task".toList) = False := eq_false (by decide)
theorem ne_tasklink_task : ("tasklink".toList = "task".toList) = False := eq_false (by decide)

theorem links_ops (pl : Str → List Nat) (t : Nat) (l : List Call) : ∀ d nr nt,
    linksOf .locks t (toOps pl d l) = (records nr nt l).filterMap (pick "writelink".toList t) ∧
    linksOf .uses t (toOps pl d l) = (records nr nt l).filterMap (pick "readlink".toList t) ∧
    linksOf .deps t (toOps pl d l) = (records nr nt l).filterMap (pick "tasklink".toList t) := by
  induction l with
  | nil => intro d nr nt; exact ⟨rfl, rfl, rfl⟩
  | cons c l ih =>
    intro d nr nt
    unfold linksOf at ih ⊢
    rw [records]
    rcases c with ⟨name, _ | p⟩ | ⟨name⟩ | ⟨a, r, _ | _⟩ | ⟨a, b⟩ <;>
      simp only [toOps, record, List.filterMap_cons, List.filterMap_append, List.filterMap_nil, pick, number_showNat] <;>
      simp only [List.nil_append, ne_resource_writelink,
        ne_resource_readlink,
        ne_resource_tasklink,
        ne_child_writelink,
        ne_child_readlink,
        ne_child_tasklink,
        ne_task_writelink,
        ne_task_readlink,
        ne_task_tasklink,
        ne_readlink_writelink,
        ne_readlink_tasklink,
        ne_writelink_readlink,
        ne_writelink_tasklink,
        ne_tasklink_readlink,
        ne_tasklink_writelink, false_and, if_false, true_and, if_true,
        reduceCtorEq]
    · exact ih _ _ _
    · exact ih _ _ _
    · exact ih _ _ _
    · refine ⟨(ih _ _ _).1, ?_, (ih _ _ _).2.2⟩
      have := (ih d (nr + (isResource (.access a r false)).toNat) (nt + (isTask (.access a r false)).toNat)).2.1
      by_cases h : a = t
      · subst h
        simp only [and_self, if_true, ← this]
        rfl
      · simp only [h, and_false, if_false, ← this]
        rfl
    · refine ⟨?_, (ih _ _ _).2⟩
      have := (ih d (nr + (isResource (.access a r true)).toNat) (nt + (isTask (.access a r true)).toNat)).1
      by_cases h : a = t
      · subst h
        simp only [and_self, if_true, ← this]
        rfl
      · simp only [h, and_false, if_false, ← this]
        rfl
    · refine ⟨(ih _ _ _).1, (ih _ _ _).2.1, ?_⟩
      have := (ih d (nr + (isResource (.order a b)).toNat) (nt + (isTask (.order a b)).toNat)).2.2
      by_cases h : a = t
      · subst h
        simp only [and_self, if_true, ← this]
        rfl
      · simp only [h, and_false, if_false, ← this]
        rfl

/-- the resources and their parents -/
def resourceCalls (l : List Call) : List (Str × Option Nat) :=
  l.filterMap fun | .resource n p => some (n, p) | _ => none

/-- the names of the task types, in the order of registration -/
def taskNames (l : List Call) : List Str := l.filterMap fun | .task n => some n | _ => none

theorem res_ops (pl : Str → List Nat) (l : List Call) : ∀ d,
    resOf (toOps pl d l) = (resourceCalls l).map fun r => (none, r.2) := by
  induction l with
  | nil => intro d; rfl
  | cons c l ih =>
    intro d
    unfold resOf resourceCalls at ih ⊢
    rcases c with ⟨name, p⟩ | ⟨name⟩ | ⟨a, r, w⟩ | ⟨a, b⟩ <;> simp [toOps, ih]

theorem task_ops (pl : Str → List Nat) (l : List Call) : ∀ d,
    (tasksOf (toOps pl d l)).map (·.1) = (Wrapper.registerAll ((taskNames l).map String.ofList) d).1 := by
  induction l with
  | nil => intro d; rfl
  | cons c l ih =>
    intro d
    unfold tasksOf taskNames at ih ⊢
    rcases c with ⟨name, p⟩ | ⟨name⟩ | ⟨a, r, w⟩ | ⟨a, b⟩ <;> simp [toOps, ih, Wrapper.registerAll]

theorem labels_eq (kind : Str) (text : Str) : labels kind text = (rows text).filterMap fun
    | [k, a, b] => if k = kind then some (number a, b) else none
    | _ => none := rfl

theorem labels_records (l : List Call) : ∀ nr nt,
    ((records nr nt l).filterMap fun
      | [k, a, b] => if k = "task".toList then some (number a, b) else none
      | _ => none) = ((taskNames l).zipIdx nt).map (fun e => (e.2, e.1)) := by
  induction l with
  | nil => intro nr nt; rfl
  | cons c l ih =>
    intro nr nt
    rw [records]
    rcases c with ⟨name, _ | p⟩ | ⟨name⟩ | ⟨a, r, _ | _⟩ | ⟨a, b⟩ <;>
      simp only [record, List.filterMap_cons, List.filterMap_append, List.filterMap_nil, number_showNat, ih,
        isTask, Bool.toNat_false, Nat.add_zero, Bool.toNat_true] <;>
      simp only [ne_resource_task,
        ne_child_task,
        ne_writelink_task,
        ne_readlink_task,
        ne_tasklink_task, if_false, if_true, List.nil_append,
        List.cons_append] <;>
      simp [taskNames, List.zipIdx_cons]

/-- **C107 (graph log and scheduler).** After the calls and `qsched_prepare`, the scheduler contains what the graph log
says: the locks, uses and unlocks of a task are the numbers in the `writelink`, `readlink` and `tasklink` lines of that
task, in the same order; there are as many tasks as `task` lines, numbered in the order of the lines. -/
theorem c107_scheduler (pl : Str → List Nat) (l : List Call) (hn : Names l) (J Jp : Junk) (ops : List (Op × Junk))
    (ho : ops.map Prod.fst = toOps pl Wrapper.Dict.empty l) (hfit : PayloadsAtMost 8000 (ops.map Prod.fst)) (s : Store)
    (h : exec (ops ++ [(.prepare, Jp)]) (init J) = some s) :
    s.count = (labels "task".toList (graphLog 0 0 l)).length ∧
    (∀ i (hi : i < (labels "task".toList (graphLog 0 0 l)).length), (labels "task".toList (graphLog 0 0 l))[i].1 = i) ∧
    (∀ t < s.count, view s .locks t = links "writelink".toList t (graphLog 0 0 l) ∧
      view s .uses t = links "readlink".toList t (graphLog 0 0 l) ∧
      view s .deps t = links "tasklink".toList t (graphLog 0 0 l)) := by
  have hfit' : PayloadsAtMost 8000 ((ops ++ [(Op.prepare, Jp)]).map Prod.fst) := by
    intro a b c d hm
    rw [List.map_append, List.mem_append] at hm
    rcases hm with hm | hm
    · exact hfit a b c d hm
    · simp at hm
  have hc := (c12_nothing_lost J _ hfit' s h).1
  have hl : labels "task".toList (graphLog 0 0 l) = (taskNames l).zipIdx.map (fun e => (e.2, e.1)) := by
    rw [labels_eq, graph_rows l hn, labels_records]
  refine ⟨?_, ?_, ?_⟩
  · rw [hc, hl, List.map_append, ho]
    have h2 := congrArg List.length (task_ops pl l Wrapper.Dict.empty)
    rw [(Wrapper.c16_type_numbers _).1, List.length_map, List.length_map] at h2
    simp only [tasksOf, List.filterMap_append, List.length_append] at h2 ⊢
    simp [h2]
  · intro i hi
    simp only [hl, List.getElem_map, List.getElem_zipIdx, Nat.zero_add]
  · intro t ht
    have hv := fun k => c08_links J Jp ops hfit s h k t ht
    rw [ho] at hv
    unfold links
    rw [graph_rows l hn]
    obtain ⟨h1, h2, h3⟩ := links_ops pl t l Wrapper.Dict.empty 0 0
    exact ⟨by rw [hv, h1], by rw [hv, h2], by rw [hv, h3]⟩

theorem ne_resource_child : ("resource".toList = "child".toList) = False := eq_false (by decide)
theorem ne_task_child : ("task".toList = "child".toList) = False := eq_false (by decide)
theorem ne_writelink_child : ("writelink".toList = "child".toList) = False := eq_false (by decide)
theorem ne_readlink_child : ("readlink".toList = "child".toList) = False := eq_false (by decide)
theorem ne_tasklink_child : ("tasklink".toList = "child".toList) = False := eq_false (by decide)

theorem child_none (l : List Call) : ∀ nr nt i, i < nr → (records nr nt l).filterMap (pick "child".toList i) = [] := by
  induction l with
  | nil => intros; rfl
  | cons c l ih =>
    intro nr nt i hi
    have h1 := ih (nr + (isResource c).toNat) (nt + (isTask c).toNat) i (by omega)
    rw [records]
    have h2 : ¬ nr = i := by omega
    rcases c with ⟨name, _ | p⟩ | ⟨name⟩ | ⟨a, r, _ | _⟩ | ⟨a, b⟩ <;>
      simp only [record, List.filterMap_cons, List.filterMap_append, List.filterMap_nil, pick, number_showNat, h1, h2,
        ne_resource_child, ne_task_child, ne_writelink_child, ne_readlink_child, ne_tasklink_child, false_and, and_false,
        if_false, List.nil_append]

theorem child_records (l : List Call) : ∀ nr nt i n p, (resourceCalls l)[i]? = some (n, p) →
    (records nr nt l).filterMap (pick "child".toList (nr + i)) = p.toList := by
  induction l with
  | nil => intro nr nt i n p h; simp [resourceCalls] at h
  | cons c l ih =>
    intro nr nt i n p h
    rw [records]
    have rest : isResource c = false → (resourceCalls l)[i]? = some (n, p) →
        (records (nr + (isResource c).toNat) (nt + (isTask c).toNat) l).filterMap (pick "child".toList (nr + i))
          = p.toList := by
      intro hc h
      rw [hc]
      exact ih _ _ i n p h
    have res : ∀ name q, (resourceCalls (.resource name q :: l))[i]? = some (n, p) →
        (i = 0 ∧ q = p) ∨ ∃ j, i = j + 1 ∧ (resourceCalls l)[j]? = some (n, p) := by
      intro name q h
      change ((name, q) :: resourceCalls l)[i]? = some (n, p) at h
      cases i with
      | zero => simp at h; exact .inl ⟨rfl, h.2⟩
      | succ j => exact .inr ⟨j, rfl, by simpa using h⟩
    rcases c with ⟨name, _ | q⟩ | ⟨name⟩ | ⟨a, r, _ | _⟩ | ⟨a, b⟩ <;>
      simp only [record, List.filterMap_cons, List.filterMap_append, List.filterMap_nil, pick, number_showNat,
        ne_resource_child, ne_task_child, ne_writelink_child, ne_readlink_child, ne_tasklink_child, false_and,
        if_false, List.nil_append, true_and]
    · rcases res _ _ h with ⟨rfl, rfl⟩ | ⟨j, rfl, h⟩
      · exact child_none l _ _ _ (by simp [isResource])
      · have := ih (nr + 1) nt j n p h
        rw [Nat.add_assoc, Nat.add_comm 1 j] at this
        exact this
    · rcases res _ _ h with ⟨rfl, rfl⟩ | ⟨j, rfl, h⟩
      · rw [child_none l _ _ _ (by simp [isResource])]
        simp
      · have := ih (nr + 1) nt j n p h
        rw [Nat.add_assoc, Nat.add_comm 1 j] at this
        rw [if_neg (by omega)]
        exact this
    · exact rest rfl h
    · exact rest rfl h
    · exact rest rfl h
    · exact rest rfl h

/-- **C107 (resource tree).** The parent of every resource in the scheduler is the one in its `child` line of the graph
log; a resource without parent has no such line. -/
theorem c107_parents (pl : Str → List Nat) (l : List Call) (hn : Names l) (J : Junk) (ops : List (Op × Junk))
    (ho : ops.map Prod.fst = toOps pl Wrapper.Dict.empty l) (hfit : PayloadsAtMost 8000 (ops.map Prod.fst)) (s : Store)
    (h : exec ops (init J) = some s) :
    ∀ i < s.rcount, links "child".toList i (graphLog 0 0 l) = (s.res i).parent.toList := by
  intro i hi
  obtain ⟨-, h2, -, h4, -⟩ := c12_nothing_lost J ops hfit s h
  rw [ho, res_ops] at h2 h4
  rw [List.length_map] at h2
  have hlt : i < (resourceCalls l).length := by omega
  have he : (resourceCalls l)[i]? = some ((resourceCalls l)[i].1, (resourceCalls l)[i].2) :=
    List.getElem?_eq_getElem hlt
  rw [(h4 i none (resourceCalls l)[i].2 (by rw [List.getElem?_map, he]; rfl)).2]
  unfold links
  rw [graph_rows l hn]
  have := child_records l 0 0 i _ _ he
  rwa [Nat.zero_add] at this

/-! ## The task log and the type log -/

/-- **C107 (task log).** After the title line, the task log has one line per task, in the given order, and its fields
are the thread number, the recorded start and end, the type number and the number of the task. -/
theorem c107_task_log (rec : Nat → Nat × Nat × Nat × Nat) (ids : List Nat) :
    ((rows (taskLog rec ids)).drop 1).map (·.map number)
      = ids.map fun i => [(rec i).1, (rec i).2.1, (rec i).2.2.1, (rec i).2.2.2, i] := by
  have head : "# thread\tstart\tend\ttype\ttask id\n".toList
      = join ["# thread".toList, "start".toList, "end".toList, "type".toList, "task id".toList] ++ ['\n'] := by
    simp [join]
  have body : rows (ids.flatMap fun i => taskRow (rec i).1 (rec i).2.1 (rec i).2.2.1 (rec i).2.2.2 i)
      = ids.map fun i => [showNat (rec i).1, showNat (rec i).2.1, showNat (rec i).2.2.1, showNat (rec i).2.2.2, showNat i] := by
    induction ids with
    | nil => exact rows_nil
    | cons i ids ih =>
      rw [List.flatMap_cons, List.map_cons, ← ih]
      have : ∀ a b c d e rest, taskRow a b c d e ++ rest
          = join [showNat a, showNat b, showNat c, showNat d, showNat e] ++ '\n' :: rest := by
        intros; simp [taskRow, join]
      rw [this, rows_line _ (by simp) (by simp [plain_showNat])]
  unfold taskLog
  rw [head, List.append_assoc, List.singleton_append, rows_line _ (by simp) (by simp [Plain]), body]
  simp [number_showNat]

/-- every entry of the dictionary has its own name -/
theorem dict_nodup (ns : List String) : ∀ d : Wrapper.Dict, (d.map.map Prod.fst).Nodup →
    ((Wrapper.registerAll ns d).2.map.map Prod.fst).Nodup := by
  induction ns with
  | nil => intro d h; exact h
  | cons n ns ih =>
    intro d h
    rw [Wrapper.registerAll]
    refine ih _ ?_
    unfold Wrapper.Dict.register
    split
    · exact h
    · rename_i hnone
      rw [List.map_cons, List.nodup_cons]
      refine ⟨?_, h⟩
      intro hm
      obtain ⟨⟨m, k⟩, hmk, rfl⟩ := List.mem_map.1 hm
      rw [List.lookup_eq_none_iff] at hnone
      have := hnone (m, k) hmk
      simp at this

theorem lookup_mem {l : List (String × Nat)} (h : (l.map Prod.fst).Nodup) (n : String) (k : Nat) :
    l.lookup n = some k ↔ (n, k) ∈ l := by
  induction l with
  | nil => simp
  | cons e l ih =>
    obtain ⟨m, j⟩ := e
    rw [List.map_cons, List.nodup_cons] at h
    rw [Wrapper.lookup_cons', List.mem_cons]
    by_cases hm : n = m
    · subst hm
      rw [if_pos rfl]
      constructor
      · intro e; left; cases e; rfl
      · rintro (e | e)
        · cases e; rfl
        · exact absurd (List.mem_map.2 ⟨_, e, rfl⟩) h.1
    · rw [if_neg hm, ih h.2]
      constructor
      · exact .inr
      · rintro (e | e)
        · cases e; exact absurd rfl hm
        · exact e

/-- the rows of the type log -/
theorem type_rows (dict : List (Str × Nat)) (hn : ∀ e ∈ dict, Plain e.1) :
    (rows (typeLog dict)).drop 1 = dict.map fun e => [showNat e.2, e.1] := by
  have head : "# type\tlabel\n".toList = join ["# type".toList, "label".toList] ++ ['\n'] := by simp [join]
  have body : rows (dict.flatMap fun e => showNat e.2 ++ '\t' :: e.1 ++ ['\n']) = dict.map fun e => [showNat e.2, e.1] := by
    induction dict with
    | nil => exact rows_nil
    | cons e dict ih =>
      rw [List.flatMap_cons, List.map_cons, ← ih fun e he => hn e (by simp [he])]
      have : ∀ rest, showNat e.2 ++ '\t' :: e.1 ++ ['\n'] ++ rest = join [showNat e.2, e.1] ++ '\n' :: rest := by
        intros; simp [join]
      rw [this, rows_line _ (by simp) (by
        intro w hw
        simp at hw
        rcases hw with rfl | rfl
        · exact plain_showNat _
        · exact hn e (by simp))]
  unfold typeLog
  rw [head, List.append_assoc, List.singleton_append, rows_line _ (by simp) (by simp [Plain]), body]
  simp

/-- **C107 (type log).** The type number of every task in the scheduler (the fourth column of the task log) appears in
exactly one line of the type log, and the label in that line is the name in the `task` line of the graph log.
`dict` is the dictionary in any order. -/
theorem c107_type_log (pl : Str → List Nat) (l : List Call) (hn : Names l) (J : Junk) (ops : List (Op × Junk))
    (ho : ops.map Prod.fst = toOps pl Wrapper.Dict.empty l) (hfit : PayloadsAtMost 8000 (ops.map Prod.fst)) (s : Store)
    (h : exec ops (init J) = some s) (dict : List (Str × Nat))
    (hd : dict.Perm ((Wrapper.registerAll ((taskNames l).map String.ofList) .empty).2.map.map fun e => (e.1.toList, e.2))) :
    ∀ i name, (i, name) ∈ labels "task".toList (graphLog 0 0 l) →
      ((rows (typeLog dict)).drop 1).filter (fun r => r.head? = some (showNat (s.tasks i).type))
        = [[showNat (s.tasks i).type, name]] := by
  intro i name hmem
  have hl : labels "task".toList (graphLog 0 0 l) = (taskNames l).zipIdx.map (fun e => (e.2, e.1)) := by
    rw [labels_eq, graph_rows l hn, labels_records]
  rw [hl] at hmem
  obtain ⟨⟨n', i'⟩, hz, he⟩ := List.mem_map.1 hmem
  have hz : (name, i) ∈ (taskNames l).zipIdx := by
    cases he
    exact hz
  have hi : (taskNames l)[i]? = some name := List.mem_zipIdx_iff_getElem?.1 hz
  obtain ⟨-, -, h3, -, -⟩ := c12_nothing_lost J ops hfit s h
  obtain ⟨c1, c2, c3, c4, c5⟩ := Wrapper.c16_type_numbers ((taskNames l).map String.ofList)
  have hty := task_ops pl l Wrapper.Dict.empty
  rw [ho] at h3
  generalize hR : Wrapper.registerAll ((taskNames l).map String.ofList) Wrapper.Dict.empty = R at *
  have hlen : (tasksOf (toOps pl Wrapper.Dict.empty l)).length = (taskNames l).length := by
    have := congrArg List.length hty
    rw [List.length_map, c1, List.length_map] at this
    exact this
  have hlt : i < (taskNames l).length := by
    by_contra hc
    rw [List.getElem?_eq_none (by omega)] at hi
    cases hi
  -- the type of task `i` is the number of its name
  have hT : R.2.map.lookup (String.ofList name) = some (s.tasks i).type := by
    rw [c3 i (String.ofList name) (by rw [List.getElem?_map, hi]; rfl), ← hty, List.getElem?_map,
      List.getElem?_eq_getElem (by omega)]
    have := (h3 i _ _ _ _ (List.getElem?_eq_getElem (by omega))).1
    simp [this]
  have hnd : (R.2.map.map Prod.fst).Nodup := by
    rw [← hR]
    exact dict_nodup _ _ (by simp [Wrapper.Dict.empty])
  have inv : Wrapper.DInv R.2 := by
    rw [← hR]
    refine (Wrapper.registerAll_spec _ _ ?_).1
    exact ⟨by simp [Wrapper.Dict.empty], by simp [Wrapper.Dict.empty], by simp [Wrapper.Dict.empty]⟩
  -- one entry with that number
  have hone : (R.2.map.map fun e => (e.1.toList, e.2)).filter (fun e => e.2 = (s.tasks i).type)
      = [(name, (s.tasks i).type)] := by
    have hmem := (lookup_mem hnd _ _).1 hT
    have huniq : ∀ e ∈ R.2.map, e.2 = (s.tasks i).type → e = (String.ofList name, (s.tasks i).type) := by
      rintro ⟨m, k⟩ he rfl
      have := inv.inj m (String.ofList name) _ ((lookup_mem hnd _ _).2 he) hT
      rw [this]
    have hnd' : R.2.map.Nodup := List.Nodup.of_map _ hnd
    rw [List.filter_map]
    have : R.2.map.filter ((fun e : Str × Nat => decide (e.2 = (s.tasks i).type)) ∘ fun e => (e.1.toList, e.2))
        = [(String.ofList name, (s.tasks i).type)] := by
      have hp : (R.2.map.filter ((fun e : Str × Nat => decide (e.2 = (s.tasks i).type)) ∘ fun e => (e.1.toList, e.2))).Perm
          [(String.ofList name, (s.tasks i).type)] := by
        refine (List.perm_ext_iff_of_nodup (hnd'.filter _) (by simp)).2 ?_
        intro e
        simp only [List.mem_filter, Function.comp, decide_eq_true_eq, List.mem_singleton]
        constructor
        · rintro ⟨h1, h2⟩; exact huniq e h1 h2
        · rintro rfl; exact ⟨hmem, rfl⟩
      exact List.perm_singleton.1 hp
    rw [this]
    simp
  have hplain : ∀ e ∈ dict, Plain e.1 := by
    intro e he
    obtain ⟨⟨m, k⟩, hm, rfl⟩ := List.mem_map.1 (hd.mem_iff.1 he)
    have := (c4 m k ((lookup_mem hnd _ _).2 hm)).1
    obtain ⟨n, hn', rfl⟩ := List.mem_map.1 this
    obtain ⟨c, hc, hcn⟩ := List.mem_filterMap.1 hn'
    rw [String.toList_ofList]
    rcases c with _ | ⟨n2⟩ | _ | _ <;> simp at hcn
    subst hcn
    exact (hn _ hc).2 _ rfl
  rw [type_rows dict hplain, List.filter_map]
  have hp : (dict.filter (fun e => e.2 = (s.tasks i).type)).Perm [(name, (s.tasks i).type)] := by
    rw [← hone]
    exact hd.filter _
  have he := List.perm_singleton.1 hp
  have hf : dict.filter ((fun r : List Str => decide (r.head? = some (showNat (s.tasks i).type))) ∘ fun e => [showNat e.2, e.1])
      = dict.filter (fun e => e.2 = (s.tasks i).type) := by
    refine List.filter_congr ?_
    intro e _
    simp only [Function.comp, List.head?_cons, Option.some.injEq]
    by_cases h : e.2 = (s.tasks i).type
    · simp [h]
    · have h' : ¬ showNat e.2 = showNat (s.tasks i).type := fun h' => h (showNat_inj h')
      simp [h, h']
  rw [hf, he]
  rfl

/-! ## Example -/

/-- a resource with a child, two tasks of different types, one of the same type again, locks, uses and an order -/
def exCalls : List Call :=
  [.resource ['R'] none, .resource ['S'] (some 0), .task ['A'], .access 0 1 true, .task ['B'], .access 1 0 false,
   .order 0 1, .task ['A']]

theorem exCalls_names : Names exCalls := by
  intro c hc
  simp only [exCalls, List.mem_cons, List.not_mem_nil, or_false] at hc
  rcases hc with rfl | rfl | rfl | rfl | rfl | rfl | rfl | rfl <;> simp [Plain]

/-- the calls fit into a scheduler, so that the theorems above apply -/
example (J : Junk) : ∃ s, exec ((toOps (fun _ => [0]) Wrapper.Dict.empty exCalls).map fun o => (o, J)) (init J) = some s := by
  have e : (toOps (fun _ => [0]) Wrapper.Dict.empty exCalls)
      = [.res none none, .res none (some 0), .task 0 0 1 [0], .link .locks 0 1, .task 1 0 1 [0], .link .uses 1 0,
         .link .deps 0 1, .task 0 0 1 [0]] := by
    simp [exCalls, toOps, Wrapper.Dict.register, Wrapper.Dict.empty, Wrapper.lookup_cons']
  rw [e]
  refine c08_safe J _ ?_ ?_
  · intro a b c d hm
    simp at hm
    rcases hm with hm | hm | hm <;> simp [hm]
  · intro pre post k t v h
    simp only [List.map_cons, List.map_nil] at h
    rcases pre with _ | ⟨x1, _ | ⟨x2, _ | ⟨x3, _ | ⟨x4, _ | ⟨x5, _ | ⟨x6, _ | ⟨x7, _ | ⟨x8, pre⟩⟩⟩⟩⟩⟩⟩⟩ <;>
      simp at h <;> obtain ⟨rfl, h⟩ := h
    · obtain ⟨rfl, rfl, ⟨-, rfl, -⟩, -⟩ := h
      simp [tasksOf]
    · obtain ⟨rfl, rfl, rfl, rfl, ⟨-, rfl, -⟩, -⟩ := h
      simp [tasksOf]
    · obtain ⟨rfl, rfl, rfl, rfl, rfl, ⟨-, rfl, -⟩, -⟩ := h
      simp [tasksOf]

example : rows (graphLog 0 0 exCalls) =
    [["resource".toList, ['0'], ['R']], ["resource".toList, ['1'], ['S']], ["child".toList, ['1'], ['0']],
     ["task".toList, ['0'], ['A']], ["writelink".toList, ['0'], ['1']], ["task".toList, ['1'], ['B']],
     ["readlink".toList, ['1'], ['0']], ["tasklink".toList, ['0'], ['1']], ["task".toList, ['2'], ['A']]] := by
  rw [graph_rows _ exCalls_names]
  simp [exCalls, records, record, isResource, isTask, showNat]

end Verif.LogFile
