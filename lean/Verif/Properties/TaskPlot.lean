import Verif.Model.TaskPlot
import Verif.Spec.TaskPlot
import Verif.Properties.TaskGraph
import Verif.Properties.Times
import Mathlib.Data.List.Sort
import Mathlib.Data.Rat.Cast.Order
import Mathlib.Algebra.Order.Field.Rat

/-!
# C112: the plot of the tasks
-/
namespace Verif.TaskPlot

open Verif
open Verif.Text (showNat isDigit digit)
open Verif.LogFile (Str taskLog taskRow typeLog)
open Verif.TaskGraph (linesFrom toInt trim ClassName mangled)

set_option autoImplicit false

/-! ## reading the logs -/

def Clean (w : Str) : Prop := ∀ c ∈ w, c ≠ '\t' ∧ c ≠ '\n' ∧ c ≠ '#'

theorem clean_showNat (n : Nat) : Clean (showNat n) := by
  obtain ⟨ds, -, hd, h, -⟩ := Text.showNat_spec n
  rw [h]
  intro c hc
  obtain ⟨d, hd', rfl⟩ := List.mem_map.1 hc
  have := hd d hd'
  interval_cases d <;> decide

theorem clean_mangled {name : Str} (h : ClassName name) (hh : '#' ∉ name) : Clean (mangled name) := by
  intro c hc
  rcases List.mem_append.1 hc with hc | hc
  · exact clean_showNat _ c hc
  · have := h.2.2 c hc
    refine ⟨?_, ?_, ?_⟩ <;> rintro rfl
    · exact absurd this (by decide)
    · exact absurd this (by decide)
    · exact hh hc

theorem fields_field (w rest : Str) (h : '\t' ∉ w) : ∀ cur, fieldsFrom cur (w ++ '\t' :: rest) = (cur ++ w) :: fieldsFrom [] rest := by
  induction w with
  | nil => intro cur; simp [fieldsFrom]
  | cons c w ih =>
    intro cur
    rw [List.cons_append, fieldsFrom, if_neg (fun e => h (by simp [e])), ih (fun e => h (by simp [e]))]
    simp

theorem fields_last (w : Str) (h : '\t' ∉ w) : ∀ cur, fieldsFrom cur w = [cur ++ w] := by
  induction w with
  | nil => intro cur; simp [fieldsFrom]
  | cons c w ih =>
    intro cur
    rw [fieldsFrom, if_neg (fun e => h (by simp [e])), ih (fun e => h (by simp [e]))]
    simp

theorem content_line (w : Str) (h : ∀ c ∈ w, c ≠ '\n' ∧ c ≠ '#') : content (w ++ ['\n']) = w := by
  unfold content
  rw [List.takeWhile_append_of_pos (by intro c hc; simpa using ⟨(h c hc).2, (h c hc).1⟩)]
  simp

theorem loadRows_line (w rest : Str) (hne : w ≠ []) (h : ∀ c ∈ w, c ≠ '\n' ∧ c ≠ '#') :
    loadRows (w ++ '\n' :: rest) = fieldsFrom [] w :: loadRows rest := by
  unfold loadRows
  rw [TaskGraph.linesFrom_row _ _ _ (fun hc => (h _ hc).1 rfl), List.filterMap_cons, List.nil_append, content_line w h, if_neg hne]

theorem loadRows_title (w rest : Str) (h : '\n' ∉ w) : loadRows ('#' :: w ++ '\n' :: rest) = loadRows rest := by
  unfold loadRows
  rw [TaskGraph.linesFrom_row _ _ _ (by simpa using h), List.filterMap_cons]
  have : content ([] ++ '#' :: w ++ ['\n']) = [] := by simp [content]
  rw [this, if_pos rfl]

theorem loadRows_nil : loadRows [] = [] := by simp [loadRows, linesFrom]

theorem not_tab {w : Str} (h : Clean w) : '\t' ∉ w := fun hc => (h _ hc).1 rfl

theorem task_rows (rec : Nat → Nat × Nat × Nat × Nat) (ids : List Nat) : loadRows (taskLog rec ids)
    = ids.map fun i => [showNat (rec i).1, showNat (rec i).2.1, showNat (rec i).2.2.1, showNat (rec i).2.2.2, showNat i] := by
  have head : "# thread\tstart\tend\ttype\ttask id\n".toList = '#' :: " thread\tstart\tend\ttype\ttask id".toList ++ ['\n'] := by simp
  unfold taskLog
  rw [head, List.append_assoc, List.singleton_append, loadRows_title _ _ (by simp)]
  induction ids with
  | nil => exact loadRows_nil
  | cons i ids ih =>
    rw [List.flatMap_cons, List.map_cons, ← ih]
    have e : ∀ a b c d e rest, taskRow a b c d e ++ rest
        = (showNat a ++ '\t' :: (showNat b ++ '\t' :: (showNat c ++ '\t' :: (showNat d ++ '\t' :: showNat e)))) ++ '\n' :: rest := by
      intros; simp [taskRow]
    rw [e, loadRows_line _ _ (by simp)]
    · rw [fields_field _ _ (not_tab (clean_showNat _)), fields_field _ _ (not_tab (clean_showNat _)), fields_field _ _ (not_tab (clean_showNat _)),
        fields_field _ _ (not_tab (clean_showNat _)), fields_last _ (not_tab (clean_showNat _))]
      simp
    · intro c hc
      have cl : ∀ n, ∀ c ∈ showNat n, c ≠ '\n' ∧ c ≠ '#' := fun n c hc => (clean_showNat n c hc).2
      simp only [List.mem_append, List.mem_cons] at hc
      rcases hc with hc | rfl | hc | rfl | hc | rfl | hc | rfl | hc
      · exact cl _ _ hc
      · decide
      · exact cl _ _ hc
      · decide
      · exact cl _ _ hc
      · decide
      · exact cl _ _ hc
      · decide
      · exact cl _ _ hc

theorem type_rows (dict : List (Str × Nat)) (h : ∀ e ∈ dict, Clean e.1) : loadRows (typeLog dict) = dict.map fun e => [showNat e.2, e.1] := by
  have head : "# type\tlabel\n".toList = '#' :: " type\tlabel".toList ++ ['\n'] := by simp
  unfold typeLog
  rw [head, List.append_assoc, List.singleton_append, loadRows_title _ _ (by simp)]
  induction dict with
  | nil => exact loadRows_nil
  | cons e dict ih =>
    rw [List.flatMap_cons, List.map_cons, ← ih fun e he => h e (by simp [he])]
    have e1 : ∀ rest, showNat e.2 ++ '\t' :: e.1 ++ ['\n'] ++ rest = (showNat e.2 ++ '\t' :: e.1) ++ '\n' :: rest := by
      intros; simp
    have he := h e (by simp)
    rw [e1, loadRows_line _ _ (by simp)]
    · rw [fields_field _ _ (not_tab (clean_showNat _)), fields_last _ (not_tab he)]
      simp
    · intro c hc
      simp only [List.mem_append, List.mem_cons] at hc
      rcases hc with hc | rfl | hc
      · exact (clean_showNat _ c hc).2
      · decide
      · exact (he c hc).2

theorem convert_map {α β : Type} (f : List Str → Option α) (g : β → List Str) (k : β → α) (l : List β) (h : ∀ x ∈ l, f (g x) = some (k x)) :
    convert f (l.map g) = some (l.map k) := by
  induction l with
  | nil => rfl
  | cons x l ih =>
    rw [List.map_cons, convert, h x (by simp), ih fun y hy => h y (by simp [hy])]
    rfl

theorem number_showNat (bits n : Nat) (h : n < 2 ^ bits) : number bits (showNat n) = some n := by
  unfold number
  rw [TaskGraph.toInt_showNat]
  simp [h]

def taskOf (rec : Nat → Nat × Nat × Nat × Nat) (i : Nat) : Task := ⟨(rec i).1, (rec i).2.1, (rec i).2.2.1, (rec i).2.2.2⟩

theorem read_tasks {rec : Nat → Nat × Nat × Nat × Nat} {ids : List Nat} {n : Nat} (h : Records rec ids n) (hn : n ≤ 2 ^ 31) :
    convert (taskRecord false) (loadRows (taskLog rec ids)) = some (ids.map (taskOf rec)) := by
  rw [task_rows]
  refine convert_map _ _ _ _ fun i hi => ?_
  have h1 := h.thread i hi
  have h2 := h.times i hi
  have h3 := h.type i hi
  simp only [taskRecord]
  rw [if_neg (by simp), number_showNat _ _ h1, number_showNat _ _ (by omega), number_showNat _ _ h2.2, number_showNat _ _ (by omega)]
  rfl

theorem read_types {dict : List (Str × Nat)} {n : Nat} (h : Types dict n) :
    convert (typeRecord false) (loadRows (typeLog dict)) = some (dict.map fun e => (e.2, e.1.take 100)) := by
  rw [type_rows]
  · refine convert_map _ _ _ _ fun e he => ?_
    have : e.2 < n := List.mem_range.1 (h.numbers.mem_iff.1 (List.mem_map.2 ⟨e, he, rfl⟩))
    have hn := h.few
    simp only [typeRecord]
    rw [if_neg (by simp), number_showNat _ _ (by omega)]
  · intro e he
    obtain ⟨name, h1, -, h2, h3⟩ := h.names e he
    rw [h3]
    exact clean_mangled h1 h2

/-! ## the plot -/

theorem le_maxOf (f : Task → Nat) (ts : List Task) : ∀ m, m ≤ ts.foldl (fun m x => max m (f x)) m ∧ (∀ x ∈ ts, f x ≤ ts.foldl (fun m x => max m (f x)) m) ∧
    (ts.foldl (fun m x => max m (f x)) m = m ∨ ∃ x ∈ ts, ts.foldl (fun m x => max m (f x)) m = f x) := by
  induction ts with
  | nil => intro m; simp
  | cons t ts ih =>
    intro m
    obtain ⟨a, b, c⟩ := ih (max m (f t))
    rw [List.foldl_cons]
    refine ⟨by omega, ?_, ?_⟩
    · intro x hx
      rcases List.mem_cons.1 hx with rfl | hx
      · omega
      · exact b x hx
    · rcases c with c | ⟨x, hx, c⟩
      · rw [c]
        rcases Nat.le_total m (f t) with h | h
        · exact .inr ⟨t, by simp, by omega⟩
        · exact .inl (by omega)
      · exact .inr ⟨x, by simp [hx], c⟩

theorem minOf_le (f : Task → Nat) (ts : List Task) : ∀ m, ts.foldl (fun m x => min m (f x)) m ≤ m ∧ (∀ x ∈ ts, ts.foldl (fun m x => min m (f x)) m ≤ f x) ∧
    (ts.foldl (fun m x => min m (f x)) m = m ∨ ∃ x ∈ ts, ts.foldl (fun m x => min m (f x)) m = f x) := by
  induction ts with
  | nil => intro m; simp
  | cons t ts ih =>
    intro m
    obtain ⟨a, b, c⟩ := ih (min m (f t))
    rw [List.foldl_cons]
    refine ⟨by omega, ?_, ?_⟩
    · intro x hx
      rcases List.mem_cons.1 hx with rfl | hx
      · omega
      · exact b x hx
    · rcases c with c | ⟨x, hx, c⟩
      · rw [c]
        rcases Nat.le_total m (f t) with h | h
        · exact .inl (by omega)
        · exact .inr ⟨t, by simp, by omega⟩
      · exact .inr ⟨x, by simp [hx], c⟩

theorem maxOf_spec (f : Task → Nat) (t : Task) (ts : List Task) : (∀ x ∈ t :: ts, f x ≤ maxOf f t ts) ∧ ∃ x ∈ t :: ts, maxOf f t ts = f x := by
  obtain ⟨a, b, c⟩ := le_maxOf f ts (f t)
  refine ⟨?_, ?_⟩
  · intro x hx
    rcases List.mem_cons.1 hx with rfl | hx
    · exact a
    · exact b x hx
  · rcases c with c | ⟨x, hx, c⟩
    · exact ⟨t, by simp, c⟩
    · exact ⟨x, by simp [hx], c⟩

theorem minOf_spec (f : Task → Nat) (t : Task) (ts : List Task) : (∀ x ∈ t :: ts, minOf f t ts ≤ f x) ∧ ∃ x ∈ t :: ts, minOf f t ts = f x := by
  obtain ⟨a, b, c⟩ := minOf_le f ts (f t)
  refine ⟨?_, ?_⟩
  · intro x hx
    rcases List.mem_cons.1 hx with rfl | hx
    · exact a
    · exact b x hx
  · rcases c with c | ⟨x, hx, c⟩
    · exact ⟨t, by simp, c⟩
    · exact ⟨x, by simp [hx], c⟩

theorem difference_eq {e s : Nat} (h : s ≤ e) (he : e < 2 ^ 64) : difference e s = e - s := by
  unfold difference
  rw [show e + 2 ^ 64 - s = (e - s) + 2 ^ 64 by omega, Nat.add_mod_right, Nat.mod_eq_of_lt (by omega)]

theorem sorted_numbers {dict : List (Str × Nat)} {n : Nat} (h : Types dict n) :
    (sortTypes (dict.map fun e => (e.2, e.1.take 100))).map Prod.fst = List.range n := by
  have hp : ((sortTypes (dict.map fun e => (e.2, e.1.take 100))).map Prod.fst).Perm (List.range n) := by
    refine ((List.mergeSort_perm _ _).map _).trans ?_
    rw [List.map_map]
    exact h.numbers
  refine hp.eq_of_pairwise (le := (· ≤ ·)) (fun a b _ _ => Nat.le_antisymm) ?_ (List.pairwise_le_range)
  rw [List.pairwise_map]
  refine (List.pairwise_mergeSort ?_ ?_ _).imp ?_
  · intro a b c; simp; omega
  · intro a b; simp; omega
  · intro a b; simp

/-- C112: every bar of the plot is a task of the log, drawn for the thread that executed it, from its start to its end, with the colour of its type;
the names in the legend are those of the types; the two lines are where the first task starts and the last one ends -/
theorem c112_plot {rec : Nat → Nat × Nat × Nat × Nat} {ids : List Nat} {dict : List (Str × Nat)} {n : Nat} (hr : Records rec ids n) (ht : Types dict n) :
    ∃ P, plot false (typeLog dict) (taskLog rec ids) = some P ∧
      (∀ th, P.threads[th]?.getD [] = (ids.filter fun t => (rec t).1 = th).map fun t => ⟨(rec t).2.1, (rec t).2.2.1 - (rec t).2.1, (rec t).2.2.2⟩) ∧
      (∃ t ∈ ids, P.threads.length = (rec t).1 + 1) ∧
      P.legend.length = n ∧ (∀ name k, ClassName name → (mangled name, k) ∈ dict → P.legend[k]? = some name) ∧
      (∀ t ∈ ids, P.first ≤ (rec t).2.1 ∧ (rec t).2.2.1 ≤ P.last) ∧ (∃ t ∈ ids, P.first = (rec t).2.1) ∧ ∃ t ∈ ids, P.last = (rec t).2.2.1 := by
  obtain ⟨i, is, rfl⟩ : ∃ i is, ids = i :: is := List.exists_cons_of_ne_nil hr.some
  have hlen : dict.length = n := by simpa using ht.numbers.length_eq
  have hall : ((i :: is).map (taskOf rec)).all (fun x => decide (x.type < (dict.map fun e => (e.2, e.1.take 100)).length)) = true := by
    rw [List.all_eq_true]
    intro x hx
    obtain ⟨t, h, rfl⟩ := List.mem_map.1 hx
    simpa [hlen, taskOf] using hr.type t h
  have e : plot false (typeLog dict) (taskLog rec (i :: is)) = some
      { threads := (List.range (maxOf Task.thread (taskOf rec i) (is.map (taskOf rec)) + 1)).map fun j => (((i :: is).map (taskOf rec)).filter fun x => x.thread = j).map bar
        legend := (sortTypes (dict.map fun e => (e.2, e.1.take 100))).map fun x => trim x.2
        first := minOf Task.start (taskOf rec i) (is.map (taskOf rec))
        last := maxOf Task.stop (taskOf rec i) (is.map (taskOf rec)) } := by
    unfold plot
    rw [read_types ht, read_tasks hr ht.few]
    simp only [List.map_cons] at hall ⊢
    rw [if_pos hall]
  refine ⟨_, e, ?_, ?_, ?_, ?_, ?_, ?_, ?_⟩
  · intro th
    obtain ⟨hm, -⟩ := maxOf_spec Task.thread (taskOf rec i) (is.map (taskOf rec))
    have key : (((i :: is).map (taskOf rec)).filter fun x => x.thread = th).map bar
        = ((i :: is).filter fun t => (rec t).1 = th).map fun t => (⟨(rec t).2.1, (rec t).2.2.1 - (rec t).2.1, (rec t).2.2.2⟩ : Bar) := by
      rw [List.filter_map, List.map_map]
      refine List.map_congr_left ?_
      intro t h
      have h' := (List.mem_filter.1 h).1
      have := hr.times t h'
      simp [bar, taskOf, difference_eq this.1 this.2]
    by_cases hlt : th < maxOf Task.thread (taskOf rec i) (is.map (taskOf rec)) + 1
    · rw [List.getElem?_map, List.getElem?_range hlt]
      exact key
    · rw [List.getElem?_map, List.getElem?_eq_none (by simpa using hlt), ← key]
      symm
      simp only [Option.map_none, Option.getD_none]
      rw [List.map_eq_nil_iff, List.filter_eq_nil_iff]
      intro x hx
      have := hm x (by simpa using hx)
      simp
      omega
  · obtain ⟨-, x, hx, hm⟩ := maxOf_spec Task.thread (taskOf rec i) (is.map (taskOf rec))
    rw [← List.map_cons] at hx
    obtain ⟨t, h, rfl⟩ := List.mem_map.1 hx
    refine ⟨t, h, ?_⟩
    simp only [List.length_map, List.length_range, hm]
    rfl
  · simp only [List.length_map]
    rw [← hlen]
    simp [sortTypes]
  · intro name k hc hk
    have hs := sorted_numbers ht
    have hk' : k < n := List.mem_range.1 (ht.numbers.mem_iff.1 (List.mem_map.2 ⟨_, hk, rfl⟩))
    have hmem : (k, (mangled name).take 100) ∈ sortTypes (dict.map fun e => (e.2, e.1.take 100)) :=
      (List.mergeSort_perm _ _).mem_iff.2 (List.mem_map.2 ⟨_, hk, rfl⟩)
    generalize sortTypes (dict.map fun e => (e.2, e.1.take 100)) = L at hs hmem ⊢
    have hL : L.length = n := by simpa using congrArg List.length hs
    obtain ⟨j, hj, ej⟩ := List.mem_iff_getElem.1 hmem
    have hjk : j = k := by
      have h1 : (L.map Prod.fst)[j]'(by simpa using hj) = (List.range n)[j]'(by simp; omega) := by simp only [hs]
      rw [List.getElem_map, ej, List.getElem_range] at h1
      exact h1.symm
    subst hjk
    have hshort : name.length ≤ 98 := by
      obtain ⟨name', h1, h2, -, h3⟩ := ht.names _ hk
      have : name = name' := TaskGraph.mangled_inj h3
      rw [this]; exact h2
    have htake : (mangled name).take 100 = mangled name := by
      refine List.take_of_length_le ?_
      have := TaskGraph.showNat_length hc.1
      rw [mangled, List.length_append]
      by_cases h9 : name.length ≤ 9
      · rw [this.1 h9]; omega
      · rw [this.2.1 (by omega) hc.2.1]; omega
    rw [List.getElem?_map, List.getElem?_eq_getElem hj, ej, Option.map_some, htake, TaskGraph.c110_label name hc]
  · intro t h
    have h' : taskOf rec t ∈ taskOf rec i :: is.map (taskOf rec) := by rw [← List.map_cons]; exact List.mem_map.2 ⟨t, h, rfl⟩
    exact ⟨(minOf_spec Task.start _ _).1 _ h', (maxOf_spec Task.stop _ _).1 _ h'⟩
  · obtain ⟨-, x, hx, hm⟩ := minOf_spec Task.start (taskOf rec i) (is.map (taskOf rec))
    rw [← List.map_cons] at hx
    obtain ⟨t, h, rfl⟩ := List.mem_map.1 hx
    exact ⟨t, h, hm⟩
  · obtain ⟨-, x, hx, hm⟩ := maxOf_spec Task.stop (taskOf rec i) (is.map (taskOf rec))
    rw [← List.map_cons] at hx
    obtain ⟨t, h, rfl⟩ := List.mem_map.1 hx
    exact ⟨t, h, hm⟩

/-! ## the plot of a run -/

section run

open Verif.Sched Verif.Times

variable {C : Cfg} {x0 x : TSt C}

/-- what the log contains after a run; `type` are the types of the tasks -/
def recOf (x : TSt C) (type : Nat → Nat) (t : Nat) : Nat × Nat × Nat × Nat := (x.s.tqid t, x.tic t, x.toc t, type t)

theorem thread_lt (hC : WfCfg C) (h0 : TPrepared C x0) (hr : TReach C x0 x) : ∀ t, Taken x.s t → x.s.tqid t < C.nth := by
  induction hr with
  | refl =>
    rintro a (⟨th, hp⟩ | hp)
    · simp [h0.prepared.pc] at hp
    · exact absurd (h0.prepared.starts a) hp
  | step th ch dt hr1 hs ih =>
    rename_i x1 x2
    obtain ⟨h1, -⟩ := tstep_spec hs
    intro t ht
    rcases event h1 with ⟨t', hp, -, -, -, hq⟩ | h | h | h
    · rw [hq]
      by_cases e : t = t'
      · subst e
        rw [Function.update_self]
        exact lt_of_le_of_lt (Nat.mod_le _ _) th.isLt
      · rw [Function.update_of_ne e]
        rcases (taken_step h1 t).1 ht with h | h
        · exact ih t h
        · rw [hp] at h; cases h; exact absurd rfl e
    all_goals
      rcases (taken_step h1 t).1 ht with h' | h'
    · obtain ⟨t', -, -, -, -, hq⟩ := h
      rw [hq]; exact ih t h'
    · obtain ⟨t', hp, -⟩ := h
      rw [hp] at h'; cases h'
    · obtain ⟨t', id, -, -, -, -, hq⟩ := h
      rw [hq]; exact ih t h'
    · obtain ⟨t', id, hp, -⟩ := h
      rw [hp] at h'; cases h'
    · rw [h.2.2.2.2.2.2.2]; exact ih t h'
    · exact absurd h' (h.1 t)

theorem sum_disjoint (S : Finset Nat) (lo hi : Nat → Nat) (a b : Nat) (h : ∀ t ∈ S, a ≤ lo t ∧ hi t ≤ b)
    (hd : ∀ s ∈ S, ∀ t ∈ S, s ≠ t → hi s ≤ lo t ∨ hi t ≤ lo s) : ∑ t ∈ S, (hi t - lo t) ≤ b - a := by
  have hd' : (S : Set Nat).PairwiseDisjoint fun t => Finset.Ico (lo t) (hi t) := by
    intro s hs t ht hst
    simp only [Function.onFun, Finset.disjoint_left, Finset.mem_Ico]
    have := hd s hs t ht hst
    omega
  have hsum : ∑ t ∈ S, (hi t - lo t) = (S.biUnion fun t => Finset.Ico (lo t) (hi t)).card := by
    rw [Finset.card_biUnion hd']
    exact Finset.sum_congr rfl fun t _ => (Nat.card_Ico _ _).symm
  rw [hsum, ← Nat.card_Ico]
  refine Finset.card_le_card ?_
  intro y hy
  simp only [Finset.mem_biUnion, Finset.mem_Ico] at hy ⊢
  obtain ⟨t, ht, hy⟩ := hy
  have := h t ht
  omega

/-- C112: in the plot of a run with as many queues as threads, the bars of a thread do not overlap, and its load is a fraction of the time between the two lines -/
theorem c112_load (hC : WfCfg C) (h0 : TPrepared C x0) (hr : TReach C x0 x) (hle : C.nth ≤ C.nq) (hth : C.nth ≤ 2 ^ 31) (hnow : x.now < 2 ^ 64)
    (ids : List Nat) (hne : ids ≠ []) (hnd : ids.Nodup) (he : ∀ t ∈ ids, x.s.ends t ≠ 0) (type : Nat → Nat) (dict : List (Str × Nat)) (n : Nat)
    (ht : Types dict n) (hty : ∀ t ∈ ids, type t < n) :
    ∃ P, plot false (typeLog dict) (taskLog (recOf x type) ids) = some P ∧
      ∀ (th : Nat) bars, P.threads[th]? = some bars → (bars.Pairwise fun a b => a.start + a.length ≤ b.start ∨ b.start + b.length ≤ a.start) ∧
        load P bars * ((P.last : ℚ) - P.first) = ((ids.filter fun t => x.s.tqid t = th).map fun t => (x.toc t : ℚ) - x.tic t).sum ∧
        0 ≤ load P bars ∧ load P bars ≤ 1 := by
  have I := reach_inv hC h0.prepared (treach_reach hr)
  have hst : ∀ t ∈ ids, x.s.starts t ≠ 0 := fun t h => by have := I.runs t; have := he t h; omega
  have hint : ∀ t ∈ ids, x.tic t ≤ x.toc t ∧ x.toc t < 2 ^ 64 := fun t h => by
    have := c106_interval hC h0 hr t (he t h); omega
  have hrec : Records (recOf x type) ids n := ⟨hne, fun t h => lt_of_lt_of_le (thread_lt hC h0 hr t (.inr (hst t h))) hth, hint, hty⟩
  obtain ⟨P, hP, hb, -, -, -, hlim, -, -⟩ := c112_plot hrec ht
  refine ⟨P, hP, ?_⟩
  intro th bars hbars
  have e := hb th
  rw [hbars, Option.getD_some] at e
  rw [e]
  have hdis : ∀ s ∈ ids.filter (fun t => (recOf x type t).1 = th), ∀ t ∈ ids.filter (fun t => (recOf x type t).1 = th), s ≠ t → x.toc s ≤ x.tic t ∨ x.toc t ≤ x.tic s := by
    intro s hs t ht' hst'
    rw [List.mem_filter] at hs ht'
    have q1 : x.s.tqid s = th := of_decide_eq_true hs.2
    have q2 : x.s.tqid t = th := of_decide_eq_true ht'.2
    rcases (c106_thread hC h0 hr).2.2 hle s t hst' (hst s hs.1) (hst t ht'.1) (q1.trans q2.symm) with h | h
    · exact .inl h.2
    · exact .inr h.2
  have hs := sum_disjoint (ids.filter (fun t => (recOf x type t).1 = th)).toFinset x.tic x.toc P.first P.last
    (fun t h => hlim t (List.mem_filter.1 (List.mem_toFinset.1 h)).1)
    (fun s h t h' => hdis s (List.mem_toFinset.1 h) t (List.mem_toFinset.1 h'))
  rw [List.sum_toFinset _ (hnd.filter _)] at hs
  have hcast : ∀ l : List Nat, (∀ t ∈ l, t ∈ ids) → (((l.map fun t => x.toc t - x.tic t).sum : ℕ) : ℚ) = (l.map fun t => (x.toc t : ℚ) - x.tic t).sum := by
    intro l hl
    induction l with
    | nil => simp
    | cons t l ih =>
      rw [List.map_cons, List.sum_cons, List.map_cons, List.sum_cons, Nat.cast_add, ih fun t h => hl t (by simp [h]), Nat.cast_sub (hint t (hl t (by simp))).1]
  have hfl : P.first ≤ P.last := by
    obtain ⟨t, h⟩ := List.exists_mem_of_ne_nil _ hne
    have h1 := hlim t h
    have h2 := hint t h
    simp only [recOf] at h1
    omega
  refine ⟨?_, ?_, ?_, ?_⟩
  · rw [List.pairwise_map]
    refine List.Pairwise.imp_of_mem ?_ (hnd.filter _)
    intro s t hs ht' hst'
    have h1 := hint s (List.mem_filter.1 hs).1
    have h2 := hint t (List.mem_filter.1 ht').1
    have := hdis s hs t ht' hst'
    simp only [recOf]
    omega
  · rw [← hcast _ fun t h => (List.mem_filter.1 h).1, ← Nat.cast_sub hfl]
    unfold load
    rw [List.map_map]
    have hs' : ((ids.filter fun t => x.s.tqid t = th).map fun t => x.toc t - x.tic t).sum ≤ P.last - P.first := hs
    by_cases h0 : P.last - P.first = 0
    · rw [h0] at hs' ⊢
      rw [Nat.le_zero.1 hs']
      simp
    · rw [div_mul_cancel₀ _ (by exact_mod_cast h0)]
      rfl
  · unfold load; positivity
  · unfold load
    refine div_le_one_of_le₀ ?_ (by positivity)
    rw [Nat.cast_le, List.map_map]
    exact hs

end run

/-! ## colours -/

/-- C112: up to 20 types have different colours -/
theorem c112_colours (n i j : Nat) (hn : n ≤ 20) (hij : i < j) (hj : j < n) : colour n i ≠ colour n j := by
  have : ∀ n ≤ 20, ∀ j < n, ∀ i < j, colour n i ≠ colour n j := by decide +kernel
  exact this n hn j hj i hij

/-- Violation: of more than 20 types, two have the same colour -/
theorem c112_colours_violation (n : Nat) (hn : 20 < n) : ∃ i j, i < j ∧ j < n ∧ colour n i = colour n j := by
  obtain ⟨i, hi, j, hj, hij, h⟩ := Finset.exists_ne_map_eq_of_card_lt_of_maps_to (s := Finset.range n) (t := Finset.range 20) (by simpa using hn)
    (f := colour n) (fun i _ => by
      unfold colour
      simp only [Finset.coe_range, Set.mem_Iio]
      split <;> omega)
  rw [Finset.mem_range] at hi hj
  rcases Nat.lt_or_gt_of_ne hij with h' | h'
  · exact ⟨i, j, h', hj, h⟩
  · exact ⟨j, i, h', hi, h.symm⟩

/-! ## violations -/

/-- Violation: with a version of numpy that insists on the number of columns, there is no plot of any task log -/
theorem c112_columns_violation (rec : Nat → Nat × Nat × Nat × Nat) (ids : List Nat) (typeText : Str) : plot true typeText (taskLog rec ids) = none := by
  unfold plot
  rw [task_rows]
  cases ids with
  | nil =>
    simp only [List.map_nil, convert]
    split <;> simp_all
  | cons i ids =>
    have : convert (taskRecord true) ((i :: ids).map fun i => [showNat (rec i).1, showNat (rec i).2.1, showNat (rec i).2.2.1, showNat (rec i).2.2.2, showNat i]) = none := by
      rw [List.map_cons, convert]
      simp [taskRecord]
    rw [this]
    split <;> simp_all

/-- Violation: the name of a class with 99 characters lacks the last one -/
theorem c112_name_violation (name : Str) (h : name.length = 99) : trim ((mangled name).take 100) = name.dropLast := by
  have h2 := (TaskGraph.showNat_length (n := name.length) (by omega)).2.1 (by omega) (by omega)
  unfold mangled
  rw [List.take_append, h2, List.take_of_length_le (by omega), trim, if_pos (by rw [List.length_append, List.length_take]; omega), List.drop_left' h2,
    List.dropLast_eq_take, h]

/-! ## examples -/

theorem exTypes : Types [(mangled "AlphaTask".toList, 1), (mangled "BetaTask".toList, 0)] 2 where
  numbers := List.Perm.swap _ _ _
  few := by norm_num
  names := by
    intro e he
    simp only [List.mem_cons, List.not_mem_nil, or_false] at he
    rcases he with rfl | rfl
    · exact ⟨"AlphaTask".toList, ⟨by simp, by simp, by decide⟩, by simp, by decide, rfl⟩
    · exact ⟨"BetaTask".toList, ⟨by simp, by simp, by decide⟩, by simp, by decide, rfl⟩

/-- a log with two tasks on two threads -/
example : ∃ P, plot false (typeLog [(mangled "AlphaTask".toList, 1), (mangled "BetaTask".toList, 0)])
      (taskLog (fun t => if t = 0 then (0, 100, 250, 1) else (1, 120, 180, 0)) [0, 1]) = some P ∧
    P.legend[1]? = some "AlphaTask".toList ∧ P.threads[1]?.getD [] = [⟨120, 60, 0⟩] := by
  obtain ⟨P, h, ht, -, -, hl, -⟩ := c112_plot (rec := fun t => if t = 0 then (0, 100, 250, 1) else (1, 120, 180, 0)) (ids := [0, 1]) (n := 2)
    ⟨by simp, by simp, by simp, by simp⟩ exTypes
  refine ⟨P, h, hl _ _ ⟨by simp, by simp, by decide⟩ (by simp), ?_⟩
  rw [ht]
  simp

open Verif.Sched Verif.Times in
/-- the plot of a complete run of the example of `Verif.Properties.Times` -/
example : ∃ x, TReach exC exX x ∧ (x.now < 2 ^ 64 → ∃ P, plot false (typeLog [(mangled "AlphaTask".toList, 1), (mangled "BetaTask".toList, 0)])
      (taskLog (recOf x fun _ => 1) [0, 1, 2]) = some P ∧ ∀ (th : Nat) bars, P.threads[th]? = some bars → load P bars ≤ 1) := by
  obtain ⟨s, hr, h1, h2⟩ := c01_reaches_end exC_wf exC_noself exC_acyclic (by decide) exS_prepared .refl
  obtain ⟨x, hx, rfl⟩ := c106_untimed (fun n => n % 7 + 1) hr exX rfl
  refine ⟨x, hx, fun hnow => ?_⟩
  obtain ⟨P, hP, h⟩ := c112_load exC_wf exX_prepared hx (by decide) (by decide) hnow [0, 1, 2] (by simp) (by simp) (fun t ht => by
    rw [(h2 t (by simp at ht; rcases ht with rfl | rfl | rfl <;> decide)).2]; decide) (fun _ => 1) _ 2 exTypes (by simp)
  exact ⟨P, hP, fun th b hb => (h th b hb).2.2.2⟩

end Verif.TaskPlot
